import Verif.Lemmas.RespWire
import Verif.Props.Caching
import Verif.Props.Hop
/-!
# C133: what goes over the connection is one well-formed response
-/
namespace J8a
open Go

variable {K : Type}

theorem status_valid {x : Setup K} {s : St} (h : x.Reaches s) {y : Sent} (hy : y ∈ s.sent) :
    100 ≤ y.status ∧ y.status ≤ 999 := by
  obtain ⟨as, h⟩ := h
  have := run_invariant (P := fun s : St => ∀ y ∈ s.sent, validStatus y.status = true)
    (fun s a s' hi hs => ?_) (s := initial x.dec) (by cases x.dec <;> simp [initial]) h y hy
  · simpa [validStatus] using this
  · rcases step_cases' hs with hf | ⟨c, rfl, hm⟩
    · rw [hf.sent]; exact hi
    · main_cases s hm hpc <;> (first
        | exact hi
        | (intro y hy; rw [List.mem_append, List.mem_singleton] at hy; rcases hy with hy | rfl
           · exact hi y hy
           · assumption))

/-- The names that the gateway sets itself. -/
def gatewayNames : List Str :=
  ["Server", "Strict-Transport-Security", "X-Request-Id", "Content-Length", "Content-Encoding",
    "Content-Type"].map String.toList

theorem mem_under {src : Entries} {k v : Str} (h : v ∈ src.under k) : ∃ p ∈ src, canon p.1 = k ∧ v ∈ p.2 := by
  obtain ⟨p, hp, hv⟩ := List.mem_flatMap.1 h
  obtain ⟨h1, h2⟩ := List.mem_filter.1 hp
  exact ⟨p, h1, beq_iff_eq.1 h2, hv⟩

/-- Where a header of a response comes from. -/
theorem header_from {x : Setup K} {s : St} (h : x.Reaches s) {y : Sent} (hy : y ∈ s.sent) {k v : Str}
    (hv : v ∈ y.header k) : k ∈ gatewayNames ∨
      (shouldProxyHeader k = true ∧ ∃ r, Recv s r ∧ ∃ p ∈ r.header, canon p.1 = k ∧ v ∈ p.2) := by
  by_cases hg : k ∈ gatewayNames
  · exact .inl hg
  right
  have hne : ∀ n ∈ gatewayNames, k ≠ n := fun n hn he => hg (he ▸ hn)
  have hstd : writeStandardResponseHeaders x.respEnv Hdr.empty k = [] :=
    std_other _ _ (hne _ (by decide)) (hne _ (by decide)) (hne _ (by decide))
  by_cases hn : y.header "Content-Length".toList = []
  · obtain ⟨code, msg, rfl⟩ := (own_iff h hy).1 hn
    rw [json_header, if_neg (hne _ (by decide)), hstd] at hv
    cases hv
  · obtain ⟨r, hr, hf⟩ := (proxied_parts h hy hn).1
    rw [hf k (not_mem_pair (hne _ (by decide)) (hne _ (by decide))), hstd, List.nil_append] at hv
    split at hv
    · rename_i hp
      exact ⟨hp, r, hr, mem_under hv⟩
    · cases hv

theorem names_canon {x : Setup K} {s : St} (h : x.Reaches s) {y : Sent} (hy : y ∈ s.sent) {keys : List Str}
    (he : Enumerates keys y.header) : ∀ k ∈ keys, canon k = k := by
  intro k hk
  obtain ⟨v, hv⟩ := List.exists_mem_of_ne_nil _ ((he.2 k).1 hk)
  rcases header_from h hy hv with hg | ⟨-, r, -, p, -, hp, -⟩
  · have : ∀ k ∈ gatewayNames, canon k = k := by decide
    exact this k hg
  · rw [← hp]; exact canon_idem _

theorem framed {x : Setup K} {s : St} (h : x.Reaches s) {y : Sent} (hy : y ∈ s.sent)
    (hm : toUpper x.rq.method = "HEAD".toList → x.rq.method = "HEAD".toList) : Framed x.rq.method y := by
  refine ⟨C86_response_partial x s h y hy, fun hn => ?_⟩
  rcases length_of_reaches h hy with ⟨code, msg, rfl⟩ | ⟨-, ⟨-, hz⟩ | ⟨-, hb⟩⟩
  · exact .inl (json_cl _ _ _)
  · exact .inr (.inl hz)
  · exact .inr (.inr (hb fun h => hn (hm h)))

/-- The gateway does not open a tunnel by itself: its own answers to CONNECT are not 2xx. That is so for every
request that is forwarded without late writes (`own_refuses`). -/
def OwnRefuses (x : Setup K) (y : Sent) : Prop :=
  x.rq.method = "CONNECT".toList → y.header "Content-Length".toList = [] → ¬ (200 ≤ y.status ∧ y.status < 300)

theorem tunnel_empty {x : Setup K} {s : St} (h : x.Reaches s) {y : Sent} (hy : y ∈ s.sent) (hown : OwnRefuses x y) :
    TunnelEmpty x.rq.method y := by
  intro hm h2 h3
  rcases length_of_reaches h hy with ⟨code, msg, e⟩ | ⟨-, ⟨-, hz⟩ | ⟨hn, -⟩⟩
  · exact absurd ⟨h2, h3⟩ (hown hm (by rw [e]; exact json_cl _ _ _))
  · exact hz
  · refine absurd (.inr (.inr ?_)) hn
    show toUpper x.rq.method = _
    rw [hm]
    decide

/-- A value without control characters but tabs and the two that are made spaces. -/
def Printable (v : Str) : Prop :=
  ∀ c ∈ v, c = '\t' ∨ c = '\r' ∨ c = '\n' ∨ (0x20 ≤ c.toNat ∧ c.toNat ≠ 0x7f)

theorem dropped_or_kept {p : Char → Bool} {c : Char} : ∀ {s : Str}, c ∈ s → p c = true ∨ c ∈ s.dropWhile p
  | d :: s, h => by
    by_cases hd : p d = true
    · rcases List.mem_cons.1 h with rfl | h
      · exact .inl hd
      · rw [List.dropWhile_cons, if_pos hd]
        exact dropped_or_kept h
    · rw [List.dropWhile_cons, if_neg hd]
      exact .inr h

theorem mem_trim {s : Str} {c : Char} (h : c ∈ s) : isASCIISpace c = true ∨ c ∈ trimString s := by
  unfold trimString
  rcases dropped_or_kept (p := isASCIISpace) h with h | h
  · exact .inl h
  · rcases dropped_or_kept (p := isASCIISpace) (List.mem_reverse.2 h) with h | h
    · exact .inl h
    · exact .inr (List.mem_reverse.2 h)

theorem printable_iff {v : Str} : FieldText (trimString (newlineToSpace v)) ↔ Printable v := by
  constructor
  · intro h c hc
    by_cases h1 : c = '\r'
    · exact .inr (.inl h1)
    by_cases h2 : c = '\n'
    · exact .inr (.inr (.inl h2))
    have hm : c ∈ newlineToSpace v := List.mem_map.2 ⟨c, hc, by rw [if_neg]; simp [h1, h2]⟩
    rcases mem_trim hm with hs | hs
    · simp only [isASCIISpace, h1, h2, decide_false, Bool.or_false, Bool.or_eq_true, decide_eq_true_eq] at hs
      rcases hs with rfl | rfl
      · exact .inr (.inr (.inr (by decide)))
      · exact .inl rfl
    · rcases h c hs with h | h
      · exact .inl h
      · exact .inr (.inr (.inr h))
  · intro h c hc
    obtain ⟨d, hd, he⟩ := List.mem_map.1 (mem_trimString hc)
    split at he
    · rw [← he]; exact .inr (by decide)
    · rename_i hn
      rw [not_or] at hn
      subst he
      rcases h d hd with h | h | h | h
      · exact .inl h
      · exact absurd h hn.2
      · exact absurd h hn.1
      · exact .inr h

theorem valid_of_token {s : Str} (h : Token s) : validFieldName s = true := by
  simp only [validFieldName, Bool.and_eq_true, decide_eq_true_eq]
  refine ⟨h.1, List.all_eq_true.2 fun c hc => ?_⟩
  have h1 := h.2 c hc
  have : ∀ c ∈ tchars, isTokenChar c = true := by decide
  exact this c h1

/-- What is known of the connection: it is that of the request, and the date and the type the library finds are
text. -/
structure ConnOf (x : Setup K) (c : ReplyConn) : Prop where
  method : c.method = x.rq.method
  text : c.Text

/-- The names of headers of received responses end at a colon and stand in one line. -/
def NamesCut (s : St) : Prop := ∀ r, Recv s r → ∀ p ∈ r.header, ':' ∉ p.1 ∧ '\n' ∉ p.1

theorem not_mem_canon {z : Char} (hz : z.toLower = z) (key : ∀ k : Fin 26, (Char.ofNat (65 + k.1)).toLower ≠ z)
    {k : Str} (h : z ∉ k) : z ∉ canon k := by
  intro hm
  have h1 : z ∈ toLower (canon k) := List.mem_map.2 ⟨z, hm, hz⟩
  rw [toLower_canon] at h1
  obtain ⟨c, hc, he⟩ := List.mem_map.1 h1
  have : c = z := by
    by_cases hu : c.val ≥ 'A'.val ∧ c.val ≤ 'Z'.val
    · have h1 : 65 ≤ c.toNat := hu.1
      have h2 : c.toNat ≤ 90 := hu.2
      have hk := key ⟨c.toNat - 65, by omega⟩
      simp only [Nat.add_sub_cancel' h1, Char.ofNat_toNat] at hk
      exact absurd he hk
    · unfold Char.toLower at he
      rw [dif_neg hu] at he
      exact he
  exact h (this ▸ hc)

theorem fields_cut {x : Setup K} {s : St} (h : x.Reaches s) {y : Sent} (hy : y ∈ s.sent) (hcut : NamesCut s)
    {c : ReplyConn} (hc : c.Text) {keys : List Str} (he : Enumerates keys y.header) :
    ∀ f ∈ responseFields c keys y, ':' ∉ f.1 ∧ '\n' ∉ f.1 ∧ '\r' ∉ f.2 := by
  intro f hf
  rcases responseFields_from hf with hx | ⟨hk, -, v, hv, hv2⟩
  · obtain ⟨h1, -, h2⟩ := extra_ok hc hx
    have h1 := token_of_valid h1
    refine ⟨fun hm => absurd (h1.2 _ hm) (by decide), fun hm => absurd (h1.2 _ hm) (by decide), text_no_cr h2⟩
  · refine ⟨?_, ?_, ?_⟩
    · rcases header_from h hy hv with hg | ⟨-, r, hr, p, hp, hpk, -⟩
      · have : ∀ k ∈ gatewayNames, ':' ∉ k := by decide
        exact this _ hg
      · rw [← hpk]; exact not_mem_canon (by decide) (by decide) (hcut r hr p hp).1
    · rcases header_from h hy hv with hg | ⟨-, r, hr, p, hp, hpk, -⟩
      · have : ∀ k ∈ gatewayNames, '\n' ∉ k := by decide
        exact this _ hg
      · rw [← hpk]; exact not_mem_canon (by decide) (by decide) (hcut r hr p hp).2
    · rw [hv2]
      exact fun hm => (newline_no_cr v).1 (mem_trimString hm)

theorem handed_delivered {c : ReplyConn} {y : Sent} :
    (if c.method = "HEAD".toList then [] else bodyText (handedOver y)) = bodyText (deliveredBody c.method y) := by
  unfold deliveredBody
  by_cases hm : c.method = "HEAD".toList
  · rw [if_pos hm, if_pos (.inl hm)]; rfl
  rw [if_neg hm]
  congr 1
  unfold handedOver
  by_cases hb : bodyAllowed y.status = true
  · have hn : ¬ (c.method = "HEAD".toList ∨ (100 ≤ y.status ∧ y.status < 200) ∨ y.status = 204 ∨ y.status = 304) := by
      simp only [bodyAllowed, Bool.and_eq_true, Bool.not_eq_true', Bool.and_eq_false_iff, decide_eq_false_iff_not,
        decide_eq_true_eq] at hb
      rintro (h | h | h | h)
      · exact hm h
      · rcases hb.1.1 with h' | h' <;> omega
      · exact hb.1.2 h
      · exact hb.2 h
    rw [if_pos hb, if_neg hn]
    unfold declaredLength
    by_cases hz : y.header.get "Content-Length".toList = []
    · rw [if_pos hz, hz, show atoi [] = none by decide]
    · rw [if_neg hz]
      cases atoi (y.header.get "Content-Length".toList) with
      | none => rfl
      | some n =>
        dsimp only
        by_cases h0 : 0 ≤ n
        · rw [if_pos h0]
          dsimp only
          by_cases hl : n.toNat < y.body.length
          · rw [if_pos hl, if_pos ⟨h0, by omega⟩]
          · rw [if_neg hl, if_neg (fun h => hl (by omega))]
        · rw [if_neg h0, if_neg (fun h => h0 h.1)]
  · have hp : c.method = "HEAD".toList ∨ (100 ≤ y.status ∧ y.status < 200) ∨ y.status = 204 ∨ y.status = 304 := by
      by_cases h1 : 100 ≤ y.status ∧ y.status < 200
      · exact .inr (.inl h1)
      by_cases h2 : y.status = 204
      · exact .inr (.inr (.inl h2))
      by_cases h3 : y.status = 304
      · exact .inr (.inr (.inr h3))
      exfalso
      apply hb
      simp only [bodyAllowed, Bool.and_eq_true, Bool.not_eq_true', Bool.and_eq_false_iff, decide_eq_false_iff_not,
        decide_eq_true_eq]
      refine ⟨⟨?_, h2⟩, h3⟩
      by_cases h : 100 ≤ y.status
      · exact .inr (by omega)
      · exact .inl h
    rw [if_neg hb, if_pos hp]

/-- C133, exactly: what the client gets is a response if and only if every header that is written has a name that is a
token and a value of printable characters. Nothing else of what an upstream sends can make it unreadable, whatever the
schedule. -/
theorem C133_exact (x : Setup K) (s : St) (h : x.Reaches s) (y : Sent) (hy : y ∈ s.sent) (hcut : NamesCut s)
    (hm : toUpper x.rq.method = "HEAD".toList → x.rq.method = "HEAD".toList)
    (hcon : OwnRefuses x y) (c : ReplyConn) (hc : ConnOf x c) (keys : List Str)
    (he : Enumerates keys y.header) (more : Str) :
    (∃ m rest, ReadsResponse x.rq.method (writeResponse c keys y ++ more) m rest) ↔
      ∀ k, k ∉ respExclude c y → ∀ v ∈ y.header k, Token k ∧ Printable v := by
  obtain ⟨s1, s2⟩ := status_valid h hy
  constructor
  · rintro ⟨m, rest, hr⟩ k hk v hv
    have hkeys : k ∈ keys := (he.2 k).2 (List.ne_nil_of_mem hv)
    obtain ⟨h1, h2⟩ := response_forced s1 s2 (fields_cut h hy hcut hc.text he) hr _ (responseFields_mem hkeys hk hv)
    exact ⟨h1, printable_iff.1 h2⟩
  · intro hok
    have hm' := hc.method
    rw [← hm']
    have key : ∃ body rest, ReadsResponse c.method (writeResponse c keys y ++ more)
        { sentResponse c keys y with body := body } rest := by
      refine something_reads he hc.text (names_canon h hy he) (hm' ▸ framed h hy hm) ?_ s1 s2 (hm' ▸ tunnel_empty h hy hcon) more
      intro f hf
      rcases responseFields_from hf with hx | ⟨hk, hx, v, hv, hv2⟩
      · have := extra_ok hc.text hx
        exact ⟨this.1, this.2.2⟩
      · obtain ⟨h1, h2⟩ := hok _ hx v hv
        exact ⟨valid_of_token h1, by rw [hv2]; exact printable_iff.2 h2⟩
    obtain ⟨body, rest, hr⟩ := key
    exact ⟨_, rest, hr⟩

/-- The names that the library adds or leaves out. -/
def libraryNames : List Str :=
  ["Date", "Content-Type", "Connection", "Content-Length", "Transfer-Encoding"].map String.toList

theorem trim_text {v : Str} (h : FieldText v) : trimOws (trimString (newlineToSpace v)) = trimOws v := by
  rw [newline_id h, trim_eq h, trimOws_idem]

/-- The client reads this response and can read nothing else: it has the status and the body that were meant for it,
and the headers, up to those that the library sets. Whatever follows on the connection is not taken for a part of it,
except that nothing may follow a body that ends with the connection. -/
structure ReadAs (x : Setup K) (bytes : Str) (y : Sent) (m : HttpResponse) : Prop where
  status : (m.status : Int) = y.status
  body : m.body = bodyText (deliveredBody x.rq.method y)
  fields : ∀ k, k.all isTokenChar = true → canon k ∉ libraryNames →
    fieldValues m.fields (toLower k) = (y.header (canon k)).map trimOws
  kind : y.header "Content-Type".toList ≠ [] → y.status ≠ 304 →
    fieldValues m.fields "content-type".toList = (y.header "Content-Type".toList).map trimOws
  names : ∀ f ∈ m.fields, Token f.1
  only : ∀ more, (UntilEnd x.rq.method m → more = []) → ReadsResponse x.rq.method (bytes ++ more) m more ∧
    ∀ m' rest, ReadsResponse x.rq.method (bytes ++ more) m' rest → m' = m ∧ rest = more

/-- C133, part: if all headers that the gateway hands over have tokens for names and text for values, the client reads
one response, the one that was meant for it. For every schedule. -/
theorem C133_read_partial (x : Setup K) (s : St) (h : x.Reaches s) (y : Sent) (hy : y ∈ s.sent)
    (hm : toUpper x.rq.method = "HEAD".toList → x.rq.method = "HEAD".toList)
    (hcon : OwnRefuses x y) (c : ReplyConn) (hc : ConnOf x c) (keys : List Str)
    (he : Enumerates keys y.header) (hok : ∀ k, ∀ v ∈ y.header k, Token k ∧ FieldText v) :
    ∃ m, ReadAs x (writeResponse c keys y) y m := by
  obtain ⟨s1, s2⟩ := status_valid h hy
  have hm' := hc.method
  have hfo : ∀ f ∈ responseFields c keys y, validFieldName f.1 = true ∧ FieldText f.2 := by
    intro f hf
    rcases responseFields_from hf with hx | ⟨hk, hx, v, hv, hv2⟩
    · have := extra_ok hc.text hx
      exact ⟨this.1, this.2.2⟩
    · obtain ⟨h1, h2⟩ := hok _ v hv
      refine ⟨valid_of_token h1, ?_⟩
      rw [hv2]
      refine printable_iff.2 fun d hd => ?_
      rcases h2 d hd with h | h
      · exact .inl h
      · exact .inr (.inr (.inr h))
  refine ⟨sentResponse c keys y, ?_, ?_, ?_, ?_, ?_, ?_⟩
  · show ((y.status.toNat : Nat) : Int) = y.status
    omega
  · rw [← hm', ← handed_delivered]
    rfl
  · intro k hk hl
    rw [sentResponse_values he hc.text (names_canon h hy he) (fun f hf => (hfo f hf).1) k hk]
    generalize canon k = k' at hl
    have hne : ∀ n ∈ libraryNames, n ≠ k' := fun n hn e => hl (e ▸ hn)
    unfold respValues
    rw [extra_values]
    rw [if_neg (c := "Date".toList = _ ∧ _) (fun h => hne _ (by decide) h.1),
      if_neg (c := "Content-Length".toList = _) (hne _ (by decide)),
      if_neg (c := "Content-Type".toList = _ ∧ _) (fun h => hne _ (by decide) h.1),
      if_neg (c := "Connection".toList = _) (hne _ (by decide)),
      if_neg (c := "Transfer-Encoding".toList = _ ∧ _) (fun h => hne _ (by decide) h.1)]
    have hx : k' ∉ respExclude c y := by
      intro hx
      rcases exclude_names hx with h | h | h | h
      · exact hne _ (by decide) h.symm
      · exact hne _ (by decide) h.symm
      · exact hne _ (by decide) h.symm
      · exact hne _ (by decide) h.1.symm
    rw [if_neg hx]
    simp only [List.append_nil, List.map_map]
    apply List.map_congr_left
    intro v hv
    exact trim_text (hok k' v hv).2
  · intro hne h304
    have hct := sentResponse_values he hc.text (names_canon h hy he) (fun f hf => (hfo f hf).1) "Content-Type".toList
      (by decide)
    rw [show toLower "Content-Type".toList = "content-type".toList by decide,
      show canon "Content-Type".toList = "Content-Type".toList by decide] at hct
    rw [hct]
    unfold respValues
    rw [extra_values]
    rw [if_neg (c := "Date".toList = _ ∧ _) (fun h => absurd h.1 (by decide)),
      if_neg (c := "Content-Length".toList = _) (by decide),
      if_neg (c := "Content-Type".toList = _ ∧ _) (fun h => hne h.2.2.2.1),
      if_neg (c := "Connection".toList = _) (by decide),
      if_neg (c := "Transfer-Encoding".toList = _ ∧ _) (fun h => absurd h.1 (by decide))]
    have hx : "Content-Type".toList ∉ respExclude c y := by
      intro hx
      rcases exclude_names hx with h | h | h | h
      · exact absurd h (by decide)
      · exact absurd h (by decide)
      · exact absurd h (by decide)
      · exact h304 h.2
    rw [if_neg hx]
    simp only [List.append_nil, List.map_map]
    apply List.map_congr_left
    intro v hv
    exact trim_text (hok _ v hv).2
  · intro f hf
    obtain ⟨g, hg, rfl⟩ := List.mem_map.1 hf
    exact token_of_valid (hfo g hg).1
  · intro more hmore
    have hr := sentResponse_reads he hc.text (names_canon h hy he) (hm' ▸ framed h hy hm) hfo s1 s2 (hm' ▸ tunnel_empty h hy hcon) more
      (hm' ▸ hmore)
    rw [hm'] at hr
    exact ⟨hr, fun m' rest hr' => ReadsResponse.unique hr' hr⟩

theorem std_text {e : RespEnv} (h1 : FieldText e.server) (h2 : FieldText e.xrid) {k v : Str}
    (hv : v ∈ writeStandardResponseHeaders e Hdr.empty k) : Token k ∧ FieldText v := by
  by_cases k1 : k = "Server".toList
  · subst k1
    rw [std_server, List.mem_singleton] at hv
    exact ⟨token_of_valid (by decide), hv ▸ h1⟩
  by_cases k2 : k = "Strict-Transport-Security".toList
  · subst k2
    rw [std_sts] at hv
    split at hv
    · rw [List.mem_singleton] at hv
      exact ⟨token_of_valid (by decide), hv ▸ fieldText_lit (by decide)⟩
    · cases hv
  by_cases k3 : k = xRequestID
  · subst k3
    rw [std_xrid, List.mem_singleton] at hv
    exact ⟨token_of_valid (by decide), hv ▸ h2⟩
  rw [std_other _ _ k1 k2 k3] at hv
  cases hv

theorem FieldText.append {a b : Str} (ha : FieldText a) (hb : FieldText b) : FieldText (a ++ b) := by
  intro c hc
  rcases List.mem_append.1 hc with h | h
  · exact ha c h
  · exact hb c h

theorem join_text : ∀ {l : List Str}, (∀ v ∈ l, FieldText v) → FieldText (join [' '] l)
  | [], _ => by intro c hc; simp [join] at hc
  | [a], h => by simpa [join] using h a (by simp)
  | a :: b :: l, h => by
    rw [join.eq_3 _ _ _ (by simp)]
    refine ((h a (by simp)).append (fieldText_lit (s := [' ']) (by decide))).append ?_
    exact join_text fun v hv => h v (List.mem_cons_of_mem _ hv)

/-- The identity of the gateway and the identity of the request are text. -/
structure TextIds (x : Setup K) : Prop where
  id : FieldText x.sv.id
  version : FieldText x.sv.version
  xrid : FieldText x.xrid

theorem TextIds.server {x : Setup K} (h : TextIds x) : FieldText x.respEnv.server :=
  (((fieldText_lit (s := "j8a ".toList) (by decide)).append h.version).append
    (fieldText_lit (s := " ".toList) (by decide))).append h.id

/-- C133, part: a response that the gateway makes itself is always read as it was meant, for every schedule. -/
theorem C133_own_partial (x : Setup K) (s : St) (h : x.Reaches s) (y : Sent) (hy : y ∈ s.sent)
    (ho : y.header "Content-Length".toList = []) (hi : TextIds x)
    (hm : toUpper x.rq.method = "HEAD".toList → x.rq.method = "HEAD".toList)
    (hcon : OwnRefuses x y) (c : ReplyConn) (hc : ConnOf x c) (keys : List Str)
    (he : Enumerates keys y.header) : ∃ m, ReadAs x (writeResponse c keys y) y m := by
  refine C133_read_partial x s h y hy hm hcon c hc keys he fun k v hv => ?_
  obtain ⟨code, msg, rfl⟩ := (own_iff h hy).1 ho
  rw [json_header] at hv
  split at hv
  · rename_i hk
    rw [List.mem_singleton] at hv
    rw [hk, hv]
    exact ⟨token_of_valid (by decide), fieldText_lit (by decide)⟩
  · exact std_text hi.server hi.xrid hv

/-- Names that are tokens, values that are text. -/
def UpResp.Clean (r : UpResp) : Prop := ∀ p ∈ r.header, Token p.1 ∧ ∀ v ∈ p.2, FieldText v

theorem canon_token {k : Str} (h : Token k) : Token (canon k) := by
  have h1 := valid_of_token h
  simp only [validFieldName, Bool.and_eq_true, decide_eq_true_eq] at h1
  refine ⟨fun he => h.1 ?_, fun c hc => ?_⟩
  · have := congrArg toLower he
    rw [toLower_canon] at this
    exact List.map_eq_nil_iff.1 this
  · unfold canon at hc
    rw [if_pos h1.2] at hc
    have key : ∀ {s : Str} {b : Bool}, (∀ d ∈ s, d ∈ tchars) → ∀ c ∈ canonGo b s, c ∈ tchars := by
      intro s
      induction s with
      | nil => intro b _ c hc; simp [canonGo] at hc
      | cons d s ih =>
        intro b hd c hc
        unfold canonGo at hc
        rcases List.mem_cons.1 hc with rfl | hc
        · have : ∀ d ∈ tchars, d.toUpper ∈ tchars ∧ d.toLower ∈ tchars := by decide
          have := this d (hd d (by simp))
          split
          · exact this.1
          · exact this.2
        · exact ih (fun d h => hd d (List.mem_cons_of_mem _ h)) c hc
    exact key h.2 c hc

theorem values_mem {src : Entries} {k v : Str} (h : v ∈ src.values k) : ∃ p ∈ src, v ∈ p.2 := by
  unfold Entries.values at h
  cases hl : src.lookup k with
  | none => rw [hl] at h; cases h
  | some vs =>
    rw [hl] at h
    simp only [Option.getD_some] at h
    refine ⟨(k, vs), ?_, h⟩
    induction src with
    | nil => simp at hl
    | cons p src ih =>
      rw [List.lookup_cons] at hl
      split at hl
      · rename_i hb
        obtain rfl := Option.some.inj hl
        have := beq_iff_eq.1 hb
        rw [this]
        exact List.mem_cons_self
      · exact List.mem_cons_of_mem _ (ih hl)

theorem get_mem {src : Entries} {k : Str} (h : src.get k ≠ []) : ∃ p ∈ src, src.get k ∈ p.2 := by
  apply values_mem (k := canon k)
  unfold Entries.get at h ⊢
  cases hl : src.values (canon k) with
  | nil => rw [hl] at h; exact absurd rfl h
  | cons v vs => simp

/-- What is proxied of a clean response is clean. -/
theorem proxied_clean {x : Setup K} (hi : TextIds x) {r : UpResp} (hr : r.Clean) {k v : Str}
    (hv : v ∈ (proxiedResponse x.respEnv r).header k) : Token k ∧ FieldText v := by
  by_cases h1 : k = "Content-Length".toList
  · subst h1
    rw [proxied_length, List.mem_singleton] at hv
    refine ⟨token_of_valid (by decide), ?_⟩
    rw [hv]
    unfold lengthValue
    split
    · exact fieldText_lit (by decide)
    · split
      · split
        · rename_i hc
          obtain ⟨p, hp, hm⟩ := get_mem (src := r.header) (k := "Content-Length".toList)
            (fun h => by rw [h] at hc; simp at hc)
          exact (hr p hp).2 _ hm
        · exact fieldText_lit (by decide)
      · exact digits_text _
  by_cases h2 : k = "Content-Encoding".toList
  · subst h2
    rw [proxied_encoding] at hv
    refine ⟨token_of_valid (by decide), ?_⟩
    split at hv
    · rw [List.mem_singleton] at hv
      rw [hv]
      unfold contentEncoding
      split
      · exact fieldText_lit (by decide)
      · split
        · dsimp only
          split
          · exact join_text fun w hw => by
              obtain ⟨p, hp, hm⟩ := values_mem hw
              exact (hr p hp).2 _ hm
          · exact fieldText_lit (by decide)
        · exact fieldText_lit (by decide)
    · obtain ⟨p, hp, -, hm⟩ := mem_under hv
      exact (hr p hp).2 _ hm
  rw [proxied_header _ _ _ h1 h2] at hv
  rcases List.mem_append.1 hv with hv | hv
  · exact std_text hi.server hi.xrid hv
  · split at hv
    · obtain ⟨p, hp, rfl, hm⟩ := mem_under hv
      exact ⟨canon_token (hr p hp).1, (hr p hp).2 _ hm⟩
    · cases hv

theorem own_refuses {x : Setup K} {s : St} (h : x.ReachesOrderly s) {r : Route} {u : URL} {l : Str}
    (hd : x.dec = .forward r u l) (hf : s.pc = .done) {y : Sent} (hy : y ∈ s.sent) : OwnRefuses x y := by
  intro _ hn
  obtain ⟨y', hy', ha⟩ := C50_answer_partial x s h hd hf
  rw [hy', List.mem_singleton] at hy
  subst hy
  rintro ⟨-, h3⟩
  cases ha with
  | proxied v h1 h2 =>
    rw [proxied_length] at hn
    cases hn
  | client v h1 h2 => have : v.status < 300 := h3; omega
  | dwn => exact absurd h3 (show ¬ (504 : Int) < 300 by decide)
  | up => exact absurd h3 (show ¬ (504 : Int) < 300 by decide)
  | bad => exact absurd h3 (show ¬ (502 : Int) < 300 by decide)

/-- C133, part: without late writes, if the response of the upstream is clean, the client reads one response, the one
that was meant for it. -/
theorem C133_clean_partial (x : Setup K) (s : St) (h : x.ReachesOrderly s) {r : Route} {u : URL} {l : Str}
    (hd : x.dec = .forward r u l) (hf : s.pc = .done) (y : Sent) (hy : y ∈ s.sent) (hi : TextIds x)
    (hcl : ∀ v, s.curA.vResp = some v → v.Clean)
    (hm : toUpper x.rq.method = "HEAD".toList → x.rq.method = "HEAD".toList)
    (c : ReplyConn) (hc : ConnOf x c) (keys : List Str)
    (he : Enumerates keys y.header) : ∃ m, ReadAs x (writeResponse c keys y) y m := by
  have hr : x.Reaches s := h.imp fun _ h => h.1
  have hcon := own_refuses h hd hf hy
  by_cases ho : y.header "Content-Length".toList = []
  · exact C133_own_partial x s hr y hy ho hi hm hcon c hc keys he
  · refine C133_read_partial x s hr y hy hm hcon c hc keys he fun k v hv => ?_
    obtain ⟨y', hy', ha⟩ := C50_answer_partial x s h hd hf
    rw [hy', List.mem_singleton] at hy
    subst hy
    cases ha with
    | proxied v h1 h2 => exact proxied_clean hi (hcl v h1.1.2.1) hv
    | client => exact absurd (json_cl _ _ _) ho
    | dwn => exact absurd (json_cl _ _ _) ho
    | up => exact absurd (json_cl _ _ _) ho
    | bad => exact absurd (json_cl _ _ _) ho

theorem under_of_mem {src : Entries} {p : Str × List Str} {v : Str} (hp : p ∈ src) (hv : v ∈ p.2) :
    v ∈ src.under (canon p.1) :=
  List.mem_flatMap.2 ⟨p, List.mem_filter.2 ⟨hp, by simp⟩, hv⟩

/-- C133 fails for every response of an upstream that is passed on with a header whose name is not a token (and not
among the dropped ones): what the client gets is not a response. -/
theorem C133_violated_always (x : Setup K) (s : St) (h : x.ReachesOrderly s) {r : Route} {u : URL} {l : Str}
    (hd : x.dec = .forward r u l) (hf : s.pc = .done) (y : Sent) (hy : y ∈ s.sent) (hcut : NamesCut s)
    (ho : y.header "Content-Length".toList ≠ []) (v : UpResp) (hv : s.curA.vResp = some v) (p : Str × List Str)
    (hp : p ∈ v.header) (hne : p.2 ≠ []) (hn : ¬ Token p.1) (hs : shouldProxyHeader p.1 = true)
    (c : ReplyConn) (hc : ConnOf x c) (keys : List Str) (he : Enumerates keys y.header) (more : Str) :
    ¬ ∃ m rest, ReadsResponse x.rq.method (writeResponse c keys y ++ more) m rest := by
  have hr : x.Reaches s := h.imp fun _ h => h.1
  obtain ⟨s1, s2⟩ := status_valid hr hy
  rintro ⟨m, rest, hread⟩
  obtain ⟨w, hw⟩ := List.exists_mem_of_ne_nil _ hne
  have hnc : ¬ Token (canon p.1) := by
    intro ht
    have : ¬ p.1.all isTokenChar = true ∨ p.1 = [] := by
      by_cases h1 : p.1 = []
      · exact .inr h1
      · refine .inl fun h2 => hn (token_of_valid ?_)
        simp [validFieldName, h1, h2]
    rcases this with h1 | h1
    · unfold canon at ht
      rw [if_neg h1] at ht
      exact hn ht
    · rw [h1] at ht
      exact ht.1 rfl
  have hnames : ∀ n : Str, validFieldName n = true → canon p.1 ≠ n := fun n h1 h2 => hnc (h2 ▸ token_of_valid h1)
  have hin : w ∈ y.header (canon p.1) := by
    obtain ⟨y', hy', ha⟩ := C50_answer_partial x s h hd hf
    rw [hy', List.mem_singleton] at hy
    subst hy
    cases ha with
    | proxied v' h1 h2 =>
      have : v' = v := Option.some.inj (h1.1.2.1.symm.trans hv)
      subst this
      show w ∈ (proxiedResponse x.respEnv v').header (canon p.1)
      rw [proxied_header _ _ _ (hnames _ (by decide)) (hnames _ (by decide)), shouldProxyHeader_canon, hs]
      exact List.mem_append_right _ (under_of_mem hp hw)
    | client => exact absurd (json_cl _ _ _) ho
    | dwn => exact absurd (json_cl _ _ _) ho
    | up => exact absurd (json_cl _ _ _) ho
    | bad => exact absurd (json_cl _ _ _) ho
  have hx : canon p.1 ∉ respExclude c y := by
    intro hx
    rcases exclude_names hx with h | h | h | ⟨h, -⟩
    · exact hnames _ (by decide) h
    · exact hnames _ (by decide) h
    · exact hnames _ (by decide) h
    · exact hnames _ (by decide) h
  exact hnc (response_forced s1 s2 (fields_cut hr hy hcut hc.text he) hread _
    (responseFields_mem ((he.2 _).2 (List.ne_nil_of_mem hin)) hx hin)).1

theorem enumerates_of {x : Setup K} {r : UpResp} {keys : List Str} (h1 : keys.Nodup)
    (h2 : ∀ k ∈ keys, (proxiedResponse x.respEnv r).header k ≠ [])
    (h3 : ∀ k ∈ gatewayNames ++ r.header.map fun p => canon p.1, (proxiedResponse x.respEnv r).header k ≠ [] → k ∈ keys) :
    Enumerates keys (proxiedResponse x.respEnv r).header := by
  refine ⟨h1, fun k => ⟨h2 k, fun hk => h3 k ?_ hk⟩⟩
  rw [List.mem_append]
  by_cases hg : k ∈ gatewayNames
  · exact .inl hg
  right
  have hne : ∀ n ∈ gatewayNames, k ≠ n := fun n hn he => hg (he ▸ hn)
  rw [proxied_header _ _ _ (hne _ (by decide)) (hne _ (by decide)),
    std_other _ _ (hne _ (by decide)) (hne _ (by decide)) (hne _ (by decide)), List.nil_append] at hk
  split at hk
  · obtain ⟨v, hv⟩ := List.exists_mem_of_ne_nil _ hk
    obtain ⟨p, hp, he, -⟩ := mem_under hv
    exact List.mem_map.2 ⟨p, hp, he⟩
  · exact absurd rfl hk

/-- A connection. -/
def Demo.conn : ReplyConn where
  method := "get".toList
  date := "Mon, 16 Nov 2026 10:00:00 GMT".toList
  sniff := fun _ => "text/plain; charset=utf-8".toList

theorem Demo.conn_of : ConnOf Demo.setup Demo.conn :=
  ⟨rfl, fieldText_lit (s := "Mon, 16 Nov 2026 10:00:00 GMT".toList) (by decide),
    fun _ => fieldText_lit (s := "text/plain; charset=utf-8".toList) (by decide)⟩

theorem Demo.text_ids : TextIds Demo.setup :=
  ⟨fieldText_lit (s := "abc".toList) (by decide), fieldText_lit (s := "v1".toList) (by decide),
    by have : FieldText "XR-abc-u".toList := fieldText_lit (by decide)
       exact this⟩

/-- An undisturbed request that is answered with this response. -/
theorem Demo.answered {r : UpResp} (hr : r.status < 400)
    (hx : ∃ s, Demo.exec Demo.setup (Demo.success r) = some s ∧ ((Demo.seen s).finished && (s.n == 1 && s.cur == 0) &&
      s.curA.vResp == some r && s.sent.map Sent.status == [r.status]) = true) :
    ∃ s, Demo.setup.ReachesOrderly s ∧ s.pc = .done ∧ s.curA.vResp = some r ∧ (∀ r', Recv s r' → r' = r) ∧
      s.sent = [proxiedResponse Demo.setup.respEnv r] := by
  obtain ⟨s, hs, hp⟩ := hx
  simp only [Bool.and_eq_true, beq_iff_eq] at hp
  obtain ⟨⟨⟨h1, h2, h0⟩, h3⟩, h4⟩ := hp
  have ho := Demo.orderly_success hs
  have hd := Demo.done_of_seen h1
  obtain ⟨y, hy, h5⟩ := Demo.one_of_map h4
  refine ⟨s, ho, hd, h3, ?_, ?_⟩
  · rintro r' ⟨k, hk, hv⟩
    have : k = 0 := by omega
    subst this
    have hc : s.curA.vResp = some r' := by
      unfold St.curA
      rw [h0]
      exact hv
    exact Option.some.inj (hc.symm.trans h3)
  · have hdec : ∃ r u l, Demo.setup.dec = .forward r u l := ⟨Demo.route, Demo.url, "default".toList, by decide +kernel⟩
    obtain ⟨r0, u, l, hdec⟩ := hdec
    obtain ⟨v, hv, hyv, -⟩ := C37_partial Demo.setup s ho hdec hd y (by rw [hy]; simp) (by rw [h5]; exact hr)
    rw [hy, hyv, Option.some.inj (hv.symm.trans h3)]

/-- The hypotheses of `C133_clean_partial` are satisfiable, and what is written is what one expects. -/
example : ∃ s y, Demo.setup.ReachesOrderly s ∧ s.pc = .done ∧ y ∈ s.sent ∧ Demo.ok.Clean ∧ s.curA.vResp = some Demo.ok ∧
    NamesCut s ∧
    Enumerates (["Content-Encoding", "Content-Length", "Server", "X", "X-Request-Id"].map String.toList) y.header ∧
    writeResponse Demo.conn (["Content-Encoding", "Content-Length", "Server", "X", "X-Request-Id"].map String.toList) y =
      ("HTTP/1.1 200 OK\r\nContent-Encoding: identity\r\nContent-Length: 2\r\nServer: j8a v1 abc\r\nX: ok\r\n" ++
      "X-Request-Id: XR-abc-u\r\nDate: Mon, 16 Nov 2026 10:00:00 GMT\r\n\r\nhi").toList := by
  obtain ⟨s, h1, h2, h3, h4, h5⟩ := Demo.answered (r := Demo.ok) (by decide) (Demo.of_check (by decide +kernel))
  refine ⟨s, _, h1, h2, by rw [h5]; exact List.mem_cons_self, ?_, h3, ?_, ?_, by decide +kernel⟩
  · intro p hp
    obtain rfl := List.mem_singleton.1 hp
    refine ⟨token_of_valid (by decide), fun v hv => ?_⟩
    obtain rfl := List.mem_singleton.1 hv
    exact fieldText_lit (s := "ok".toList) (by decide)
  · intro r hr p hp
    rw [h4 r hr] at hp
    obtain rfl := List.mem_singleton.1 hp
    exact ⟨by decide, by decide⟩
  · exact enumerates_of (by decide) (by decide +kernel) (by decide +kernel)

/-- What the library makes of a response with the line `Transfer-Encoding : chunked`. -/
def Demo.spaced : UpResp :=
  { status := 200, header := (readFieldLine "Transfer-Encoding : chunked".toList).toList.map (fun f => (f.1, [f.2])),
    body := [104, 105] }

/-- C133 fails: an upstream sends `Transfer-Encoding : chunked`. The gateway drops Transfer-Encoding, but this name ends
with a space. The client gets that line beside a Content-Length; this is not a response, and a lenient client may take
it for a chunked one. -/
theorem C133_violated : ∃ s y, Demo.setup.ReachesOrderly s ∧ s.pc = .done ∧ s.sent = [y] ∧
    s.curA.vResp = some Demo.spaced ∧ NamesCut s ∧
    Enumerates (["Content-Encoding", "Content-Length", "Server", "Transfer-Encoding ", "X-Request-Id"].map String.toList)
      y.header ∧
    writeResponse Demo.conn
      (["Content-Encoding", "Content-Length", "Server", "Transfer-Encoding ", "X-Request-Id"].map String.toList) y =
      ("HTTP/1.1 200 OK\r\nContent-Encoding: identity\r\nContent-Length: 2\r\nServer: j8a v1 abc\r\n" ++
      "Transfer-Encoding : chunked\r\nX-Request-Id: XR-abc-u\r\nDate: Mon, 16 Nov 2026 10:00:00 GMT\r\n\r\nhi").toList ∧
    ∀ more, ¬ ∃ m rest, ReadsResponse Demo.setup.rq.method (writeResponse Demo.conn (["Content-Encoding",
      "Content-Length", "Server", "Transfer-Encoding ", "X-Request-Id"].map String.toList) y ++ more) m rest := by
  obtain ⟨s, h1, h2, h3, h4, h5⟩ := Demo.answered (r := Demo.spaced) (by decide) (Demo.of_check (by decide +kernel))
  have hspaced : Demo.spaced.header = [("Transfer-Encoding ".toList, ["chunked".toList])] := by decide
  have hcut : NamesCut s := by
    intro r hr p hp
    rw [h4 r hr, hspaced] at hp
    obtain rfl := List.mem_singleton.1 hp
    exact ⟨by decide, by decide⟩
  have hen : Enumerates (["Content-Encoding", "Content-Length", "Server", "Transfer-Encoding ",
      "X-Request-Id"].map String.toList) (proxiedResponse Demo.setup.respEnv Demo.spaced).header :=
    enumerates_of (by decide) (by decide +kernel) (by decide +kernel)
  refine ⟨s, _, h1, h2, h5, h3, hcut, hen, by decide +kernel, fun more => ?_⟩
  have hdec : ∃ r u l, Demo.setup.dec = .forward r u l := ⟨Demo.route, Demo.url, "default".toList, by decide +kernel⟩
  obtain ⟨r0, u, l, hdec⟩ := hdec
  refine C133_violated_always Demo.setup s h1 hdec h2 _ (by rw [h5]; exact List.mem_cons_self) hcut
    (by rw [proxied_length]; simp) Demo.spaced h3 ("Transfer-Encoding ".toList, ["chunked".toList])
    (by rw [hspaced]; exact List.mem_cons_self) (by simp) ?_ (by decide) Demo.conn Demo.conn_of _ hen more
  intro ht
  exact absurd (ht.2 ' ' (by decide)) (by decide)

end J8a
