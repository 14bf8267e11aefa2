import Verif.Go.RespRead
import Verif.Lemmas.IncomingHead
import Verif.Spec.Reply
/-!
# How well-formed responses are read
-/
namespace J8a
open Go Uri

theorem digit_val {c : Char} (h : c.isDigit = true) : c.toNat - 48 ≤ 9 := by
  simp only [Char.isDigit, Bool.and_eq_true, decide_eq_true_eq] at h
  have h2 := UInt32.le_iff_toNat_le.1 h.2
  have : c.toNat ≤ 57 := h2
  omega

theorem digitsVal_bound : ∀ (s : Str) (n : Nat), (∀ c ∈ s, c.isDigit = true) →
    s.foldl (fun n c => 10 * n + (c.toNat - 48)) n < (n + 1) * 10 ^ s.length
  | [], n, _ => by simp
  | c :: s, n, h => by
    rw [List.foldl_cons]
    have h1 := digitsVal_bound s (10 * n + (c.toNat - 48)) (fun d hd => h d (List.mem_cons_of_mem _ hd))
    have h2 := digit_val (h c List.mem_cons_self)
    have h3 : (10 * n + (c.toNat - 48) + 1) * 10 ^ s.length ≤ (10 * (n + 1)) * 10 ^ s.length :=
      Nat.mul_le_mul_right _ (by omega)
    have h4 : (10 * (n + 1)) * 10 ^ s.length = (n + 1) * 10 ^ (s.length + 1) := by
      rw [Nat.pow_succ, Nat.mul_comm 10 (n + 1), Nat.mul_assoc, Nat.mul_comm 10]
    simp only [List.length_cons]
    omega

theorem atoi_digits {s : Str} (h0 : s ≠ []) (h : ∀ c ∈ s, c.isDigit = true) (hb : (digitsVal s : Int) ≤ maxInt64) :
    atoi s = some (digitsVal s : Int) := by
  obtain ⟨c, t, rfl⟩ := List.exists_cons_of_ne_nil h0
  have hc := h c List.mem_cons_self
  have h1 : c ≠ '-' := by rintro rfl; exact absurd hc (by decide)
  have h2 : c ≠ '+' := by rintro rfl; exact absurd hc (by decide)
  unfold atoi
  split
  rename_i neg ds hm
  split at hm
  · rename_i heq; exact absurd (List.cons.inj heq).1 h1
  · rename_i heq; exact absurd (List.cons.inj heq).1 h2
  · obtain ⟨rfl, rfl⟩ := Prod.mk.inj hm
    rw [if_pos ⟨h0, List.all_eq_true.2 h⟩]
    simp only [Bool.false_eq_true, if_false]
    rw [if_pos]
    refine ⟨?_, hb⟩
    unfold minInt64
    omega

theorem parseStatusLine_of {v code reason : Str} {w : Nat × Nat} (hv : ' ' ∉ v) (hw : httpVersion v = some w)
    (hl : code.length = 3) (hd : ∀ c ∈ code, c.isDigit = true) :
    parseStatusLine (v ++ ' ' :: (code ++ ' ' :: reason)) = some (w, (digitsVal code : Int)) := by
  have hne : code ≠ [] := by rintro rfl; cases hl
  have hsp : ' ' ∉ code := fun hm => absurd (hd ' ' hm) (by decide)
  have hb : digitsVal code < 1000 := by
    have := digitsVal_bound code 0 hd
    rw [hl] at this
    exact this
  have h1 : (code ++ ' ' :: reason).dropWhile (· = ' ') = code ++ ' ' :: reason := by
    obtain ⟨c, t, rfl⟩ := List.exists_cons_of_ne_nil hne
    rw [List.cons_append, List.dropWhile_cons, if_neg]
    simp only [decide_eq_true_eq]
    rintro rfl
    exact hsp List.mem_cons_self
  unfold parseStatusLine
  rw [if_pos (by simp), cutAt_sep hv]
  simp only [h1]
  rw [takeWhile_sep hsp]
  simp only [hl, ne_eq, not_true_eq_false, if_false]
  rw [atoi_digits hne hd (by unfold maxInt64; omega)]
  simp [hw]

theorem allowsBody_iff {method : Str} {status : Nat} : NoBody method status ↔
    method = "HEAD".toList ∨ allowsBody (status : Int) = false := by
  unfold NoBody allowsBody
  simp only [Bool.not_eq_false', Bool.or_eq_true, Bool.and_eq_true, decide_eq_true_eq]
  constructor
  · rintro (h | h | h | h)
    · exact .inl h
    · exact .inr (.inl (.inl (by omega)))
    · exact .inr (.inl (.inr (by omega)))
    · exact .inr (.inr (by omega))
  · rintro (h | (h | h) | h)
    · exact .inl h
    · exact .inr (.inl (by omega))
    · exact .inr (.inr (.inl (by omega)))
    · exact .inr (.inr (.inr (by omega)))

theorem fixRespLength_few {m : Str} {st : Int} {c : Bool} {e : Entries} {vs : List Str}
    (hv : e.values "Content-Length".toList = vs) (hle : ¬ vs.length > 1) : fixRespLength m st c e =
      if m = "HEAD".toList then some (0, e)
      else if !allowsBody st then some (0, e)
      else if c then some (-1, e)
      else match vs with
        | [v] => if trimSpace v = [] then some (-1, delKey e "Content-Length")
          else (parseLength (trimSpace v)).map fun n => (Int.ofNat n, e)
        | _ => some (-1, delKey e "Content-Length") := by
  unfold fixRespLength
  simp only
  rw [hv, if_neg (fun h => hle h.1), if_neg hle, if_neg hle]
  rfl

theorem parseLength_of {v : Str} {n : Nat} (h0 : v ≠ []) (h : ∀ c ∈ v, c.isDigit = true) (hn : digitsVal v = n)
    (hb : n < 2 ^ 63) : parseLength (trimSpace v) = some n := by
  rw [trimSpace_digits h]
  unfold parseLength
  rw [if_pos ⟨h0, List.all_eq_true.2 h, by rw [hn]; unfold maxInt64; omega⟩, hn]

theorem get_values (e : Entries) (n : String) (hc : canon n.toList = n.toList) :
    e.get n.toList = (e.values n.toList).headD [] := by
  unfold Entries.get
  rw [hc]

theorem readRespBody_sized {body rest : Str} : readRespBody (.sized body.length) (body ++ rest) = (body, some rest) := by
  rw [readRespBody, readBody, if_pos (by simp)]
  simp

theorem transfer_reply {lines : List (Str × (Str × Str))} {m : HttpResponse} {method s rest : Str} {modern : Bool}
    (hl : ∀ l ∈ lines, FieldLine l.1 l.2) (hf : lines.map Prod.snd = m.fields)
    (hb : ReplyBody method m.version m.status m.fields s m.body rest) (ht : TrailerOk m.fields)
    (hmod : m.version = "HTTP/1.1".toList → modern = true) (e : Entries)
    (he : e = fixPragma (mimeHeader (lines.map fun l => trimBlank l.1))) :
    ∃ c e1 rl e2 len e3, fixCoding modern e = some (c, e1) ∧ fixRespLength method (m.status : Int) c e1 = some (rl, e2) ∧
      (if method = "HEAD".toList then announcedLength e2 else some rl) = some len ∧
      fixTrailer c e2 = some e3 ∧
      readRespBody (respFraming method (m.status : Int) c rl) s = (m.body, some rest) ∧
      e3.Sublist e ∧
      (∀ k, k ≠ "Transfer-Encoding".toList → k ≠ "Trailer".toList → e3.values k = e.values k) ∧
      e3.values "Transfer-Encoding".toList = [] ∧ (len = 0 → method ≠ "HEAD".toList → m.body = []) ∧
      (NoBody method m.status → respFraming method (m.status : Int) c rl = .sized 0) := by
  have vte : e.values "Transfer-Encoding".toList = fieldValues m.fields "transfer-encoding".toList := by
    rw [he, ← hf]; exact values_read hl "Transfer-Encoding" (by decide) (by decide) (by decide) (by decide)
  have vcl : e.values "Content-Length".toList = fieldValues m.fields "content-length".toList := by
    rw [he, ← hf]; exact values_read hl "Content-Length" (by decide) (by decide) (by decide) (by decide)
  have vtr : e.values "Trailer".toList = fieldValues m.fields "trailer".toList := by
    rw [he, ← hf]; exact values_read hl "Trailer" (by decide) (by decide) (by decide) (by decide)
  have hte : hasKey e "Transfer-Encoding" = true ↔ e.values "Transfer-Encoding".toList ≠ [] := by
    rw [he, hasKey_fixPragma (by decide) (by decide), values_fixPragma (by decide)]
  have plain : ∀ e', fixTrailer false e' = some e' := fun e' => by unfold fixTrailer; rfl
  have none_coding : fieldValues m.fields "transfer-encoding".toList = [] → fixCoding modern e = some (false, e) := by
    intro h
    unfold fixCoding
    rw [if_neg (by rw [hte, vte, h]; simp)]
  have one_coding : ∀ {v}, m.version = "HTTP/1.1".toList → fieldValues m.fields "transfer-encoding".toList = [v] →
      toLower v = "chunked".toList →
      fixCoding modern e = some (true, delKey (delKey e "Transfer-Encoding") "Content-Length") := by
    intro v h0 h1 hv
    unfold fixCoding
    rw [if_pos (hte.2 (by rw [vte, h1]; simp)), hmod h0]
    simp only [vte, h1]
    rw [if_pos (chunked_trim hv)]
    rfl
  have trailer_coding : ∃ e3, fixTrailer true (delKey (delKey e "Transfer-Encoding") "Content-Length") = some e3 ∧
      e3.Sublist (delKey (delKey e "Transfer-Encoding") "Content-Length") ∧ ∀ k, k ≠ "Trailer".toList →
        e3.values k = (delKey (delKey e "Transfer-Encoding") "Content-Length").values k := by
    apply fixTrailer_incoming
    rw [values_delKey, if_neg (by decide), values_delKey, if_neg (by decide), vtr]
    exact ht
  have dcl : (delKey (delKey e "Transfer-Encoding") "Content-Length").values "Content-Length".toList = [] := by
    rw [values_delKey, if_pos rfl]
  have none_len : ∀ {e' : Entries}, e'.values "Content-Length".toList = [] → announcedLength e' = some (-1) := by
    intro e' h
    unfold announcedLength
    rw [get_values e' "Content-Length" (by decide), h]
    rfl
  have one_len : ∀ {n}, OneLength m.fields n → announcedLength e = some (n : Int) := by
    rintro n ⟨v, h1, h2, h3, h4, h5⟩
    unfold announcedLength
    rw [get_values e "Content-Length" (by decide), vcl, h1]
    show (if trimSpace v = [] then some (-1) else (parseLength (trimSpace v)).map Int.ofNat) = _
    rw [if_neg (by rw [trimSpace_digits h3]; exact h2), parseLength_of h2 h3 h4 h5]
    rfl
  have few : ∀ {n}, OneLength m.fields n → ¬ (fieldValues m.fields "content-length".toList).length > 1 := by
    rintro n ⟨v, h1, -⟩
    rw [h1]; simp
  have zero : ∀ c st, readRespBody (respFraming method st c 0) rest = ([], some rest) ∨ c = true := by
    intro c st
    cases c with
    | true => exact .inr rfl
    | false =>
      refine .inl ?_
      unfold respFraming
      rw [if_neg (by decide), if_pos (by decide)]
      exact readRespBody_sized (body := [])
  generalize hbody : m.body = body at hb ⊢
  cases hb with
  | none h1 h2 h3 =>
    have hfew : ¬ (fieldValues m.fields "content-length".toList).length > 1 := by
      rcases h3 with h | ⟨n, h⟩
      · rw [h]; simp
      · exact few h
    have hfix : fixRespLength method (m.status : Int) false e = some (0, e) := by
      rw [fixRespLength_few vcl hfew]
      rcases allowsBody_iff.1 h1 with h | h
      · rw [if_pos h]
      · split
        · rfl
        · rw [h]; rfl
    have hlen : ∃ len, (if method = "HEAD".toList then announcedLength e else some 0) = some len := by
      split
      · rcases h3 with h | ⟨n, h⟩
        · exact ⟨_, none_len (by rw [vcl, h])⟩
        · exact ⟨_, one_len h⟩
      · exact ⟨_, rfl⟩
    obtain ⟨len, hlen⟩ := hlen
    exact ⟨false, e, 0, e, len, e, none_coding h2, hfix, hlen, plain _, (zero false _).resolve_right (by decide),
      List.Sublist.refl _, fun _ _ _ => rfl, by rw [vte, h2], fun _ _ => rfl, fun _ => rfl⟩
  | @coded v _ h0 hv1 h1 hv h2 =>
    obtain ⟨e3, ht, hsub, hval⟩ := trailer_coding
    rw [h2] at vcl
    have hfix : fixRespLength method (m.status : Int) true (delKey (delKey e "Transfer-Encoding") "Content-Length") =
        some (0, delKey (delKey e "Transfer-Encoding") "Content-Length") := by
      rw [fixRespLength_few dcl (by simp)]
      rcases allowsBody_iff.1 h0 with h | h
      · rw [if_pos h]
      · split
        · rfl
        · rw [h]; rfl
    have hlen : ∃ len, (if method = "HEAD".toList then
        announcedLength (delKey (delKey e "Transfer-Encoding") "Content-Length") else some 0) = some len := by
      split
      · exact ⟨_, none_len dcl⟩
      · exact ⟨_, rfl⟩
    obtain ⟨len, hlen⟩ := hlen
    have hfr : respFraming method (m.status : Int) true 0 = .sized 0 := by
      unfold respFraming
      rw [if_pos rfl, if_pos]
      rcases allowsBody_iff.1 h0 with h | h <;> simp [h]
    refine ⟨true, _, 0, _, len, e3, one_coding hv1 h1 hv, hfix, hlen, ht, ?_,
      hsub.trans (List.filter_sublist.trans List.filter_sublist), ?_, ?_, fun _ _ => rfl, fun _ => hfr⟩
    · rw [hfr]
      exact readRespBody_sized (body := [])
    · intro k hk1 hk2
      rw [hval k hk2, values_delKey]
      split
      · rename_i hk; rw [hk, vcl]
      · rw [values_delKey, if_neg hk1]
    · rw [hval _ (by decide), values_delKey, if_neg (by decide), values_delKey, if_pos rfl]
  | sized h0 h1 h2 =>
    have hn : ¬ (method = "HEAD".toList ∨ allowsBody (m.status : Int) = false) := fun h => h0 (allowsBody_iff.2 h)
    have hh : method ≠ "HEAD".toList := fun h => hn (.inl h)
    have ha : allowsBody (m.status : Int) = true := by
      cases h : allowsBody (m.status : Int) with
      | true => rfl
      | false => exact absurd (.inr h) hn
    have hfix : fixRespLength method (m.status : Int) false e = some ((body.length : Int), e) := by
      rw [fixRespLength_few vcl (few h2), if_neg hh, ha]
      obtain ⟨v, g1, g2, g3, g4, g5⟩ := h2
      rw [g1]
      simp only [Bool.not_true, Bool.false_eq_true, if_false]
      rw [if_neg (by rw [trimSpace_digits g3]; exact g2), parseLength_of g2 g3 g4 g5]
      rfl
    refine ⟨false, e, body.length, e, body.length, e, none_coding h1, hfix, by rw [if_neg hh], plain _, ?_,
      List.Sublist.refl _, fun _ _ _ => rfl, by rw [vte, h1], ?_, fun h => absurd h h0⟩
    · unfold respFraming
      rw [if_neg (by decide), if_pos (by omega), Int.toNat_natCast]
      exact readRespBody_sized
    · intro h _
      exact List.length_eq_zero_iff.1 (by omega)
  | @chunked v _ _ _ h0 hv1 h1 hv h2 hc =>
    have hn : ¬ (method = "HEAD".toList ∨ allowsBody (m.status : Int) = false) := fun h => h0 (allowsBody_iff.2 h)
    have hh : method ≠ "HEAD".toList := fun h => hn (.inl h)
    have ha : allowsBody (m.status : Int) = true := by
      cases h : allowsBody (m.status : Int) with
      | true => rfl
      | false => exact absurd (.inr h) hn
    obtain ⟨e3, ht, hsub, hval⟩ := trailer_coding
    rw [h2] at vcl
    refine ⟨true, _, -1, _, -1, e3, one_coding hv1 h1 hv, ?_, by rw [if_neg hh], ht, ?_,
      hsub.trans (List.filter_sublist.trans List.filter_sublist), ?_, ?_, fun h => absurd h (by decide), fun h => absurd h h0⟩
    · rw [fixRespLength_few dcl (by simp), if_neg hh, ha]
      rfl
    · unfold respFraming
      rw [if_pos rfl, if_neg (by rw [decide_eq_false hh, ha]; decide), readRespBody, readBody]
      exact readChunks_chunks hc _ (by omega)
    · intro k hk1 hk2
      rw [hval k hk2, values_delKey]
      split
      · rename_i hk; rw [hk, vcl]
      · rw [values_delKey, if_neg hk1]
    · rw [hval _ (by decide), values_delKey, if_neg (by decide), values_delKey, if_pos rfl]
  | untilEnd h0 h1 h2 =>
    have hn : ¬ (method = "HEAD".toList ∨ allowsBody (m.status : Int) = false) := fun h => h0 (allowsBody_iff.2 h)
    have hh : method ≠ "HEAD".toList := fun h => hn (.inl h)
    have ha : allowsBody (m.status : Int) = true := by
      cases h : allowsBody (m.status : Int) with
      | true => rfl
      | false => exact absurd (.inr h) hn
    rw [h2] at vcl
    refine ⟨false, e, -1, delKey e "Content-Length", -1, delKey e "Content-Length", none_coding h1, ?_,
      by rw [if_neg hh], plain _, ?_, List.filter_sublist, ?_, ?_, fun h => absurd h (by decide), fun h => absurd h h0⟩
    · rw [fixRespLength_few vcl (by simp), if_neg hh, ha]
      rfl
    · unfold respFraming
      rw [if_neg (by decide), if_neg (by decide), readRespBody]
    · intro k _ _
      rw [values_delKey]
      split
      · rename_i hk; rw [hk, vcl]
      · rfl
    · rw [values_delKey, vte, h1]; rfl

theorem version_read {v : Str} (h : v = "HTTP/1.1".toList ∨ v = "HTTP/1.0".toList) :
    ∃ w, httpVersion v = some w ∧ ' ' ∉ v ∧ '\n' ∉ v ∧ (v = "HTTP/1.1".toList → w = (1, 1)) := by
  rcases h with rfl | rfl
  · exact ⟨(1, 1), by decide, by decide, by decide, fun _ => rfl⟩
  · exact ⟨(1, 0), by decide, by decide, by decide, fun h => absurd h (by decide)⟩

/-- What a client reads of a well-formed response. -/
structure HeadOf (method : Str) (m : HttpResponse) (rest : Str) (h : RespHead) (after : Str) : Prop where
  status : h.status = (m.status : Int)
  body : readRespBody h.framing after = (m.body, some rest)
  fields : ∀ k, k.all isTokenChar = true → k ≠ [] → toLower k ∉ ["transfer-encoding", "trailer", "cache-control"].map
    String.toList → h.header.values (canon k) = fieldValues m.fields (toLower k)
  coding : h.header.values "Transfer-Encoding".toList = []
  cache : h.header.values "Cache-Control".toList =
    if (fieldValues m.fields "pragma".toList).head? = some "no-cache".toList ∧
      fieldValues m.fields "cache-control".toList = [] then ["no-cache".toList]
    else fieldValues m.fields "cache-control".toList
  wf : h.header.WF
  valid : ∀ kv ∈ h.header, validFieldName kv.1 = true ∧ kv.2.all validFieldValue = true
  length : h.length = 0 → method ≠ "HEAD".toList → m.body = []
  noBody : NoBody method m.status → after = rest
  version : httpVersion m.version = some h.version

theorem readRespHead_reply {method stream rest : Str} {m : HttpResponse} (hr : ReadsReply method stream m rest) :
    ∃ h after, readRespHead method stream = some (h, after) ∧ HeadOf method m rest h after := by
  obtain ⟨code, lines, s, hcl, hcd, hcs, hl, hf, hb, rfl⟩ := hr.text
  obtain ⟨w, hw, hsp, hnl, hmod⟩ := version_read hr.version
  obtain ⟨c, e1, rl, e2, len, e3, t1, t2, t3, t4, t5, t6, t7, t8, t9, t10⟩ := transfer_reply
    (modern := (decide (w.1 > 1) || (decide (w.1 = 1) && decide (w.2 ≥ 1)) || decide (w = (0, 0)))) hl hf hb hr.trailer
    (fun h => by rw [hmod h]; decide) _ rfl
  have hfirst : '\n' ∉ m.version ++ ' ' :: (code ++ ' ' :: m.reason) := by
    simp only [List.mem_append, List.mem_cons, not_or]
    refine ⟨hnl, by decide, fun hm => absurd (hcd _ hm) (by decide), by decide, fun hm => ?_⟩
    rcases hr.reason _ hm with h | h
    · exact absurd h (by decide)
    · exact absurd h.1 (by decide)
  have a1 := readLine_crlf hfirst (lines.flatMap (fun l => l.1 ++ crlf) ++ (crlf ++ s))
  simp only [List.append_assoc, List.cons_append] at a1
  have a2 := parseStatusLine_of (reason := m.reason) hsp hw hcl hcd
  have a3 := headLines_fields s lines ((lines.flatMap (fun l => l.1 ++ crlf) ++ (crlf ++ s)).length + 1) hl
    (by have := lines_length lines (crlf ++ s); omega)
  have a4 := unfoldLines_fields hl
  have wf0 : (fixPragma (mimeHeader (lines.map fun l => trimBlank l.1))).WF := wf_fixPragma (wf_mimeHeader _)
  refine ⟨⟨m.status, w, e3, respFraming method m.status c rl, len⟩, s, ?_, rfl, t5, ?_, t8, ?_, ?_, ?_, t9, ?_, hw⟩
  · unfold readRespHead
    rw [a1]
    simp only [Option.bind_eq_bind, Option.bind_some]
    rw [a2]
    simp only [Option.bind_some]
    rw [a3]
    simp only [Option.bind_some]
    rw [a4]
    simp only [Option.bind_some]
    rw [t1]
    simp only [Option.bind_some]
    rw [hcs, t2]
    simp only [Option.bind_some]
    rw [show respLength method rl e2 = some len from t3]
    simp only [Option.bind_some]
    rw [t4]
    rfl
  · intro k hk hne hx
    have h1 : canon k ≠ "Transfer-Encoding".toList := fun h => hx (by
      have := lower_canon k
      rw [h] at this
      rw [← this]; decide)
    have h2 : canon k ≠ "Trailer".toList := fun h => hx (by
      have := lower_canon k
      rw [h] at this
      rw [← this]; decide)
    have h3 : canon k ≠ "Cache-Control".toList := fun h => hx (by
      have := lower_canon k
      rw [h] at this
      rw [← this]; decide)
    show e3.values (canon k) = _
    rw [t7 _ h1 h2, values_fixPragma h3, values_fields hl hk hne, hf]
  · show e3.values "Cache-Control".toList = _
    have v1 := values_fields hl (k := "Pragma".toList) (by decide) (by decide)
    have v2 := values_fields hl (k := "Cache-Control".toList) (by decide) (by decide)
    rw [show canon "Pragma".toList = "Pragma".toList by decide, show toLower "Pragma".toList = "pragma".toList by decide, hf]
      at v1
    rw [show canon "Cache-Control".toList = "Cache-Control".toList by decide,
      show toLower "Cache-Control".toList = "cache-control".toList by decide, hf] at v2
    rw [t7 _ (by decide) (by decide), values_fixPragma_cache, v1, v2]
  · exact ⟨(t6.map _).nodup wf0.nodup, fun kv hkv => wf0.canonical kv (t6.subset hkv)⟩
  · intro kv hkv
    have := entries_valid hl kv (t6.subset hkv)
    rwa [Bool.and_eq_true] at this
  · intro hn
    rw [t10 hn, readRespBody, readBody, if_pos (Nat.zero_le _)] at t5
    injection t5 with _ t5
    injection t5

theorem isInterim_iff {n : Nat} : isInterim (n : Int) = true ↔ 100 ≤ n ∧ n < 200 ∧ n ≠ 101 := by
  unfold isInterim
  simp only [Bool.and_eq_true, decide_eq_true_eq]
  omega

theorem readFinal_reads {method stream rest : Str} {m : HttpResponse} {n k : Nat} (hr : ReadsFinal method n stream m rest)
    (hk : n ≤ k) : ∃ h after, readFinal method k stream = some (h, after) ∧ HeadOf method m rest h after := by
  induction hr generalizing k with
  | final hr hs =>
    obtain ⟨h, after, g1, g2⟩ := readRespHead_reply hr
    refine ⟨h, after, ?_, g2⟩
    have h1 : isInterim h.status = false := by
      rw [g2.status]
      cases h : isInterim _ with
      | false => rfl
      | true => have := isInterim_iff.1 h; omega
    have h2 : isSwitch h = false := by
      unfold isSwitch
      rw [g2.status, decide_eq_false (by omega)]
      rfl
    rw [readFinal, g1]
    simp [h1, h2]
  | @interim n stream next rest i m hi h1 h2 h3 _ ih =>
    obtain ⟨h, after, g1, g2⟩ := readRespHead_reply hi
    have h1 : isInterim h.status = true := by
      rw [g2.status]
      exact isInterim_iff.2 ⟨h1, h2, h3⟩
    obtain ⟨k, rfl⟩ : ∃ k', k = k' + 1 := ⟨k - 1, by omega⟩
    obtain ⟨h', after', g3, g4⟩ := ih (k := k) (by omega)
    refine ⟨h', after', ?_, g4⟩
    rw [readFinal, g1]
    simp only [Option.bind_eq_bind, Option.bind_some, h1, if_true]
    rw [g2.noBody (.inr (.inl ⟨by assumption, by assumption⟩))]
    exact g3

/-- A response that comes after too many interim ones is not read. -/
theorem readFinal_late {method stream rest : Str} {m : HttpResponse} {n k : Nat} (hr : ReadsFinal method n stream m rest)
    (hk : k < n) : readFinal method k stream = none := by
  induction hr generalizing k with
  | final => omega
  | @interim n stream next rest i m hi h1 h2 h3 _ ih =>
    obtain ⟨h, after, g1, g2⟩ := readRespHead_reply hi
    have hin : isInterim h.status = true := by
      rw [g2.status]
      exact isInterim_iff.2 ⟨h1, h2, h3⟩
    have ha := g2.noBody (.inr (.inl ⟨h1, h2⟩))
    cases k with
    | zero =>
      rw [readFinal, g1]
      simp [hin]
    | succ k =>
      rw [readFinal, g1]
      simp only [Option.bind_eq_bind, Option.bind_some, hin, if_true]
      rw [ha]
      exact ih (by omega)

end J8a
