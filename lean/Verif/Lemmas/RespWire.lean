import Verif.Lemmas.RespMessage
import Verif.Lemmas.Header
/-!
# The fields of a written response
-/
namespace J8a
open Go

theorem filter_if (p : Prop) [Decidable p] (n v K : Str) :
    ((if p then [(n, v)] else []).filter fun f : Str × Str => f.1 = K).map Prod.snd = if n = K ∧ p then [v] else [] := by
  by_cases hp : p <;> by_cases hn : n = K <;> simp [hp, hn]

theorem filter_one (n v K : Str) :
    (([(n, v)] : List (Str × Str)).filter fun f => f.1 = K).map Prod.snd = if n = K then [v] else [] := by
  by_cases hn : n = K <;> simp [hn]

/-- The values that are added under a name. -/
theorem extra_values (c : ReplyConn) (y : Sent) (K : Str) :
    ((extraFields c y).filter fun f => f.1 = K).map Prod.snd =
      (if "Date".toList = K ∧ y.header "Date".toList = [] then [c.date] else []) ++
      (if "Content-Length".toList = K then ((ownLength c y).map natToDec).toList else []) ++
      (if "Content-Type".toList = K ∧ (bodyAllowed y.status ∧ y.header.get "Content-Encoding".toList = [] ∧
        y.header "Content-Type".toList = [] ∧ handedOver y ≠ [] ∧ c.sniff (handedOver y) ≠ []) then
        [c.sniff (handedOver y)] else []) ++
      (if "Connection".toList = K then (ownConnection c y).toList else []) ++
      (if "Transfer-Encoding".toList = K ∧ chunking c y then ["chunked".toList] else []) := by
  unfold extraFields
  simp only [List.filter_append, List.map_append, filter_if]
  congr 2
  · congr 2
    cases ownLength c y with
    | none => exact (ite_self (c := "Content-Length".toList = K) []).symm
    | some n => exact filter_one _ _ _
  · cases ownConnection c y with
    | none => exact (ite_self (c := "Connection".toList = K) []).symm
    | some v => exact filter_one _ _ _

/-- The values under a name. -/
def respValues (c : ReplyConn) (y : Sent) (K : Str) : List Str :=
  (if K ∈ respExclude c y then [] else (y.header K).map fun v => trimString (newlineToSpace v)) ++
    ((extraFields c y).filter fun f => f.1 = K).map Prod.snd

theorem responseFields_values {c : ReplyConn} {keys : List Str} {y : Sent} (he : Enumerates keys y.header) (K : Str) :
    ((responseFields c keys y).filter fun f => f.1 = K).map Prod.snd = respValues c y K := by
  unfold responseFields respValues
  rw [List.filter_append, List.map_append]
  congr 1
  rw [filter_flatMap (g := y.header) (tr := fun v => trimString (newlineToSpace v)) (he.1.filter _)]
  simp only [List.mem_filter, decide_eq_true_eq]
  by_cases hx : K ∈ respExclude c y
  · simp [hx]
  · by_cases hk : K ∈ keys
    · simp [hx, hk]
    · have : y.header K = [] := by
        by_cases h : y.header K = []
        · exact h
        · exact absurd ((he.2 K).2 h) hk
      simp [this]

theorem exclude_names {c : ReplyConn} {y : Sent} {K : Str} (h : K ∈ respExclude c y) :
    K = "Content-Length".toList ∨ K = "Transfer-Encoding".toList ∨ K = "Connection".toList ∨
      (K = "Content-Type".toList ∧ y.status = 304) := by
  unfold respExclude at h
  simp only [List.mem_append] at h
  rcases h with (h | h) | h
  · split at h
    · simp at h
    · unfold suppressedHeaders at h
      split at h
      · rename_i h3
        simp only [List.map_cons, List.map_nil, List.mem_cons, List.not_mem_nil, or_false] at h
        rcases h with h | h | h
        · exact .inr (.inr (.inr ⟨h, h3⟩))
        · exact .inl h
        · exact .inr (.inl h)
      · simp only [List.map_cons, List.map_nil, List.mem_cons, List.not_mem_nil, or_false] at h
        rcases h with h | h
        · exact .inl h
        · exact .inr (.inl h)
  · split at h
    · exact .inl (List.mem_singleton.1 h)
    · simp at h
  · split at h
    · exact .inr (.inr (.inl (List.mem_singleton.1 h)))
    · simp at h

theorem exclude_length {c : ReplyConn} {y : Sent} : "Content-Length".toList ∈ respExclude c y ↔
    (bodyAllowed y.status = false ∨ chunking c y = true) := by
  unfold respExclude suppressedHeaders
  constructor
  · intro h
    simp only [List.mem_append] at h
    rcases h with (h | h) | h
    · split at h
      · simp at h
      · rename_i hb
        exact .inl (by simpa using hb)
    · split at h
      · exact .inr ‹_›
      · simp at h
    · split at h
      · exact absurd (List.mem_singleton.1 h) (by decide)
      · simp at h
  · rintro (h | h)
    · rw [h]
      simp only [Bool.false_eq_true, if_false, List.mem_append]
      refine .inl (.inl ?_)
      split <;> decide
    · rw [h]
      simp only [if_true, List.mem_append]
      exact .inl (.inr (by simp))

/-- Every name that is added. -/
theorem extra_names {c : ReplyConn} {y : Sent} {f : Str × Str} (h : f ∈ extraFields c y) :
    f = ("Date".toList, c.date) ∨ (∃ n, f = ("Content-Length".toList, natToDec n)) ∨
      f = ("Content-Type".toList, c.sniff (handedOver y)) ∨ f = ("Connection".toList, "close".toList) ∨
      f = ("Connection".toList, "keep-alive".toList) ∨
      f = ("Transfer-Encoding".toList, "chunked".toList) := by
  unfold extraFields at h
  simp only [List.mem_append] at h
  rcases h with (((h | h) | h) | h) | h
  · split at h
    · exact .inl (List.mem_singleton.1 h)
    · simp at h
  · split at h
    · exact .inr (.inl ⟨_, List.mem_singleton.1 h⟩)
    · simp at h
  · split at h
    · exact .inr (.inr (.inl (List.mem_singleton.1 h)))
    · simp at h
  · split at h
    · rename_i v hv
      rw [List.mem_singleton.1 h]
      unfold ownConnection at hv
      split at hv
      · exact .inr (.inr (.inr (.inl (by rw [Option.some.inj hv]))))
      · split at hv
        · exact .inr (.inr (.inr (.inr (.inl (by rw [Option.some.inj hv])))))
        · cases hv
    · simp at h
  · split at h
    · exact .inr (.inr (.inr (.inr (.inr (List.mem_singleton.1 h)))))
    · simp at h

/-- The date and the sniffed type are text. -/
def ReplyConn.Text (c : ReplyConn) : Prop := FieldText c.date ∧ ∀ b, FieldText (c.sniff b)

theorem extra_ok {c : ReplyConn} {y : Sent} (hc : c.Text) {f : Str × Str} (h : f ∈ extraFields c y) :
    validFieldName f.1 = true ∧ canon f.1 = f.1 ∧ FieldText f.2 := by
  rcases extra_names h with rfl | ⟨n, rfl⟩ | rfl | rfl | rfl | rfl
  · exact ⟨by show validFieldName "Date".toList = true; decide, by show canon "Date".toList = "Date".toList; decide, hc.1⟩
  · exact ⟨by show validFieldName "Content-Length".toList = true; decide,
      by show canon "Content-Length".toList = "Content-Length".toList; decide, digits_text n⟩
  · exact ⟨by show validFieldName "Content-Type".toList = true; decide,
      by show canon "Content-Type".toList = "Content-Type".toList; decide, hc.2 _⟩
  · exact ⟨by show validFieldName "Connection".toList = true; decide,
      by show canon "Connection".toList = "Connection".toList; decide, fieldText_lit (s := "close".toList) (by decide)⟩
  · exact ⟨by show validFieldName "Connection".toList = true; decide,
      by show canon "Connection".toList = "Connection".toList; decide,
      fieldText_lit (s := "keep-alive".toList) (by decide)⟩
  · exact ⟨by show validFieldName "Transfer-Encoding".toList = true; decide,
      by show canon "Transfer-Encoding".toList = "Transfer-Encoding".toList; decide,
      fieldText_lit (s := "chunked".toList) (by decide)⟩

theorem canon_idem (k : Str) : canon (canon k) = canon k := by
  unfold canon
  by_cases h : k.all isTokenChar = true
  · rw [if_pos h]
    split
    · rw [← canonGo_lower true (canonGo true k), lower_canonGo, canonGo_lower]
    · rfl
  · rw [if_neg h, if_neg h]

/-- What is written of the header comes from the header. -/
theorem responseFields_from {c : ReplyConn} {keys : List Str} {y : Sent} {f : Str × Str}
    (h : f ∈ responseFields c keys y) : f ∈ extraFields c y ∨
      (f.1 ∈ keys ∧ f.1 ∉ respExclude c y ∧ ∃ v ∈ y.header f.1, f.2 = trimString (newlineToSpace v)) := by
  unfold responseFields at h
  rcases List.mem_append.1 h with h | h
  · right
    obtain ⟨k, hk, hf⟩ := List.mem_flatMap.1 h
    obtain ⟨v, hv, rfl⟩ := List.mem_map.1 hf
    obtain ⟨h1, h2⟩ := List.mem_filter.1 hk
    exact ⟨h1, by simpa using h2, v, hv, rfl⟩
  · exact .inl h

theorem responseFields_mem {c : ReplyConn} {keys : List Str} {y : Sent} {k v : Str} (hk : k ∈ keys)
    (hx : k ∉ respExclude c y) (hv : v ∈ y.header k) :
    (k, trimString (newlineToSpace v)) ∈ responseFields c keys y := by
  unfold responseFields
  refine List.mem_append_left _ (List.mem_flatMap.2 ⟨k, List.mem_filter.2 ⟨hk, by simpa using hx⟩, ?_⟩)
  exact List.mem_map.2 ⟨v, hv, rfl⟩

theorem mem_trimString {s : Str} {c : Char} (h : c ∈ trimString s) : c ∈ s := by
  unfold trimString at h
  have h1 := (List.dropWhile_sublist _).subset (List.mem_reverse.1 h)
  exact (List.dropWhile_sublist _).subset (List.mem_reverse.1 h1)

theorem newline_no_cr (v : Str) : '\r' ∉ newlineToSpace v ∧ '\n' ∉ newlineToSpace v := by
  unfold newlineToSpace
  constructor <;>
  · intro h
    obtain ⟨d, -, hd⟩ := List.mem_map.1 h
    split at hd
    · exact absurd hd (by decide)
    · rename_i hn
      exact hn (by simp [hd])

theorem crlf_lit : "\r\n".toList = crlf := by decide

/-- The response that is written. -/
def sentResponse (c : ReplyConn) (keys : List Str) (y : Sent) : HttpResponse where
  version := if c.modern then "HTTP/1.1".toList else "HTTP/1.0".toList
  status := y.status.toNat
  reason := reasonFor y.status.toNat
  fields := (responseFields c keys y).map fun f => (f.1, trimOws f.2)
  body := if c.method = "HEAD".toList then [] else bodyText (handedOver y)

theorem sentResponse_values {c : ReplyConn} {keys : List Str} {y : Sent} (he : Enumerates keys y.header)
    (hc : c.Text) (hn : ∀ k ∈ keys, canon k = k)
    (hok : ∀ f ∈ responseFields c keys y, validFieldName f.1 = true) (k : Str) (hk : k.all isTokenChar = true) :
    fieldValues (sentResponse c keys y).fields (toLower k) = (respValues c y (canon k)).map trimOws := by
  rw [← responseFields_values he]
  unfold fieldValues sentResponse
  simp only
  rw [List.filter_map, List.map_map, List.map_map]
  have : (responseFields c keys y).filter
      ((fun f : Str × Str => decide (toLower f.1 = toLower k)) ∘ fun f => (f.1, trimOws f.2)) =
      (responseFields c keys y).filter fun f => f.1 = canon k := by
    apply List.filter_congr
    intro f hf
    have h1 := hok f hf
    simp only [validFieldName, Bool.and_eq_true] at h1
    have hcan : canon f.1 = f.1 := by
      rcases responseFields_from hf with h | h
      · exact (extra_ok hc h).2.1
      · exact hn _ h.1
    have := name_eq h1.2 hk hcan
    simp only [Function.comp_apply]
    exact decide_eq_decide.2 (iff_of_eq this)
  rw [this]
  rfl

/-! ## Framing -/

/-- How handlers of the gateway set the headers that frame a body. -/
structure Framed (method : Str) (y : Sent) : Prop where
  te : y.header "Transfer-Encoding".toList = []
  length : method ≠ "HEAD".toList → y.header "Content-Length".toList = [] ∨ y.header "Content-Length".toList = ["0".toList] ∨
    y.header "Content-Length".toList = [natToDec y.body.length]

theorem get_cl {h : Hdr} : h.get "Content-Length".toList = (h "Content-Length".toList).headD [] := by
  unfold Hdr.get
  rw [canon_cl]

theorem values_te {c : ReplyConn} {y : Sent} (hf : y.header "Transfer-Encoding".toList = []) :
    respValues c y "Transfer-Encoding".toList = if chunking c y then ["chunked".toList] else [] := by
  unfold respValues
  rw [extra_values, hf]
  rw [if_neg (c := "Date".toList = _ ∧ _) (fun h => absurd h.1 (by decide)),
    if_neg (c := "Content-Length".toList = _) (by decide),
    if_neg (c := "Content-Type".toList = _ ∧ _) (fun h => absurd h.1 (by decide)),
    if_neg (c := "Connection".toList = _) (by decide)]
  simp only [List.map_nil, ite_self, List.nil_append, true_and]

theorem values_cl (c : ReplyConn) (y : Sent) : respValues c y "Content-Length".toList =
    (if bodyAllowed y.status = false ∨ chunking c y = true then [] else
      (y.header "Content-Length".toList).map fun v => trimString (newlineToSpace v)) ++
      ((ownLength c y).map natToDec).toList := by
  unfold respValues
  rw [extra_values]
  rw [if_neg (c := "Date".toList = _ ∧ _) (fun h => absurd h.1 (by decide)), if_pos (c := "Content-Length".toList = _) rfl,
    if_neg (c := "Content-Type".toList = _ ∧ _) (fun h => absurd h.1 (by decide)),
    if_neg (c := "Connection".toList = _) (by decide),
    if_neg (c := "Transfer-Encoding".toList = _ ∧ _) (fun h => absurd h.1 (by decide))]
  simp only [exclude_length, List.nil_append, List.append_nil]

theorem clean_digits (n : Nat) : trimString (newlineToSpace (natToDec n)) = natToDec n := by
  rw [newline_id (digits_text n), trim_eq (digits_text n), trimOws_digits]

theorem chunking_known {c : ReplyConn} {y : Sent} (h : lengthKnown c y = true) : chunking c y = false := by
  unfold chunking
  rw [h]
  rfl

theorem chunking_unknown {c : ReplyConn} {y : Sent} (h : lengthKnown c y = false) : chunking c y = c.modern := by
  unfold chunking
  rw [h]
  rfl

/-- Where a body may be, it is sized, or chunked, or, for an old client, ends with the connection, and is complete. -/
theorem framing {c : ReplyConn} {y : Sent} (hf : Framed c.method y) (hm : c.method ≠ "HEAD".toList)
    (hb : bodyAllowed y.status = true) :
    (chunking c y = false ∧ (respValues c y "Content-Length".toList) = [natToDec (handedOver y).length]) ∨
    (chunking c y = c.modern ∧ lengthKnown c y = false ∧ (respValues c y "Content-Length".toList) = []) := by
  have hun : declaredLength y.header = none → ownLength c y = none → lengthKnown c y = false := by
    intro hd ho
    unfold lengthKnown
    rw [hb, hd, ho]
    simp only [decide_eq_false hm, Option.isSome_none, Bool.not_true, Bool.or_self]
  rw [values_cl]
  simp only [hb, Bool.true_eq_false, false_or]
  rcases hf.length hm with h | h | h
  · have hg : y.header.get "Content-Length".toList = [] := by rw [get_cl, h]; rfl
    have hd : declaredLength y.header = none := by unfold declaredLength; rw [if_pos hg]
    cases ho : ownLength c y with
    | none =>
      right
      refine ⟨chunking_unknown (hun hd ho), hun hd ho, ?_⟩
      rw [h]
      simp
    | some n =>
      left
      have hk : chunking c y = false := chunking_known (by unfold lengthKnown; rw [ho]; simp)
      have hn : n = (handedOver y).length := by
        unfold ownLength at ho
        split at ho
        · exact (Option.some.inj ho).symm
        · cases ho
      rw [h, hn]
      simp [hk]
  · left
    have hg : y.header.get "Content-Length".toList = "0".toList := by rw [get_cl, h]; rfl
    have hd : declaredLength y.header = some 0 := by
      unfold declaredLength
      rw [hg, if_neg (by decide), show atoi "0".toList = some 0 by decide]
      rfl
    have ho : ownLength c y = none := by
      unfold ownLength
      rw [if_neg]
      rw [hg]
      exact fun h => absurd h.2.2.2.1 (by decide)
    have hk : chunking c y = false := chunking_known (by unfold lengthKnown; rw [hd]; simp)
    have hh : handedOver y = [] := by
      unfold handedOver
      rw [hb, hd]
      simp only [if_true]
      split
      · rfl
      · exact List.length_eq_zero_iff.1 (by omega)
    rw [h, ho, hh]
    simp only [hk, Bool.false_eq_true, if_false]
    exact ⟨trivial, by decide⟩
  · have hg : y.header.get "Content-Length".toList = natToDec y.body.length := by rw [get_cl, h]; rfl
    have ho : ownLength c y = none := by
      unfold ownLength
      rw [if_neg]
      rw [hg]
      exact fun h => absurd h.2.2.2.1 (natToDec_ne_nil _)
    by_cases hl : (y.body.length : Int) ≤ maxInt64
    · left
      have hd : declaredLength y.header = some y.body.length := by
        unfold declaredLength
        rw [hg, if_neg (natToDec_ne_nil _), atoi_natToDec, if_pos hl]
        simp
      have hk : chunking c y = false := chunking_known (by unfold lengthKnown; rw [hd]; simp)
      have hh : handedOver y = y.body := by
        unfold handedOver
        rw [hb, hd]
        simp
      rw [h, ho, hh]
      simp [hk, clean_digits]
    · have hd : declaredLength y.header = none := by
        unfold declaredLength
        rw [hg, if_neg (natToDec_ne_nil _), atoi_natToDec, if_neg hl]
      have hk := chunking_unknown (hun hd ho)
      have hh : handedOver y = y.body := by
        unfold handedOver
        rw [hb, hd]
        simp
      cases hmod : c.modern with
      | true =>
        rw [hmod] at hk
        right
        refine ⟨hk, hun hd ho, ?_⟩
        rw [ho]
        simp [hk]
      | false =>
        rw [hmod] at hk
        left
        rw [h, ho, hh]
        simp [hk, clean_digits]

theorem bodiless_iff {method : Str} {status : Int} (h1 : 100 ≤ status) :
    Bodiless method status.toNat ↔ (method = "HEAD".toList ∨ bodyAllowed status = false ∨
      (method = "CONNECT".toList ∧ 200 ≤ status ∧ status < 300)) := by
  unfold Bodiless bodyAllowed
  simp only [Bool.and_eq_false_iff, Bool.not_eq_false', Bool.and_eq_true, decide_eq_true_eq,
    decide_eq_false_iff_not, Classical.not_not]
  constructor
  · rintro (h | h | h | h | ⟨h, h2, h3⟩)
    · exact .inl h
    · exact .inr (.inl (.inl (.inl (by omega))))
    · exact .inr (.inl (.inl (.inr (by omega))))
    · exact .inr (.inl (.inr (by omega)))
    · exact .inr (.inr ⟨h, by omega, by omega⟩)
  · rintro (h | ((h | h) | h) | ⟨h, h2, h3⟩)
    · exact .inl h
    · exact .inr (.inl (by omega))
    · exact .inr (.inr (.inl (by omega)))
    · exact .inr (.inr (.inr (.inl (by omega))))
    · exact .inr (.inr (.inr (.inr ⟨h, by omega, by omega⟩)))

/-- A response that opens a tunnel declares a length of zero. -/
def TunnelEmpty (method : Str) (y : Sent) : Prop :=
  method = "CONNECT".toList → 200 ≤ y.status → y.status < 300 → y.header "Content-Length".toList = ["0".toList]

theorem declared_zero {y : Sent} (h : y.header "Content-Length".toList = ["0".toList]) :
    declaredLength y.header = some 0 ∧ handedOver y = [] := by
  have hd : declaredLength y.header = some 0 := by
    unfold declaredLength
    rw [get_cl, h]
    decide
  refine ⟨hd, ?_⟩
  unfold handedOver
  rw [hd]
  dsimp only
  split
  · split
    · rfl
    · rename_i h
      exact List.length_eq_zero_iff.1 (by omega)
  · rfl

/-- What is written in front of the body. -/
def responseHead (c : ReplyConn) (keys : List Str) (y : Sent) : Str :=
  (if c.modern then "HTTP/1.1 ".toList else "HTTP/1.0 ".toList) ++ (natToDec y.status.toNat ++ ' ' ::
    (reasonFor y.status.toNat ++ (crlf ++ ((responseFields c keys y).flatMap
      (fun f => f.1 ++ ": ".toList ++ f.2 ++ crlf) ++ crlf))))

theorem write_head (c : ReplyConn) (keys : List Str) (y : Sent) (more : Str) :
    writeResponse c keys y ++ more = responseHead c keys y ++ (responseBody c y ++ more) := by
  unfold writeResponse responseHead
  simp only [List.append_assoc, List.cons_append, crlf_lit]

/-- The version and the space behind it. -/
theorem version_space (c : ReplyConn) (keys : List Str) (y : Sent) :
    (if c.modern then "HTTP/1.1 ".toList else "HTTP/1.0 ".toList) = (sentResponse c keys y).version ++ [' '] := by
  unfold sentResponse
  simp only
  split <;> decide

/-- What is written in front of the body is read as what was meant. -/
theorem head_reads {c : ReplyConn} {keys : List Str} {y : Sent}
    (hok : ∀ f ∈ responseFields c keys y, validFieldName f.1 = true ∧ FieldText f.2)
    (h1 : 100 ≤ y.status) (h2 : y.status ≤ 999) {t body rest : Str}
    (hb : RespBody c.method (sentResponse c keys y).version y.status.toNat (sentResponse c keys y).fields t body rest) :
    ReadsResponse c.method (responseHead c keys y ++ t) { sentResponse c keys y with body := body } rest := by
  refine ⟨?_, reason_text _, natToDec y.status.toNat,
    (responseFields c keys y).map fun f => (f.1 ++ ": ".toList ++ f.2, (f.1, trimOws f.2)), t,
    three_digits (by omega) (by omega), fun _ => natToDec_isDigit, digitsVal_natToDec _, ?_, ?_, hb, ?_⟩
  · unfold sentResponse
    simp only
    split
    · exact .inl rfl
    · exact .inr rfl
  · intro l hl
    obtain ⟨f, hf, rfl⟩ := List.mem_map.1 hl
    obtain ⟨k1, k2⟩ := hok f hf
    exact fieldLine_write (token_of_valid k1) k2
  · simp only [List.map_map, sentResponse]
    rfl
  · unfold responseHead
    rw [version_space c keys y]
    rw [List.flatMap_map]
    simp only [List.append_assoc, List.cons_append, List.nil_append]
    rfl

/-- How the body is framed, for a client. -/
theorem body_reads {c : ReplyConn} {keys : List Str} {y : Sent} (he : Enumerates keys y.header)
    (hc : c.Text) (hn : ∀ k ∈ keys, canon k = k) (hf : Framed c.method y)
    (hok : ∀ f ∈ responseFields c keys y, validFieldName f.1 = true ∧ FieldText f.2)
    (h1 : 100 ≤ y.status) (hcm : TunnelEmpty c.method y) :
    (¬ UntilEnd c.method (sentResponse c keys y) ∧ ∀ more, RespBody c.method (sentResponse c keys y).version y.status.toNat
      (sentResponse c keys y).fields (responseBody c y ++ more) (sentResponse c keys y).body more) ∨
    (UntilEnd c.method (sentResponse c keys y) ∧ c.modern = false ∧ lengthKnown c y = false ∧
      responseBody c y = (sentResponse c keys y).body) := by
  have hval := sentResponse_values he hc hn (fun f hf => (hok f hf).1)
  by_cases hb : Bodiless c.method y.status.toNat
  · left
    refine ⟨fun h => h.1 hb, fun more => ?_⟩
    have hbody : (sentResponse c keys y).body = [] ∧ responseBody c y = [] := by
      rcases (bodiless_iff h1).1 hb with h | h | ⟨h, h2, h3⟩
      · exact ⟨if_pos h, if_pos h⟩
      rotate_left
      · obtain ⟨hd, hh⟩ := declared_zero (hcm h h2 h3)
        have hk : chunking c y = false := chunking_known (by unfold lengthKnown; rw [hd]; simp)
        unfold sentResponse responseBody
        simp only [hh, hk, bodyText, List.map_nil, Bool.false_eq_true, if_false]
        exact ⟨by split <;> rfl, by split <;> rfl⟩
      · have hh : handedOver y = [] := by unfold handedOver; rw [h]; rfl
        have hk : chunking c y = false := chunking_known (by unfold lengthKnown; rw [h]; simp only [Bool.not_false, Bool.or_true, Bool.true_or])
        unfold sentResponse responseBody
        simp only [hh, hk, bodyText, List.map_nil, Bool.false_eq_true, if_false]
        exact ⟨by split <;> rfl, by split <;> rfl⟩
    rw [hbody.1, hbody.2]
    exact .none hb
  · have hb' := hb
    rw [bodiless_iff h1, not_or, not_or] at hb'
    obtain ⟨hm, hal, -⟩ := hb'
    have hal : bodyAllowed y.status = true := by simpa using hal
    have hte := hval "Transfer-Encoding".toList (by decide)
    have hcl := hval "Content-Length".toList (by decide)
    rw [canon_te, show toLower "Transfer-Encoding".toList = "transfer-encoding".toList by decide, values_te hf.te] at hte
    rw [canon_cl, show toLower "Content-Length".toList = "content-length".toList by decide] at hcl
    have hbd : (sentResponse c keys y).body = bodyText (handedOver y) := by
      unfold sentResponse
      simp only
      rw [if_neg hm]
    have hraw : chunking c y = false → responseBody c y = bodyText (handedOver y) := by
      intro hk
      unfold responseBody
      rw [if_neg hm, hk]
      rfl
    rcases framing hf hm hal with ⟨hk, hv⟩ | ⟨hk, hun, hv⟩
    · left
      rw [hv, List.map_singleton, trimOws_digits] at hcl
      rw [hk] at hte
      refine ⟨fun h => ?_, fun more => ?_⟩
      · rw [h.2.2] at hcl
        cases hcl
      · rw [hraw hk, hbd]
        refine .sized hb hte hcl (natToDec_ne_nil _) (fun _ => natToDec_isDigit) ?_
        rw [digitsVal_natToDec]
        simp [bodyText]
    · rw [hv] at hcl
      rw [hk] at hte
      cases hmod : c.modern with
      | true =>
        rw [hmod] at hk hte
        left
        refine ⟨fun h => ?_, fun more => ?_⟩
        · rw [h.2.1] at hte
          cases hte
        rw [hbd]
        refine .chunked hb (by unfold sentResponse; simp only [hmod, if_true]) (by rw [hte]; decide) hcl ?_
        unfold responseBody
        rw [if_neg hm, hk]
        simp only [if_true]
        have hlast : Chunked ("0\r\n\r\n".toList ++ more) [] more :=
          Chunked.last (zeros := ['0']) (by simp) (by simp)
        split
        · rename_i h0
          rw [h0]
          exact hlast
        · rename_i h0
          have := Chunked.chunk (size := natToHex (handedOver y).length) (data := bodyText (handedOver y))
            (natToHex_ne _) (hex_digits _).1 (by simpa [bodyText] using h0)
            (by rw [(hex_digits _).2]; simp [bodyText]) hlast
          simpa [crlf] using this
      | false =>
        rw [hmod] at hk hte
        right
        exact ⟨⟨hb, hte, hcl⟩, rfl, hun, by rw [hraw hk, hbd]⟩

/-- What is written is read as what was meant, and what follows as what follows, unless the body ends with the
connection. -/
theorem sentResponse_reads {c : ReplyConn} {keys : List Str} {y : Sent} (he : Enumerates keys y.header)
    (hc : c.Text) (hn : ∀ k ∈ keys, canon k = k) (hf : Framed c.method y)
    (hok : ∀ f ∈ responseFields c keys y, validFieldName f.1 = true ∧ FieldText f.2)
    (h1 : 100 ≤ y.status) (h2 : y.status ≤ 999) (hcm : TunnelEmpty c.method y) (more : Str)
    (hmore : UntilEnd c.method (sentResponse c keys y) → more = []) :
    ReadsResponse c.method (writeResponse c keys y ++ more) (sentResponse c keys y) more := by
  rw [write_head]
  refine head_reads (body := (sentResponse c keys y).body) hok h1 h2 ?_
  rcases body_reads he hc hn hf hok h1 hcm with ⟨-, h⟩ | ⟨h, -, -, hb⟩
  · exact h more
  · rw [hmore h, List.append_nil, hb]
    exact .untilEnd h.1 h.2.1 h.2.2

/-- Whatever follows, something is read, and it has the same fields. -/
theorem something_reads {c : ReplyConn} {keys : List Str} {y : Sent} (he : Enumerates keys y.header)
    (hc : c.Text) (hn : ∀ k ∈ keys, canon k = k) (hf : Framed c.method y)
    (hok : ∀ f ∈ responseFields c keys y, validFieldName f.1 = true ∧ FieldText f.2)
    (h1 : 100 ≤ y.status) (h2 : y.status ≤ 999) (hcm : TunnelEmpty c.method y) (more : Str) :
    ∃ body rest, ReadsResponse c.method (writeResponse c keys y ++ more) { sentResponse c keys y with body := body } rest := by
  rw [write_head]
  rcases body_reads he hc hn hf hok h1 hcm with ⟨-, h⟩ | ⟨h, -⟩
  · exact ⟨_, _, head_reads hok h1 h2 (h more)⟩
  · exact ⟨_, _, head_reads hok h1 h2 (.untilEnd h.1 h.2.1 h.2.2)⟩

/-- What is written can be read only if all fields can. -/
theorem response_forced {c : ReplyConn} {keys : List Str} {y : Sent} (h1 : 100 ≤ y.status) (h2 : y.status ≤ 999)
    (hf : ∀ f ∈ responseFields c keys y, ':' ∉ f.1 ∧ '\n' ∉ f.1 ∧ '\r' ∉ f.2) {method more : Str} {m : HttpResponse}
    {rest : Str} (h : ReadsResponse method (writeResponse c keys y ++ more) m rest) :
    ∀ f ∈ responseFields c keys y, Token f.1 ∧ FieldText f.2 := by
  obtain ⟨code, lines, s, k1, -, -, k4, -, -, e⟩ := h.text
  have e0 : writeResponse c keys y ++ more = (sentResponse c keys y).version ++ ' ' :: (natToDec y.status.toNat ++ ' ' ::
      (reasonFor y.status.toNat ++ '\r' :: '\n' ::
      ((responseFields c keys y).flatMap (fun f => f.1 ++ ": ".toList ++ f.2 ++ "\r\n".toList) ++ (crlf ++
      (responseBody c y ++ more))))) := by
    rw [write_head]
    unfold responseHead
    rw [version_space c keys y]
    simp only [List.append_assoc, List.cons_append, crlf_lit]
    simp only [crlf, List.cons_append, List.nil_append]
  rw [e0] at e
  have hlen : (sentResponse c keys y).version.length = m.version.length := by
    unfold sentResponse
    simp only
    rcases h.version with h | h <;> rw [h] <;> split <;> decide
  obtain ⟨-, e⟩ := List.append_inj e hlen
  obtain ⟨-, e2⟩ := List.append_inj (List.cons.inj e).2
    ((three_digits (by omega) (by omega)).trans k1.symm)
  have e3 := (List.cons.inj e2).2
  simp only [crlf, List.cons_append, List.nil_append] at e3
  obtain ⟨-, e5⟩ := cut_unique (text_no_cr (reason_text _)) (text_no_cr h.reason) e3
  have e6 := (List.cons.inj e5).2
  exact fields_forced (x := responseBody c y ++ more) (y := s) hf k4 (by simpa [crlf] using e6)

end J8a
