import Verif.Lemmas.Base64
import Verif.Lemmas.JsonSound
import Verif.Lemmas.Str
import Verif.Model.Kid
import Verif.Model.JwtAuth
/-!
# The key id of a token

Property C127 (proxy.go:576-597, 680-702). The header of a token is a JSON object, in UTF-8, in base64url. The
issuer is free in how it writes the object: white space, the order of the members, escapes in strings and names,
further members of any kind. What is read as the key id does not depend on that. The library's float64
range is the parameter `fits`; nesting deeper than 10000 is refused by the library.
-/
namespace J8a
open Go

variable {K : Type}

theorem utf8Char_byte (u : Char) : ∀ c ∈ utf8Char u, c.toNat < 256 := by
  intro c hc
  have hv := char_valid u
  unfold utf8Char at hc
  simp only at hc
  split at hc
  · simp only [List.mem_cons, List.not_mem_nil, or_false] at hc
    subst hc; rw [ofNat_toNat_lt (by omega)]; omega
  · split at hc
    · simp only [List.mem_cons, List.not_mem_nil, or_false] at hc
      rcases hc with rfl | rfl <;> rw [ofNat_toNat_lt (by omega)] <;> omega
    · split at hc
      · simp only [List.mem_cons, List.not_mem_nil, or_false] at hc
        rcases hc with rfl | rfl | rfl <;> rw [ofNat_toNat_lt (by omega)] <;> omega
      · simp only [List.mem_cons, List.not_mem_nil, or_false] at hc
        rcases hc with rfl | rfl | rfl | rfl <;> rw [ofNat_toNat_lt (by omega)] <;> omega

theorem utf8_bytes (t : List Char) : ∀ c ∈ utf8 t, c.toNat < 256 := by
  induction t with
  | nil => intro c hc; simp [utf8] at hc
  | cons a t ih =>
    intro c hc
    rw [utf8_cons, List.mem_append] at hc
    rcases hc with hc | hc
    · exact utf8Char_byte a c hc
    · exact ih c hc

/-- RFC 7515, section 7.1: the text `hdr` is the header of the token, and it is an object with these members. -/
def HasHeader (fits : Str → Bool) (token : Str) (ms : List (Str × JTree)) : Prop :=
  ∃ w1 hdr w2 rest, JsonWs w1 ∧ JsonWs w2 ∧
    JsonText (fun s => fits s = true) 10000 hdr (.value (.obj ms)) ∧
    token = base64url (utf8 (w1 ++ hdr ++ w2)) ++ '.' :: rest

theorem extractKid_header {fits : Str → Bool} {token : Str} {ms : List (Str × JTree)}
    (h : HasHeader fits token ms) : extractKid fits token =
      match mapEntry "kid".toList ms with
      | some (.str s) => s
      | _ => [] := by
  obtain ⟨w1, hdr, w2, rest, h1, h2, ht, rfl⟩ := h
  unfold extractKid
  rw [split_append _ _ _ (fun hm => (base64url_plain _ _ hm).2.2 rfl), List.headD_cons,
    b64Decode_base64url _ (utf8_bytes _)]
  simp only [jsonDecode_spec h1 h2 ht]
  rfl

theorem mapEntry_last {k : Str} {v : JTree} {pre post : List (Str × JTree)}
    (h : ∀ m ∈ post, m.1 ≠ k) : mapEntry k (pre ++ (k, v) :: post) = some v := by
  have hn : post.reverse.find? (fun m => decide (m.1 = k)) = none := by
    rw [List.find?_eq_none]
    intro m hm; simpa using h m (List.mem_reverse.1 hm)
  simp [mapEntry, List.find?_append, hn]

theorem mapEntry_none {k : Str} {ms : List (Str × JTree)} (h : ∀ m ∈ ms, m.1 ≠ k) :
    mapEntry k ms = none := by
  have hn : ms.reverse.find? (fun m => decide (m.1 = k)) = none := by
    rw [List.find?_eq_none]
    intro m hm; simpa using h m (List.mem_reverse.1 hm)
  simp [mapEntry, hn]

/-! ## The property -/

/-- **C127.** The key id is the string of the member `kid`; of the last one, where the name occurs more
than once (RFC 7515, section 4). -/
theorem C127_kid (fits : Str → Bool) (token s : Str) (pre post : List (Str × JTree))
    (h : HasHeader fits token (pre ++ ("kid".toList, .str s) :: post))
    (hlast : ∀ m ∈ post, m.1 ≠ "kid".toList) : extractKid fits token = s := by
  rw [extractKid_header h, mapEntry_last hlast]

/-- A header without the member has no key id. -/
theorem C127_no_kid (fits : Str → Bool) (token : Str) (ms : List (Str × JTree))
    (h : HasHeader fits token ms) (hno : ∀ m ∈ ms, m.1 ≠ "kid".toList) : extractKid fits token = [] := by
  rw [extractKid_header h, mapEntry_none hno]

/-- A member that is not a string is no key id (RFC 7515, section 4.1.4: "Its value MUST be a case-sensitive
string"). -/
theorem C127_not_string (fits : Str → Bool) (token : Str) (v : JTree) (pre post : List (Str × JTree))
    (h : HasHeader fits token (pre ++ ("kid".toList, v) :: post))
    (hlast : ∀ m ∈ post, m.1 ≠ "kid".toList) (hv : ∀ s, v ≠ .str s) : extractKid fits token = [] := by
  rw [extractKid_header h, mapEntry_last hlast]
  cases v with
  | str s => exact absurd rfl (hv s)
  | _ => rfl

/-- A first segment with a character that is neither of the alphabet nor a line break has no key id. -/
theorem C127_garbage (fits : Str → Bool) (seg rest : Str) (hdot : '.' ∉ seg) (c : Char) (hc : c ∈ seg)
    (hal : c ∉ b64Alphabet) (hn : c ≠ '\n') (hr : c ≠ '\r') :
    extractKid fits (seg ++ '.' :: rest) = [] := by
  have hv : b64Val c = none := by
    unfold b64Val
    have key : ∀ n : Fin 256, Char.ofNat n ∉ b64Alphabet → b64Val (Char.ofNat n) = none := by
      decide +kernel
    by_cases hlt : c.toNat < 256
    · have := key ⟨c.toNat, hlt⟩
      simp only [Char.ofNat_toNat] at this
      simpa [b64Val] using this hal
    · have hgt : ∀ x : Char, x.toNat < 256 → ¬ c ≤ x := by
        intro x hx hle
        have : c.toNat ≤ x.toNat := hle
        omega
      rw [if_neg (fun h => hgt 'Z' (by decide) h.2), if_neg (fun h => hgt 'z' (by decide) h.2),
        if_neg (fun h => hgt '9' (by decide) h.2), if_neg (by rintro rfl; exact hlt (by decide)),
        if_neg (by rintro rfl; exact hlt (by decide))]
  have hm : ∀ l : Str, c ∈ l → l.mapM b64Val = none := by
    intro l
    induction l with
    | nil => intro h; simp at h
    | cons a l ih =>
      intro h
      rw [List.mapM_cons]
      rcases List.mem_cons.1 h with rfl | h
      · rw [hv]; rfl
      · rw [ih h]
        cases b64Val a <;> rfl
  have hd : b64Decode seg = none := by
    unfold b64Decode
    rw [hm _ (by simp [hc, hn, hr])]; rfl
  unfold extractKid
  rw [split_append _ _ _ hdot, List.headD_cons, hd]

theorem split_first (token : Str) : ∃ rest, token = (split '.' token).headD [] ++ rest ∧
    '.' ∉ (split '.' token).headD [] ∧ (rest = [] ∨ ∃ r, rest = '.' :: r) := by
  by_cases h : '.' ∈ token
  · obtain ⟨a, b, rfl, ha⟩ := List.eq_append_cons_of_mem h
    rw [split_append '.' a b ha]
    exact ⟨_, rfl, ha, .inr ⟨b, rfl⟩⟩
  · rw [split_no_occ '.' token h]
    exact ⟨[], (List.append_nil _).symm, h, .inl rfl⟩

theorem mapEntry_inv {k : Str} {v : JTree} {ms : List (Str × JTree)} (h : mapEntry k ms = some v) :
    ∃ pre post, ms = pre ++ (k, v) :: post ∧ ∀ m ∈ post, m.1 ≠ k := by
  unfold mapEntry at h
  cases hf : ms.reverse.find? (fun m => decide (m.1 = k)) with
  | none => rw [hf] at h; cases h
  | some m =>
    rw [hf] at h
    cases h
    rw [List.find?_eq_some_iff_append] at hf
    obtain ⟨hk, as, bs, e, hall⟩ := hf
    refine ⟨bs.reverse, as.reverse, ?_, fun m hm => ?_⟩
    · rw [← List.reverse_reverse ms, e]
      have : m.1 = k := by simpa using hk
      simp [← this]
    · simpa using hall m (List.mem_reverse.1 hm)

/-- Nothing else is a key id: where there is one, the token begins with the base64url of a JSON object whose last member
`kid` is that string. The JSON and the base64url are what the libraries take for such: strings may contain halves of
surrogates and bytes that are no UTF-8, which become replacement characters, base64url may contain line breaks, and bits
that are left over do not count. -/
theorem C127_only (fits : Str → Bool) (token : Str) (h : extractKid fits token ≠ []) :
    ∃ seg rest bytes w1 hdr w2 pre post, token = seg ++ rest ∧ '.' ∉ seg ∧ (rest = [] ∨ ∃ r, rest = '.' :: r) ∧
      Base64Of seg bytes ∧ bytes = w1 ++ hdr ++ w2 ∧ JsonWs w1 ∧ JsonWs w2 ∧
      JsonTextOf LooseChars (fun s => fits s = true) 10000 hdr
        (.value (.obj (pre ++ ("kid".toList, .str (extractKid fits token)) :: post))) ∧
      ∀ m ∈ post, m.1 ≠ "kid".toList := by
  obtain ⟨rest, h1, h2, h3⟩ := split_first token
  unfold extractKid at h ⊢
  cases hb : b64Decode ((split '.' token).headD []) with
  | none => rw [hb] at h; exact absurd rfl h
  | some bytes =>
    rw [hb] at h
    dsimp only at h ⊢
    cases hj : jsonDecode fits bytes with
    | none => rw [hj] at h; exact absurd rfl h
    | some v =>
      rw [hj] at h
      cases v with
      | null | bool | num | str | arr => exact absurd rfl h
      | obj ms =>
        dsimp only at h ⊢
        cases hm : mapEntry "kid".toList ms with
        | none => rw [hm] at h; exact absurd rfl h
        | some v =>
          rw [hm] at h
          cases v with
          | null | bool | num | arr | obj => exact absurd rfl h
          | str s =>
            obtain ⟨w1, hdr, w2, e, hw1, hw2, ht⟩ := jsonDecode_sound hj
            obtain ⟨pre, post, rfl, hpost⟩ := mapEntry_inv hm
            exact ⟨_, rest, bytes, w1, hdr, w2, pre, post, h1, h2, h3, b64Decode_sound hb, e, hw1, hw2, ht, hpost⟩

/-- The consequence: a token that names a key of the key set and is signed with it is accepted by the signature
check with what it claims, whatever other keys there are. -/
theorem C127_named_key (fits : Str → Bool) (L : Jwx K) (hL : L.kid = extractKid fits) (alg token s : Str)
    (ks : KeySet K) (pre post : List (Str × JTree))
    (h : HasHeader fits token (pre ++ ("kid".toList, .str s) :: post))
    (hlast : ∀ m ∈ post, m.1 ≠ "kid".toList) (hs : s ≠ []) (key : K) (hk : ks.find s = some key)
    (n : Nat) (hsig : L.signatures token = some (n + 1)) (c : Claims)
    (hc : L.parseVerify alg key token = some c) : verifySignature L alg token ks = .ok (some c) := by
  have hkid : L.kid token = s := by rw [hL]; exact C127_kid fits token s pre post h hlast
  have hpos : 0 < s.length := List.length_pos_iff.2 hs
  simp [verifySignature, hsig, hkid, hpos, hk, hc, hs]

/-- And a token that names a key the key set does not have makes j8a fetch the key set, where it has a URL. -/
theorem C127_unknown_key (fits : Str → Bool) (L : Jwx K) (hL : L.kid = extractKid fits) (j : Jwt K)
    (token s : Str) (ks : KeySet K) (pre post : List (Str × JTree))
    (h : HasHeader fits token (pre ++ ("kid".toList, .str s) :: post))
    (hlast : ∀ m ∈ post, m.1 ≠ "kid".toList) (hs : s ≠ []) (hk : ks.find s = none)
    (n : Nat) (hsig : L.signatures token = some (n + 1)) (hurl : j.jwksUrl ≠ []) :
    triggersRefresh L j token ks = true := by
  have hkid : L.kid token = s := by rw [hL]; exact C127_kid fits token s pre post h hlast
  have hpos : 0 < s.length := List.length_pos_iff.2 hs
  have hpos' : 0 < j.jwksUrl.length := List.length_pos_iff.2 hurl
  simp [triggersRefresh, hsig, hkid, hpos, hk, hpos']

/-- A header as issuers write it: `{"alg":"RS256", "kid":"aé"}`. -/
example : HasHeader (fun _ => true)
    (base64url (utf8 "{\"alg\":\"RS256\", \"kid\":\"a\\u00e9\"}".toList) ++ ".e30.c2ln".toList)
    ([("alg".toList, .str "RS256".toList)] ++ ("kid".toList, .str (utf8 "aé".toList)) :: []) := by
  refine ⟨[], "{\"alg\":\"RS256\", \"kid\":\"a\\u00e9\"}".toList, [], "e30.c2ln".toList, by simp [JsonWs],
    by simp [JsonWs], ?_, by simp⟩
  have p : ∀ {c : Char} {t v : List Char}, (c ≠ '"' ∧ c ≠ '\\' ∧ 0x20 ≤ c.toNat) → JsonChars t v →
      JsonChars (c :: t) (c :: v) := fun h => .plain h.1 h.2.1 h.2.2
  have q : ∀ {t v : List Char}, JsonChars t v → strictChars t (utf8 v) := fun h => ⟨_, h, rfl⟩
  have k1 : JsonChars "alg".toList "alg".toList :=
    p (by decide) (p (by decide) (p (by decide) .nil))
  have k2 : JsonChars "kid".toList "kid".toList :=
    p (by decide) (p (by decide) (p (by decide) .nil))
  have v1 : JsonChars "RS256".toList "RS256".toList :=
    p (by decide) (p (by decide) (p (by decide) (p (by decide) (p (by decide) .nil))))
  have v2 : JsonChars "a\\u00e9".toList "aé".toList :=
    p (by decide) (.hex (a := '0') (b := '0') (c := 'e') (d := '9') (by decide) .nil)
  exact .obj (.moreMembers (w1 := []) (w2 := []) (w3 := []) (w4 := []) (by simp [JsonWs]) (by simp [JsonWs])
    (by simp [JsonWs]) (by simp [JsonWs]) (q k1) (.str (q v1))
    (.member (w1 := [' ']) (w2 := []) (w3 := []) (w4 := []) (by simp [JsonWs]) (by simp [JsonWs])
      (by simp [JsonWs]) (by simp [JsonWs]) (q k2) (.str (q v2))))

/-- The same, run. -/
example : extractKid (fun _ => true)
    "eyJhbGciOiJSUzI1NiIsICJraWQiOiJhXHUwMGU5In0.e30.c2ln".toList = utf8 "aé".toList := by decide +kernel

/-- Garbage. -/
example : extractKid (fun _ => true) "{\"kid\":\"a\"}.e30.c2ln".toList = [] :=
  C127_garbage _ "{\"kid\":\"a\"}".toList _ (by decide) '{' (by decide) (by decide) (by decide) (by decide)

/-- A token without a second segment, with line breaks in the first, and with two halves of surrogates in the wrong order
in the key id: `{"kid":"\udc00\ud800"}`. -/
example : extractKid (fun _ => true) "eyJraWQiOiJcd\nWRjMDBcdWQ4MDAifQ".toList = replacement ++ replacement := by
  decide +kernel

/-- A control character in a string is no JSON. -/
example : extractKid (fun _ => true) (base64url "{\"kid\":\"a\tb\"}".toList) = [] := by decide +kernel

end J8a
