import Verif.Model.RequestId
import Verif.Spec.Uuid
import Verif.Props.Requests
/-!
# C143: a request without an id gets one of its own
-/
namespace J8a
open Go

variable {K : Type}

/-! ## Text and octets -/

theorem digit_hexNibble : ∀ n, n < 16 → Uuid.digit (hexNibble n) = some n := by decide

theorem octets_hexEncode (b : Bytes) (r : Str) :
    Uuid.octets b.length (hexEncode b ++ r) = some (b.map UInt8.toNat, r) := by
  induction b with
  | nil => rfl
  | cons x b ih =>
    have hx := x.toNat_lt
    have h1 := digit_hexNibble (x.toNat / 16) (by omega)
    have h2 := digit_hexNibble (x.toNat % 16) (by omega)
    have h3 : 16 * (x.toNat / 16) + x.toNat % 16 = x.toNat := by omega
    have he : hexEncode (x :: b) ++ r =
        hexNibble (x.toNat / 16) :: hexNibble (x.toNat % 16) :: (hexEncode b ++ r) := by
      simp [hexEncode]
    rw [he]
    simp only [List.length_cons, Uuid.octets, h1, h2, ih, Option.bind_eq_bind, Option.bind_some, h3]
    rfl

theorem octets_hexEncode' (n : Nat) (b : Bytes) (r : Str) (h : b.length = n) :
    Uuid.octets n (hexEncode b ++ r) = some (b.map UInt8.toNat, r) := h ▸ octets_hexEncode b r

/-- The text of sixteen octets reads as these octets. -/
theorem read_uuidString (u : Bytes) (h : u.length = 16) : Uuid.read (uuidString u) = some (u.map UInt8.toNat) := by
  have e5 : hexEncode (u.drop 10) = hexEncode (u.drop 10) ++ [] := by simp
  unfold Uuid.read uuidString
  simp only [List.append_assoc, List.cons_append]
  rw [octets_hexEncode' 4 _ _ (by simp [h])]
  simp only [Option.bind_eq_bind, Option.bind_some, Uuid.hyphen]
  rw [octets_hexEncode' 2 _ _ (by simp [h])]
  simp only [Option.bind_some]
  rw [octets_hexEncode' 2 _ _ (by simp [h])]
  simp only [Option.bind_some]
  rw [octets_hexEncode' 2 _ _ (by simp [h])]
  simp only [Option.bind_some]
  rw [e5, octets_hexEncode' 6 _ _ (by simp [h])]
  simp only [Option.bind_some, if_true, Option.some.injEq, ← List.map_append]
  congr 1
  have a1 : (u.drop 4).take 2 = (u.take 6).drop 4 := by rw [List.drop_take]
  have a2 : (u.drop 6).take 2 = (u.take 8).drop 6 := by rw [List.drop_take]
  have a3 : (u.drop 8).take 2 = (u.take 10).drop 8 := by rw [List.drop_take]
  have b1 : u.take 4 ++ (u.take 6).drop 4 = u.take 6 := by
    rw [show u.take 4 = (u.take 6).take 4 by rw [List.take_take]; rfl, List.take_append_drop]
  have b2 : u.take 6 ++ (u.take 8).drop 6 = u.take 8 := by
    rw [show u.take 6 = (u.take 8).take 6 by rw [List.take_take]; rfl, List.take_append_drop]
  have b3 : u.take 8 ++ (u.take 10).drop 8 = u.take 10 := by
    rw [show u.take 8 = (u.take 10).take 8 by rw [List.take_take]; rfl, List.take_append_drop]
  rw [a1, a2, a3, ← List.append_assoc, b1, ← List.append_assoc, b2, ← List.append_assoc, b3, List.take_append_drop]

theorem octet6_bits (x : UInt8) : (x &&& 0x0f ||| 0x40).toNat / 16 = 4 ∧ (x &&& 0x0f ||| 0x40).toNat % 16 = x.toNat % 16 := by
  have h : ∀ n, n < 256 → (UInt8.ofNat n &&& 0x0f ||| 0x40).toNat / 16 = 4 ∧
      (UInt8.ofNat n &&& 0x0f ||| 0x40).toNat % 16 = n % 16 := by decide +kernel
  have := h x.toNat x.toNat_lt
  rwa [UInt8.ofNat_toNat] at this

theorem octet8_bits (x : UInt8) : (x &&& 0x3f ||| 0x80).toNat / 64 = 2 ∧ (x &&& 0x3f ||| 0x80).toNat % 64 = x.toNat % 64 := by
  have h : ∀ n, n < 256 → (UInt8.ofNat n &&& 0x3f ||| 0x80).toNat / 64 = 2 ∧
      (UInt8.ofNat n &&& 0x3f ||| 0x80).toNat % 64 = n % 64 := by decide +kernel
  have := h x.toNat x.toNat_lt
  rwa [UInt8.ofNat_toNat] at this

/-- What `NewRandom` makes of sixteen random bytes. -/
theorem newRandom_octets (r rest : Bytes) (h : r.length = 16) :
    (newRandom (r ++ rest)).1.length = 16 ∧
    Uuid.RandomFrom (r.map UInt8.toNat) ((newRandom (r ++ rest)).1.map UInt8.toNat) := by
  have hr : readFull16 (r ++ rest) = some r := by
    unfold readFull16
    rw [if_pos (by simp [h]), ← h, List.take_left]
  unfold newRandom
  rw [hr]
  match r, h with
  | [b0, b1, b2, b3, b4, b5, b6, b7, b8, b9, b10, b11, b12, b13, b14, b15], _ =>
    refine ⟨rfl, rfl, (octet6_bits b6).1, (octet8_bits b8).1, (octet6_bits b6).2, (octet8_bits b8).2, ?_⟩
    intro i h6 h8 hi
    match i, hi with
    | 0, _ => rfl
    | 1, _ => rfl
    | 2, _ => rfl
    | 3, _ => rfl
    | 4, _ => rfl
    | 5, _ => rfl
    | 6, _ => exact absurd rfl h6
    | 7, _ => rfl
    | 8, _ => exact absurd rfl h8
    | 9, _ => rfl
    | 10, _ => rfl
    | 11, _ => rfl
    | 12, _ => rfl
    | 13, _ => rfl
    | 14, _ => rfl
    | 15, _ => rfl
    | n + 16, hi => exact absurd hi (by omega)

/-! ## C143 -/

/-- C143, part: as long as there are random numbers, a request that brings no id has one of the form
XR-server-UUID on every request to an upstream and in the response, the UUID being a random one of RFC 4122. Missing:
what happens without random numbers. -/
theorem C143_form_partial (x : Setup K) (r rest : Bytes) (hr : r.length = 16)
    (hn : x.rq.header.get "X-Request-Id".toList = []) (s : St) (h : (x.drawing (r ++ rest)).Reaches s) :
    ∃ t u, Uuid.read t = some u ∧ Uuid.RandomFrom (r.map UInt8.toNat) u ∧
      (∀ p ∈ s.calls, p.2.header "X-Request-Id".toList = ["XR-".toList ++ x.sv.id ++ "-".toList ++ t]) ∧
      ∀ y ∈ s.sent, (y.header "X-Request-Id".toList).head? = some ("XR-".toList ++ x.sv.id ++ "-".toList ++ t) := by
  obtain ⟨hl, hu⟩ := newRandom_octets r rest hr
  have hid : requestId (x.drawing (r ++ rest)).sv.id (x.drawing (r ++ rest)).uuid (x.drawing (r ++ rest)).rq =
      "XR-".toList ++ x.sv.id ++ "-".toList ++ randomPart (r ++ rest) := by
    have e := xrid_eq (x.drawing (r ++ rest))
    rw [← e]
    unfold Setup.xrid createXRequestID
    have : (x.drawing (r ++ rest)).rq.header.get xRequestID = [] := hn
    simp only [this, List.length_nil, if_true]
    rfl
  obtain ⟨h1, h2⟩ := C32_request_id (x.drawing (r ++ rest)) s h
  refine ⟨randomPart (r ++ rest), _, read_uuidString _ hl, hu, fun p hp => ?_, fun y hy => ?_⟩
  · rw [h1 p hp, hid]
  · obtain ⟨l, e⟩ := h2 y hy
    rw [e, hid]
    rfl

theorem sameBits_of_random {r r' u : List Nat} (h : Uuid.RandomFrom r u) (h' : Uuid.RandomFrom r' u) :
    Uuid.SameBits r r' :=
  ⟨h.octet6.symm.trans h'.octet6, h.octet8.symm.trans h'.octet8,
    fun i a b c => (h.others i a b c).symm.trans (h'.others i a b c)⟩

theorem random_unique {r r' u u' : List Nat} (h : Uuid.RandomFrom r u) (h' : Uuid.RandomFrom r' u')
    (hs : Uuid.SameBits r r') : u = u' := by
  have hg : ∀ i, i < 16 → u.getD i 0 = u'.getD i 0 := by
    intro i hi
    by_cases h6 : i = 6
    · subst h6
      have a := h.version; have b := h'.version; have c := h.octet6; have d := h'.octet6; have e := hs.octet6
      omega
    by_cases h8 : i = 8
    · subst h8
      have a := h.variant; have b := h'.variant; have c := h.octet8; have d := h'.octet8; have e := hs.octet8
      omega
    rw [h.others i h6 h8 hi, h'.others i h6 h8 hi, hs.others i h6 h8 hi]
  apply List.ext_getElem (by rw [h.length, h'.length])
  intro i h1 h2
  have := hg i (by have := h.length; omega)
  rwa [List.getD_eq_getElem?_getD, List.getD_eq_getElem?_getD, List.getElem?_eq_getElem h1, List.getElem?_eq_getElem h2,
    Option.getD_some, Option.getD_some] at this

/-- C143, part: two requests of a server that bring no id get the same one only if the source of random numbers gave
the same 122 bits for both. Missing: requests that bring an id, and what happens without random numbers. -/
theorem C143_distinct_partial (id : Str) (q q' : Request) (r r' rest rest' : Bytes) (hr : r.length = 16)
    (hr' : r'.length = 16) (hq : q.header.get "X-Request-Id".toList = []) (hq' : q'.header.get "X-Request-Id".toList = []) :
    createXRequestID id (randomPart (r ++ rest)) q = createXRequestID id (randomPart (r' ++ rest')) q' ↔
      Uuid.SameBits (r.map UInt8.toNat) (r'.map UInt8.toNat) := by
  obtain ⟨hl, hu⟩ := newRandom_octets r rest hr
  obtain ⟨hl', hu'⟩ := newRandom_octets r' rest' hr'
  have e : createXRequestID id (randomPart (r ++ rest)) q = ("XR-".toList ++ id ++ "-".toList) ++ randomPart (r ++ rest) := by
    unfold createXRequestID
    have : q.header.get xRequestID = [] := hq
    simp only [this, List.length_nil, if_true]
  have e' : createXRequestID id (randomPart (r' ++ rest')) q' =
      ("XR-".toList ++ id ++ "-".toList) ++ randomPart (r' ++ rest') := by
    unfold createXRequestID
    have : q'.header.get xRequestID = [] := hq'
    simp only [this, List.length_nil, if_true]
  rw [e, e']
  constructor
  · intro h
    have h := congrArg Uuid.read (List.append_cancel_left h)
    unfold randomPart at h
    rw [read_uuidString _ hl, read_uuidString _ hl'] at h
    rw [← Option.some.inj h] at hu'
    exact sameBits_of_random hu hu'
  · intro h
    have h := random_unique hu hu' h
    have hb : (newRandom (r ++ rest)).1 = (newRandom (r' ++ rest')).1 := by
      have := congrArg (List.map UInt8.ofNat) h
      simpa [List.map_map, Function.comp_def, UInt8.ofNat_toNat] using this
    unfold randomPart
    rw [hb]

/-- C143 fails when the source of random numbers does: all requests without an id get the same one. -/
theorem C143_violated_source (id : Str) (q : Request) (src : Bytes) (hs : src.length < 16)
    (hq : q.header.get "X-Request-Id".toList = []) :
    createXRequestID id (randomPart src) q =
      "XR-".toList ++ id ++ "-00000000-0000-0000-0000-000000000000".toList := by
  have : randomPart src = "00000000-0000-0000-0000-000000000000".toList := by
    unfold randomPart newRandom readFull16
    rw [if_neg (by omega)]
    decide +kernel
  unfold createXRequestID
  have h : q.header.get xRequestID = [] := hq
  rw [this]
  simp only [h, List.length_nil, if_true, List.append_assoc]
  rfl

/-- C143 fails for a client that sends the id of another request: it gets that one again. -/
theorem C143_violated_chosen (id uuid uuid' : Str) (q q' : Request)
    (h : q'.header.get "X-Request-Id".toList = createXRequestID id uuid q) :
    createXRequestID id uuid' q' = createXRequestID id uuid q := by
  have hne : (createXRequestID id uuid q).length ≠ 0 := by
    unfold createXRequestID
    by_cases hl : (q.header.get xRequestID).length = 0
    · simp [hl]
    · simp only [hl, if_false]
      exact hl
  have h' : q'.header.get xRequestID = createXRequestID id uuid q := h
  conv => lhs; unfold createXRequestID
  simp only [h', hne, if_false]

/-- Two requests, the second with the id that the first one got. -/
example : createXRequestID "abc".toList "v".toList
      { Demo.request with header := [("X-Request-Id".toList, ["XR-abc-u".toList])] } =
    createXRequestID "abc".toList "u".toList Demo.request := by decide +kernel

/-- Sixteen bytes, and the id made from them, on both attempts and in the response. -/
example :
    let src : Bytes := [0, 1, 2, 3, 4, 5, 0xf6, 7, 0xff, 9, 10, 11, 12, 13, 14, 0xab]
    randomPart src = "00010203-0405-4607-bf09-0a0b0c0d0eab".toList ∧
    Demo.check (Demo.setup.drawing src) (Demo.failed 0 ++ Demo.attempt 1 Demo.ok) (fun s =>
      s.calls.map (fun p => p.2.header "X-Request-Id".toList) ==
        [["XR-abc-00010203-0405-4607-bf09-0a0b0c0d0eab".toList], ["XR-abc-00010203-0405-4607-bf09-0a0b0c0d0eab".toList]] &&
      s.sent.map (fun y => y.header "X-Request-Id".toList) ==
        [["XR-abc-00010203-0405-4607-bf09-0a0b0c0d0eab".toList]]) = true := by
  decide +kernel

end J8a
