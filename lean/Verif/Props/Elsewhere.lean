import Verif.Props.Basic
/-!
# C171: requests and credentials that go where the client says
-/
namespace J8a
open Go Uri

variable {K : Type}

/-- RFC 3986 §3.2.2 and §3.2.3: a registered name or IPv4 address, or any host with a port. -/
def HostPort (H : Str) : Prop :=
  (H ≠ [] ∧ ∀ c ∈ H, c ∈ unreserved ∨ c ∈ subDelims) ∨ ∃ h n, HostName h ∧ H = h ++ ':' :: natToDec n

theorem hostPort_parse {H : Str} (h : HostPort H) : parseHost H = some H ∧ H.getLast? ≠ some ':' ∧
    ∀ c ∈ H, c ∈ nameChars ++ addrChars ++ digit ++ ":[]".toList := by
  rcases h with ⟨-, hc⟩ | ⟨h, n, hh, rfl⟩
  · have hm : ∀ c ∈ H, c ∈ nameChars := fun c hm => List.mem_append.mpr (hc c hm)
    have hall : ∀ c ∈ H, c ∈ nameChars ++ addrChars ++ digit ++ ":[]".toList := fun c hc => by
      simp only [List.mem_append]; exact .inl (.inl (.inl (hm c hc)))
    refine ⟨?_, fun hl => (nameChars_not _ (hm _ (List.mem_of_getLast? hl))).1 rfl, hall⟩
    unfold parseHost
    rw [if_neg fun h0 => (nameChars_not _ (hm _ (List.mem_of_head? h0))).2 rfl,
      if_neg fun h0 => (nameChars_not _ (hm _ h0)).1 rfl]
    exact unescape_host_plain fun c hc => (nameChars_ok c (hall c hc)).1
  · refine ⟨parseHost_authority hh n, fun hl => ?_, authority_chars hh n⟩
    rw [List.getLast?_append] at hl
    have hl2 : (natToDec n).getLast? = some ':' := by
      cases hd : natToDec n with
      | nil => exact absurd hd Nat.toDigits_ne_nil
      | cons d ds => rw [hd] at hl; simpa using hl
    exact (digit_not _ (digits_mem _ _ (List.mem_of_getLast? hl2))).1 rfl

/-- What may stand before the `@`. -/
def UserText (w : Str) : Prop := ∀ c ∈ w, c ∈ unreserved ∨ c ∈ subDelims ∨ c = ':' ∨ c = '@'

theorem userChars_ok : ∀ c ∈ unreserved ++ subDelims ++ ":@".toList ++ digit,
    (isAlnum c || c ∈ "-._:~!$&'()*+,;=%@".toList) = true ∧ c ≠ '%' ∧ c ≠ '/' ∧ c ≠ '?' ∧ c ≠ '#' ∧
      0x20 < c.toNat ∧ c.toNat < 0x7f := by decide +kernel

theorem unescape_user_plain : ∀ {h : Str}, (∀ c ∈ h, c ≠ '%') → unescape .userPassword h = some h
  | [], _ => rfl
  | c :: r, h => by
    rw [unescape.eq_def]
    simp only [h c (by simp), if_false]
    rw [if_neg (by rintro ⟨h | h, -⟩ <;> cases h), unescape_user_plain (fun d hd => h d (by simp [hd]))]
    rfl

/-- A URL with user information: the last `@` ends it. -/
theorem parseAuthority_user {h w H : Str} {n : Nat} (hh : ∀ c ∈ h, c ∈ unreserved ∨ c ∈ subDelims) (hw : UserText w)
    (hH : HostPort H) :
    parseAuthority (h ++ ':' :: natToDec n ++ w ++ '@' :: H) = some (some (h, natToDec n ++ w), H) := by
  obtain ⟨hp, -, hc⟩ := hostPort_parse hH
  have hat : '@' ∉ H := fun hm => (nameChars_ok _ (hc _ hm)).2.2.2.2.1 rfl
  have hcol : ':' ∉ h := fun hm => (nameChars_not _ (List.mem_append.mpr (hh _ hm))).1 rfl
  have hh' : ∀ c ∈ h, c ∈ unreserved ++ subDelims ++ ":@".toList ++ digit := fun c hm => by
    simp only [List.mem_append]
    rcases hh c hm with h | h
    · exact .inl (.inl (.inl h))
    · exact .inl (.inl (.inr h))
  have hw' : ∀ c ∈ natToDec n ++ w, c ∈ unreserved ++ subDelims ++ ":@".toList ++ digit := fun c hm => by
    rcases List.mem_append.mp hm with hm | hm
    · exact List.mem_append.mpr (.inr (digits_mem n c hm))
    · simp only [List.mem_append]
      rcases hw c hm with h | h | rfl | rfl
      · exact .inl (.inl (.inl h))
      · exact .inl (.inl (.inr h))
      · exact .inl (.inr (by decide))
      · exact .inl (.inr (by decide))
  unfold parseAuthority
  rw [if_pos (by simp), afterLast_sep hat, hp]
  simp only
  rw [beforeLast_sep hat]
  have hv : validUserinfo (h ++ ':' :: natToDec n ++ w) = true := by
    unfold validUserinfo
    rw [List.all_eq_true]
    intro c hm
    rw [List.append_assoc, List.cons_append] at hm
    rcases List.mem_append.mp hm with hm | hm
    · exact (userChars_ok c (hh' c hm)).1
    · rcases List.mem_cons.mp hm with rfl | hm
      · decide
      · exact (userChars_ok c (hw' c hm)).1
  rw [hv, List.append_assoc, List.cons_append, cutAt_sep hcol]
  simp only
  rw [unescape_user_plain fun c hm => (userChars_ok c (hh' c hm)).2.1,
    unescape_user_plain fun c hm => (userChars_ok c (hw' c hm)).2.1]
  rfl

/-- A URL with any authority. -/
theorem parse_authority {sch A H : Str} {us : Option (Str × Str)} (hs : sch = "http".toList ∨ sch = "https".toList)
    (hA : ∀ c ∈ A, c ≠ '/' ∧ c ≠ '?' ∧ c ≠ '#' ∧ 0x20 < c.toNat ∧ c.toNat ≠ 0x7f)
    (hpa : parseAuthority A = some (us, H)) {p q : Str} (hp : pathText p = true) (hd : p = [] ∨ p.head? = some '/')
    (hq : QueryPart q) :
    ∃ v, Url.parse (sch ++ "://".toList ++ A ++ (p ++ q)) = some v ∧ v.user = us ∧ v.host = H := by
  have hsq := splitQuery_part (pathText_no hp).1 hq
  have e : sch ++ "://".toList ++ A ++ (p ++ q) = sch ++ ':' :: ('/' :: '/' :: A ++ (p ++ q)) := by simp
  have hfrag : '#' ∉ sch ++ "://".toList ++ A ++ (p ++ q) := by
    intro hm
    simp only [List.mem_append] at hm
    rcases hm with ((hm | hm) | hm) | hm | hm
    · rcases hs with rfl | rfl <;> revert hm <;> decide
    · revert hm; decide
    · exact (hA _ hm).2.2.1 rfl
    · exact (pathText_no hp).2.1 hm
    · exact (queryPart_no hq).1 hm
  have hctlA : containsCTL A = false := by
    rw [containsCTL, List.any_eq_false]
    intro c hc
    have := (hA c hc).2.2.2
    simp only [Bool.or_eq_true, decide_eq_true_eq, not_or]
    omega
  have hctl : containsCTL (sch ++ ':' :: ('/' :: '/' :: A ++ (p ++ q))) = false := by
    have h1 : containsCTL sch = false := by rcases hs with rfl | rfl <;> decide
    rw [containsCTL_append, h1, show ':' :: ('/' :: '/' :: A ++ (p ++ q)) = "://".toList ++ (A ++ (p ++ q)) from by simp,
      containsCTL_append, containsCTL_append, hctlA, containsCTL_append, (pathText_no hp).2.2, (queryPart_no hq).2]
    decide
  have hg : getScheme (sch ++ ':' :: ('/' :: '/' :: A ++ (p ++ q))) [] (sch ++ ':' :: ('/' :: '/' :: A ++ (p ++ q))) =
      some (sch, '/' :: '/' :: A ++ (p ++ q)) := by
    rcases hs with rfl | rfl <;> rfl
  have hqm : '?' ∉ '/' :: '/' :: A := by
    simp only [List.mem_cons, not_or]
    exact ⟨by decide, by decide, fun hm => (hA _ hm).2.1 rfl⟩
  have hslash : '/' ∉ A := fun hm => (hA _ hm).1 rfl
  have hlow : toLower sch = sch := by rcases hs with rfl | rfl <;> decide
  have hsne : sch ≠ [] := by rcases hs with rfl | rfl <;> decide
  have hr' : (A ++ p).takeWhile (· ≠ '/') = A ∧ (A ++ p).dropWhile (· ≠ '/') = p := by
    rcases hd with rfl | h0
    · rw [List.append_nil]
      have : ∀ d ∈ A, decide (d ≠ '/') = true := fun d hd => by
        simp only [decide_eq_true_eq]; rintro rfl; exact hslash hd
      exact ⟨takeWhile_all this, dropWhile_all this⟩
    · cases p with
      | nil => cases h0
      | cons d r =>
        obtain rfl : d = '/' := by simpa using h0
        exact ⟨takeWhile_sep hslash r, dropWhile_sep hslash r⟩
  have hn1 : sch ++ ':' :: ('/' :: '/' :: A ++ (p ++ q)) ≠ ['*'] := by
    rcases hs with rfl | rfl <;> simp
  have hb : parseUrl false (sch ++ "://".toList ++ A ++ (p ++ q)) =
      ({ scheme := sch, user := us, host := H, forceQuery := (splitQuery (p ++ q)).1,
         rawQuery := (splitQuery (p ++ q)).2.1 } : Url).setPath p := by
    rw [e]
    unfold parseUrl
    rw [hctl, hg, if_neg (by decide), if_neg (by simp), if_neg hn1]
    simp only
    rw [show '/' :: '/' :: A ++ (p ++ q) = ('/' :: '/' :: A) ++ (p ++ q) from rfl, splitQuery_append hqm]
    simp only [List.cons_append, List.head?_cons, if_true, hsq.1]
    unfold parseRest
    rw [if_pos ⟨Or.inl (by simpa [hlow] using hsne), by simp [hasPrefix]⟩]
    rw [show List.drop 2 ('/' :: '/' :: (A ++ p)) = A ++ p from rfl, hr'.1, hr'.2, hpa]
    simp [hlow]
  have hpar : ∀ v, parseUrl false (sch ++ "://".toList ++ A ++ (p ++ q)) = some v →
      Url.parse (sch ++ "://".toList ++ A ++ (p ++ q)) = some v := by
    intro v hv
    unfold Url.parse
    rw [cutAt_none hfrag]
    simp only [hv]
    rfl
  rcases hd with rfl | hd
  · exact ⟨_, hpar _ hb, rfl, rfl⟩
  · match p, hd with
    | c :: p, hd =>
      obtain rfl : c = '/' := by simpa using hd
      obtain ⟨path, hset, -⟩ := setPath_text (u := { scheme := sch, user := us, host := H, forceQuery := (splitQuery ('/' :: p ++ q)).1, rawQuery := (splitQuery ('/' :: p ++ q)).2.1 }) hp
      rw [hset] at hb
      exact ⟨_, hpar _ hb, rfl, rfl⟩

/-- C171 fails for every route with the transform `/`, whatever its path, its resource and the host the client names: a
target that goes on after the path with any text, `@` and a host is sent to that host; and if the client sends no
Authorization, the gateway adds one, with the name of the upstream as user, and its port and the text as password. -/
theorem C171_violated_always (x : Setup K) (s : St) (h : x.Reaches s) (hw : x.rq.header.WF) (hE : x.E.LiteralLaw)
    (hr : ∀ r ∈ x.c.routes, PlainRoute r) (hh : PlainHosts x.c)
    (hn : ∀ name ms, x.c.resources name = some ms → ∀ m ∈ ms, '[' ∉ m.url.host)
    (u0 : Url) (hf : x.rq.From u0) (ho : OriginForm x.rq.requestURI) (P w H pa q : Str)
    (hroute : ∀ r ∈ x.c.routes, r.path <+: x.rq.requestURI → r.path = P ∧ r.transform = ['/'])
    (ht : x.rq.requestURI = P ++ (w ++ '@' :: H ++ (pa ++ q))) (hwt : UserText w) (hH : HostPort H)
    (hpa : pathText pa = true) (hd : pa = [] ∨ pa.head? = some '/') (hq : QueryPart q)
    (p : Nat × UpReq) (hp : p ∈ s.calls) (T : NetLib) :
    wireHost p.2 = some H ∧
      (x.rq.header.get "Authorization".toList ≠ [] →
        (wireRequest T p.2).header "Authorization".toList = x.rq.header.values "Authorization".toList) ∧
      (x.rq.header.get "Authorization".toList = [] → ∃ r ∈ x.c.routes, ∃ ms, x.c.resources r.resource = some ms ∧
        ∃ m ∈ ms, ∃ t, Base64 t (m.url.host ++ ':' :: natToDec m.url.port ++ w) ∧
          (wireRequest T p.2).header "Authorization".toList = ["Basic ".toList ++ t]) := by
  obtain ⟨r, hm, rest, hrest, u, ⟨ms, hms, m, hmm, rfl⟩, hsch, hhost, -, huri⟩ := sent_on h hE hr hh hp
  obtain ⟨rfl, htr⟩ := hroute r hm ⟨rest, hrest.symm⟩
  obtain rfl : rest = w ++ '@' :: H ++ (pa ++ q) := List.append_cancel_left (hrest.symm.trans ht)
  have hname : ∀ c ∈ m.url.host, c ∈ unreserved ∨ c ∈ subDelims := by
    rcases hhost with ⟨-, h⟩ | ⟨a, ha, -⟩
    · exact h
    · exact absurd (by rw [ha]; simp) (hn _ _ hms m hmm)
  obtain ⟨-, hlast, hHc⟩ := hostPort_parse hH
  have hu : p.2.uri = m.url.scheme ++ "://".toList ++
      (m.url.host ++ ':' :: natToDec m.url.port ++ w ++ '@' :: H) ++ (pa ++ q) := by
    rw [huri, origin_uri hf ho, hrest, (C08_transform m.url r _).2.1 htr]
    simp [URL.str]
  have hA : ∀ c ∈ m.url.host ++ ':' :: natToDec m.url.port ++ w ++ '@' :: H,
      c ≠ '/' ∧ c ≠ '?' ∧ c ≠ '#' ∧ 0x20 < c.toNat ∧ c.toNat ≠ 0x7f := by
    intro c hc
    rw [List.append_assoc] at hc
    rcases List.mem_append.mp hc with hc | hc
    · have := (nameChars_ok c (authority_chars hhost _ c hc)).2
      exact ⟨this.1, this.2.1, this.2.2.1, this.2.2.2.2⟩
    · rcases List.mem_append.mp hc with hc | hc
      · have hc' : c ∈ unreserved ++ subDelims ++ ":@".toList ++ digit := by
          simp only [List.mem_append]
          rcases hwt c hc with h | h | rfl | rfl
          · exact .inl (.inl (.inl h))
          · exact .inl (.inl (.inr h))
          · exact .inl (.inr (by decide))
          · exact .inl (.inr (by decide))
        have := (userChars_ok c hc').2.2
        exact ⟨this.1, this.2.1, this.2.2.1, this.2.2.2.1, by omega⟩
      · rcases List.mem_cons.mp hc with rfl | hc
        · decide
        · have := (nameChars_ok c (hHc c hc)).2
          exact ⟨this.1, this.2.1, this.2.2.1, this.2.2.2.2⟩
  obtain ⟨v, hv, hvu, hvh⟩ := parse_authority hsch hA (parseAuthority_user hname hwt hH) hpa hd hq
  rw [← hu] at hv
  have hex := C171_exact_partial x s h hw p hp T
  refine ⟨?_, fun h1 => hex.1 (.inl h1), fun h0 => ?_⟩
  · unfold wireHost
    rw [hv, Option.map_some, hvh, if_neg hlast]
  · have hb : ∀ c ∈ m.url.host ++ (natToDec m.url.port ++ w), c.toNat < 256 := by
      intro c hc
      have hc' : c ∈ unreserved ++ subDelims ++ ":@".toList ++ digit := by
        simp only [List.mem_append] at hc ⊢
        rcases hc with hc | hc | hc
        · exact (hname c hc).elim (fun h => .inl (.inl (.inl h))) fun h => .inl (.inl (.inr h))
        · exact .inr (digits_mem _ c hc)
        · rcases hwt c hc with h | h | rfl | rfl
          · exact .inl (.inl (.inl h))
          · exact .inl (.inl (.inr h))
          · exact .inl (.inr (by decide))
          · exact .inl (.inr (by decide))
      have := (userChars_ok c hc').2.2.2.2.2
      omega
    obtain ⟨t, ht, he⟩ := hex.2 h0 m.url.host (natToDec m.url.port ++ w) (by rw [hv, Option.bind_some, hvu]) hb
    exact ⟨r, hm, ms, hms, m, hmm, t, by simpa using ht, he⟩

/-- The assumptions hold, with an `@` in the text and a port, and the request is sent. -/
example : ∃ x : Setup Nat, x.rq.header.WF ∧ x.rq.header.get "Authorization".toList = [] ∧ x.E.LiteralLaw ∧
    (∀ r ∈ x.c.routes, PlainRoute r) ∧ PlainHosts x.c ∧
    (∀ name ms, x.c.resources name = some ms → ∀ m ∈ ms, '[' ∉ m.url.host) ∧ (∃ u, x.rq.From u) ∧
    OriginForm x.rq.requestURI ∧
    (∀ r ∈ x.c.routes, r.path <+: x.rq.requestURI → r.path = "/a".toList ∧ r.transform = ['/']) ∧
    x.rq.requestURI = "/a".toList ++ ("b@c".toList ++ '@' :: "evil.com:90".toList ++ ("/x".toList ++ "?y".toList)) ∧
    UserText "b@c".toList ∧ HostPort "evil.com:90".toList ∧ pathText "/x".toList = true ∧ QueryPart "?y".toList ∧
    ∃ s, x.Reaches s ∧ s.calls.map (fun p => (wireHost p.2, wireTarget p.2)) =
      [(some "evil.com:90".toList, some "/x?y".toList)] := by
  have hp := Demo.targeted_plain "/" "/ab@c@evil.com:90/x?y"
  refine ⟨Demo.targeted "/" "/ab@c@evil.com:90/x?y", ⟨by decide, by decide⟩, by decide +kernel, hp.2.2, hp.1, hp.2.1, ?_,
    Demo.targeted_from (by decide +kernel),
    ⟨"ab@c@evil.com:90/x".toList, by decide +kernel, .inr ⟨"y".toList, by decide +kernel, by decide⟩⟩, ?_, by decide,
    by unfold UserText; decide +kernel, .inr ⟨"evil.com".toList, 90, .inl ⟨by decide, by decide +kernel⟩, by decide +kernel⟩,
    by decide +kernel, .inr ⟨"y".toList, by decide +kernel, by decide⟩, ?_⟩
  · intro name ms hms m hm
    simp only [Demo.targeted, Demo.config] at hms
    split at hms
    · obtain rfl := Option.some.inj hms
      obtain rfl : m = ⟨"r".toList, [], Demo.url⟩ := by simpa using hm
      decide +kernel
    · cases hms
  · intro r hr _
    obtain rfl : r = { Demo.route with transform := "/".toList } := by simpa [Demo.targeted] using hr
    exact ⟨rfl, rfl⟩
  · obtain ⟨s, h1, h2⟩ := Demo.of_check (x := Demo.targeted "/" "/ab@c@evil.com:90/x?y") (as := Demo.success Demo.ok)
      (p := fun s => s.calls.map (fun p => (wireHost p.2, wireTarget p.2)) ==
        [(some "evil.com:90".toList, some "/x?y".toList)]) (by decide +kernel)
    exact ⟨s, Demo.reaches h1, by simpa using h2⟩

end J8a
