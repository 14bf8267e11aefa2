import Verif.Lemmas.Credited
import Verif.Props.Target
/-!
# C171: credentials that the gateway sends of its own
-/
namespace J8a
open Go Uri

variable {K : Type}

/-! ## Base64, RFC 4648 section 4 -/

/-- The digit `c` has the value `n`. -/
def Digit64 (c : Char) (n : Nat) : Prop :=
  "ABCDEFGHIJKLMNOPQRSTUVWXYZabcdefghijklmnopqrstuvwxyz0123456789+/".toList[n]? = some c

/-- The text stands for the bytes: four digits for every three bytes, and padding at the end. -/
inductive Base64 : Str → Str → Prop
  | nil : Base64 [] []
  | one {A B x : Char} {a b : Nat} : Digit64 A a → Digit64 B b → a * 2 ^ 18 + b * 2 ^ 12 = x.toNat * 2 ^ 16 →
      Base64 [A, B, '=', '='] [x]
  | two {A B C x y : Char} {a b c : Nat} : Digit64 A a → Digit64 B b → Digit64 C c →
      a * 2 ^ 18 + b * 2 ^ 12 + c * 2 ^ 6 = x.toNat * 2 ^ 16 + y.toNat * 2 ^ 8 → Base64 [A, B, C, '='] [x, y]
  | three {A B C D x y z : Char} {a b c d : Nat} {t s : Str} : Digit64 A a → Digit64 B b → Digit64 C c → Digit64 D d →
      a * 2 ^ 18 + b * 2 ^ 12 + c * 2 ^ 6 + d = x.toNat * 2 ^ 16 + y.toNat * 2 ^ 8 + z.toNat → Base64 t s →
      Base64 (A :: B :: C :: D :: t) (x :: y :: z :: s)

theorem digit64_std (n : Nat) : Digit64 (b64Std n) (n % 64) := by
  unfold Digit64 b64Std
  have h : n % 64 < "ABCDEFGHIJKLMNOPQRSTUVWXYZabcdefghijklmnopqrstuvwxyz0123456789+/".toList.length :=
    Nat.lt_of_lt_of_eq (Nat.mod_lt _ (by decide)) (by decide)
  rw [List.getD_eq_getElem?_getD, List.getElem?_eq_getElem h]
  rfl

theorem base64_encode (s : Str) (h : ∀ c ∈ s, c.toNat < 256) : Base64 (b64Encode s) s := by
  induction s using b64Encode.induct with
  | case1 => exact .nil
  | case2 a =>
    have ha := h a (by simp)
    unfold b64Encode
    refine .one (digit64_std _) (digit64_std _) ?_
    omega
  | case3 a b =>
    have ha := h a (by simp)
    have hb := h b (by simp)
    unfold b64Encode
    refine .two (digit64_std _) (digit64_std _) (digit64_std _) ?_
    omega
  | case4 a b c r ih =>
    have ha := h a (by simp)
    have hb := h b (by simp)
    have hc := h c (by simp)
    unfold b64Encode
    refine .three (digit64_std _) (digit64_std _) (digit64_std _) (digit64_std _) ?_ (ih fun d hd => h d (by simp [hd]))
    omega

/-! ## What is sent as Authorization -/

/-- C171, part: the Authorization that an upstream gets, exactly. It is that of the client, unless that is missing or blank
and the URI the gateway asks its HTTP client for has a user; then it is Basic with that user and password. Missing: see
C171_own_partial. -/
theorem C171_exact_partial (x : Setup K) (s : St) (h : x.Reaches s) (hw : x.rq.header.WF) (p : Nat × UpReq) (hp : p ∈ s.calls)
    (T : NetLib) :
    (x.rq.header.get "Authorization".toList ≠ [] ∨ (Url.parse p.2.uri).bind Url.user = none →
      (wireRequest T p.2).header "Authorization".toList = x.rq.header.values "Authorization".toList) ∧
    (x.rq.header.get "Authorization".toList = [] → ∀ name password,
      (Url.parse p.2.uri).bind Url.user = some (name, password) → (∀ c ∈ name ++ password, c.toNat < 256) →
      ∃ t, Base64 t (name ++ ':' :: password) ∧
        (wireRequest T p.2).header "Authorization".toList = ["Basic ".toList ++ t]) := by
  have hv : p.2.header "Authorization".toList = x.rq.header.values "Authorization".toList := by
    rw [C34_headers x s h hw p hp _ (by decide), if_neg (by decide)]
  have hg : p.2.header.get "Authorization".toList = x.rq.header.get "Authorization".toList := by
    unfold Hdr.get Entries.get
    rw [show canon "Authorization".toList = "Authorization".toList by decide, hv]
  have hwire : (wireRequest T p.2).header "Authorization".toList = (credited p.2).header "Authorization".toList := by
    show wireHeader T (credited p.2) "Authorization".toList = _
    unfold wireHeader
    rw [if_neg (by decide), if_neg (by decide), if_neg (by decide), if_neg (by decide), if_neg]
    rintro ⟨h0, -⟩
    exact absurd h0 (by decide)
  refine ⟨fun hc => ?_, fun h0 name password hu hb => ?_⟩
  · rw [hwire]
    rcases hc with hc | hc
    · rw [credited_own (by rw [hg]; exact hc), hv]
    · rw [credited_none hc, hv]
  · refine ⟨_, base64_encode _ ?_, hwire.trans (credited_some hu (hg.trans h0))⟩
    intro c hc
    simp only [List.mem_append, List.mem_cons] at hc
    rcases hc with hc | rfl | hc
    · exact hb c (by simp [hc])
    · decide
    · exact hb c (by simp [hc])

/-- C171, part: the gateway sends no credentials of its own: an upstream gets the Authorization of the client, and none if
the client sends none. Full statement: for every configuration and every request. Missing: with the transform `/`, targets
in which no new part begins after the path, see C171_violated, and targets, routes and hosts that are not plain. -/
theorem C171_own_partial (x : Setup K) (s : St) (h : x.Reaches s) (hw : x.rq.header.WF) (hE : x.E.LiteralLaw)
    (hr : ∀ r ∈ x.c.routes, PlainRoute r) (hh : PlainHosts x.c) (u0 : Url) (hf : x.rq.From u0)
    (ho : OriginForm x.rq.requestURI)
    (hcase : x.rq.header.get "Authorization".toList ≠ [] ∨ ∀ r ∈ x.c.routes, ∀ rest, x.rq.requestURI = r.path ++ rest →
      r.transform = [] ∨ (pathText r.transform = true ∧ ∃ t, r.transform = '/' :: t ∧ t ≠ []) ∨
      (r.transform = ['/'] ∧ (rest = [] ∨ rest.head? = some '/' ∨ rest.head? = some '?')))
    (p : Nat × UpReq) (hp : p ∈ s.calls) (T : NetLib) :
    (wireRequest T p.2).header "Authorization".toList = x.rq.header.values "Authorization".toList := by
  refine (C171_exact_partial x s h hw p hp T).1 (hcase.imp_right fun hcase => ?_)
  obtain ⟨r, hm, rest, hrest, u, ⟨ms, hms, m, hmm, rfl⟩, hsch, hhost, hmeth, huri⟩ := sent_on h hE hr hh hp
  exact ((wire_of hf ho (hr r hm).text hrest hsch hhost hmeth huri).2.2.2 (hcase r hm rest hrest)).2

/-- Test vectors of RFC 4648, and the example of RFC 7617. -/
example : Base64 "Zg==".toList "f".toList ∧ Base64 "Zm8=".toList "fo".toList ∧ Base64 "Zm9vYmFy".toList "foobar".toList ∧
    Base64 "QWxhZGRpbjpvcGVuIHNlc2FtZQ==".toList "Aladdin:open sesame".toList := by
  have key : ∀ s t : String, (∀ c ∈ s.toList, c.toNat < 256) ∧ b64Encode s.toList = t.toList → Base64 t.toList s.toList :=
    fun s t h => h.2 ▸ base64_encode _ h.1
  exact ⟨key _ _ (by decide), key _ _ (by decide), key _ _ (by decide), key _ _ (by decide)⟩

/-- The assumptions hold, and nothing is sent as Authorization, although the target has a user of its own. -/
example : (Demo.targeted "/z" "/a/u:p@h?c").rq.header.WF ∧ OriginForm "/a/u:p@h?c".toList ∧
    (∃ u, (Demo.targeted "/z" "/a/u:p@h?c").rq.From u) ∧
    Demo.check (Demo.targeted "/z" "/a/u:p@h?c") (Demo.success Demo.ok) (fun s => s.calls.map (fun p =>
      (wireHost p.2, wireTarget p.2, (wireRequest ⟨fun _ _ => none, fun b => (b, .eof), fun _ => []⟩ p.2).header
        "Authorization".toList)) == [(some "up:80".toList, some "/z/u:p@h?c".toList, [])]) = true :=
  ⟨⟨by decide, by decide⟩, ⟨"a/u:p@h".toList, by decide +kernel, .inr ⟨"c".toList, by decide +kernel, by decide⟩⟩,
    Demo.targeted_from (by decide +kernel), by decide +kernel⟩

/-! ## Where it fails -/

/-- C171 fails: with the transform `/`, a client that sends no Authorization and asks for `/a@evil.com/x` makes the gateway
send one, to a host that the client chose: it is Basic, with the name of the upstream as user and its port as password. -/
theorem C171_violated : OriginForm "/a@evil.com/x".toList ∧ (∃ u, (Demo.targeted "/" "/a@evil.com/x").rq.From u) ∧
    (Demo.targeted "/" "/a@evil.com/x").rq.header.values "Authorization".toList = [] ∧
    ∃ s, (Demo.targeted "/" "/a@evil.com/x").Reaches s ∧ ∃ p ∈ s.calls, wireHost p.2 = some "evil.com".toList ∧
      ∃ t, Base64 t "up:80".toList ∧
        ∀ T, (wireRequest T p.2).header "Authorization".toList = ["Basic ".toList ++ t] := by
  refine ⟨⟨"a@evil.com/x".toList, by decide +kernel, .inl rfl⟩, Demo.targeted_from (by decide +kernel), by decide +kernel, ?_⟩
  obtain ⟨s, h1, h2⟩ := Demo.of_check (x := Demo.targeted "/" "/a@evil.com/x") (as := Demo.success Demo.ok)
    (p := fun s => s.calls.map (fun p => (wireHost p.2, (Url.parse p.2.uri).bind Url.user)) ==
      [(some "evil.com".toList, some ("up".toList, "80".toList))])
    (by decide +kernel)
  have hr := Demo.reaches h1
  simp only [beq_iff_eq] at h2
  cases hc : s.calls with
  | nil => rw [hc] at h2; cases h2
  | cons p ps =>
    rw [hc] at h2
    simp only [List.map_cons, List.cons.injEq, Prod.mk.injEq] at h2
    have hp : p ∈ s.calls := by rw [hc]; exact List.mem_cons_self
    refine ⟨s, hr, p, hp, h2.1.1, b64Encode "up:80".toList, base64_encode _ (by decide), fun T => ?_⟩
    have hw : (Demo.targeted "/" "/a@evil.com/x").rq.header.WF := ⟨by decide, by decide⟩
    have h0 : p.2.header.get "Authorization".toList = [] := by
      unfold Hdr.get
      rw [show canon "Authorization".toList = "Authorization".toList by decide, C34_headers _ s hr hw p hp _ (by decide),
        if_neg (by decide)]
      decide
    show wireHeader T (credited p.2) "Authorization".toList = _
    unfold wireHeader
    rw [if_neg (by decide), if_neg (by decide), if_neg (by decide), if_neg (by decide), if_neg (fun h => absurd h.1 (by decide)),
      credited_some h2.1.2 h0]
    rfl

end J8a
