import Verif.Props.Refused
import Verif.Props.HubEnd
/-!
# C186: who is refused is told so in the end
-/
namespace J8a
open Go Uri

variable {K : Type}

/-- C186, part: while the gateway goes on and runs the handler, whatever the others do and whether timers fire or not, a client whose message the document refuses comes to read one
message, which has the status that the document gives, and no upstream has been asked. Full statement: as in C181, without the
assumptions on messages and documents. -/
theorem C186_told_partial (B : Machinery K) (src : Sources) (t : Settings) (served : Str → List (Jwk K) → Prop)
    (hB : Started B src t served) (A : Around K) (γ : Nat → Hub K) (h : Hub.Goes A γ) (j n : Nat) (k : Task K)
    (hk : (γ n).tasks[j]? = some k) (m : HttpRequest) (hsm : SentAs B src served k.x m)
    (hkeep : ∀ n e, (n, e) ∈ t.jwt → (k.x.c.jwt.lookup n).isSome = true) (code : Int)
    (hmust : t.MustRefuse B.X B.hmacKey served B.fetch k.x.L k.x.pick k.x.now m code)
    (hrun : ∀ i, (∀ i', i ≤ i' → Enabled k.x.env ((γ (n + i')).at j k)) →
      ∃ i', i ≤ i' ∧ MainAt k.x.env (fun i => (γ (n + i)).at j k) i') (hi : TextIds k.x)
    (hm : toUpper m.method = "HEAD".toList → m.method = "HEAD".toList) (c : ReplyConn) (hcn : ConnOf k.x c) :
    ∃ i k', (γ (n + i)).tasks[j]? = some k' ∧ k'.x = k.x ∧ k'.s.pc = .done ∧ k'.s.calls = [] ∧ ∃ y, k'.s.sent = [y] ∧
      ∀ keys, Enumerates keys y.header →
        ∃ m2' : HttpResponse, ReadAs k'.x (writeResponse c keys y) y m2' ∧ NothingElse m2' ∧ m2'.status = code := by
  have hf : Fair k.x.env fun i => (γ (n + i)).at j k := by
    refine ⟨hrun, fun i a ha _ => ?_⟩
    obtain ⟨msg, hd⟩ := refused_dec hB hsm hkeep hmust
    obtain ⟨k1, h1, h2⟩ := h.stays hk i
    have hr := (C174_alone A _ (h.reached (n + i)) k1 (List.mem_of_getElem? h1)).2.1
    have e : (γ (n + i)).at j k = k1.s := by
      unfold Hub.at
      rw [h1]
      rfl
    rcases going_or_still hr with ⟨r, u, l, hd', -⟩ | ⟨-, hs⟩
    · rw [h2, hd] at hd'
      exact (nomatch hd')
    · simp only [e, hs.n] at ha
      exact absurd ha (Nat.not_lt_zero _)
  obtain ⟨i, k', h1, h2, h3, -, -⟩ := C176_finished A γ h j n k hk hf
  rw [← h2] at hsm hkeep hmust hi hcn
  obtain ⟨e1, e2, e3⟩ := C181_refused_partial B src t served hB A _ (h.reached (n + i)) k' (List.mem_of_getElem? h1) m hsm hkeep code hmust
    hi hm c hcn
  have hd := h3.resolve_right e2
  obtain ⟨y, hy, hread⟩ := e3 hd
  exact ⟨i, k', h1, h2, hd, e1, y, hy, hread⟩

/-- The theorem applies to a client that asks for something that is not in the document, and whose handler makes its steps after it
has waited for a while: it reads 404. -/
example : ∃ (A : Around Nat) (γ : Nat → Hub Nat) (n i : Nat) (k' : Task Nat), Hub.Goes A γ ∧ (γ n).tasks[0]?.map (·.s.sent.length) = some 0 ∧
    (γ (n + i)).tasks[0]? = some k' ∧ k'.s.pc = .done ∧ k'.s.calls = [] ∧ ∃ y, k'.s.sent = [y] ∧
    ∀ keys, Enumerates keys y.header → ∃ m2' : HttpResponse, m2'.status = 404 ∧ ReadAs k'.x (writeResponse Demo.conn keys y) y m2' := by
  obtain ⟨s, h1, hc⟩ := Demo.of_check (x := Demo.written "/z" "/q") (as := [Demo.go, Demo.go])
    (p := fun s => (Demo.seen s).finished) (by decide +kernel)
  have hd := Demo.done_of_seen hc
  have h1' : run (Demo.written "/z" "/q").env (initial (Demo.written "/z" "/q").dec) [Demo.go, Demo.go] = some s := h1
  obtain ⟨s1, g1, g2⟩ := run_cons h1'
  obtain ⟨s2, g3, g4⟩ := run_cons g2
  cases g4
  let A : Around Nat := { T := Demo.lib, keyOf := fun _ => "up".toList, comes := fun _ => True }
  let k0 : Task Nat := { x := Demo.written "/z" "/q", s := initial (Demo.written "/z" "/q").dec }
  let k1 : Task Nat := { k0 with acts := [Demo.go], s := s1 }
  let k2 : Task Nat := { k0 with acts := [Demo.go, Demo.go], s := s }
  let γ : Nat → Hub Nat := fun n => { tasks := if n = 0 then [] else if n < 5 then [k0] else if n < 9 then [k1] else [k2] }
  have hgo : Hub.Goes A γ := by
    refine ⟨rfl, fun n => ?_⟩
    by_cases n0 : n = 0
    · subst n0
      exact .inr (Hub.Step.accept (g := {}) (Demo.written "/z" "/q") trivial)
    by_cases n4 : n = 4
    · subst n4
      exact .inr (Hub.Step.act (g := { tasks := [k0] }) 0 k0 Demo.go s1 rfl g1 (by simp [Demo.go]) (by simp [Demo.go]))
    by_cases n8 : n = 8
    · subst n8
      exact .inr (Hub.Step.act (g := { tasks := [k1] }) 0 k1 Demo.go s rfl g3 (by simp [Demo.go]) (by simp [Demo.go]))
    left
    have : (n + 1 < 5 ↔ n < 5) ∧ (n + 1 < 9 ↔ n < 9) := by omega
    simp only [γ, n0, this.1, this.2, Nat.add_eq_zero_iff, Nat.one_ne_zero, and_false, if_false]
  have hlate : ∀ i, 8 ≤ i → (γ (1 + i)).tasks[0]? = some k2 := by
    intro i hi
    have e : ¬ (1 + i = 0) ∧ ¬ (1 + i < 5) ∧ ¬ (1 + i < 9) := by omega
    simp only [γ, e.1, e.2.1, e.2.2, if_false]
    rfl
  have hrun : ∀ i, (∀ i', i ≤ i' → Enabled k0.x.env ((γ (1 + i')).at 0 k0)) →
      ∃ i', i ≤ i' ∧ MainAt k0.x.env (fun i => (γ (1 + i)).at 0 k0) i' := by
    intro i hi
    obtain ⟨c, s', hs⟩ := hi (i + 8) (by omega)
    have e : (γ (1 + (i + 8))).at 0 k0 = s := by
      unfold Hub.at
      rw [hlate (i + 8) (by omega)]
      rfl
    simp only [e] at hs
    simp [stepMain, hd] at hs
  have hkeep : ∀ n e, (n, e) ∈ (exSettings "/z").jwt → (k0.x.c.jwt.lookup n).isSome = true := by
    intro n e he
    obtain ⟨rfl, -⟩ := Prod.mk.inj (List.mem_singleton.1 he)
    show ((Demo.written "/z" "/q").c.jwt.lookup "j".toList).isSome = true
    decide +kernel
  have none_q : ∀ r ∈ (exSettings "/z").routes, ¬ Selects r.path "/q".toList := by
    intro r hr
    obtain rfl := List.mem_singleton.1 hr
    rw [selects_literal (by decide)]
    decide
  obtain ⟨i, k', q1, -, q2, q3, y, q4, q5⟩ := C186_told_partial (exGateway "/z") { env := "…".toList } (exSettings "/z")
    (fun _ _ => False) Demo.started A γ hgo 0 1 k0 rfl (Demo.tokenMessage "/q")
    (Demo.written_sent (target := "/q") (by decide) (by decide +kernel) (by decide +kernel)) hkeep 404
    (.path (by decide) (by decide) none_q) hrun ⟨Demo.text_ids.id, Demo.text_ids.version, Demo.text_ids.xrid⟩
    (fun h => absurd h (by show toUpper "get".toList ≠ _; decide)) Demo.conn ⟨rfl, Demo.conn_of.text⟩
  refine ⟨A, γ, 1, i, k', hgo, rfl, q1, q2, q3, y, q4, fun keys hks => ?_⟩
  obtain ⟨m2', e1, -, e3⟩ := q5 keys hks
  exact ⟨m2', by omega, e1⟩

/-- C186 is violated: the document grants nothing to a client that presents something that is no token, and however long the gateway
goes on, the client reads nothing. -/
theorem C186_violated : ∃ (x : Setup Nat) (m : HttpRequest) (A : Around Nat) (γ : Nat → Hub Nat) (n : Nat) (k : Task Nat),
    Started (exGateway "/z") { env := "…".toList } (exSettings "/z") (fun _ _ => False) ∧
    SentAs (exGateway "/z") { env := "…".toList } (fun _ _ => False) x m ∧
    (∃ r, (exSettings "/z").Meant m.target r) ∧
    (∀ r, (exSettings "/z").Meant m.target r → r.jwt ≠ [] ∧ ∀ e, (r.jwt, e) ∈ (exSettings "/z").jwt →
      ¬ e.GrantsMessage (exGateway "/z").X (exGateway "/z").hmacKey (fun _ _ => False) x.L x.now m) ∧
    Hub.Goes A γ ∧ (∃ j : Nat, (γ n).tasks[j]? = some k ∧ k.x = x ∧ Fair x.env fun i => (γ (n + i)).at j k) ∧
    ∀ i, ∀ k' ∈ (γ i).tasks, k'.x = x → k'.s.pc = .panicked ∧ k'.s.sent = [] := by
  obtain ⟨x, m, A, h1, h2, h3, h4, ⟨g, hg, k, hk, hx, hn⟩, h5⟩ := C181_violated
  obtain ⟨γ, N, g1, g2⟩ := hg.goes
  obtain ⟨j, hj⟩ := List.getElem?_of_mem hk
  have hN : (γ N).tasks[j]? = some k := by rw [g2 N (Nat.le_refl _)]; exact hj
  have hat : ∀ i, (γ (N + i)).at j k = k.s := by
    intro i
    unfold Hub.at
    rw [g2 _ (Nat.le_add_right _ _), hj]
    rfl
  have hp := (h5 g hg k hk hx).1
  refine ⟨x, m, A, γ, N, k, h1, h2, h3, h4, g1, ⟨j, hN, hx, fun i hi => ?_, fun i l hl _ => ?_⟩,
    fun i k' hk' => h5 _ (g1.reached i) k' hk'⟩
  · obtain ⟨c, s', hs⟩ := hi i (Nat.le_refl _)
    rw [hat] at hs
    simp [stepMain, hp] at hs
  · simp only [hat, hn] at hl
    exact absurd hl (Nat.not_lt_zero _)

end J8a
