import Verif.Lemmas.Machine
import Verif.Lemmas.Header
/-!
# Invariants of the attempt machine about response headers and about responses without upstream
-/
namespace J8a
open Go

variable {K : Type}

/-! ## Headers -/

/-- The headers whose values the gateway computes from the body it sends. -/
def bodyHeaders : List Str := ["Content-Length", "Content-Encoding", "Content-Type"].map String.toList

/-- Outside those, a header has the gateway's values followed by those of one upstream response. -/
def FromGateway (e : RespEnv) (h : Hdr) : Prop :=
  ∃ src : Entries, ∀ k, k ∉ bodyHeaders → h k = writeStandardResponseHeaders e Hdr.empty k ++
    if shouldProxyHeader k then src.under k else []

theorem FromGateway.set {e : RespEnv} {h : Hdr} (hh : FromGateway e h) {k v : Str}
    (hk : canon k ∈ bodyHeaders) : FromGateway e (h.set k v) := by
  obtain ⟨src, hs⟩ := hh
  refine ⟨src, fun k' hk' => ?_⟩
  rw [← hs k' hk']
  unfold Hdr.set
  rw [if_neg (fun hh => hk' (by rw [hh]; exact hk))]

theorem FromGateway.copied (e : RespEnv) (src : Entries) :
    FromGateway e (copyHeaders src (writeStandardResponseHeaders e Hdr.empty)) :=
  ⟨src, fun k _ => copyHeaders_under src _ k⟩

theorem FromGateway.std (e : RespEnv) : FromGateway e (writeStandardResponseHeaders e Hdr.empty) :=
  ⟨[], fun k _ => by simp [Entries.under]⟩

theorem FromGateway.json (e : RespEnv) (code : Int) (msg : Str) :
    FromGateway e (jsonResponse e code msg).header :=
  (FromGateway.std e).set (by decide)

theorem FromGateway.length {e : RespEnv} {h : Hdr} (hh : FromGateway e h) (code : Int) (b : Bytes)
    (up : Entries) : FromGateway e (setContentLengthHeader e h code b up) := by
  unfold setContentLengthHeader
  have hc : canon "Content-Length".toList ∈ bodyHeaders := by decide
  dsimp only
  repeat' split
  all_goals exact hh.set hc

/-- Every header that is or will be sent. -/
structure HdrInv (e : RespEnv) (s : St) : Prop where
  sent : ∀ y ∈ s.sent, FromGateway e y.header
  pc : match s.pc with
    | .okStatus h => FromGateway e h
    | .okEncode h _ => FromGateway e h
    | .okLength h _ _ => FromGateway e h
    | .okEnc1 h _ _ => FromGateway e h
    | .okEnc2 h _ _ => FromGateway e h
    | .okSend h _ _ => FromGateway e h
    | _ => True

theorem HdrInv.step {e : Env} {s s' : St} {a : Act} (hi : HdrInv e.toRespEnv s)
    (h : step e s a = some s') : HdrInv e.toRespEnv s' := by
  rcases step_cases' h with hf | ⟨c, rfl, hm⟩
  · obtain ⟨h1, h2⟩ := hi
    exact ⟨by rw [hf.sent]; exact h1, by rw [hf.pc]; exact h2⟩
  · obtain ⟨h1, h2⟩ := hi
    have hce : canon "Content-Encoding".toList ∈ bodyHeaders := by decide
    main_cases s hm hpc <;> simp only [hpc] at h2 <;> (constructor; (first
      | exact h1
      | (intro y hy; rw [List.mem_append, List.mem_singleton] at hy; rcases hy with hy | rfl
         · exact h1 y hy
         · first | exact h2 | exact FromGateway.json _ _ _))) <;> first
      | trivial
      | exact h2
      | exact h2.length _ _ _
      | exact h2.set hce
      | exact FromGateway.copied _ _

theorem headers_of_reaches {x : Setup K} {s : St} (h : x.Reaches s) {y : Sent} (hy : y ∈ s.sent) :
    FromGateway x.respEnv y.header := by
  obtain ⟨as, h⟩ := h
  refine (run_invariant (P := HdrInv x.env.toRespEnv) (fun s a s' hi hs => hi.step hs)
    (s := initial x.dec) ?_ h).sent y hy
  cases x.dec <;> exact ⟨by simp [initial], trivial⟩

/-! ## Nothing but 502 and 504 without an upstream call -/

/-- An attempt that has not called its upstream. -/
structure Untouched (a : Atmpt) : Prop where
  hg : a.hg.called = false
  vResp : a.vResp = none
  bg : a.bg = .idle

/-- Where a handler can be that has not called an upstream. -/
def PC.noCall : PC → Prop
  | .scaffold | .selHeader | .retHeader | .log1 | .log2 | .retry1 | .retry2 _ | .next | .final1
  | .final2 | .done | .panicked => True
  | .procCheck r _ => r = none
  | .sendJson code _ => code = 502 ∨ code = 504
  | _ => False

structure NoCallInv (s : St) : Prop where
  atmpt : ∀ k, Untouched (s.atmpt k)
  pc : s.pc.noCall
  sent : ∀ y ∈ s.sent, y.status = 502 ∨ y.status = 504

theorem NoCallInv.step {e : Env} {s s' : St} {a : Act} (hi : s.calls = [] → NoCallInv s)
    (h : step e s a = some s') : s'.calls = [] → NoCallInv s' := by
  intro hc'
  have hc : s.calls = [] := by
    rcases step_calls h with h' | ⟨k, q, -, -, -, h', -⟩
    · rw [← h', hc']
    · rw [h'] at hc'; simp at hc'
  obtain ⟨h1, h2, h3⟩ := hi hc
  cases a with
  | main c =>
    have hm : stepMain e s c = some s' := h
    have hv : s.curA.vResp = none := (h1 _).vResp
    main_cases s hm hpc <;> simp only [hpc, PC.noCall] at h2 <;> (first
      | exact h2.elim
      | (simp only [reduceCtorEq] at h2; done)
      | skip) <;> constructor <;> (try simp only [PC.noCall]) <;> first
      | trivial
      | exact h3
      | exact hv
      | exact h1
      | exact h2
      | exact .inl rfl
      | exact .inr rfl
      | (intro y hy; rw [List.mem_append, List.mem_singleton] at hy; rcases hy with hy | rfl
         · exact h3 y hy
         · exact h2)
      | (intro k
         obtain ⟨g1, g2, g3⟩ := h1 k
         constructor <;> (try simp only [upd_atmpt, abortAll_atmpt, noteUp_atmpt]) <;>
           (repeat' split) <;> first | assumption | rfl)
  | _ =>
    simp only [J8a.step] at h
    have hf := other_frame h
    refine ⟨?_, by rw [hf.pc]; exact h2, by rw [hf.sent]; exact h3⟩
    intro k
    obtain ⟨g1, g2, g3⟩ := h1 k
    have g4 : ∀ k, ∀ r, (s.atmpt k).bg ≠ .started r ∧ (s.atmpt k).bg ≠ .reading r ∧
        (s.atmpt k).bg ≠ .read r ∧ (s.atmpt k).bg ≠ .tested r := by
      intro k r
      rw [(h1 k).bg]
      simp
    have g5 : ∀ k, (s.atmpt k).hg ≠ .calling ∧ (s.atmpt k).hg ≠ .returned ∧
        (s.atmpt k).hg ≠ .wrote := by
      intro k
      have := (h1 k).hg
      generalize (s.atmpt k).hg = g at this
      cases g <;> simp_all [HG.called]
    simp only [stepOther] at h
    (repeat' split at h) <;> cases h <;> first
      | exact absurd ‹_› (g4 _ _).1
      | exact absurd ‹_› (g4 _ _).2.1
      | exact absurd ‹_› (g4 _ _).2.2.1
      | exact absurd ‹_› (g4 _ _).2.2.2
      | exact absurd ‹_› (g5 _).1
      | exact absurd ‹_› (g5 _).2.1
      | exact absurd ‹_› (g5 _).2.2
      | exact ⟨g1, g2, g3⟩
      | (simp only [upd_atmpt]; split <;> exact ⟨g1, g2, g3⟩)
      | (exfalso; revert hc'; simp)

/-- Without an upstream call a forwarded request is answered with 502 or 504 only. -/
theorem noCall_sent {x : Setup K} {s : St} (h : x.Reaches s) {r : Route} {u : URL} {l : Str}
    (hd : x.dec = .forward r u l) (hc : s.calls = []) : ∀ y ∈ s.sent, y.status = 502 ∨ y.status = 504 := by
  obtain ⟨as, h⟩ := h
  refine (run_invariant (P := fun s => s.calls = [] → NoCallInv s) (fun s a s' hi hs => NoCallInv.step hi hs)
    (s := initial x.dec) ?_ h hc).sent
  intro _
  rw [hd]
  refine ⟨?_, trivial, by simp [initial]⟩
  intro k
  simp only [initial]
  split <;> exact ⟨rfl, rfl, rfl⟩

end J8a
