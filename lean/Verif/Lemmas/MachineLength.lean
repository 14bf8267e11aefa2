import Verif.Lemmas.MachineHeader
import Verif.Lemmas.Proxied
/-!
# Invariant of the attempt machine about Content-Length
-/
namespace J8a
open Go

variable {K : Type}

theorem FromGateway.te {e : RespEnv} {h : Hdr} (hh : FromGateway e h) :
    h "Transfer-Encoding".toList = [] := by
  obtain ⟨src, hs⟩ := hh
  rw [hs _ (by decide), shouldProxyHeader_te, std_other _ _ (by decide) (by decide) (by decide)]
  rfl

/-- The statuses without a body, and CONNECT. -/
def NoLength (e : RespEnv) (code : Int) : Prop :=
  code = 204 ∨ (100 ≤ code ∧ code < 200) ∨ e.method = "CONNECT".toList

/-- There is one declared length; it is that of the body, or zero where there can be none. -/
def LenOk (e : RespEnv) (h : Hdr) (code : Int) (body : Bytes) : Prop :=
  (∃ v, h "Content-Length".toList = [v]) ∧
  ((NoLength e code ∧ h "Content-Length".toList = ["0".toList]) ∨
  (¬ NoLength e code ∧ (e.method ≠ "HEAD".toList →
    h "Content-Length".toList = [natToDec body.length])))

theorem LenOk.set {e : RespEnv} {h : Hdr} {code : Int} {body : Bytes} (hl : LenOk e h code body)
    {k v : Str} (hk : "Content-Length".toList ≠ canon k) : LenOk e (h.set k v) code body := by
  unfold LenOk at hl ⊢
  rw [set_ne hk]
  exact hl

theorem lenOk_set (e : RespEnv) {h : Hdr} (hh : FromGateway e h) (code : Int) (body : Bytes)
    (up : Entries) : LenOk e (setContentLengthHeader e h code body up) code body := by
  rw [setContentLengthHeader_eq]
  unfold LenOk
  rw [set_same canon_cl.symm]
  refine ⟨⟨_, rfl⟩, ?_⟩
  have hz := lengthIsZero_of_noTE e h code hh.te
  by_cases hn : NoLength e code
  · refine .inl ⟨hn, ?_⟩
    unfold lengthValue
    rw [if_pos (hz.2 hn)]
  · refine .inr ⟨hn, fun hm => ?_⟩
    unfold lengthValue
    rw [if_neg (fun h => hn (hz.1 h)), if_neg hm]

theorem json_cl (e : RespEnv) (code : Int) (msg : Str) :
    (jsonResponse e code msg).header "Content-Length".toList = [] := by
  unfold jsonResponse
  dsimp only
  rw [set_ne (by rw [canon_ct]; decide), std_other _ _ (by decide) (by decide) (by decide)]

structure LenInv (e : RespEnv) (s : St) : Prop where
  sent : ∀ y ∈ s.sent, (∃ code msg, y = jsonResponse e code msg) ∨ LenOk e y.header y.status y.body
  pc : match s.pc with
    | .okEnc1 h code body => LenOk e h code body
    | .okEnc2 h code body => LenOk e h code body
    | .okSend h code body => LenOk e h code body
    | _ => True

theorem LenInv.step {e : Env} {s s' : St} {a : Act} (hh : HdrInv e.toRespEnv s)
    (hi : LenInv e.toRespEnv s) (h : step e s a = some s') : LenInv e.toRespEnv s' := by
  rcases step_cases' h with hf | ⟨c, rfl, hm⟩
  · obtain ⟨h1, h2⟩ := hi
    exact ⟨by rw [hf.sent]; exact h1, by rw [hf.pc]; exact h2⟩
  · obtain ⟨h1, h2⟩ := hi
    have hg := hh.pc
    have hne : "Content-Length".toList ≠ canon "Content-Encoding".toList := by decide
    main_cases s hm hpc <;> simp only [hpc] at h2 hg <;> (constructor; (first
      | exact h1
      | (intro y hy; rw [List.mem_append, List.mem_singleton] at hy; rcases hy with hy | rfl
         · exact h1 y hy
         · first | exact .inr h2 | exact .inl ⟨_, _, rfl⟩))) <;> first
      | trivial
      | exact h2
      | exact lenOk_set _ hg _ _ _
      | exact h2.set hne

theorem length_of_reaches {x : Setup K} {s : St} (h : x.Reaches s) {y : Sent} (hy : y ∈ s.sent) :
    (∃ code msg, y = jsonResponse x.respEnv code msg) ∨
      LenOk x.respEnv y.header y.status y.body := by
  obtain ⟨as, h⟩ := h
  refine (run_invariant (P := fun s => HdrInv x.env.toRespEnv s ∧ LenInv x.env.toRespEnv s)
    (fun s a s' hi hs => ⟨hi.1.step hs, hi.2.step hi.1 hs⟩) (s := initial x.dec) ?_ h).2.sent y hy
  cases x.dec <;> exact ⟨⟨by simp [initial], trivial⟩, ⟨by simp [initial], trivial⟩⟩

end J8a
