import Verif.Lemmas.Observe
import Verif.Lemmas.MachineOrderly
/-!
# The log line and the response it is about
-/
namespace J8a
open Go

variable {K : Type}

/-- The logged variables tell of `y`: its status, and if it is an own response, its message. -/
def Tells (e : RespEnv) (w : LogSt) (y : Sent) : Prop :=
  w.code = y.status ∧ ((∃ msg, y = jsonResponse e y.status msg ∧ w.msg = responseMessage y.status msg) ∨
    y.header "Content-Length".toList ≠ [])

/-- The logged variables, by position of the handler. -/
def LogInv (e : Env) (s : St) (w : LogSt) : Prop :=
  match s.pc with
  | .sendJson code msg => w.lines = [] ∧ s.sent = [] ∧ w.code = code ∧ w.msg = msg
  | .okEncode _ code => w.lines = [] ∧ s.sent = [] ∧ w.code = code
  | .okLength _ code _ => w.lines = [] ∧ s.sent = [] ∧ w.code = code
  | .okEnc1 h code _ | .okEnc2 h code _ | .okSend h code _ =>
    w.lines = [] ∧ s.sent = [] ∧ w.code = code ∧ h "Content-Length".toList ≠ []
  | .log1 => w.lines = [] ∧ ∃ y, s.sent = [y] ∧ Tells e.toRespEnv w y
  | .log2 => w.lines = [] ∧ 0 < s.n ∧ e.sendGzip = false ∧ ∃ y, s.sent = [y] ∧ Tells e.toRespEnv w y
  | .done => (∃ enc, w.lines = [logLine e w enc]) ∧ ∃ y, s.sent = [y] ∧ Tells e.toRespEnv w y
  | .panicked => w.lines = []
  | _ => w.lines = [] ∧ s.sent = []

theorem logInv_initial (e : Env) (d : Decision) : LogInv e (initial d) (LogSt.initial d) := by
  cases d <;> simp [LogInv, J8a.initial, LogSt.initial]

theorem LogInv.other {e : Env} {s s' : St} {a : Act} {w : LogSt} (h : stepOther s a = some s')
    (hl : LogInv e s w) : LogInv e s' w := by
  have hf := other_frame h
  unfold LogInv at *
  rw [hf.pc, hf.sent, hf.n]
  exact hl

theorem jsonResponse_status (e : RespEnv) (code : Int) (msg : Str) :
    (jsonResponse e code msg).status = code := rfl

theorem LogInv.main {e : Env} {s s' : St} {c : Choice} {w : LogSt} (h : stepMain e s c = some s')
    (hl : LogInv e s w) : LogInv e s' (logged e s (.main c) w) := by
  have cl : ∀ hd code body up,
      setContentLengthHeader e.toRespEnv hd code body up "Content-Length".toList ≠ [] := by
    intro hd code body up
    rw [setContentLengthHeader_eq, set_same (by decide)]
    simp
  have ce : ∀ (hd : Hdr) v, hd "Content-Length".toList ≠ [] →
      (hd.set "Content-Encoding".toList v) "Content-Length".toList ≠ [] := by
    intro hd v hh
    rw [set_ne (by decide)]
    exact hh
  main_cases s h hp <;> simp only [LogInv, hp, logged] at hl ⊢ <;> first
    | exact hl
    | simp_all [Tells, jsonResponse_status]
    | skip
  · exact .inl ⟨_, rfl, rfl⟩
  · exact ⟨_, rfl⟩
  · rename_i h1 h2
    rw [if_neg (fun hh => by have := h2 hh.1 hh.2.1; simp [hh.2.2] at this)]
    exact ⟨⟨_, rfl⟩, hl.2⟩
  · exact ⟨_, rfl⟩

theorem LogInv.step {e : Env} {s s' : St} {a : Act} {w : LogSt} (h : step e s a = some s')
    (hl : LogInv e s w) : LogInv e s' (logged e s a w) := by
  cases a with
  | main c => exact hl.main h
  | _ =>
    simp only [J8a.step] at h
    exact hl.other h

/-! ## The coding, in executions without late writes -/

theorem watch_orderly {σ : Type} {e : Env} {obs : St → Act → σ → σ} {P : St → σ → Prop}
    (hstep : ∀ s a s' w, P s w → ¬ a.late s → step e s a = some s' → P s' (obs s a w)) :
    ∀ {as : List Act} {s s' : St} {w w' : σ}, P s w → Orderly e s as →
      watch e obs s w as = some (s', w') → P s' w' := by
  intro as
  induction as with
  | nil => intro s s' w w' hp _ h; cases h; exact hp
  | cons a as ih =>
    intro s s' w w' hp ho h
    rw [watch] at h
    split at h
    · cases h
    · exact ih (hstep _ _ _ _ hp ho.1 ‹_›) (ho.2 _ ‹_›) h

/-- The logged coding is that of a response passed on, unless its body is empty. -/
structure EncInv (s : St) (w : LogSt) : Prop where
  log2 : s.pc = .log2 → ∀ y ∈ s.sent, y.header "Content-Length".toList ≠ [] → s.curA.isGzip = false
  done : s.pc = .done → ∀ y ∈ s.sent, y.header "Content-Length".toList ≠ [] → y.body ≠ [] →
    ∀ l ∈ w.lines, y.header "Content-Encoding".toList = [l.contentEnc]

theorem json_no_length (e : RespEnv) (code : Int) (msg : Str) :
    (jsonResponse e code msg).header "Content-Length".toList = [] := by
  unfold jsonResponse
  dsimp only
  rw [set_ne (by decide), std_other _ _ (by decide) (by decide) (by decide)]

theorem Complete.shared {a : Atmpt} {u : UpResp} (h : Complete a u) (hh : HdrOk a) (hb : BodyOk a) :
    a.resp = some u ∧ a.isGzip = hasGzipMagic u.body := by
  obtain ⟨⟨h1, h2, -⟩, h3, h4, -⟩ := h
  unfold HdrOk at hh
  unfold BodyOk at hb
  simp only [h1, h3] at hh hb
  refine ⟨hh.2.trans h2, ?_⟩
  rw [hb.2.2, hb.2.1 h4]
  rfl

theorem Answer.passed {e : Env} {b : Bool} {a : Atmpt} {y : Sent} (h : Answer e b a y)
    (hcl : y.header "Content-Length".toList ≠ []) : ∃ u, y = proxiedResponse e.toRespEnv u ∧ Complete a u := by
  cases h with
  | proxied u hc _ => exact ⟨u, rfl, hc⟩
  | client => exact absurd (json_no_length _ _ _) hcl
  | dwn => exact absurd (json_no_length _ _ _) hcl
  | up => exact absurd (json_no_length _ _ _) hcl
  | bad => exact absurd (json_no_length _ _ _) hcl

theorem EncInv.other {e : Env} {s s' : St} {a : Act} {w : LogSt} (h : stepOther s a = some s')
    (hl : ¬ a.late s) (hi : OrdInv e s) (hc : EncInv s w) : EncInv s' w := by
  have hf := other_frame h
  have hm := other_cur h hl
  obtain ⟨h1, h2⟩ := hc
  refine ⟨?_, ?_⟩
  · rw [hf.pc, hf.sent]
    intro hp y hy hcl
    have hpc := hi.pc
    unfold PcOk at hpc
    simp only [hp] at hpc
    obtain ⟨⟨z, hz, ha⟩, -⟩ := hpc
    rw [hz, List.mem_singleton] at hy
    subst hy
    obtain ⟨u, -, hu⟩ := ha.passed hcl
    obtain ⟨-, -, -, -, h5⟩ := hm.keeps.2.2.2.2.2.2.1 u hu.2.1
    rw [h5]
    exact h1 hp _ (by rw [hz]; exact List.mem_singleton.mpr rfl) hcl
  · rw [hf.pc, hf.sent]
    exact h2

theorem EncInv.main {e : Env} {s s' : St} {c : Choice} {w : LogSt} (h : stepMain e s c = some s')
    (hi : OrdInv e s) (hl : LogInv e s w) (hc : EncInv s w) : EncInv s' (logged e s (.main c) w) := by
  have hpc := hi.pc
  unfold PcOk at hpc
  refine ⟨fun hdone y hy hcl => ?_, fun hdone y hy hcl hb l hm => ?_⟩
  · main_cases s h hp <;> simp only [reduceCtorEq] at hdone
    rename_i hg hn
    have := hn.2.2
    show s.curA.isGzip = false
    simpa using this
  have key : ∀ z, s.sent = [z] → Answer e s.dwnFired s.curA z → s'.sent = s.sent →
      ∃ u, y = proxiedResponse e.toRespEnv u ∧ s.curA.resp = some u ∧
        s.curA.isGzip = hasGzipMagic u.body := by
    intro z hz ha hs
    rw [hs, hz, List.mem_singleton] at hy
    subst hy
    obtain ⟨u, hu, hc⟩ := ha.passed hcl
    exact ⟨u, hu, hc.shared hi.hdr hi.body⟩
  have enc : ∀ u, y = proxiedResponse e.toRespEnv u → y.header "Content-Encoding".toList =
      [contentEncoding e.toRespEnv (hasGzipMagic u.body) u.header] := by
    intro u hu
    subst hu
    rw [proxied_encoding, if_pos]
    exact List.length_pos_iff.mpr hb
  unfold LogInv at hl
  have hnpos := hi.inv.pos
  have hlog2 := hc.log2
  main_cases s h hp <;> simp only [reduceCtorEq] at hdone <;>
    simp only [logged, hp] at hm hpc hl
  case isTrue.refl hg =>
    obtain ⟨z, hz, ha⟩ := hpc
    obtain ⟨u, h1, h2, h3⟩ := key z hz ha rfl
    rw [enc u h1]
    rw [if_pos hg, hl.1, List.nil_append, List.mem_singleton] at hm
    rw [hm]
    simp [contentEncoding, logLine, hg]
  case isFalse.isFalse.refl hg hn =>
    obtain ⟨z, hz, ha⟩ := hpc
    obtain ⟨u, h1, h2, h3⟩ := key z hz ha rfl
    rw [enc u h1]
    rw [if_neg hg, if_neg hn, hl.1, List.nil_append, List.mem_singleton] at hm
    have hgz : hasGzipMagic u.body = true := by
      rw [← h3]
      cases hx : s.curA.isGzip
      · exact absurd ⟨hnpos, by rw [h2]; rfl, by simp [hx]⟩ hn
      · rfl
    rw [hm]
    simp [contentEncoding, logLine, hg, hgz]
  · obtain ⟨⟨z, hz, ha⟩, -⟩ := hpc
    obtain ⟨u, h1, h2, h3⟩ := key z hz ha rfl
    rw [enc u h1, ← h3, hlog2 hp y hy hcl]
    simp only [h2] at hm
    rw [hl.1, List.nil_append, List.mem_singleton] at hm
    rw [hm]
    have hz : e.toRespEnv.sendGzip = false := hl.2.2.1
    show [contentEncoding e.toRespEnv false u.header] = [upEncoding u]
    unfold contentEncoding upEncoding
    rw [hz]
    rfl

theorem EncInv.step {e : Env} {s s' : St} {a : Act} {w : LogSt} (h : step e s a = some s')
    (hl : ¬ a.late s) (hi : OrdInv e s) (hg : LogInv e s w) (hc : EncInv s w) :
    EncInv s' (logged e s a w) := by
  cases a with
  | main c => exact hc.main h hi hg
  | _ =>
    simp only [J8a.step] at h
    exact hc.other h hl hi

end J8a
