import Verif.Lemmas.MachineProgress
import Verif.Lemmas.MachineClose
import Verif.Spec.Schedule
/-!
# Executions without late writes
-/
namespace J8a
open Go

variable {K : Type}

/-- How the current attempt changes by a step of a timer or goroutine that is not a late write. -/
inductive CurMove (a : Atmpt) : Atmpt → Prop where
  | same : CurMove a a
  | timer : CurMove a { a with ctxDone := true }
  | call (q) : a.hg = .started q → CurMove a { a with hg := .calling }
  | ret (r) : a.hg = .calling → CurMove a { a with hg := .returned, vResp := r, vErr := r.isNone }
  | write : a.hg = .returned → CurMove a { a with resp := a.vResp, hg := .wrote }
  | close : a.hg = .wrote → CurMove a { a with hg := .finished, hdrClosed := a.hdrClosed + 1 }
  | leave : a.hg = .wrote → CurMove a { a with hg := .finished }
  | status (r) : a.bg = .started r → CurMove a { a with statusCode := r.status, bg := .reading r }
  | read (r) : a.bg = .reading r → CurMove a { a with bg := .read r, vBody := some r.body }
  | fail (r k) : a.bg = .reading r →
      CurMove a { a with bg := .read r, vBody := some (r.body.take k), vBodyErr := true }
  | gzip (r) : a.bg = .read r →
      CurMove a { a with isGzip := a.isGzip || hasGzipMagic (a.vBody.getD []), bg := .tested r }
  | closeB (r) : a.bg = .tested r →
      CurMove a { a with bg := .finished r, bodyClosed := a.bodyClosed + 1 }
  | leaveB (r) : a.bg = .tested r → CurMove a { a with bg := .finished r }

theorem other_cur {s s' : St} {a : Act} (h : stepOther s a = some s') (hl : ¬ a.late s) :
    CurMove s.curA s'.curA := by
  have hc := (other_frame h).cur
  unfold St.curA
  rw [hc]
  cases a <;> simp only [Act.late, ne_eq, Decidable.not_not, not_false_eq_true] at hl <;>
    simp only [stepOther] at h <;> (repeat' split at h) <;> cases h <;>
    simp only [upd_atmpt] <;> (repeat' split) <;> first
      | exact .same
      | exact .timer
      | (subst_vars; constructor <;> assumption)
      | (subst_vars; apply CurMove.call <;> assumption)
      | (subst_vars; apply CurMove.ret <;> assumption)
      | (subst_vars; apply CurMove.write <;> assumption)
      | (subst_vars; apply CurMove.close <;> assumption)
      | (subst_vars; apply CurMove.leave <;> assumption)
      | (subst_vars; apply CurMove.status <;> assumption)
      | (subst_vars; apply CurMove.read <;> assumption)
      | (subst_vars; apply CurMove.fail <;> assumption)
      | (subst_vars; apply CurMove.gzip <;> assumption)
      | (subst_vars; apply CurMove.closeB <;> assumption)
      | (subst_vars; apply CurMove.leaveB <;> assumption)
      | (exfalso; clear hc; simp_all; done)

/-- The header goroutine and what it has written. -/
def HdrOk (a : Atmpt) : Prop :=
  match a.hg with
  | .idle | .started _ | .calling => a.vResp = none ∧ a.vErr = false ∧ a.resp = none ∧ a.hdrClosed = 0
  | .returned => a.vErr = a.vResp.isNone ∧ a.resp = none ∧ a.hdrClosed = 0
  | .wrote => a.vErr = a.vResp.isNone ∧ a.resp = a.vResp ∧ a.hdrClosed = 0
  | .finished => a.vErr = a.vResp.isNone ∧ a.resp = a.vResp

/-- The body goroutine and what it has written. -/
def BodyOk (a : Atmpt) : Prop :=
  match a.bg with
  | .idle | .started _ => a.vBody = none ∧ a.vBodyErr = false ∧ a.isGzip = false ∧ a.bodyClosed = 0
  | .reading r => a.statusCode = r.status ∧ a.vBody = none ∧ a.vBodyErr = false ∧
      a.isGzip = false ∧ a.bodyClosed = 0
  | .read r => a.statusCode = r.status ∧ (a.vBodyErr = false → a.vBody = some r.body) ∧
      a.isGzip = false ∧ a.bodyClosed = 0
  | .tested r => a.statusCode = r.status ∧ (a.vBodyErr = false → a.vBody = some r.body) ∧
      a.isGzip = hasGzipMagic (a.vBody.getD []) ∧ a.bodyClosed = 0
  | .finished r => a.statusCode = r.status ∧ (a.vBodyErr = false → a.vBody = some r.body) ∧
      a.isGzip = hasGzipMagic (a.vBody.getD [])

theorem HdrOk.move {a a' : Atmpt} (h : HdrOk a) (hm : CurMove a a') : HdrOk a' := by
  unfold HdrOk at h ⊢
  cases hm <;> first | exact h | simp_all

theorem BodyOk.move {a a' : Atmpt} (h : BodyOk a) (hm : CurMove a a') : BodyOk a' := by
  unfold BodyOk at h ⊢
  cases hm <;> first | exact h | simp_all

/-- The response the body goroutine works on. -/
def BG.on : BG → Option UpResp
  | .idle => none
  | .started r | .reading r | .read r | .tested r | .finished r => some r

/-- The attempt has the headers of `r` and its body goroutine runs. -/
def Got (a : Atmpt) (r : UpResp) : Prop :=
  a.hg = .finished ∧ a.vResp = some r ∧ a.bg.on = some r

/-- The attempt has read all of `r`. -/
def Complete (a : Atmpt) (r : UpResp) : Prop :=
  Got a r ∧ a.bg = .finished r ∧ a.vBodyErr = false ∧ a.respBody = some r.body ∧ r.status < 500

/-- The messages of proxyhandler.go:97, 99. -/
def upMsg : Str := "gateway timeout triggered by upstream attempt".toList
def badMsg : Str := "bad gateway triggered. unable to process upstream response".toList

/-- The header built by proxyhandler.go:255-256. -/
def okHdr (e : Env) (r : UpResp) : Hdr :=
  copyHeaders r.header (writeStandardResponseHeaders e.toRespEnv Hdr.empty)

/-- The body built by proxyhandler.go:258. -/
def okBody (e : Env) (r : UpResp) : Bytes :=
  encodeUpstreamResponseBody e.toRespEnv (hasGzipMagic r.body) (some r.body)

/-- The upstream call of the attempt failed by itself: error, incomplete body or status of 500 and
above. -/
def Failed (a : Atmpt) : Prop :=
  a.hg = .finished ∧ (a.vResp = none ∨
    ∃ r, a.vResp = some r ∧ a.bg = .finished r ∧ (a.vBodyErr = true ∨ 500 ≤ r.status))

/-- What the client may get, and why; `fired` tells whether the round trip deadline has passed and
`a` is the last attempt. -/
inductive Answer (e : Env) (fired : Bool) (a : Atmpt) : Sent → Prop where
  | proxied (u) : Complete a u → u.status < 400 →
      Answer e fired a (proxiedResponse e.toRespEnv u)
  | client (u) : Complete a u → 400 ≤ u.status →
      Answer e fired a (jsonResponse e.toRespEnv u.status "none".toList)
  | dwn : fired = true → Answer e fired a (jsonResponse e.toRespEnv 504 dwnMsg)
  | up : a.ctxDone = true → Answer e fired a (jsonResponse e.toRespEnv 504 upMsg)
  | bad : Failed a → Answer e fired a (jsonResponse e.toRespEnv 502 badMsg)

/-- Why the handler gives up on the current attempt. -/
def GaveUp (s : St) : Prop := s.dwnFlag = true ∨ s.curA.ctxDone = true ∨ Failed s.curA

/-- What is known at each point of an orderly execution about the current attempt. -/
def PcOk (e : Env) (s : St) : Prop :=
  let a := s.curA
  match s.pc with
  | .scaffold => a.hg = .idle ∧ a.bg = .idle
  | .selHeader => a.bg = .idle
  | .retHeader => a.bg = .idle ∧ (0 < a.hdrClosed ∨ a.ctxDone = true)
  | .procCheck r err => a.bg = .idle ∧
      (a.ctxDone = true ∨ a.hg = .finished ∧ r = a.vResp ∧ err = a.vErr)
  | .selBody => ∃ r, Got a r
  | .retBody => ∃ r, Got a r ∧ (0 < a.bodyClosed ∨ s.dwnFlag = true ∨ a.abortedFlag = true)
  | .setBody b err => ∃ r, Got a r ∧ (s.dwnFlag = true ∨ a.abortedFlag = true ∨
      a.bg = .finished r ∧ b = a.vBody ∧ err = a.vBodyErr)
  | .chkDwn err => ∃ r, Got a r ∧ (s.dwnFlag = true ∨ a.abortedFlag = true ∨
      a.bg = .finished r ∧ a.respBody = a.vBody ∧ err = a.vBodyErr)
  | .chkUp err => ∃ r, Got a r ∧ (a.abortedFlag = true ∨
      a.bg = .finished r ∧ a.respBody = a.vBody ∧ err = a.vBodyErr)
  | .chkResp err => ∃ r, Got a r ∧ a.bg = .finished r ∧ a.respBody = a.vBody ∧ err = a.vBodyErr
  | .branch => ∃ r, Complete a r
  | .jsonStatus => ∃ r, Complete a r ∧ 400 ≤ r.status
  | .okHeaders => ∃ r, Complete a r ∧ r.status < 400
  | .okStatus h => ∃ r, Complete a r ∧ r.status < 400 ∧ h = okHdr e r
  | .okEncode h code => ∃ r, Complete a r ∧ r.status < 400 ∧ h = okHdr e r ∧ code = r.status
  | .okLength h code body => ∃ r, Complete a r ∧ r.status < 400 ∧ h = okHdr e r ∧
      code = r.status ∧ body = okBody e r
  | .okEnc1 h code body => ∃ r, Complete a r ∧ r.status < 400 ∧
      h = setContentLengthHeader e.toRespEnv (okHdr e r) r.status (okBody e r) r.header ∧
      code = r.status ∧ body = okBody e r
  | .okEnc2 h code body => ∃ r, Complete a r ∧ r.status < 400 ∧
      h = setContentLengthHeader e.toRespEnv (okHdr e r) r.status (okBody e r) r.header ∧
      code = r.status ∧ body = okBody e r ∧ 0 < body.length ∧ e.sendGzip = false ∧
      hasGzipMagic r.body = false
  | .okSend h code body => ∃ r, Complete a r ∧ r.status < 400 ∧
      ⟨code, h, body⟩ = proxiedResponse e.toRespEnv r
  | .sendJson code msg => Answer e s.dwnFired a (jsonResponse e.toRespEnv code msg)
  | .log1 => ∃ x, s.sent = [x] ∧ Answer e s.dwnFired a x
  | .log2 => (∃ x, s.sent = [x] ∧ Answer e s.dwnFired a x) ∧ a.resp.isSome
  | .done => ∃ x, s.sent = [x] ∧ Answer e s.dwnFired a x
  | .retry1 | .retry2 _ | .final1 => GaveUp s
  | .final2 => a.ctxDone = true ∨ Failed a
  | .next | .panicked => True

theorem proxiedResponse_eq (e : Env) (r : UpResp) :
    proxiedResponse e.toRespEnv r =
      { status := r.status
        header :=
          if 0 < (okBody e r).length then
            (setContentLengthHeader e.toRespEnv (okHdr e r) r.status (okBody e r) r.header).set
              "Content-Encoding".toList (contentEncoding e.toRespEnv (hasGzipMagic r.body) r.header)
          else setContentLengthHeader e.toRespEnv (okHdr e r) r.status (okBody e r) r.header
        body := okBody e r } := rfl

theorem Got.move {a a' : Atmpt} {r : UpResp} (h : Got a r) (hm : CurMove a a') : Got a' r := by
  obtain ⟨h1, h2, h3⟩ := h
  cases hm <;> simp_all [Got, BG.on]

/-- Facts that survive the moves of the goroutines. -/
theorem CurMove.keeps {a a' : Atmpt} (hm : CurMove a a') :
    a'.respBody = a.respBody ∧ a'.abortedFlag = a.abortedFlag ∧
    (a.ctxDone = true → a'.ctxDone = true) ∧
    (0 < a.hdrClosed → 0 < a'.hdrClosed) ∧ (0 < a.bodyClosed → 0 < a'.bodyClosed) ∧
    (a.hg = .finished → a'.hg = .finished ∧ a'.vResp = a.vResp ∧ a'.vErr = a.vErr ∧
      a'.resp = a.resp) ∧
    (∀ r, a.bg = .finished r → a'.bg = .finished r ∧ a'.vBody = a.vBody ∧
      a'.vBodyErr = a.vBodyErr ∧ a'.statusCode = a.statusCode ∧ a'.isGzip = a.isGzip) ∧
    (a.bg = .idle → a'.bg = .idle) ∧
    (∀ x, HdrOk a → a.vResp = some x → a'.vResp = some x) ∧
    (HdrOk a → a.resp.isSome → a'.resp.isSome) ∧ (a.hg = .idle → a'.hg = .idle) := by
  cases hm <;> simp_all [HdrOk]

theorem Complete.move {a a' : Atmpt} {r : UpResp} (h : Complete a r) (hm : CurMove a a') :
    Complete a' r := by
  obtain ⟨h1, h2, h3, h4, h5⟩ := h
  obtain ⟨k1, -, -, -, -, -, k7, -⟩ := hm.keeps
  obtain ⟨j1, j2, j3, j4, j5⟩ := k7 r h2
  exact ⟨h1.move hm, j1, by rw [j3, h3], by rw [k1, h4], h5⟩

theorem Failed.move {a a' : Atmpt} (h : Failed a) (hm : CurMove a a') : Failed a' := by
  obtain ⟨-, -, -, -, -, k6, k7, -⟩ := hm.keeps
  obtain ⟨h1, h2⟩ := h
  obtain ⟨j1, j2, -⟩ := k6 h1
  refine ⟨j1, ?_⟩
  rw [j2]
  refine h2.imp id ?_
  rintro ⟨r, h3, h4, h5⟩
  obtain ⟨i1, -, i3, -⟩ := k7 r h4
  exact ⟨r, h3, i1, by rw [i3]; exact h5⟩

theorem GaveUp.move {s s' : St} (h : GaveUp s) (hf : Frame s s') (hm : CurMove s.curA s'.curA) :
    GaveUp s' :=
  h.imp (fun h => by rw [hf.dwnFlag]; exact h) (Or.imp hm.keeps.2.2.1 fun h => h.move hm)

theorem Answer.move {e : Env} {f f' : Bool} {a a' : Atmpt} {x : Sent} (h : Answer e f a x)
    (hf : f = true → f' = true) (hm : CurMove a a') : Answer e f' a' x := by
  cases h with
  | proxied u h1 h2 => exact .proxied u (h1.move hm) h2
  | client u h1 h2 => exact .client u (h1.move hm) h2
  | dwn h => exact .dwn (hf h)
  | up h => exact .up (hm.keeps.2.2.1 h)
  | bad h => exact .bad (h.move hm)

theorem PcOk.other {e : Env} {s s' : St} (h : PcOk e s) (hf : Frame s s')
    (ho : HdrOk s.curA) (hm : CurMove s.curA s'.curA) : PcOk e s' := by
  obtain ⟨k1, k2, k3, k4, k5, k6, k7, k8, k9, k10, k11⟩ := hm.keeps
  unfold PcOk at h ⊢
  rw [hf.pc]
  cases hpc : s.pc <;> simp only [hpc] at h ⊢
  case scaffold => exact ⟨k11 h.1, k8 h.2⟩
  case selHeader => exact k8 h
  case retHeader => exact ⟨k8 h.1, h.2.imp k4 k3⟩
  case procCheck r err =>
    refine ⟨k8 h.1, h.2.imp k3 ?_⟩
    rintro ⟨h1, h2, h3⟩
    obtain ⟨j1, j2, j3, j4⟩ := k6 h1
    exact ⟨j1, by rw [h2, j2], by rw [h3, j3]⟩
  case selBody => obtain ⟨r, h⟩ := h; exact ⟨r, h.move hm⟩
  case retBody =>
    obtain ⟨r, h1, h2⟩ := h
    refine ⟨r, h1.move hm, ?_⟩
    rw [hf.dwnFlag, k2]
    exact h2.imp k5 id
  case setBody b err =>
    obtain ⟨r, h1, h2⟩ := h
    refine ⟨r, h1.move hm, ?_⟩
    rw [hf.dwnFlag, k2]
    refine h2.imp id (Or.imp id ?_)
    rintro ⟨h1, h2, h3⟩
    obtain ⟨j1, j2, j3, -⟩ := k7 r h1
    exact ⟨j1, by rw [h2, j2], by rw [h3, j3]⟩
  case chkDwn err =>
    obtain ⟨r, h1, h2⟩ := h
    refine ⟨r, h1.move hm, ?_⟩
    rw [hf.dwnFlag, k2]
    refine h2.imp id (Or.imp id ?_)
    rintro ⟨h1, h2, h3⟩
    obtain ⟨j1, j2, j3, -⟩ := k7 r h1
    exact ⟨j1, by rw [k1, h2, j2], by rw [h3, j3]⟩
  case chkUp err =>
    obtain ⟨r, h1, h2⟩ := h
    refine ⟨r, h1.move hm, ?_⟩
    rw [k2]
    refine h2.imp id ?_
    rintro ⟨h1, h2, h3⟩
    obtain ⟨j1, j2, j3, -⟩ := k7 r h1
    exact ⟨j1, by rw [k1, h2, j2], by rw [h3, j3]⟩
  case chkResp err =>
    obtain ⟨r, h1, h2, h3, h4⟩ := h
    obtain ⟨j1, j2, j3, -⟩ := k7 r h2
    exact ⟨r, h1.move hm, j1, by rw [k1, h3, j2], by rw [h4, j3]⟩
  case sendJson code msg => exact h.move hf.dwnFired hm
  case retry1 => exact h.move hf hm
  case retry2 => exact h.move hf hm
  case final1 => exact h.move hf hm
  case final2 => exact h.imp k3 fun h => h.move hm
  case log1 => obtain ⟨x, h1, h2⟩ := h; exact ⟨x, by rw [hf.sent, h1], h2.move hf.dwnFired hm⟩
  case log2 =>
    obtain ⟨⟨x, h1, h2⟩, h3⟩ := h
    exact ⟨⟨x, by rw [hf.sent, h1], h2.move hf.dwnFired hm⟩, k10 ho h3⟩
  case done => obtain ⟨x, h1, h2⟩ := h; exact ⟨x, by rw [hf.sent, h1], h2.move hf.dwnFired hm⟩
  all_goals (obtain ⟨r, h⟩ := h; first | exact ⟨r, h.move hm⟩ | exact ⟨r, h.1.move hm, h.2⟩)

theorem HdrOk.main {e : Env} {s s' : St} {c : Choice} (hm : stepMain e s c = some s')
    (hp : PcOk e s) (h : HdrOk s.curA) : HdrOk s'.curA := by
  unfold PcOk at hp
  unfold HdrOk St.curA St.cur at *
  main_cases s hm hpc <;> simp only [hpc] at hp <;>
    simp only [upd_atmpt, abortAll_atmpt, noteUp_atmpt, noteDwn_atmpt, upd_n, noteUp_n, noteDwn_n,
      abortAll_n, St.cur] <;>
    (repeat' split) <;> first | exact h | simp_all

theorem BodyOk.main {e : Env} {s s' : St} {c : Choice} (hm : stepMain e s c = some s')
    (hp : PcOk e s) (h : BodyOk s.curA) : BodyOk s'.curA := by
  unfold PcOk at hp
  unfold BodyOk St.curA St.cur at *
  main_cases s hm hpc <;> simp only [hpc] at hp <;>
    simp only [upd_atmpt, abortAll_atmpt, noteUp_atmpt, noteDwn_atmpt, upd_n, noteUp_n, noteDwn_n,
      abortAll_n, St.cur] <;>
    (repeat' split) <;> first | exact h | simp_all

theorem curA_upd (s : St) (f : Atmpt → Atmpt) (pc : PC) :
    St.curA { s.upd s.cur f with pc := pc } = f s.curA := by
  simp [St.curA, St.cur, upd_atmpt]

theorem curA_noteUp (s : St) :
    s.noteUp.curA = { s.curA with abortedFlag := s.curA.abortedFlag || s.curA.ctxDone } := by
  simp [St.curA, St.cur, noteUp_atmpt]

theorem PcOk.main {e : Env} {s s' : St} {c : Choice} (hm : stepMain e s c = some s')
    (hi : Inv e s) (hcl : CloseInv s) (hh : HdrOk s.curA) (hb : BodyOk s.curA)
    (hp : PcOk e s) : PcOk e s' := by
  have hsent := hi.sent
  cases hpc : s.pc <;> simp only [PcOk, hpc] at hp <;> rw [hpc] at hsent <;>
    simp only [PC.sentCount, reduceCtorEq, false_and, false_or, List.length_eq_zero_iff] at hsent <;>
    simp only [stepMain, hpc] at hm
  case scaffold =>
    split at hm <;> cases hm
    · simp only [PcOk, curA_upd]; exact hp.2
    · trivial
  case selHeader =>
    (repeat' split at hm) <;> cases hm
    · simp only [PcOk, curA_upd]; exact ⟨hp, .inr ‹_›⟩
    · simp only [PcOk]
      have hc := hi.cancel s.cur (cur_lt hi.pos) (by simp [hpc])
      have : St.curA { s.abortAll with dwnFlag := true, pc := .retHeader }
          = { s.curA with ctxDone := true } := by
        show s.abortAll.atmpt s.cur = _
        rw [abortAll_atmpt, if_pos ⟨cur_lt hi.pos, hc⟩]
        rfl
      rw [this]
      exact ⟨hp, .inr rfl⟩
    · exact ⟨hp, .inl ‹_›⟩
  case retHeader =>
    cases hm
    refine ⟨hp.1, hp.2.symm.imp id fun h => ?_⟩
    rcases hcl.hdr s.cur with h' | h'
    · exact ⟨h'.1, rfl, rfl⟩
    · unfold St.curA at h; omega
  case procCheck r err =>
    have hpast : err = true ∨ r = none → GaveUp s := by
      intro hn
      rcases hp.2 with h | ⟨h1, h2, h3⟩
      · exact .inr (.inl h)
      · refine .inr (.inr ⟨h1, .inl ?_⟩)
        rw [← h2]
        rcases hn with hn | hn
        · unfold HdrOk at hh
          rw [h1, ← h3, ← h2, hn] at hh
          simpa using hh.1.symm
        · exact hn
    (repeat' split at hm) <;> cases hm
    · exact hpast (.inr rfl)
    · exact hpast (.inl ‹_›)
    · rename_i r herr hfl
      refine .inr (.inl ?_)
      have h1 : s.noteUp.curA.ctxDone = s.curA.ctxDone := by rw [curA_noteUp]
      show s.noteUp.curA.ctxDone = true
      rw [h1]
      rw [curA_noteUp] at hfl
      simp only [Bool.or_eq_true] at hfl
      exact hfl.elim (hi.flag.up s.cur) id
    · rename_i r herr hfl
      rw [curA_noteUp] at hfl
      simp only [Bool.or_eq_true, not_or] at hfl
      obtain ⟨h1, h2⟩ := hp
      rcases h2 with h2 | ⟨h2, h3, h4⟩
      · exact absurd h2 hfl.2
      · have : St.curA { s.noteUp.upd s.cur (fun a => { a with bg := .started r }) with pc := .selBody }
            = { s.noteUp.curA with bg := .started r } := curA_upd s.noteUp _ _
        refine ⟨r, ?_⟩
        rw [this, curA_noteUp]
        exact ⟨h2, h3.symm, rfl⟩
  case selBody =>
    obtain ⟨r, hg⟩ := hp
    (repeat' split at hm) <;> cases hm
    · refine ⟨r, ?_⟩
      rw [curA_upd]
      exact ⟨hg, .inr (.inr rfl)⟩
    · have hc := hi.cancel s.cur (cur_lt hi.pos) (by simp [hpc])
      have : St.curA { s.abortAll with dwnFlag := true, pc := .retBody }
          = { s.curA with ctxDone := true } := by
        show s.abortAll.atmpt s.cur = _
        rw [abortAll_atmpt, if_pos ⟨cur_lt hi.pos, hc⟩]
        rfl
      refine ⟨r, ?_⟩
      rw [this]
      exact ⟨hg, .inr (.inl rfl)⟩
    · exact ⟨r, hg, .inl ‹_›⟩
  case retBody =>
    obtain ⟨r, hg, hw⟩ := hp
    cases hm
    refine ⟨r, hg, ?_⟩
    rcases hw with hw | hw | hw
    · refine .inr (.inr ?_)
      rcases hcl.body s.cur with h' | h'
      · have := hg.2.2
        have h1 := h'.1
        unfold St.curA at this
        refine ⟨?_, rfl, rfl⟩
        show (s.atmpt s.cur).bg = _
        cases hbg : (s.atmpt s.cur).bg <;> simp_all [BG.isFinished, BG.on]
      · unfold St.curA at hw; omega
    · exact .inl hw
    · exact .inr (.inl hw)
  case setBody b err =>
    obtain ⟨r, hg, hw⟩ := hp
    cases hm
    refine ⟨r, ?_⟩
    rw [curA_upd]
    refine ⟨hg, hw.imp id (Or.imp id ?_)⟩
    rintro ⟨h1, h2, h3⟩
    exact ⟨h1, h2, h3⟩
  case chkDwn err =>
    obtain ⟨r, hg, hw⟩ := hp
    split at hm <;> cases hm
    · exact .inl ‹_›
    · rename_i hd
      simp only [noteDwn_dwnFlag, Bool.or_eq_true, not_or] at hd
      exact ⟨r, hg, hw.resolve_left hd.1⟩
  case chkUp err =>
    obtain ⟨r, hg, hw⟩ := hp
    split at hm <;> cases hm
    · rename_i hfl
      refine .inr (.inl ?_)
      have h1 : s.noteUp.curA.ctxDone = s.curA.ctxDone := by rw [curA_noteUp]
      show s.noteUp.curA.ctxDone = true
      rw [h1]
      rw [curA_noteUp] at hfl
      simp only [Bool.or_eq_true] at hfl
      exact hfl.elim (hi.flag.up s.cur) id
    · rename_i hd
      have hd' := hd
      rw [curA_noteUp] at hd'
      simp only [Bool.or_eq_true, not_or] at hd'
      have : St.curA { s.noteUp with pc := .chkResp err } = s.noteUp.curA := rfl
      refine ⟨r, ?_⟩
      rw [this, curA_noteUp]
      obtain ⟨h1, h2, h3⟩ := hw.resolve_left hd'.1
      exact ⟨hg, h1, h2, h3⟩
  case chkResp err =>
    obtain ⟨r, hg, h1, h2, h3⟩ := hp
    have hre : s.curA.resp = s.curA.vResp := by
      unfold HdrOk at hh; rw [hg.1] at hh; exact hh.2
    (repeat' split at hm) <;> cases hm
    · rename_i he
      exact .inr (.inr ⟨hg.1, .inr ⟨r, hg.2.1, h1, .inl (h3.symm.trans he)⟩⟩)
    · trivial
    · rename_i he _ r' hr hlt
      rw [hre, hg.2.1] at hr
      cases hr
      have hbe : s.curA.vBodyErr = false := by rw [← h3]; simpa using he
      refine ⟨r, hg, h1, hbe, ?_, hlt⟩
      show s.curA.respBody = _
      unfold BodyOk at hb
      rw [h1] at hb
      rw [h2, hb.2.1 hbe]
    · rename_i he _ r' hr hlt
      rw [hre, hg.2.1] at hr
      cases hr
      exact .inr (.inr ⟨hg.1, .inr ⟨r, hg.2.1, h1, .inr (by omega)⟩⟩)
  case branch =>
    obtain ⟨r, hc⟩ := hp
    have hst : s.curA.statusCode = r.status := by
      unfold BodyOk at hb; rw [hc.2.1] at hb; exact hb.1
    split at hm <;> cases hm
    · exact ⟨r, hc, by omega⟩
    · have := hc.2.2.2.2
      exact ⟨r, hc, by omega⟩
  case jsonStatus =>
    obtain ⟨r, hc, h4⟩ := hp
    have hst : s.curA.statusCode = r.status := by
      unfold BodyOk at hb; rw [hc.2.1] at hb; exact hb.1
    cases hm
    show Answer e _ s.curA _
    rw [hst]
    exact .client r hc h4
  case okHeaders =>
    obtain ⟨r, hc, h4⟩ := hp
    have hre : s.curA.resp = some r := by
      unfold HdrOk at hh; rw [hc.1.1] at hh; rw [hh.2, hc.1.2.1]
    rw [hre] at hm
    cases hm
    exact ⟨r, hc, h4, rfl⟩
  case okStatus h =>
    obtain ⟨r, hc, h4, h5⟩ := hp
    have hst : s.curA.statusCode = r.status := by
      unfold BodyOk at hb; rw [hc.2.1] at hb; exact hb.1
    cases hm
    exact ⟨r, hc, h4, h5, hst⟩
  case okEncode h code =>
    obtain ⟨r, hc, h4, h5, h6⟩ := hp
    cases hm
    refine ⟨r, hc, h4, h5, h6, ?_⟩
    unfold okBody
    have : s.curA.isGzip = hasGzipMagic r.body := by
      unfold BodyOk at hb; rw [hc.2.1] at hb
      rw [hb.2.2, hb.2.1 hc.2.2.1]; rfl
    rw [this, hc.2.2.2.1]
  case okLength h code body =>
    obtain ⟨r, hc, h4, rfl, rfl, rfl⟩ := hp
    have hre : s.curA.resp = some r := by
      unfold HdrOk at hh; rw [hc.1.1] at hh; rw [hh.2, hc.1.2.1]
    rw [hre] at hm
    split at hm <;> cases hm
    · rename_i hz
      refine ⟨r, hc, h4, ?_, rfl, rfl⟩
      unfold setContentLengthHeader
      rcases hz with hz | hz
      · rw [if_pos hz, if_pos hz]
      · split
        · rfl
        · rfl
    · exact ⟨r, hc, h4, rfl, rfl, rfl⟩
  case okEnc1 h code body =>
    obtain ⟨r, hc, h4, rfl, rfl, rfl⟩ := hp
    have hre : s.curA.resp = some r := by
      unfold HdrOk at hh; rw [hc.1.1] at hh; rw [hh.2, hc.1.2.1]
    have hgz : s.curA.isGzip = hasGzipMagic r.body := by
      unfold BodyOk at hb; rw [hc.2.1] at hb
      rw [hb.2.2, hb.2.1 hc.2.2.1]; rfl
    rw [hre, hgz] at hm
    (repeat' split at hm) <;> cases hm
    · refine ⟨r, hc, h4, ?_⟩
      rename_i hl hg
      rw [proxiedResponse_eq, if_pos hl]
      unfold contentEncoding
      rw [if_pos hg]
    · rename_i hl hg hh
      simp only [Bool.not_eq_true] at hg hh
      exact ⟨r, hc, h4, rfl, rfl, rfl, hl, hg, hh.2⟩
    · refine ⟨r, hc, h4, ?_⟩
      rename_i hl hg hh
      simp only [Bool.not_eq_true, Option.isSome_some, true_and, Bool.not_eq_false] at hg hh
      rw [proxiedResponse_eq, if_pos hl]
      unfold contentEncoding
      rw [if_neg (by simp [hg]), hg, hh]
      simp
    · refine ⟨r, hc, h4, ?_⟩
      rename_i hl
      rw [proxiedResponse_eq, if_neg hl]
  case okEnc2 h code body =>
    obtain ⟨r, hc, h4, rfl, rfl, rfl, h8, h9, h10⟩ := hp
    have hre : s.curA.resp = some r := by
      unfold HdrOk at hh; rw [hc.1.1] at hh; rw [hh.2, hc.1.2.1]
    rw [hre] at hm
    cases hm
    refine ⟨r, hc, h4, ?_⟩
    rw [proxiedResponse_eq, if_pos h8, h10]
  case okSend h code body =>
    obtain ⟨r, hc, h4, h5⟩ := hp
    split at hm <;> cases hm
    · refine ⟨_, by rw [hsent]; rfl, ?_⟩
      rw [h5]
      exact .proxied r hc h4
    · trivial
  case sendJson code msg =>
    split at hm <;> cases hm
    · exact ⟨_, by rw [hsent]; rfl, hp⟩
    · trivial
  case log1 =>
    (repeat' split at hm) <;> cases hm
    · exact hp
    · rename_i hh
      exact ⟨hp, hh.2.1⟩
    · exact hp
  case log2 =>
    split at hm <;> cases hm
    · trivial
    · exact hp.1
  case retry1 => cases hm; exact hp
  case retry2 b =>
    (repeat' split at hm) <;> cases hm
    · exact .inl ‹_›
    · trivial
    · rename_i h1 _
      rcases hp with hp | hp
      · exact .inl (by simp [hp])
      · exact .inr hp
  case next =>
    cases hm
    simp [PcOk, St.curA, St.cur]
  case final1 =>
    split at hm <;> cases hm
    · refine Answer.dwn ?_
      rename_i h
      simp only [noteDwn_dwnFlag, Bool.or_eq_true] at h
      exact h.elim hi.flag.dwn id
    · rename_i h
      simp only [noteDwn_dwnFlag, Bool.or_eq_true, not_or] at h
      exact hp.resolve_left h.1
  case final2 =>
    split at hm <;> cases hm
    all_goals
      rename_i h
      have h1 : s.noteUp.curA.ctxDone = s.curA.ctxDone := by rw [curA_noteUp]
      rw [curA_noteUp] at h
      simp only [Bool.or_eq_true, not_or] at h
    · refine Answer.up ?_
      show s.noteUp.curA.ctxDone = true
      rw [h1]
      exact h.elim (hi.flag.up s.cur) id
    · refine Answer.bad ?_
      show Failed s.noteUp.curA
      rw [curA_noteUp]
      exact hp.resolve_left h.2
  all_goals cases hm

/-- Everything known about orderly executions. -/
structure OrdInv (e : Env) (s : St) : Prop where
  inv : Inv e s
  close : CloseInv s
  hdr : HdrOk s.curA
  body : BodyOk s.curA
  pc : PcOk e s

theorem OrdInv.step {e : Env} {s s' : St} {a : Act} (hi : OrdInv e s) (hl : ¬ a.late s)
    (h : step e s a = some s') : OrdInv e s' := by
  refine ⟨hi.inv.step h, hi.close.step h, ?_, ?_, ?_⟩
  all_goals
    cases a
    case main c =>
      simp only [J8a.step] at h
      first
        | exact hi.hdr.main h hi.pc
        | exact hi.body.main h hi.pc
        | exact hi.pc.main h hi.inv hi.close hi.hdr hi.body
  all_goals
    simp only [J8a.step] at h
    have hm := other_cur h hl
    first
      | exact hi.hdr.move hm
      | exact hi.body.move hm
      | exact hi.pc.other (other_frame h) hi.hdr hm

theorem OrdInv.initial (e : Env) (r : Route) (u : URL) (l : Str) :
    OrdInv e (initial (.forward r u l)) :=
  ⟨.initial e r u l, .initial _, by simp [J8a.initial, HdrOk, St.curA, St.cur],
    by simp [J8a.initial, BodyOk, St.curA, St.cur], by simp [J8a.initial, PcOk, St.curA, St.cur]⟩

theorem OrdInv.run {e : Env} {s s' : St} {as : List Act} (hi : OrdInv e s) (ho : Orderly e s as)
    (h : run e s as = some s') : OrdInv e s' := by
  induction as generalizing s with
  | nil => rw [J8a.run] at h; cases h; exact hi
  | cons a as ih =>
    obtain ⟨t, ht, h⟩ := run_cons h
    exact ih (hi.step ho.1 ht) (ho.2 t ht) h

end J8a
