import Verif.Model.AttemptLog
import Verif.Lemmas.Observe
/-!
# The machine does not look into the upstream request
-/
namespace J8a
open Go

variable {K : Type}

/-- Another upstream request in its place. -/
def HG.recode (f : UpReq → UpReq) : HG → HG
  | .started q => .started (f q)
  | h => h

def Atmpt.recode (f : UpReq → UpReq) (a : Atmpt) : Atmpt := { a with hg := a.hg.recode f }

def St.recode (f : UpReq → UpReq) (s : St) : St :=
  { s with atmpt := fun k => (s.atmpt k).recode f, calls := s.calls.map fun p => (p.1, f p.2) }

theorem recode_upd (f : UpReq → UpReq) (s : St) (i : Nat) (g h : Atmpt → Atmpt)
    (hg : ∀ a, (g a).recode f = h (a.recode f)) : (s.upd i g).recode f = (s.recode f).upd i h := by
  unfold St.upd St.recode
  simp only [St.mk.injEq, true_and, and_true]
  funext k
  split
  · exact hg _
  · rfl

theorem recode_noteUp (f : UpReq → UpReq) (s : St) : (s.recode f).noteUp = s.noteUp.recode f :=
  (recode_upd f s s.cur (fun a => { a with abortedFlag := a.abortedFlag || a.ctxDone })
    (fun a => { a with abortedFlag := a.abortedFlag || a.ctxDone }) fun _ => rfl).symm

theorem recode_noteDwn (f : UpReq → UpReq) (s : St) : (s.recode f).noteDwn = s.noteDwn.recode f := rfl

theorem recode_curA (f : UpReq → UpReq) (s : St) : (s.recode f).curA = s.curA.recode f := rfl

theorem recode_abortAll (f : UpReq → UpReq) (s : St) : (s.recode f).abortAll = s.abortAll.recode f := by
  unfold St.abortAll St.recode
  simp only [St.mk.injEq, true_and, and_true]
  funext k
  by_cases h : k < s.n ∧ (s.atmpt k).hasCancel = true
  · rw [if_pos h]
    exact if_pos h
  · rw [if_neg h]
    exact if_neg h

/-- Two requests that the gateway treats alike but for the request to the upstream. -/
structure Alike (f : UpReq → UpReq) (e e' : Env) : Prop where
  resp : e'.toRespEnv = e.toRespEnv
  max : e'.maxAttempts = e.maxAttempts
  uriOk : e'.uriOk = e.uriOk
  route : e'.route = e.route
  uri : e'.rq.uri = e.rq.uri
  agent : parseUserAgent e'.rq = parseUserAgent e.rq
  debug : parseXRequestDebug e'.rq = parseXRequestDebug e.rq
  req : ∀ u, scaffoldUpstreamRequest e'.xrid e'.pb e'.rq e'.route u =
    f (scaffoldUpstreamRequest e.xrid e.pb e.rq e.route u)
  keep : ∀ q, (f q).uri = q.uri

theorem recode_some {f : UpReq → UpReq} {s t : St} (h1 : t.n = s.n) (h2 : t.pc = s.pc) (h3 : t.dwnFired = s.dwnFired)
    (h4 : t.dwnFlag = s.dwnFlag) (h5 : t.sent = s.sent) (h6 : t.calls = s.calls.map fun p => (p.1, f p.2))
    (h7 : ∀ k, t.atmpt k = (s.atmpt k).recode f) : some t = Option.map (St.recode f) (some s) := by
  obtain ⟨n, a, p, d, d', se, c⟩ := t
  subst h1 h2 h3 h4 h5 h6
  have h7 : a = fun k => (s.atmpt k).recode f := funext h7
  rw [h7]
  rfl

theorem recode_ite (f : UpReq → UpReq) {p : Prop} [Decidable p] {a b a' b' : Option St} (ha : a' = a.map (St.recode f))
    (hb : b' = b.map (St.recode f)) : (if p then a' else b') = (if p then a else b).map (St.recode f) := by
  split <;> assumption

theorem recode_at (f : UpReq → UpReq) {p : Prop} [Decidable p] {a b a' b' : Atmpt} (ha : a' = a.recode f)
    (hb : b' = b.recode f) : (if p then a' else b') = (if p then a else b).recode f := by
  split <;> assumption

theorem stepOther_recode (f : UpReq → UpReq) (s : St) (a : Act) :
    stepOther (s.recode f) a = (stepOther s a).map (St.recode f) := by
  have hs : ∀ k, ((s.recode f).atmpt k).hg = (s.atmpt k).hg.recode f := fun _ => rfl
  have hb : ∀ k, ((s.recode f).atmpt k).bg = (s.atmpt k).bg := fun _ => rfl
  cases a with
  | main c => rfl
  | dwnTimer => rfl
  | atmptTimer i =>
    refine recode_ite f (recode_some rfl rfl rfl rfl rfl rfl fun k => ?_) rfl
    exact recode_at f rfl rfl
  | hgCall i =>
    simp only [stepOther, hs]
    cases (s.atmpt i).hg <;> simp only [HG.recode] <;> first
      | rfl
      | exact recode_ite f (recode_some rfl rfl rfl rfl rfl (by simp [St.recode]) fun k => recode_at f rfl rfl) rfl
  | hgReturn i r =>
    simp only [stepOther, hs]
    cases (s.atmpt i).hg <;> simp only [HG.recode] <;> first
      | rfl
      | exact recode_ite f (recode_some rfl rfl rfl rfl rfl rfl fun k => recode_at f rfl rfl) rfl
  | hgWrite i =>
    simp only [stepOther, hs]
    cases (s.atmpt i).hg <;> simp only [HG.recode] <;> first
      | rfl
      | exact recode_ite f (recode_some rfl rfl rfl rfl rfl rfl fun k => by
          by_cases h1 : k = i <;> by_cases h2 : k = s.cur <;>
            simp_all [St.upd, St.recode, St.cur, Atmpt.recode, HG.recode]) rfl
  | hgClose i =>
    simp only [stepOther, hs]
    cases (s.atmpt i).hg <;> simp only [HG.recode] <;> first
      | rfl
      | exact recode_ite f (recode_ite f (recode_some rfl rfl rfl rfl rfl rfl fun k => recode_at f rfl rfl)
          (recode_some rfl rfl rfl rfl rfl rfl fun k => recode_at f rfl rfl)) rfl
  | bgStatus i =>
    simp only [stepOther, hb]
    cases (s.atmpt i).bg <;> first
      | rfl
      | exact recode_ite f (recode_some rfl rfl rfl rfl rfl rfl fun k => by
          by_cases h1 : k = i <;> by_cases h2 : k = s.cur <;>
            simp_all [St.upd, St.recode, St.cur, Atmpt.recode, HG.recode]) rfl
  | bgRead i fail =>
    simp only [stepOther, hb]
    cases (s.atmpt i).bg <;> first
      | rfl
      | (cases fail <;>
         exact recode_ite f (recode_some rfl rfl rfl rfl rfl rfl fun k => recode_at f rfl rfl) rfl)
  | bgGzip i =>
    simp only [stepOther, hb]
    cases (s.atmpt i).bg <;> first
      | rfl
      | exact recode_ite f (recode_some rfl rfl rfl rfl rfl rfl fun k => by
          by_cases h1 : k = i <;> by_cases h2 : k = s.cur <;>
            simp_all [St.upd, St.recode, St.cur, Atmpt.recode, HG.recode]) rfl
  | bgClose i =>
    simp only [stepOther, hb]
    cases (s.atmpt i).bg <;> first
      | rfl
      | exact recode_ite f (recode_ite f (recode_some rfl rfl rfl rfl rfl rfl fun k => recode_at f rfl rfl)
          (recode_some rfl rfl rfl rfl rfl rfl fun k => recode_at f rfl rfl)) rfl

theorem stepMain_recode {f : UpReq → UpReq} {e e' : Env} (he : Alike f e e') (s : St) (c : Choice) :
    stepMain e' (s.recode f) c = (stepMain e s c).map (St.recode f) := by
  obtain ⟨re, m, ok, rq, pb, ro⟩ := e'
  obtain ⟨h1, h2, h3, h4, h5, h6, -, h7, h8⟩ := he
  dsimp only at h1 h2 h3 h4 h7
  subst h1 h2 h3 h4
  have hpc : (s.recode f).pc = s.pc := rfl
  have huri : ∀ u, (scaffoldUpstreamRequest e.xrid pb rq e.route u).uri =
      (scaffoldUpstreamRequest e.xrid e.pb e.rq e.route u).uri := by
    intro u
    rw [h7, h8]
  have hresp : (s.recode f).curA.resp = s.curA.resp := rfl
  unfold stepMain
  rw [hpc]
  cases hp : s.pc with
  | scaffold =>
    have hk : e.uriOk (scaffoldUpstreamRequest e.xrid pb rq e.route (s.recode f).curA.url).uri =
        e.uriOk (scaffoldUpstreamRequest e.xrid e.pb e.rq e.route s.curA.url).uri := by
      rw [huri]
      rfl
    simp only [hk]
    refine recode_ite f (recode_some rfl rfl rfl rfl rfl rfl fun k => ?_)
      (recode_some rfl rfl rfl rfl rfl rfl fun k => ?_)
    · refine recode_at f ?_ rfl
      simp only [Atmpt.recode, HG.recode, ← h7]
      rfl
    · exact recode_at f rfl rfl
  | selHeader =>
    cases c
    · refine recode_ite f (recode_some rfl rfl rfl rfl rfl rfl fun k => ?_) rfl
      exact recode_at f rfl rfl
    · refine recode_ite f ?_ rfl
      rw [recode_abortAll]
      rfl
    · exact recode_ite f rfl rfl
  | procCheck r err =>
    simp only [recode_noteUp]
    cases r
    · rfl
    · refine recode_ite f rfl (recode_ite f rfl (recode_some rfl rfl rfl rfl rfl rfl fun k => ?_))
      exact recode_at f rfl rfl
  | selBody =>
    cases c
    · refine recode_ite f (recode_some rfl rfl rfl rfl rfl rfl fun k => ?_) rfl
      exact recode_at f rfl rfl
    · refine recode_ite f ?_ rfl
      rw [recode_abortAll]
      rfl
    · exact recode_ite f rfl rfl
  | next =>
    refine recode_some rfl rfl rfl rfl rfl rfl fun k => ?_
    exact recode_at f rfl rfl
  | setBody b err =>
    refine recode_some rfl rfl rfl rfl rfl rfl fun k => ?_
    exact recode_at f rfl rfl
  | chkDwn | retry2 | final1 =>
    simp only [recode_noteDwn]
    first
      | exact recode_ite f rfl rfl
      | exact recode_ite f rfl (recode_ite f rfl rfl)
  | chkUp | final2 =>
    simp only [recode_noteUp]
    exact recode_ite f rfl rfl
  | chkResp =>
    refine recode_ite f rfl ?_
    simp only [hresp]
    cases s.curA.resp
    · rfl
    · exact recode_ite f rfl rfl
  | okHeaders | log2 | okEnc2 =>
    simp only [hresp]
    cases s.curA.resp <;> rfl
  | okLength =>
    refine recode_ite f rfl ?_
    simp only [hresp]
    cases s.curA.resp <;> rfl
  | branch | okSend | sendJson => exact recode_ite f rfl rfl
  | log1 => exact recode_ite f rfl (recode_ite f rfl rfl)
  | okEnc1 => exact recode_ite f (recode_ite f rfl (recode_ite f rfl rfl)) rfl
  | _ => rfl

theorem step_recode {f : UpReq → UpReq} {e e' : Env} (he : Alike f e e') (s : St) (a : Act) :
    step e' (s.recode f) a = (step e s a).map (St.recode f) := by
  cases a with
  | main c => exact stepMain_recode he s c
  | _ =>
    simp only [step]
    exact stepOther_recode f s _

theorem watch_recode {σ : Type} {f : UpReq → UpReq} {e e' : Env} {obs obs' : St → Act → σ → σ} (he : Alike f e e')
    (ho : ∀ s a w, obs' (s.recode f) a w = obs s a w) :
    ∀ (as : List Act) (s : St) (w : σ),
      watch e' obs' (s.recode f) w as = (watch e obs s w as).map fun p => (p.1.recode f, p.2) := by
  intro as
  induction as with
  | nil => intro s w; rfl
  | cons a as ih =>
    intro s w
    rw [watch, watch, step_recode he]
    cases step e s a with
    | none => rfl
    | some t =>
      simp only [Option.map_some]
      rw [ho, ih]

theorem logged_recode {f : UpReq → UpReq} {e e' : Env} (he : Alike f e e') (s : St) (a : Act) (w : LogSt) :
    logged e' (s.recode f) a w = logged e s a w := by
  have hl : ∀ enc, logLine e' w enc = logLine e w enc := by
    intro enc
    unfold logLine
    rw [he.resp, he.agent]
  cases a with
  | main c =>
    have hresp : (s.recode f).curA.resp = s.curA.resp := rfl
    have hgz : (s.recode f).curA.isGzip = s.curA.isGzip := rfl
    have hst : (s.recode f).curA.statusCode = s.curA.statusCode := rfl
    have hpc : (s.recode f).pc = s.pc := rfl
    have hn : (s.recode f).n = s.n := rfl
    have hup : (s.recode f).noteUp.curA.abortedFlag = s.noteUp.curA.abortedFlag := by rw [recode_noteUp]; rfl
    have hdw : (s.recode f).noteDwn.dwnFlag = s.noteDwn.dwnFlag := rfl
    unfold logged
    simp only [hpc, hresp, hgz, hst, hn, hup, hdw, he.resp, hl]
  | _ => rfl

theorem attemptLogged_recode {f : UpReq → UpReq} {e e' : Env} (he : Alike f e e') (s : St) (a : Act) (w : AtmptLog) :
    attemptLogged e' (s.recode f) a w = attemptLogged e s a w := by
  cases a with
  | main c =>
    have hpc : (s.recode f).pc = s.pc := rfl
    have hm : attemptMsgs e' (s.recode f) c w.resp = attemptMsgs e s c w.resp := by
      have hresp : (s.recode f).curA.resp = s.curA.resp := rfl
      have hurl : (s.recode f).curA.url = s.curA.url := rfl
      have hn : (s.recode f).n = s.n := rfl
      have hcan : ∀ k, ((s.recode f).atmpt k).hasCancel = (s.atmpt k).hasCancel := fun _ => rfl
      have hup : (s.recode f).noteUp.curA.abortedFlag = s.noteUp.curA.abortedFlag := by rw [recode_noteUp]; rfl
      have hdw : (s.recode f).noteDwn.dwnFlag = s.noteDwn.dwnFlag := rfl
      have hb : bodyMsg e' (s.recode f).curA = bodyMsg e s.curA := by
        unfold bodyMsg
        rw [he.resp]
        rfl
      unfold attemptMsgs
      simp only [hpc, hresp, hurl, hn, hcan, hup, hdw, hb, he.route, he.uri]
    simp only [attemptLogged, hm, hpc]
    rfl
  | _ => rfl

theorem accessFields_recode {f : UpReq → UpReq} {e e' : Env} (he : Alike f e e') (i : ConnInfo) (s : St) :
    accessFields i e' (s.recode f) = accessFields i e s := by
  unfold accessFields
  rw [he.resp, he.route, he.uri, he.max]
  rfl

theorem accessed_recode {f : UpReq → UpReq} {e e' : Env} (he : Alike f e e') (i : ConnInfo) (s : St) (a : Act)
    (w : LogSt × List ZEvent) : accessed i e' (s.recode f) a w = accessed i e s a w := by
  unfold accessed
  rw [logged_recode he, accessFields_recode he]

theorem attemptEvent_alike {f : UpReq → UpReq} {e e' : Env} (he : Alike f e e') (rt am dm : Int) (path : Str)
    (l : AtmptLine) : attemptEvent e' rt am dm path l = attemptEvent e rt am dm path l := by
  unfold attemptEvent
  rw [he.resp, he.debug, he.max]

theorem initial_recode (f : UpReq → UpReq) (d : Decision) : (J8a.initial d).recode f = J8a.initial d := by
  cases d with
  | forward r u l =>
    simp only [J8a.initial, St.recode, St.mk.injEq, true_and, and_true, List.map_nil]
    funext k
    split <;> rfl
  | _ => rfl

end J8a
