import Verif.Lemmas.MachineRun
import Verif.Lemmas.MachineHeader
import Verif.Lemmas.Proxied
/-!
# Where the parts of a response come from, under every schedule
-/
namespace J8a
open Go

variable {K : Type}

/-- Facts about the goroutines of one attempt that late writes of others cannot touch. -/
structure Own (a : Atmpt) : Prop where
  vresp : a.vResp ≠ none → a.hg = .returned ∨ a.hg = .wrote ∨ a.hg = .finished
  bg : ∀ r, a.bg.on = some r → a.vResp = some r
  body : ∀ r, (a.bg = .read r ∨ a.bg = .tested r ∨ a.bg = .finished r) → a.vBodyErr = false →
    a.vBody = some r.body

/-- They hold of every attempt; the handler knows the response it has seen. -/
structure OwnInv (s : St) : Prop where
  all : ∀ k, Own (s.atmpt k)
  seen : ∀ r err, s.pc = .procCheck (some r) err → s.curA.vResp = some r

theorem own_new {url : URL} {label : Str} : Own { url := url, label := label } := by
  constructor <;> simp [BG.on]

/-- What a step of another goroutine does to an attempt it does not own. -/
structure Foreign (a a' : Atmpt) : Prop where
  hg : a'.hg = a.hg
  vResp : a'.vResp = a.vResp
  bg : a'.bg = a.bg
  vBody : a'.vBody = a.vBody
  vBodyErr : a'.vBodyErr = a.vBodyErr

theorem Own.foreign {a a' : Atmpt} (h : Own a) (hf : Foreign a a') : Own a' := by
  obtain ⟨h1, h2, h3⟩ := h
  constructor
  · rw [hf.vResp, hf.hg]; exact h1
  · rw [hf.bg, hf.vResp]; exact h2
  · rw [hf.bg, hf.vBody, hf.vBodyErr]; exact h3

theorem OwnInv.other {s s' : St} {a : Act} (hi : OwnInv s) (h : stepOther s a = some s') :
    OwnInv s' ∧ ∀ k r, (s.atmpt k).vResp = some r → (s'.atmpt k).vResp = some r := by
  have hf := other_frame h
  have key : ∀ k, Own (s'.atmpt k) ∧ ∀ r, (s.atmpt k).vResp = some r → (s'.atmpt k).vResp = some r := by
    intro k
    have hk := hi.all k
    obtain ⟨h1, h2, h3⟩ := hk
    unfold stepOther at h
    (repeat' split at h) <;> cases h <;> simp only [upd_atmpt] <;> (repeat' split) <;> first
      | exact ⟨⟨h1, h2, h3⟩, fun r h => h⟩
      | (subst_vars
         refine ⟨⟨?_, ?_, ?_⟩, ?_⟩ <;> first | exact h1 | exact h2 | exact h3 | simp_all [BG.on])
  refine ⟨⟨fun k => (key k).1, ?_⟩, fun k => (key k).2⟩
  intro r err hpc
  rw [hf.pc] at hpc
  unfold St.curA
  rw [hf.cur]
  exact (key _).2 r (hi.seen r err hpc)

/-- What a step of the handler does to an attempt. -/
inductive MainMove (s : St) (k : Nat) (a a' : Atmpt) : Prop where
  | quiet : Foreign a a' → MainMove s k a a'
  | start : s.pc = .scaffold → k = s.cur → a'.vResp = a.vResp → a'.bg = a.bg → a'.vBody = a.vBody →
      a'.vBodyErr = a.vBodyErr → MainMove s k a a'
  | body (r err) : s.pc = .procCheck (some r) err → k = s.cur → a'.hg = a.hg → a'.vResp = a.vResp →
      a'.bg = .started r → a'.vBodyErr = a.vBodyErr → MainMove s k a a'
  | new (url label) : s.pc = .next → k = s.n → a' = { url := url, label := label } → MainMove s k a a'

theorem main_move {e : Env} {s s' : St} {c : Choice} (h : stepMain e s c = some s') (k : Nat) :
    MainMove s k (s.atmpt k) (s'.atmpt k) := by
  main_cases s h hpc <;>
    (try simp only [upd_atmpt, abortAll_atmpt, noteUp_atmpt, noteDwn_atmpt]) <;>
    (repeat' split) <;> first
      | exact .quiet ⟨rfl, rfl, rfl, rfl, rfl⟩
      | exact .start hpc ‹_› rfl rfl rfl rfl
      | exact .body _ _ hpc ‹_› rfl rfl rfl rfl
      | exact .new _ _ hpc ‹_› rfl

theorem OwnInv.main {e : Env} {s s' : St} {c : Choice} (hi : OwnInv s) (hcl : CloseInv s)
    (h : stepMain e s c = some s') :
    OwnInv s' ∧ ∀ k, k < s.n → ∀ r, (s.atmpt k).vResp = some r → (s'.atmpt k).vResp = some r := by
  have key : ∀ k, Own (s'.atmpt k) ∧
      (k < s.n → ∀ r, (s.atmpt k).vResp = some r → (s'.atmpt k).vResp = some r) := by
    intro k
    have ho := hi.all k
    rcases main_move h k with hf | ⟨hpc, hk, h1, h2, h3, h4⟩ | ⟨r, err, hpc, hk, h1, h2, h3, -⟩ | ⟨u, l, hpc, hk, h1⟩
    · exact ⟨ho.foreign hf, fun _ r hr => by rw [hf.vResp]; exact hr⟩
    · have hg : (s.atmpt k).hg = .idle := by rw [hk]; exact hcl.idle hpc
      have hv : (s.atmpt k).vResp = none := by
        apply Classical.byContradiction
        intro hv
        rcases ho.vresp hv with h' | h' | h' <;> rw [hg] at h' <;> cases h'
      refine ⟨⟨?_, ?_, ?_⟩, fun _ r hr => by rw [h1]; exact hr⟩
      · rw [h1, hv]; simp
      · rw [h1, h2]; exact ho.bg
      · rw [h2, h3, h4]; exact ho.body
    · refine ⟨⟨?_, ?_, ?_⟩, fun _ r hr => by rw [h2]; exact hr⟩
      · rw [h1, h2]; exact ho.vresp
      · intro r' hr'
        rw [h3] at hr'
        cases hr'
        rw [h2, hk]
        exact hi.seen r err hpc
      · intro r' hr'
        rw [h3] at hr'
        simp at hr'
    · refine ⟨by rw [h1]; exact own_new, fun hlt => absurd hk (by omega)⟩
  refine ⟨⟨fun k => (key k).1, ?_⟩, fun k => (key k).2⟩
  intro r err hpc'
  main_cases s h hpc <;> simp only [reduceCtorEq] at hpc'
  simp only [PC.procCheck.injEq] at hpc'
  exact hpc'.1

theorem OwnInv.step {e : Env} {s s' : St} {a : Act} (hi : OwnInv s) (hcl : CloseInv s)
    (h : step e s a = some s') :
    OwnInv s' ∧ ∀ k, k < s.n → ∀ r, (s.atmpt k).vResp = some r → (s'.atmpt k).vResp = some r := by
  cases a with
  | main c => exact hi.main hcl h
  | _ =>
    simp only [J8a.step] at h
    exact ⟨(hi.other h).1, fun k _ => (hi.other h).2 k⟩

/-- An upstream response the request has got. -/
def Recv (s : St) (r : UpResp) : Prop := ∃ k, k < s.n ∧ (s.atmpt k).vResp = some r

theorem Recv.step {e : Env} {s s' : St} {a : Act} (hi : OwnInv s) (hcl : CloseInv s)
    (h : step e s a = some s') {r : UpResp} (hr : Recv s r) : Recv s' r := by
  obtain ⟨k, hk, hr⟩ := hr
  exact ⟨k, Nat.lt_of_lt_of_le hk (later_step h).n, (hi.step hcl h).2 k hk r hr⟩

/-- The shared fields of attempts hold parts of received responses. -/
structure DataInv (s : St) : Prop where
  resp : ∀ k r, (s.atmpt k).resp = some r → Recv s r
  code : ∀ k, (s.atmpt k).statusCode = 0 ∨ ∃ r, Recv s r ∧ (s.atmpt k).statusCode = r.status

/-- Where the fields `resp` and `statusCode` of an attempt come from in one step. -/
theorem data_step {e : Env} {s s' : St} {a : Act} (h : step e s a = some s') (k : Nat) :
    ((s'.atmpt k).resp = (s.atmpt k).resp ∨ (s'.atmpt k).resp = none ∨
      ∃ i, i < s.n ∧ (s'.atmpt k).resp = (s.atmpt i).vResp) ∧
    ((s'.atmpt k).statusCode = (s.atmpt k).statusCode ∨ (s'.atmpt k).statusCode = 0 ∨
      ∃ i r, i < s.n ∧ (s.atmpt i).bg.on = some r ∧ (s'.atmpt k).statusCode = r.status) := by
  cases a with
  | main c =>
    have hm : stepMain e s c = some s' := h
    clear h
    main_cases s hm hpc <;>
      (try simp only [upd_atmpt, abortAll_atmpt, noteUp_atmpt, noteDwn_atmpt]) <;>
      (repeat' split) <;> first
        | exact ⟨.inl rfl, .inl rfl⟩
        | exact ⟨.inl rfl, .inr (.inl rfl)⟩
        | (constructor <;> simp; done)
        | exact ⟨.inr (.inl rfl), .inr (.inl rfl)⟩
  | _ =>
    simp only [J8a.step, stepOther] at h
    (repeat' split at h) <;> cases h <;> (try simp only [upd_atmpt]) <;> (repeat' split) <;> first
      | exact ⟨.inl rfl, .inl rfl⟩
      | (constructor <;> simp; done)
      | exact ⟨.inr (.inr ⟨_, ‹_›, rfl⟩), .inl rfl⟩
      | exact ⟨.inl rfl, .inr (.inr ⟨_, _, ‹_›, by simp only [*]; rfl, rfl⟩)⟩

theorem DataInv.step {e : Env} {s s' : St} {a : Act} (hd : DataInv s) (hi : OwnInv s)
    (hcl : CloseInv s) (h : step e s a = some s') : DataInv s' := by
  constructor
  · intro k r hr
    rcases (data_step h k).1 with h1 | h1 | ⟨i, hlt, h1⟩ <;> rw [h1] at hr
    · exact (hd.resp k r hr).step hi hcl h
    · cases hr
    · exact Recv.step hi hcl h ⟨i, hlt, hr⟩
  · intro k
    rcases (data_step h k).2 with h1 | h1 | ⟨i, r, hlt, hr, h1⟩ <;> rw [h1]
    · rcases hd.code k with h2 | ⟨r, h2, h3⟩
      · exact .inl h2
      · exact .inr ⟨r, h2.step hi hcl h, h3⟩
    · exact .inl rfl
    · exact .inr ⟨r, Recv.step hi hcl h ⟨i, hlt, (hi.all i).bg r hr⟩, rfl⟩

/-- The current attempt holds the whole body of its response. -/
def Full (s : St) : Prop := ∃ r, s.curA.vResp = some r ∧ s.curA.respBody = some r.body

/-- When the handler believes in a body, it is the whole body of the current attempt's response. -/
def bodyAt (s : St) : PC → Prop
  | .selBody => ∃ r, s.curA.bg.on = some r
  | .retBody => s.dwnFlag = true ∨ s.curA.abortedFlag = true ∨ ∃ r, s.curA.bg = .finished r
  | .setBody b err => s.dwnFlag = true ∨ s.curA.abortedFlag = true ∨ err = true ∨
      ∃ r, s.curA.vResp = some r ∧ b = some r.body
  | .chkDwn err => s.dwnFlag = true ∨ s.curA.abortedFlag = true ∨ err = true ∨ Full s
  | .chkUp err => s.curA.abortedFlag = true ∨ err = true ∨ Full s
  | .chkResp err => err = true ∨ Full s
  | .branch | .jsonStatus | .okHeaders | .okStatus _ | .okEncode _ _ => Full s
  | _ => True

theorem bodyAt_other {s s' : St} {a : Act} (hi : OwnInv s) (h : stepOther s a = some s')
    (hb : bodyAt s s.pc) : bodyAt s' s'.pc := by
  have hf := other_frame h
  have hv : ∀ r, s.curA.vResp = some r → s'.curA.vResp = some r := by
    intro r hr
    unfold St.curA
    rw [hf.cur]
    exact (hi.other h).2 _ r hr
  have hrb : s'.curA.respBody = s.curA.respBody := by unfold St.curA; rw [hf.cur, hf.respBody]
  have hab : s'.curA.abortedFlag = s.curA.abortedFlag := by
    unfold St.curA; rw [hf.cur, hf.abortedFlag]
  have hfull : Full s → Full s' := by
    rintro ⟨r, h1, h2⟩
    exact ⟨r, hv r h1, by rw [hrb]; exact h2⟩
  have hbg : ∀ r, (s.curA.bg.on = some r → s'.curA.bg.on = some r) ∧
      (s.curA.bg = .finished r → s'.curA.bg = .finished r) := by
    intro r
    unfold St.curA
    rw [hf.cur]
    unfold stepOther at h
    (repeat' split at h) <;> cases h <;> (try simp only [upd_atmpt]) <;> (repeat' split) <;> first
      | exact ⟨id, id⟩
      | (subst_vars; simp_all [BG.on])
  rw [hf.pc]
  revert hb
  cases s.pc <;> simp only [bodyAt, hf.dwnFlag, hab] <;> first
    | exact id
    | exact hfull
    | (rintro ⟨r, h⟩; exact ⟨r, (hbg r).1 h⟩)
    | (rintro (h | h | ⟨r, h⟩)
       · exact .inl h
       · exact .inr (.inl h)
       · exact .inr (.inr ⟨r, (hbg r).2 h⟩))
    | (rintro (h | h | h | ⟨r, h, h'⟩)
       · exact .inl h
       · exact .inr (.inl h)
       · exact .inr (.inr (.inl h))
       · exact .inr (.inr (.inr ⟨r, hv r h, h'⟩)))
    | (rintro (h | h | h | h)
       · exact .inl h
       · exact .inr (.inl h)
       · exact .inr (.inr (.inl h))
       · exact .inr (.inr (.inr (hfull h))))
    | (rintro (h | h | h)
       · exact .inl h
       · exact .inr (.inl h)
       · exact .inr (.inr (hfull h)))
    | (rintro (h | h)
       · exact .inl h
       · exact .inr (hfull h))

theorem bodyAt_main {e : Env} {s s' : St} {c : Choice} (hi : OwnInv s) (hcl : CloseInv s)
    (h : stepMain e s c = some s') (hb : bodyAt s s.pc) : bodyAt s' s'.pc := by
  have hfin : 0 < s.curA.bodyClosed → ∃ r, s.curA.bg = .finished r := by
    intro hp
    rcases hcl.body s.cur with ⟨h1, -⟩ | h1
    · unfold St.curA
      generalize (s.atmpt s.cur).bg = g at h1
      cases g <;> simp [BG.isFinished] at h1 ⊢
    · unfold St.curA at hp; omega
  have hvb : ∀ r, s.curA.bg = .finished r → s.curA.vBodyErr = true ∨
      ∃ r, s.curA.vResp = some r ∧ s.curA.vBody = some r.body := by
    intro r hr
    cases he : s.curA.vBodyErr
    · exact .inr ⟨r, (hi.all _).bg r (by show s.curA.bg.on = _; rw [hr]; rfl),
        (hi.all _).body r (.inr (.inr hr)) he⟩
    · exact .inl rfl
  main_cases s h hpc <;> simp only [hpc, bodyAt] at hb ⊢ <;> (try trivial)
  · exact ⟨_, by simp only [St.curA, St.cur, upd_atmpt, upd_n, noteUp_n, ↓reduceIte]; rfl⟩
  · exact .inr (.inl (by simp [St.curA, St.cur, upd_atmpt]))
  · exact .inl trivial
  · exact .inr (.inr (hfin ‹_›))
  · rcases hb with hb | hb | ⟨r, hb⟩
    · exact .inl hb
    · exact .inr (.inl hb)
    · exact .inr (.inr (hvb r hb))
  · rcases hb with hb | hb | hb | ⟨r, hb, hb'⟩
    · exact .inl hb
    · exact .inr (.inl (by simpa [St.curA, St.cur, upd_atmpt] using hb))
    · exact .inr (.inr (.inl hb))
    · exact .inr (.inr (.inr ⟨r, by simpa [St.curA, St.cur, upd_atmpt] using hb,
        by simpa [St.curA, St.cur, upd_atmpt] using hb'⟩))
  · rcases hb with hb | hb
    · rename_i hn
      exact absurd (show s.noteDwn.dwnFlag = true by simp [St.noteDwn, hb]) hn
    · exact hb
  · rcases hb with hb | hb | ⟨r, hb, hb'⟩
    · rename_i hn
      exact absurd (show s.noteUp.curA.abortedFlag = true by
        simp only [St.curA, noteUp_atmpt, St.cur, noteUp_n, ↓reduceIte] at hb ⊢; simp [hb]) hn
    · exact .inl hb
    · refine .inr ⟨r, ?_, ?_⟩ <;>
        simp only [St.curA, noteUp_atmpt, St.cur, noteUp_n, ↓reduceIte] at hb hb' ⊢ <;> assumption
  · rcases hb with hb | hb
    · exact absurd hb ‹_›
    · exact hb

/-- Outside `Content-Length` and `Content-Encoding`, the headers are the gateway's followed by
those of one response in `R`. -/
def FromOne (e : RespEnv) (R : UpResp → Prop) (h : Hdr) : Prop :=
  ∃ r, R r ∧ ∀ k, k ∉ ["Content-Length".toList, "Content-Encoding".toList] →
    h k = writeStandardResponseHeaders e Hdr.empty k ++ if shouldProxyHeader k then r.header.under k else []

/-- The status of a response in `R` (or the initial 0, which cannot be sent). -/
def CodeOf (R : UpResp → Prop) (c : Int) : Prop := c = 0 ∨ ∃ r, R r ∧ c = r.status

/-- The whole body of the current attempt's response, encoded for the client. -/
def LastBody (e : RespEnv) (s : St) (b : Bytes) : Prop :=
  ∃ g r, s.curA.vResp = some r ∧ b = encodeUpstreamResponseBody e g (some r.body)

theorem FromOne.mono {e : RespEnv} {R R' : UpResp → Prop} {h : Hdr} (hh : FromOne e R h)
    (hr : ∀ r, R r → R' r) : FromOne e R' h := by
  obtain ⟨r, h1, h2⟩ := hh
  exact ⟨r, hr r h1, h2⟩

theorem CodeOf.mono {R R' : UpResp → Prop} {c : Int} (hh : CodeOf R c)
    (hr : ∀ r, R r → R' r) : CodeOf R' c := by
  rcases hh with h | ⟨r, h1, h2⟩
  · exact .inl h
  · exact .inr ⟨r, hr r h1, h2⟩

theorem LastBody.mono {e : RespEnv} {s s' : St} {b : Bytes} (hh : LastBody e s b)
    (hr : ∀ r, s.curA.vResp = some r → s'.curA.vResp = some r) : LastBody e s' b := by
  obtain ⟨g, r, h1, h2⟩ := hh
  exact ⟨g, r, hr r h1, h2⟩

theorem FromOne.set {e : RespEnv} {R : UpResp → Prop} {h : Hdr} (hh : FromOne e R h) {k v : Str}
    (hk : canon k ∈ ["Content-Length".toList, "Content-Encoding".toList]) :
    FromOne e R (h.set k v) := by
  obtain ⟨r, hr, hs⟩ := hh
  refine ⟨r, hr, fun k' hk' => ?_⟩
  rw [← hs k' hk']
  unfold Hdr.set
  rw [if_neg (fun hh => hk' (by rw [hh]; exact hk))]

theorem FromOne.length {e : RespEnv} {R : UpResp → Prop} {h : Hdr} (hh : FromOne e R h) (code : Int)
    (b : Bytes) (up : Entries) : FromOne e R (setContentLengthHeader e h code b up) := by
  unfold setContentLengthHeader
  have hc : canon "Content-Length".toList ∈ ["Content-Length".toList, "Content-Encoding".toList] := by
    decide
  dsimp only
  repeat' split
  all_goals exact hh.set hc

/-- For HEAD the declared length is zero or a numeric one declared by a response in `R`. -/
def HeadLen (e : RespEnv) (R : UpResp → Prop) (h : Hdr) : Prop :=
  e.method = "HEAD".toList → h "Content-Length".toList = ["0".toList] ∨
    ∃ r, R r ∧ h "Content-Length".toList = [r.header.get "Content-Length".toList] ∧
      (atoi (r.header.get "Content-Length".toList)).isSome = true

theorem HeadLen.mono {e : RespEnv} {R R' : UpResp → Prop} {h : Hdr} (hh : HeadLen e R h)
    (hr : ∀ r, R r → R' r) : HeadLen e R' h := by
  intro hm
  rcases hh hm with h | ⟨r, h1, h2⟩
  · exact .inl h
  · exact .inr ⟨r, hr r h1, h2⟩

theorem HeadLen.set {e : RespEnv} {R : UpResp → Prop} {h : Hdr} (hh : HeadLen e R h) {k v : Str}
    (hk : "Content-Length".toList ≠ canon k) : HeadLen e R (h.set k v) := by
  unfold HeadLen at hh ⊢
  rw [set_ne hk]
  exact hh

theorem headLen_up {e : RespEnv} {R : UpResp → Prop} {h : Hdr} {r : UpResp} (hr : R r) (code : Int)
    (b : Bytes) : HeadLen e R (setContentLengthHeader e h code b r.header) := by
  intro hm
  rw [setContentLengthHeader_eq, set_same canon_cl.symm]
  unfold lengthValue
  split
  · exact .inl rfl
  · split
    · exact .inr ⟨r, hr, rfl, And.right ‹_›⟩
    · exact .inl rfl

theorem headLen_none {e : RespEnv} {R : UpResp → Prop} {h : Hdr} {code : Int} {b : Bytes}
    (hz : lengthIsZero e h code = true ∨ e.method ≠ "HEAD".toList) :
    HeadLen e R (setContentLengthHeader e h code b []) := by
  intro hm
  rcases hz with hz | hz
  · left
    rw [setContentLengthHeader_eq, set_same canon_cl.symm, lengthValue, if_pos hz]
  · exact absurd hm hz

/-- A sent response is the gateway's own, or has its parts from responses in `R`. -/
inductive Parts (e : RespEnv) (R : UpResp → Prop) (B : Bytes → Prop) (y : Sent) : Prop where
  | own (code msg) : y = jsonResponse e code msg → code = 502 ∨ code = 504 ∨ CodeOf R code →
      Parts e R B y
  | up : FromOne e R y.header → CodeOf R y.status → B y.body → HeadLen e R y.header →
      Parts e R B y

theorem Parts.mono {e : RespEnv} {R R' : UpResp → Prop} {B B' : Bytes → Prop} {y : Sent}
    (h : Parts e R B y) (hr : ∀ r, R r → R' r) (hb : ∀ b, B b → B' b) : Parts e R' B' y := by
  rcases h with ⟨code, msg, h1, h2⟩ | ⟨h1, h2, h3, h4⟩
  · refine .own code msg h1 ?_
    rcases h2 with h2 | h2 | h2
    · exact .inl h2
    · exact .inr (.inl h2)
    · exact .inr (.inr (h2.mono hr))
  · exact .up (h1.mono hr) (h2.mono hr) (hb _ h3) (h4.mono hr)

/-- The same of what the handler is about to send. -/
def partsAt (e : RespEnv) (R : UpResp → Prop) (B : Bytes → Prop) : PC → Prop
  | .okStatus h => FromOne e R h
  | .okEncode h code => FromOne e R h ∧ CodeOf R code
  | .okLength h code body => FromOne e R h ∧ CodeOf R code ∧ B body
  | .okEnc1 h code body | .okEnc2 h code body | .okSend h code body =>
    FromOne e R h ∧ CodeOf R code ∧ B body ∧ HeadLen e R h
  | .sendJson code _ => code = 502 ∨ code = 504 ∨ CodeOf R code
  | _ => True

theorem partsAt.mono {e : RespEnv} {R R' : UpResp → Prop} {B B' : Bytes → Prop} {pc : PC}
    (h : partsAt e R B pc) (hr : ∀ r, R r → R' r) (hb : ∀ b, B b → B' b) : partsAt e R' B' pc := by
  revert h
  cases pc <;> simp only [partsAt] <;> first
    | exact id
    | exact fun h => h.mono hr
    | exact fun h => ⟨h.1.mono hr, h.2.mono hr⟩
    | exact fun h => ⟨h.1.mono hr, h.2.1.mono hr, hb _ h.2.2⟩
    | exact fun h => ⟨h.1.mono hr, h.2.1.mono hr, hb _ h.2.2.1, h.2.2.2.mono hr⟩
    | (rintro (h | h | h)
       · exact .inl h
       · exact .inr (.inl h)
       · exact .inr (.inr (h.mono hr)))

/-- All of it together. -/
structure PartsInv (e : RespEnv) (s : St) : Prop where
  own : OwnInv s
  data : DataInv s
  body : bodyAt s s.pc
  pc : partsAt e (Recv s) (LastBody e s) s.pc
  sent : ∀ y ∈ s.sent, Parts e (Recv s) (LastBody e s) y

theorem partsAt_main {e : Env} {s s' : St} {c : Choice} (hd : DataInv s)
    (hb : bodyAt s s.pc) (hpc : partsAt e.toRespEnv (Recv s) (LastBody e.toRespEnv s) s.pc)
    (hm : stepMain e s c = some s') :
    partsAt e.toRespEnv (Recv s) (LastBody e.toRespEnv s) s'.pc := by
  have hce : canon "Content-Encoding".toList ∈ ["Content-Length".toList, "Content-Encoding".toList] := by
    decide
  have hcl : "Content-Length".toList ≠ canon "Content-Encoding".toList := by decide
  have hcode := hd.code s.cur
  have hresp := hd.resp s.cur
  generalize hR : Recv s = R at *
  generalize hB : LastBody e.toRespEnv s = B at *
  main_cases s hm hp <;> simp only [hp, partsAt, bodyAt] at hpc hb ⊢ <;> first
    | exact True.intro
    | exact hpc
    | exact ⟨hpc.1.length _ _ _, hpc.2.1, hpc.2.2, headLen_none ‹_›⟩
    | exact ⟨hpc.1.length _ _ _, hpc.2.1, hpc.2.2, headLen_up (hresp _ ‹_›) _ _⟩
    | exact ⟨hpc.1.set hce, hpc.2.1, hpc.2.2.1, hpc.2.2.2.set hcl⟩
    | exact ⟨hpc, hcode⟩
    | exact .inl True.intro
    | exact .inr (.inl True.intro)
    | exact .inr (.inr hcode)
    | exact ⟨_, hresp _ ‹_›, fun k _ => copyHeaders_under _ _ k⟩
    | (obtain ⟨r, hb, hb'⟩ := hb
       refine ⟨hpc.1, hpc.2, ?_⟩
       rw [← hB]
       exact ⟨_, r, hb, by rw [hb']⟩)

theorem partsSent_main {e : Env} {s s' : St} {c : Choice} (hsent : s.sent = [])
    {R : UpResp → Prop} {B : Bytes → Prop} (hpc : partsAt e.toRespEnv R B s.pc)
    (hm : stepMain e s c = some s') : ∀ y ∈ s'.sent, Parts e.toRespEnv R B y := by
  main_cases s hm hp <;> simp only [hp, partsAt] at hpc <;> intro y hy <;>
    simp only [upd_sent, noteDwn_sent, noteUp_sent, abortAll_sent, hsent, List.nil_append,
      List.mem_singleton, List.not_mem_nil] at hy <;> subst hy <;> first
    | exact .up hpc.1 hpc.2.1 hpc.2.2.1 hpc.2.2.2
    | exact .own _ _ rfl hpc

theorem sent_main {e : Env} {s s' : St} {c : Choice} (hinv : Inv e s) (hsent : s.sent ≠ [])
    (hm : stepMain e s c = some s') : s'.cur = s.cur ∧ s'.sent = s.sent := by
  have hlen : s.sent.length = s.pc.sentCount := by
    rcases hinv.sent with ⟨h1, -⟩ | h1
    · exfalso; revert hm; simp [stepMain, h1]
    · exact h1
  have hne : s.sent.length ≠ 0 := fun h => hsent (List.length_eq_zero_iff.mp h)
  rw [hlen] at hne
  main_cases s hm hp <;> simp only [hp, PC.sentCount] at hne <;> first
    | exact absurd rfl hne
    | exact ⟨rfl, rfl⟩

/-- A step changes neither what was sent nor the current attempt of it. -/
theorem lastBody_step {e : Env} {s s' : St} {a : Act} (ho : OwnInv s) (hinv : Inv e s)
    (hcl : CloseInv s) (h : step e s a = some s') (hc : s'.cur = s.cur) (b : Bytes)
    (hb : LastBody e.toRespEnv s b) : LastBody e.toRespEnv s' b := by
  refine hb.mono fun r hr => ?_
  unfold St.curA
  rw [hc]
  exact (ho.step hcl h).2 _ (cur_lt hinv.pos) r hr

theorem partsAt_cur {e : Env} {s s' : St} {c : Choice} (hm : stepMain e s c = some s')
    {R : UpResp → Prop} {B B' : Bytes → Prop} (hb : s'.cur = s.cur → ∀ b, B b → B' b)
    (h : partsAt e.toRespEnv R B s'.pc) : partsAt e.toRespEnv R B' s'.pc := by
  by_cases hc : s'.cur = s.cur
  · exact h.mono (fun _ h => h) (hb hc)
  · have hp : s'.pc = .scaffold := by
      main_cases s hm hp <;> first | rfl | exact absurd rfl hc
    rw [hp]
    trivial

theorem PartsInv.step {e : Env} {s s' : St} {a : Act} (hp : PartsInv e.toRespEnv s) (hinv : Inv e s)
    (hcl : CloseInv s) (h : step e s a = some s') : PartsInv e.toRespEnv s' := by
  obtain ⟨ho, hd, hb, hpc, hs⟩ := hp
  have hr : ∀ r, Recv s r → Recv s' r := fun r => Recv.step ho hcl h
  have hl := lastBody_step ho hinv hcl h
  have hd' := hd.step ho hcl h
  have main : ∀ c, stepMain e s c = some s' → PartsInv e.toRespEnv s' := by
    intro c hm
    refine ⟨(ho.step hcl h).1, hd', bodyAt_main ho hcl hm hb, ?_, ?_⟩
    · exact partsAt_cur hm hl ((partsAt_main hd hb hpc hm).mono hr fun _ h => h)
    · by_cases hsent : s.sent = []
      · intro y hy
        refine (partsSent_main hsent hpc hm y hy).mono hr (hl ?_)
        have hns : s'.sent ≠ s.sent := fun he => by rw [he, hsent] at hy; cases hy
        clear hd' hd hb hpc hs hr hl ho h hy
        main_cases s hm hp <;> first | rfl | exact absurd rfl hns
      · obtain ⟨h1, h2⟩ := sent_main hinv hsent hm
        rw [h2]
        exact fun y hy => (hs y hy).mono hr (hl h1)
  cases a with
  | main c => exact main c h
  | _ =>
    simp only [J8a.step] at h
    have hf := other_frame h
    refine ⟨(ho.other h).1, hd', bodyAt_other ho h hb, ?_, ?_⟩
    · rw [hf.pc]; exact hpc.mono hr (hl hf.cur)
    · rw [hf.sent]; exact fun y hy => (hs y hy).mono hr (hl hf.cur)

theorem PartsInv.initial (e : RespEnv) (r : Route) (u : URL) (l : Str) :
    PartsInv e (initial (.forward r u l)) := by
  refine ⟨⟨fun k => ?_, by simp [J8a.initial]⟩, ⟨fun k r => ?_, fun k => ?_⟩, trivial, trivial,
    by simp [J8a.initial]⟩
  all_goals simp only [J8a.initial]; split
  · exact own_new
  · exact own_new
  · simp
  · simp [noAtmpt]
  · exact .inl rfl
  · exact .inl rfl

/-- Under every schedule, the parts of a response to a forwarded request come from responses the
request has received, and its body from the last attempt, whole. -/
theorem parts_of_reaches {x : Setup K} {s : St} (h : x.Reaches s) {r : Route} {u : URL} {l : Str}
    (hd : x.dec = .forward r u l) : ∀ y ∈ s.sent, Parts x.respEnv (Recv s) (LastBody x.respEnv s) y := by
  obtain ⟨as, h⟩ := h
  rw [hd] at h
  have := run_invariant (P := fun t => Inv x.env t ∧ CloseInv t ∧ PartsInv x.respEnv t)
    (fun s a s' ⟨h1, h2, h3⟩ hs => ⟨h1.step hs, h2.step hs, h3.step (e := x.env) h1 h2 hs⟩)
    ⟨.initial _ r u l, .initial _, .initial _ r u l⟩ h
  exact this.2.2.sent

end J8a
