import Verif.Lemmas.MachineParts
import Verif.Lemmas.MachineRun
import Verif.Model.Hub
/-!
# Executions of the whole gateway
-/
namespace J8a
open Go

variable {K : Type}

theorem get_set {α : Type} {l : List α} {j : Nat} {w : α} (h : l[j]? = some w) (v : α) (k : Nat) :
    (l.set j v)[k]? = if k = j then some v else l[k]? := by
  rw [List.getElem?_set]
  have hj := (List.getElem?_eq_some_iff.1 h).1
  by_cases e : k = j
  · subst e; simp [hj]
  · rw [if_neg (fun h => e h.symm), if_neg e]

theorem get_snoc {α : Type} {l : List α} {v w : α} {k : Nat} (h : (l ++ [v])[k]? = some w) :
    l[k]? = some w ∨ k = l.length ∧ w = v := by
  by_cases hk : k < l.length
  · rw [List.getElem?_append_left hk] at h; exact .inl h
  · rw [List.getElem?_append_right (by omega)] at h
    cases hs : k - l.length with
    | zero =>
      rw [hs] at h
      injection h with h
      exact .inr ⟨by omega, h.symm⟩
    | succ n => rw [hs] at h; cases h

theorem get_more {α : Type} {l : List α} {w : α} {k : Nat} (v : α) (h : l[k]? = some w) : (l ++ [v])[k]? = some w := by
  rw [List.getElem?_append_left (List.getElem?_eq_some_iff.1 h).1]; exact h

theorem step_vResp {e : Env} {s s' : St} {a : Act} (h : step e s a = some s') {k : Nat} {r : UpResp}
    (hr : (s'.atmpt k).vResp = some r) : (s.atmpt k).vResp = some r ∨ a = .hgReturn k (some r) := by
  cases a <;> step_cases h <;> first
    | exact Or.inl hr
    | (simp only [upd_atmpt, St.noteUp, St.abortAll] at hr
       (repeat' split at hr) <;> first
        | exact Or.inl hr
        | (cases hr; done)
        | (left; simpa using hr)
        | (subst_vars; right; simp_all))

/-- The body of this response was read to its end. -/
def Atmpt.ReadAll (a : Atmpt) (r : UpResp) : Prop := (a.bg = .read r ∨ a.bg = .tested r ∨ a.bg = .finished r) ∧ a.vBodyErr = false

theorem step_readAll {e : Env} {s s' : St} {a : Act} (h : step e s a = some s') {k : Nat} {r : UpResp}
    (hr : (s'.atmpt k).ReadAll r) : (s.atmpt k).ReadAll r ∨ a = .bgRead k none ∧ (s.atmpt k).bg = .reading r := by
  unfold Atmpt.ReadAll at hr ⊢
  cases a <;> step_cases h <;> first
    | exact Or.inl hr
    | (simp only [upd_atmpt, St.noteUp, St.abortAll] at hr
       (repeat' split at hr) <;> first
        | exact Or.inl hr
        | (simp at hr; done)
        | (left; simpa using hr)
        | (subst_vars; simp_all; done)
        | (subst_vars; right; simp_all))

theorem step_calls_sub {e : Env} {s s' : St} {a : Act} (h : step e s a = some s') {p : Nat × UpReq} (hp : p ∈ s.calls) :
    p ∈ s'.calls := by
  rcases step_calls h with h | ⟨k, q, -, -, -, h, -⟩ <;> rw [h]
  · exact hp
  · exact List.mem_append_left _ hp

theorem own_of_reaches {x : Setup K} {s : St} (h : x.Reaches s) {r : Route} {u : URL} {l : Str} (hd : x.dec = .forward r u l) :
    CloseInv s ∧ OwnInv s := by
  obtain ⟨as, h⟩ := h
  rw [hd] at h
  exact run_invariant (P := fun t => CloseInv t ∧ OwnInv t)
    (fun s a s' ⟨h1, h2⟩ hs => ⟨h1.step hs, (h2.step h1 hs).1⟩) ⟨.initial _, (PartsInv.initial x.respEnv r u l).own⟩ h

/-- A body that is read is the one of the attempt's response, which stays as it is. -/
theorem step_reading {x : Setup K} {s s' : St} (h : x.Reaches s) {a : Act} (hs : step x.env s a = some s') {k : Nat} {r : UpResp}
    (hk : k < s.n) (hv : (s.atmpt k).vResp = some r) :
    (s'.atmpt k).vResp = some r ∧ k < s'.n ∧ (a = .bgRead k none → (s.atmpt k).bg = .reading r) := by
  rcases going_or_still h with ⟨r', u, l, hd, -⟩ | ⟨-, hst⟩
  · obtain ⟨h1, h2⟩ := own_of_reaches h hd
    refine ⟨(h2.step h1 hs).2 k hk r hv, Nat.lt_of_lt_of_le hk (later_step hs).n, ?_⟩
    rintro rfl
    simp only [step, stepOther] at hs
    split at hs
    · rename_i r' hb
      have := (h2.all k).bg r' (by rw [hb]; rfl)
      rw [hv] at this
      injection this with this
      rw [hb, this]
    · cases hs
  · rw [hst.atmpt] at hv
    cases hv

/-! ## What is always true -/

/-- A request was put on connections as this one. -/
def Hub.Puts (g : Hub K) (tag j i : Nat) (q : UpReq) : Prop :=
  g.asks[tag]? = some (j, i, q) ∧ ∃ t, g.tasks[j]? = some t ∧ (i, q) ∈ t.s.calls

/-- A response was read for this attempt. -/
def Hub.Source (A : Around K) (g : Hub K) (j i : Nat) (r : UpResp) : Prop :=
  ∃ (q : UpReq) (k : Nat) (l : Line) (e : Handed), g.lines[k]? = some l ∧ e ∈ l.c.log ∧ g.Puts e.tag j i q ∧ r = (decompress A.T q e.w).up

/-- Nothing is forgotten. -/
structure Hub.Grows (g g' : Hub K) : Prop where
  tasks : ∀ (j : Nat) t, g.tasks[j]? = some t → ∃ t', g'.tasks[j]? = some t' ∧ ∀ p ∈ t.s.calls, p ∈ t'.s.calls
  lines : ∀ (k : Nat) l, g.lines[k]? = some l → ∃ l', g'.lines[k]? = some l' ∧ ∀ e ∈ l.c.log, e ∈ l'.c.log
  asks : ∀ (n : Nat) a, g.asks[n]? = some a → g'.asks[n]? = some a

theorem Hub.Puts.grow {g g' : Hub K} (hg : g.Grows g') {tag j i : Nat} {q : UpReq} (h : g.Puts tag j i q) : g'.Puts tag j i q := by
  obtain ⟨h1, t, h2, h3⟩ := h
  obtain ⟨t', h4, h5⟩ := hg.tasks j t h2
  exact ⟨hg.asks _ _ h1, t', h4, h5 _ h3⟩

theorem Hub.Source.grow {A : Around K} {g g' : Hub K} (hg : g.Grows g') {j i : Nat} {r : UpResp} (h : g.Source A j i r) :
    g'.Source A j i r := by
  obtain ⟨q, k, l, e, h1, h2, h3, h4⟩ := h
  obtain ⟨l', h5, h6⟩ := hg.lines k l h1
  exact ⟨q, k, l', e, h5, h6 e h2, h3.grow hg, h4⟩

/-- What `Do` returned was read for this attempt. -/
def Hub.Gave (A : Around K) (g : Hub K) (j i : Nat) (w : WireResp) : Prop :=
  ∃ (q : UpReq) (k : Nat) (l : Line) (e : Handed), g.lines[k]? = some l ∧ e ∈ l.c.log ∧ g.Puts e.tag j i q ∧ w = decompress A.T q e.w

theorem Hub.Gave.grow {A : Around K} {g g' : Hub K} (hg : g.Grows g') {j i : Nat} {w : WireResp} (h : g.Gave A j i w) :
    g'.Gave A j i w := by
  obtain ⟨q, k, l, e, h1, h2, h3, h4⟩ := h
  obtain ⟨l', h5, h6⟩ := hg.lines k l h1
  exact ⟨q, k, l', e, h5, h6 e h2, h3.grow hg, h4⟩

theorem UpConn.step_log {c c' : UpConn} (h : c.Step c') {e : Handed} (he : e ∈ c.log) : e ∈ c'.log := by
  cases h with
  | answer => exact List.mem_append_left _ he
  | _ => exact he

theorem grow_set {g : Hub K} {j : Nat} {t t' : Task K} (h : g.tasks[j]? = some t) (hc : ∀ p ∈ t.s.calls, p ∈ t'.s.calls) :
    g.Grows { g with tasks := g.tasks.set j t' } := by
  refine ⟨fun j' u hu => ?_, fun k l hl => ⟨l, hl, fun _ h => h⟩, fun _ _ h => h⟩
  simp only [get_set h]
  by_cases e : j' = j
  · subst e
    rw [h] at hu
    injection hu with hu
    subst hu
    exact ⟨t', by rw [if_pos rfl], hc⟩
  · exact ⟨u, by rw [if_neg e]; exact hu, fun _ h => h⟩

theorem grow_line {g : Hub K} {k : Nat} {l l' : Line} (h : g.lines[k]? = some l) (hc : ∀ e ∈ l.c.log, e ∈ l'.c.log)
    (asks : List (Nat × Nat × UpReq)) (ha : ∀ (n : Nat) a, g.asks[n]? = some a → asks[n]? = some a) :
    g.Grows { g with lines := g.lines.set k l', asks := asks } := by
  refine ⟨fun j u hu => ⟨u, hu, fun _ h => h⟩, fun k' u hu => ?_, ha⟩
  simp only [get_set h]
  by_cases e : k' = k
  · subst e
    rw [h] at hu
    injection hu with hu
    subst hu
    exact ⟨l', by rw [if_pos rfl], hc⟩
  · exact ⟨u, by rw [if_neg e]; exact hu, fun _ h => h⟩

theorem Hub.Step.grows {A : Around K} {g g' : Hub K} (h : Hub.Step A g g') : g.Grows g' := by
  cases h with
  | accept x _ => exact ⟨fun j t h => ⟨t, get_more _ h, fun _ h => h⟩, fun k l h => ⟨l, h, fun _ h => h⟩, fun _ _ h => h⟩
  | act j t a s' h1 h2 _ _ => exact grow_set h1 fun _ hp => step_calls_sub h2 hp
  | deliver j t i q k l e s' h1 _ _ _ h2 => exact grow_set h1 fun _ hp => step_calls_sub h2 hp
  | dial key => exact ⟨fun j t h => ⟨t, h, fun _ h => h⟩, fun k l h => ⟨l, get_more _ h, fun _ h => h⟩, fun _ _ h => h⟩
  | ask j t i q k l keys bytes p _ _ _ h1 =>
    exact grow_line h1 (l' := { l with
      c := { l.c with asking := some ⟨g.asks.length, q.method, l.c.arrived.length, l.c.pos⟩ }
      wrote := l.wrote ++ p, puts := l.puts ++ [(g.asks.length, bytes)], cut := decide (p ≠ bytes) })
      (fun _ h => h) _ fun _ _ h => get_more _ h
  | conn k l c' h1 h2 => exact grow_line h1 (fun _ h => UpConn.step_log h2 h) _ fun _ _ h => h

/-- What is true of one connection. -/
structure LineInv (A : Around K) (g : Hub K) (l : Line) : Prop where
  reached : l.c.Reached
  /-- what was written -/
  puts : ∀ p ∈ l.puts, ∃ j i q keys, g.Puts p.1 j i q ∧ (keys.Nodup ∧ ∀ n, n ∈ keys ↔ (credited q).header n ≠ []) ∧
    writeRequest keys (credited q) = some p.2 ∧ l.key = A.keyOf q.uri
  /-- whole requests, and at the end maybe a part of one; then it is not used again -/
  wrote : (l.cut = false ∧ l.wrote = (l.puts.map Prod.snd).flatten) ∨
    (l.cut = true ∧ (l.c.alive = true → l.c.asking ≠ none) ∧ ∃ ps p w, l.puts = ps ++ [p] ∧ w <+: p.2 ∧
      l.wrote = (ps.map Prod.snd).flatten ++ w)
  /-- in the order in which they are answered -/
  order : (l.c.asked.map Asked.tag) <+: l.puts.map Prod.fst
  same : l.c.alive = true → l.c.asked.map Asked.tag = l.puts.map Prod.fst
  method : ∀ a ∈ l.c.asked, ∀ j i q, g.asks[a.tag]? = some (j, i, q) → a.method = q.method

/-- What is always true. -/
structure Hub.Inv (A : Around K) (g : Hub K) : Prop where
  runs : ∀ (j : Nat) t, g.tasks[j]? = some t → A.comes t.x ∧ run t.x.env (initial t.x.dec) t.acts = some t.s
  asks : ∀ (n j i : Nat) (q : UpReq), g.asks[n]? = some (j, i, q) → g.Puts n j i q
  resp : ∀ (j i : Nat) t r, g.tasks[j]? = some t → (t.s.atmpt i).vResp = some r → g.Source A j i r
  got : ∀ (j i : Nat) t w, g.tasks[j]? = some t → (i, w) ∈ t.got → g.Gave A j i w
  read : ∀ (j i : Nat) t r, g.tasks[j]? = some t → (t.s.atmpt i).ReadAll r → ∃ w, (i, w) ∈ t.got ∧ w.ending = .eof ∧ w.up = r
  lines : ∀ (k : Nat) l, g.lines[k]? = some l → LineInv A g l

theorem LineInv.grow {A : Around K} {g g' : Hub K} (hg : g.Grows g') {l : Line} (h : LineInv A g l) : LineInv A g' l := by
  refine ⟨h.reached, fun p hp => ?_, h.wrote, h.order, h.same, fun a ha j i q hq => ?_⟩
  · obtain ⟨j, i, q, keys, h1, h2⟩ := h.puts p hp
    exact ⟨j, i, q, keys, h1.grow hg, h2⟩
  · have h1 : a.tag ∈ l.puts.map Prod.fst := h.order.subset (List.mem_map_of_mem ha)
    obtain ⟨p, hp, h2⟩ := List.mem_map.1 h1
    obtain ⟨j', i', q', -, h3, -⟩ := h.puts p hp
    rw [h2] at h3
    have h4 := hg.asks _ _ h3.1
    rw [hq] at h4
    rw [h4] at hq
    injection h4 with h4
    injection h4 with _ h4
    injection h4 with _ h4
    rw [h4]
    exact h.method a ha _ _ _ h3.1

theorem asked_snoc (l : List Handed) (q : Asked) (n : Nat) (w : WireResp) :
    (l ++ [({ toAsked := q, stop := n, w := w } : Handed)]).map Handed.toAsked = l.map Handed.toAsked ++ [q] := by simp

theorem UpConn.asking_alive {c : UpConn} (h : c.Reached) (hq : c.asking ≠ none) : c.alive = true := by
  induction h with
  | new => exact absurd rfl hq
  | step _ hs ih =>
    cases hs with
    | arrive => exact ih hq
    | ends => exact ih hq
    | ask _ _ ha => exact ha
    | unsolicited hn => exact absurd hn hq
    | fail => exact absurd rfl hq
    | answer => exact absurd rfl hq

/-- What a step does to the requests on a connection, if it puts none on it. -/
theorem UpConn.step_asked {c c' : UpConn} (hr : c.Reached) (h : c.Step c') (hq : c'.asking ≠ none → c'.asking = c.asking) :
    (c'.asked = c.asked ∨ c'.asked <+: c.asked ∧ c'.alive = false) ∧ (c'.alive = true → c.alive = true) := by
  cases h with
  | arrive => exact ⟨.inl rfl, id⟩
  | ends => exact ⟨.inl rfl, id⟩
  | ask tag method ha hn =>
    have := hq (by simp)
    rw [hn] at this
    cases this
  | unsolicited => exact ⟨.inl rfl, fun h => by cases h⟩
  | fail q h1 =>
    refine ⟨.inr ⟨?_, rfl⟩, fun h => by cases h⟩
    unfold UpConn.asked
    simp only [Option.toList_none, List.append_nil]
    exact List.prefix_append _ _
  | answer q w rest hd after keep h1 =>
    refine ⟨.inl ?_, fun _ => UpConn.asking_alive hr (by rw [h1]; simp)⟩
    unfold UpConn.asked
    simp only [asked_snoc, h1, Option.toList_none, List.append_nil, Option.toList_some]

theorem initial_vResp (d : Decision) (i : Nat) : ((initial d).atmpt i).vResp = none := by
  cases d with
  | respond => rfl
  | forward r u l =>
    simp only [initial]
    split <;> rfl
  | panic => rfl

theorem initial_readAll (d : Decision) (i : Nat) (r : UpResp) : ¬ ((initial d).atmpt i).ReadAll r := by
  unfold Atmpt.ReadAll
  cases d with
  | respond => simp [initial, noAtmpt]
  | forward r u l =>
    simp only [initial]
    split <;> simp [noAtmpt]
  | panic => simp [initial, noAtmpt]

theorem run_snoc {e : Env} {s t u : St} {as : List Act} {a : Act} (h : run e s as = some t) (hs : step e t a = some u) :
    run e s (as ++ [a]) = some u := by
  rw [run_append h]
  simp only [run, hs]

theorem Hub.Inv.task {A : Around K} {g : Hub K} (hi : g.Inv A) {j : Nat} {t : Task K} (ht : g.tasks[j]? = some t) {a : Act}
    {s' : St} (hs : step t.x.env t.s a = some s')
    (hr : ∀ i r, a = .hgReturn i (some r) → g.Source A j i r) (got : List (Nat × WireResp)) (hsub : ∀ p ∈ t.got, p ∈ got)
    (hnew : ∀ i w, (i, w) ∈ got → (i, w) ∈ t.got ∨ g.Gave A j i w)
    (hread : ∀ i, a = .bgRead i none → ∃ w, (i, w) ∈ t.got ∧ w.ending = .eof ∧ (t.s.atmpt i).bg = .reading w.up) :
    Hub.Inv A { g with tasks := g.tasks.set j { t with acts := t.acts ++ [a], s := s', got := got } } := by
  have hg : g.Grows { g with tasks := g.tasks.set j { t with acts := t.acts ++ [a], s := s', got := got } } :=
    grow_set ht fun _ hp => step_calls_sub hs hp
  refine ⟨fun j' u hu => ?_, fun n j i q h => (hi.asks n j i q h).grow hg, fun j' i u r hu hv => ?_, fun j' i u w hu hw => ?_,
    fun j' i u r hu hv => ?_, fun k l h => (hi.lines k l h).grow hg⟩
  · rw [get_set ht] at hu
    split at hu
    · injection hu with hu
      subst hu
      obtain ⟨h1, h2⟩ := hi.runs j t ht
      exact ⟨h1, run_snoc h2 hs⟩
    · exact hi.runs j' u hu
  · refine Hub.Source.grow hg ?_
    rw [get_set ht] at hu
    split at hu
    · rename_i e
      subst e
      injection hu with hu
      subst hu
      rcases step_vResp hs hv with h | h
      · exact hi.resp _ i t r ht h
      · exact hr i r h
    · exact hi.resp j' i u r hu hv
  · refine Hub.Gave.grow hg ?_
    rw [get_set ht] at hu
    split at hu
    · rename_i e
      subst e
      injection hu with hu
      subst hu
      exact (hnew i w hw).elim (hi.got _ i t w ht) id
    · exact hi.got j' i u w hu hw
  · rw [get_set ht] at hu
    split at hu
    · rename_i e
      subst e
      injection hu with hu
      subst hu
      rcases step_readAll hs hv with h | ⟨h, h'⟩
      · obtain ⟨w, h1, h2⟩ := hi.read _ i t r ht h
        exact ⟨w, hsub _ h1, h2⟩
      · obtain ⟨w, h1, h2, h3⟩ := hread i h
        rw [h'] at h3
        injection h3 with h3
        exact ⟨w, hsub _ h1, h2, h3.symm⟩
    · exact hi.read j' i u r hu hv

theorem Hub.Inv.line {A : Around K} {g : Hub K} (hi : g.Inv A) {k : Nat} {l l' : Line} (hl : g.lines[k]? = some l)
    (asks : List (Nat × Nat × UpReq)) (hg : g.Grows { g with lines := g.lines.set k l', asks := asks })
    (ha : ∀ (n j i : Nat) (q : UpReq), asks[n]? = some (j, i, q) → g.asks[n]? = some (j, i, q) ∨
      ∃ t, g.tasks[j]? = some t ∧ (i, q) ∈ t.s.calls)
    (hn : LineInv A { g with lines := g.lines.set k l', asks := asks } l') :
    Hub.Inv A { g with lines := g.lines.set k l', asks := asks } := by
  refine ⟨hi.runs, fun n j i q h => ?_, fun j i t r ht hv => (hi.resp j i t r ht hv).grow hg,
    fun j i t w ht hw => (hi.got j i t w ht hw).grow hg, hi.read, fun k' u hu => ?_⟩
  · rcases ha n j i q h with h1 | h1
    · exact (hi.asks n j i q h1).grow hg
    · exact ⟨h, h1⟩
  · rw [get_set hl] at hu
    split at hu
    · injection hu with hu
      subst hu
      exact hn
    · exact (hi.lines k' u hu).grow hg

theorem Hub.inv {A : Around K} {g : Hub K} (h : g.Reached A) : g.Inv A := by
  induction h with
  | new => exact ⟨fun j t h => (nomatch h), fun n j i q h => (nomatch h), fun j i t r h => (nomatch h), fun j i t w h => (nomatch h),
    fun j i t r h => (nomatch h), fun k l h => (nomatch h)⟩
  | @step g g' _ hs hi =>
    have hg := hs.grows
    cases hs with
    | accept x hx =>
      refine ⟨fun j t h => ?_, fun n j i q h => (hi.asks n j i q h).grow hg, fun j i t r h hv => Hub.Source.grow hg ?_,
        fun j i t w h hw => Hub.Gave.grow hg ?_, fun j i t r h hv => ?_, fun k l h => (hi.lines k l h).grow hg⟩
      · rcases get_snoc h with h | ⟨-, rfl⟩
        · exact hi.runs j t h
        · exact ⟨hx, rfl⟩
      · rcases get_snoc h with h | ⟨-, rfl⟩
        · exact hi.resp j i t r h hv
        · rw [initial_vResp] at hv; cases hv
      · rcases get_snoc h with h | ⟨-, rfl⟩
        · exact hi.got j i t w h hw
        · cases hw
      · rcases get_snoc h with h | ⟨-, rfl⟩
        · exact hi.read j i t r h hv
        · exact absurd hv (initial_readAll _ _ _)
    | act j t a s' h1 h2 h3 h4 => exact hi.task h1 h2 (fun i r e => absurd e (h3 i r)) t.got (fun _ h => h) (fun _ _ h => .inl h) h4
    | deliver j t i q k l e s' h1 h2 h3 h4 h5 =>
      refine hi.task h1 h5 (fun i' r' e' => ?_) _ (fun _ h => List.mem_append_left _ h) (fun i' w' hw => ?_) (fun i' h => (nomatch h))
      · injection e' with e1 e2
        injection e2 with e2
        subst e1 e2
        exact ⟨q, k, l, e, h2, h3, hi.asks _ _ _ _ h4, rfl⟩
      · rcases List.mem_append.1 hw with hw | hw
        · exact .inl hw
        · injection List.mem_singleton.1 hw with e1 e2
          subst e1 e2
          exact .inr ⟨q, k, l, e, h2, h3, hi.asks _ _ _ _ h4, rfl⟩
    | dial key =>
      refine ⟨hi.runs, fun n j i q h => (hi.asks n j i q h).grow hg, fun j i t r h hv => (hi.resp j i t r h hv).grow hg,
        fun j i t w h hw => (hi.got j i t w h hw).grow hg, hi.read, fun k l h => ?_⟩
      rcases get_snoc h with h | ⟨-, rfl⟩
      · exact (hi.lines k l h).grow hg
      · exact ⟨.new, fun p hp => (nomatch hp), .inl ⟨rfl, rfl⟩, List.prefix_rfl, fun _ => rfl, fun a ha => (nomatch ha)⟩
    | ask j t i q k l keys bytes p h1 h2 h3 h4 h5 h6 h7 h8 h9 h10 =>
      have hl := hi.lines k l h4
      refine hi.line h4 _ hg (fun n j' i' q' h => ?_) ⟨.step hl.reached (.ask _ _ h6 h7), fun p' hp => ?_, ?_, ?_, fun _ => ?_, ?_⟩
      · rcases get_snoc h with h | ⟨-, h⟩
        · exact .inl h
        · injection h with e1 e2
          injection e2 with e2 e3
          subst e1 e2 e3
          exact .inr ⟨t, h1, h2⟩
      · rcases List.mem_append.1 hp with hp | hp
        · obtain ⟨j', i', q', keys', k1, k2⟩ := hl.puts p' hp
          exact ⟨j', i', q', keys', k1.grow hg, k2⟩
        · rw [List.mem_singleton.1 hp]
          exact ⟨j, i, q, keys, ⟨by simp, t, h1, h2⟩, h8, h9, h5⟩
      · have hw : l.wrote = (l.puts.map Prod.snd).flatten := by
          rcases hl.wrote with ⟨-, h⟩ | ⟨-, h, -⟩
          · exact h
          · exact absurd h7 (h h6)
        by_cases e : p = bytes
        · refine .inl ⟨by simp [e], ?_⟩
          simp [hw, e]
        · refine .inr ⟨by simp [e], fun _ => by simp, l.puts, _, p, rfl, h10, by simp [hw]⟩
      · unfold UpConn.asked
        simp only [List.map_append, Option.toList_some, List.map_cons, List.map_nil]
        have := hl.same h6
        unfold UpConn.asked at this
        rw [h7] at this
        simp only [Option.toList_none, List.append_nil] at this
        rw [this]
        exact List.prefix_rfl
      · unfold UpConn.asked
        simp only [List.map_append, Option.toList_some, List.map_cons, List.map_nil]
        have := hl.same h6
        unfold UpConn.asked at this
        rw [h7] at this
        simp only [Option.toList_none, List.append_nil] at this
        rw [this]
      · intro a ha j' i' q' hq
        unfold UpConn.asked at ha
        rcases List.mem_append.1 ha with ha | ha
        · exact (hl.grow hg).method a (by unfold UpConn.asked; exact List.mem_append_left _ ha) j' i' q' hq
        · simp only [Option.toList_some, List.mem_singleton] at ha
          subst ha
          simp at hq
          rw [← hq.2.2]
    | conn k l c' h1 h2 h3 h4 =>
      have hl := hi.lines k l h1
      obtain ⟨k1, k2⟩ := UpConn.step_asked hl.reached h2 h3
      refine hi.line h1 _ hg (fun n j' i' q' h => .inl h) ⟨.step hl.reached h2, (hl.grow hg).puts, ?_, ?_, fun h => ?_, ?_⟩
      · rcases hl.wrote with h | ⟨h, h', h''⟩
        · exact .inl h
        · refine .inr ⟨h, fun ha hn => ?_, h''⟩
          have := h4 h hn
          rw [show _ = _ from ha] at this
          cases this
      · rcases k1 with k1 | ⟨k1, -⟩
        · simp only [k1]; exact hl.order
        · exact (k1.map _).trans hl.order
      · rcases k1 with k1 | ⟨-, k1⟩
        · simp only [k1]; exact hl.same (k2 h)
        · rw [show _ = _ from h] at k1; cases k1
      · intro a ha
        refine (hl.grow hg).method a ?_
        rcases k1 with k1 | ⟨k1, -⟩
        · rw [← k1]; exact ha
        · exact k1.subset ha

end J8a
