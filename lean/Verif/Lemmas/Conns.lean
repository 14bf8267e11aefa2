import Verif.Model.Conns
/-! # The pool of connections: invariants -/
namespace J8a
open Go

/-- All open connections. -/
def ConnSt.conns (s : ConnSt) : List Nat := s.idle.map Conn.id ++ s.busy.map (·.2.id)

/-- All requests that have or want a connection. -/
def ConnSt.wants (s : ConnSt) : List Nat := s.waiting.map Want.w ++ s.busy.map (·.1.w)

structure ConnInv (c : TransportCfg) (s : ConnSt) : Prop where
  size : 0 < c.maxIdleConns → (s.idle.length : Int) ≤ c.maxIdleConns
  none : c.maxIdleConnsPerHost < 0 → s.idle = []
  perHost : ∀ key, 0 < c.maxIdleConnsPerHost → ((s.idle.filter (·.key = key)).length : Int) ≤ c.maxIdleConnsPerHost
  conns : s.conns.Nodup
  wants : s.wants.Nodup
  connsLt : ∀ i ∈ s.conns, i < s.next
  wantsLt : ∀ i ∈ s.wants, i < s.next
  dialLt : ∀ d ∈ s.dialing, d.w < s.next
  key : ∀ p ∈ s.busy, p.1.key = p.2.key

theorem ConnInv.initial (c : TransportCfg) : ConnInv c {} where
  size := by intro h; simp; omega
  none := fun _ => rfl
  perHost := by intro _ h; simp; omega
  conns := by simp [ConnSt.conns]
  wants := by simp [ConnSt.wants]
  connsLt := by simp [ConnSt.conns]
  wantsLt := by simp [ConnSt.wants]
  dialLt := by simp
  key := by simp

/-- A state with fewer connections and requests. -/
theorem ConnInv.less {c : TransportCfg} {s t : ConnSt} (h : ConnInv c s) (hi : t.idle.Sublist s.idle)
    (hb : t.busy.Sublist s.busy) (hw : t.waiting.Sublist s.waiting) (hd : t.dialing.Sublist s.dialing)
    (hn : s.next ≤ t.next) : ConnInv c t := by
  have h1 : t.conns.Sublist s.conns := (hi.map _).append (hb.map _)
  have h2 : t.wants.Sublist s.wants := (hw.map _).append (hb.map _)
  refine ⟨fun hc => ?_, fun hc => ?_, fun key hc => ?_, h.conns.sublist h1, h.wants.sublist h2,
    fun i hi => ?_, fun i hi => ?_, fun d hd' => ?_, fun p hp => h.key p (hb.subset hp)⟩
  · have := h.size hc; have := hi.length_le; omega
  · have := hi; rw [h.none hc] at this; exact List.eq_nil_of_sublist_nil this
  · have := h.perHost key hc; have := (hi.filter (·.key = key)).length_le; omega
  · exact Nat.lt_of_lt_of_le (h.connsLt i (h1.subset hi)) hn
  · exact Nat.lt_of_lt_of_le (h.wantsLt i (h2.subset hi)) hn
  · exact Nat.lt_of_lt_of_le (h.dialLt d (hd.subset hd')) hn

/-- A connection that is nowhere is put back. -/
theorem ConnInv.putIdle {c : TransportCfg} {s : ConnSt} {x : Conn} (h : ConnInv c s) (hx : x.id ∉ s.conns)
    (hlt : x.id < s.next) : ConnInv c (putIdle c s x) := by
  unfold J8a.putIdle
  split
  · exact h
  rename_i hneg
  split
  · rename_i w hw
    have hm := List.mem_of_find?_eq_some hw
    have hk : w.key = x.key := by simpa using List.find?_some hw
    refine ⟨h.size, h.none, h.perHost, ?_, ?_, ?_, ?_, h.dialLt, ?_⟩
    · refine (List.Perm.nodup_iff (l₂ := x.id :: s.conns) ?_).2 (List.nodup_cons.2 ⟨hx, h.conns⟩)
      exact List.perm_middle
    · refine (List.Perm.nodup_iff (l₂ := s.wants) ?_).2 h.wants
      refine List.perm_middle.trans ?_
      exact (((List.perm_cons_erase hm).map Want.w).append_right _).symm
    · intro i hi
      simp only [ConnSt.conns, List.map_cons, List.mem_append, List.mem_cons] at hi
      rcases hi with hi | rfl | hi
      · exact h.connsLt i (List.mem_append_left _ hi)
      · exact hlt
      · exact h.connsLt i (List.mem_append_right _ hi)
    · intro i hi
      simp only [ConnSt.wants, List.map_cons, List.mem_append, List.mem_cons] at hi
      rcases hi with hi | rfl | hi
      · exact h.wantsLt i (List.mem_append_left _ ((List.erase_sublist.map _).subset hi))
      · exact h.wantsLt _ (List.mem_append_left _ (List.mem_map_of_mem hm))
      · exact h.wantsLt i (List.mem_append_right _ hi)
    · intro p hp
      rcases List.mem_cons.1 hp with rfl | hp
      · exact hk
      · exact h.key p hp
  · split
    · exact h
    rename_i hhost
    have hc : (s.idle ++ [x]).map Conn.id ++ s.busy.map (·.2.id) = s.idle.map Conn.id ++ x.id :: s.busy.map (·.2.id) := by
      simp
    have hnd : ((s.idle ++ [x]).map Conn.id ++ s.busy.map (·.2.id)).Nodup := by
      rw [hc]
      exact (List.Perm.nodup_iff (l₂ := x.id :: s.conns) List.perm_middle).2 (List.nodup_cons.2 ⟨hx, h.conns⟩)
    have hl : ∀ i ∈ (s.idle ++ [x]).map Conn.id ++ s.busy.map (·.2.id), i < s.next := by
      intro i hi
      rw [hc, List.mem_append, List.mem_cons] at hi
      rcases hi with hi | rfl | hi
      · exact h.connsLt i (List.mem_append_left _ hi)
      · exact hlt
      · exact h.connsLt i (List.mem_append_right _ hi)
    have hph : ∀ key, 0 < c.maxIdleConnsPerHost →
        (((s.idle ++ [x]).filter (·.key = key)).length : Int) ≤ c.maxIdleConnsPerHost := by
      intro key hpos
      have h1 := h.perHost key hpos
      rw [List.filter_append, List.length_append]
      by_cases hkey : x.key = key
      · subst hkey
        have : c.perHost = c.maxIdleConnsPerHost := by
          unfold TransportCfg.perHost; rw [if_pos (by omega)]
        rw [this] at hhost
        have h2 := (List.length_filter_le (fun y : Conn => y.key = x.key) [x])
        simp only [List.length_singleton] at h2
        omega
      · simp [hkey]; simpa using h1
    dsimp only
    split
    · have hsub : ((s.idle ++ [x]).drop 1).Sublist (s.idle ++ [x]) := List.drop_sublist _ _
      refine ⟨fun hp => ?_, fun hn => absurd hn hneg, fun key hp => ?_, ?_, h.wants, fun i hi => ?_, h.wantsLt, h.dialLt,
        h.key⟩
      · have := h.size hp; simp; omega
      · have := hph key hp; have := (hsub.filter (·.key = key)).length_le; dsimp only; omega
      · exact hnd.sublist ((hsub.map _).append_right _)
      · exact hl i (((hsub.map _).append_right _).subset hi)
    · rename_i hle
      refine ⟨fun hp => ?_, fun hn => absurd hn hneg, hph, hnd, h.wants, hl, h.wantsLt, h.dialLt, h.key⟩
      dsimp only at hle ⊢
      omega

theorem ConnInv.step {c : TransportCfg} {s t : ConnSt} {a : ConnAct} (h : ConnInv c s) (hs : connStep c s a = some t) :
    ConnInv c t := by
  cases a with
  | want key =>
    simp only [connStep] at hs
    split at hs
    · rename_i x hx
      cases hs
      have hm : x ∈ s.idle := List.mem_reverse.1 (List.mem_of_find?_eq_some hx)
      have hk : x.key = key := by simpa using List.find?_some hx
      refine ⟨fun hp => ?_, fun hn => ?_, fun k hp => ?_, ?_, ?_, fun i hi => ?_, fun i hi => ?_, fun d hd => ?_, ?_⟩
      · have := h.size hp; have := (List.erase_sublist (l := s.idle) (a := x)).length_le; dsimp only; omega
      · rw [h.none hn] at hm; cases hm
      · have := h.perHost k hp
        have := ((List.erase_sublist (l := s.idle) (a := x)).filter (·.key = k)).length_le; dsimp only; omega
      · refine (List.Perm.nodup_iff (l₂ := s.conns) ?_).2 h.conns
        refine List.perm_middle.trans ?_
        exact (((List.perm_cons_erase hm).map Conn.id).append_right _).symm
      · refine (List.Perm.nodup_iff (l₂ := s.next :: s.wants) List.perm_middle).2 (List.nodup_cons.2 ⟨?_, h.wants⟩)
        exact fun hi => Nat.lt_irrefl _ (h.wantsLt _ hi)
      · refine Nat.lt_succ_of_lt (h.connsLt i ?_)
        simp only [ConnSt.conns, List.map_cons, List.mem_append, List.mem_cons] at hi
        rcases hi with hi | rfl | hi
        · exact List.mem_append_left _ ((List.erase_sublist.map _).subset hi)
        · exact List.mem_append_left _ (List.mem_map_of_mem hm)
        · exact List.mem_append_right _ hi
      · simp only [ConnSt.wants, List.map_cons, List.mem_append, List.mem_cons] at hi
        rcases hi with hi | rfl | hi
        · exact Nat.lt_succ_of_lt (h.wantsLt i (List.mem_append_left _ hi))
        · exact Nat.lt_succ_self _
        · exact Nat.lt_succ_of_lt (h.wantsLt i (List.mem_append_right _ hi))
      · exact Nat.lt_succ_of_lt (h.dialLt d hd)
      · intro p hp
        rcases List.mem_cons.1 hp with rfl | hp
        · exact hk.symm
        · exact h.key p hp
    · cases hs
      refine ⟨h.size, h.none, h.perHost, h.conns, ?_, fun i hi => Nat.lt_succ_of_lt (h.connsLt i hi), fun i hi => ?_,
        fun d hd => ?_, h.key⟩
      · show (((s.waiting ++ [(⟨s.next, key⟩ : Want)]).map Want.w) ++ s.busy.map (·.1.w)).Nodup
        rw [List.map_append, List.map_singleton, List.append_assoc, List.singleton_append]
        refine (List.Perm.nodup_iff (l₂ := s.next :: s.wants) List.perm_middle).2 (List.nodup_cons.2 ⟨?_, h.wants⟩)
        exact fun hi => Nat.lt_irrefl _ (h.wantsLt _ hi)
      · simp only [ConnSt.wants, List.map_append, List.map_cons, List.map_nil, List.mem_append, List.mem_singleton] at hi
        rcases hi with (hi | rfl) | hi
        · exact Nat.lt_succ_of_lt (h.wantsLt i (List.mem_append_left _ hi))
        · exact Nat.lt_succ_self _
        · exact Nat.lt_succ_of_lt (h.wantsLt i (List.mem_append_right _ hi))
      · rcases List.mem_append.1 hd with hd | hd
        · exact Nat.lt_succ_of_lt (h.dialLt d hd)
        · rw [List.mem_singleton.1 hd]; exact Nat.lt_succ_self _
  | dialed w =>
    simp only [connStep] at hs
    split at hs
    · cases hs
    · rename_i d hd
      have hfresh : s.next ∉ s.conns := fun hi => Nat.lt_irrefl _ (h.connsLt _ hi)
      split at hs
      · rename_i hw
        cases hs
        refine ⟨h.size, h.none, h.perHost, ?_, ?_, fun i hi => ?_, fun i hi => ?_, fun e he => ?_, ?_⟩
        · exact (List.Perm.nodup_iff (l₂ := s.next :: s.conns) List.perm_middle).2 (List.nodup_cons.2 ⟨hfresh, h.conns⟩)
        · refine (List.Perm.nodup_iff (l₂ := s.wants) ?_).2 h.wants
          refine List.perm_middle.trans ?_
          exact (((List.perm_cons_erase hw).map Want.w).append_right _).symm
        · simp only [ConnSt.conns, List.map_cons, List.mem_append, List.mem_cons] at hi
          rcases hi with hi | rfl | hi
          · exact Nat.lt_succ_of_lt (h.connsLt i (List.mem_append_left _ hi))
          · exact Nat.lt_succ_self _
          · exact Nat.lt_succ_of_lt (h.connsLt i (List.mem_append_right _ hi))
        · refine Nat.lt_succ_of_lt (h.wantsLt i ?_)
          simp only [ConnSt.wants, List.map_cons, List.mem_append, List.mem_cons] at hi
          rcases hi with hi | rfl | hi
          · exact List.mem_append_left _ ((List.erase_sublist.map _).subset hi)
          · exact List.mem_append_left _ (List.mem_map_of_mem hw)
          · exact List.mem_append_right _ hi
        · exact Nat.lt_succ_of_lt (h.dialLt e (List.erase_sublist.subset he))
        · intro p hp
          rcases List.mem_cons.1 hp with rfl | hp
          · rfl
          · exact h.key p hp
      · cases hs
        refine ConnInv.putIdle (h.less (t := { s with dialing := s.dialing.erase d, next := s.next + 1 })
          (.refl _) (.refl _) (.refl _) List.erase_sublist (Nat.le_succ _)) hfresh (Nat.lt_succ_self _)
  | dialFailed w =>
    simp only [connStep] at hs
    split at hs
    · cases hs
    · cases hs
      exact h.less (.refl _) (.refl _) List.erase_sublist List.erase_sublist (Nat.le_refl _)
  | cancel w =>
    simp only [connStep] at hs
    split at hs
    · cases hs
    · cases hs
      exact h.less (.refl _) (.refl _) List.erase_sublist (.refl _) (Nat.le_refl _)
  | finish id =>
    simp only [connStep] at hs
    split at hs
    · cases hs
    · rename_i p hp
      cases hs
      have hm := List.mem_of_find?_eq_some hp
      refine ConnInv.putIdle (h.less (t := { s with busy := s.busy.erase p })
        (.refl _) List.erase_sublist (.refl _) (.refl _) (Nat.le_refl _)) ?_
        (h.connsLt _ (List.mem_append_right _ (List.mem_map_of_mem (f := (·.2.id)) hm)))
      have : (p.2.id :: (s.idle.map Conn.id ++ (s.busy.erase p).map (·.2.id))).Nodup := by
        refine (List.Perm.nodup_iff (l₂ := s.conns) ?_).2 h.conns
        refine List.perm_middle.symm.trans ?_
        exact (((List.perm_cons_erase hm).map (fun q : Want × Conn => q.2.id)).append_left _).symm
      exact (List.nodup_cons.1 this).1
  | broken id =>
    simp only [connStep] at hs
    split at hs
    · cases hs
    · cases hs
      exact h.less (.refl _) List.erase_sublist (.refl _) (.refl _) (Nat.le_refl _)
  | expire id =>
    simp only [connStep] at hs
    split at hs
    · cases hs
    · cases hs
      exact h.less List.erase_sublist (.refl _) (.refl _) (.refl _) (Nat.le_refl _)

theorem ConnInv.run {c : TransportCfg} {s t : ConnSt} {as : List ConnAct} (h : ConnInv c s)
    (hs : connRun c s as = some t) : ConnInv c t := by
  induction as generalizing s with
  | nil => cases hs; exact h
  | cons a as ih =>
    simp only [connRun] at hs
    split at hs
    · cases hs
    · rename_i h1; exact ih (h.step h1) hs

end J8a
