import Verif.Lemmas.Reply
import Verif.Model.Reception
import Verif.Props.RespWire
import Verif.Props.Client
import Verif.Props.Arrival
/-!
# C166: response messages, from the upstream's bytes to the client's
-/
namespace J8a
open Go Uri

variable {K : Type}

/-! ## What is true of all responses that are read -/

theorem readLine_no_lf {s l r : Str} (h : readLine s = some (l, r)) : '\n' ∉ l := by
  unfold readLine at h
  split at h
  · simp only [Option.some.injEq, Prod.mk.injEq] at h
    have h1 : '\n' ∉ (cutAt '\n' s).1 := by
      intro hm
      have := List.all_eq_true.1 (List.all_takeWhile (p := fun c => decide (c ≠ '\n')) (l := s)) '\n'
        (by simpa [cutAt] using hm)
      simp at this
    rw [← h.1]
    split
    · exact fun hm => h1 ((List.dropLast_sublist _).mem hm)
    · exact h1
  · cases h

theorem headLines_no_lf : ∀ (n : Nat) (s : Str) (ls : List Str) (r : Str), headLines n s = some (ls, r) →
    ∀ l ∈ ls, '\n' ∉ l
  | 0, _, _, _, h => by cases h
  | n + 1, s, ls, r, h => by
    rw [headLines] at h
    split at h
    · cases h
    · simp only [Option.some.injEq, Prod.mk.injEq] at h
      rw [← h.1]
      intro l hl
      cases hl
    · rename_i hl
      obtain ⟨p, hp, he⟩ := Option.map_eq_some_iff.1 h
      simp only [Prod.mk.injEq] at he
      rw [← he.1]
      intro l hm
      rcases List.mem_cons.1 hm with rfl | hm
      · exact readLine_no_lf hl
      · exact headLines_no_lf n _ p.1 p.2 hp l hm

theorem mem_trimBlank {s : Str} {c : Char} (h : c ∈ trimBlank s) : c ∈ s := by
  unfold trimBlank at h
  rw [List.mem_reverse] at h
  have := (List.dropWhile_sublist _).mem h
  rw [List.mem_reverse] at this
  exact (List.dropWhile_sublist _).mem this

theorem joinFolds_no_lf : ∀ (ls : List Str) (kv : Str), '\n' ∉ kv → (∀ l ∈ ls, '\n' ∉ l) →
    ∀ x ∈ joinFolds kv ls, '\n' ∉ x
  | [], kv, h, _, x, hx => by
    rw [joinFolds, List.mem_singleton] at hx
    exact hx ▸ h
  | l :: ls, kv, h, hl, x, hx => by
    have h1 : '\n' ∉ trimBlank l := fun hm => hl l List.mem_cons_self (mem_trimBlank hm)
    have h2 := fun l hm => hl l (List.mem_cons_of_mem _ hm)
    rw [joinFolds] at hx
    split at hx
    · refine joinFolds_no_lf ls _ ?_ h2 x hx
      simp only [List.mem_append, List.mem_cons, not_or]
      exact ⟨h, by decide, h1⟩
    · rcases List.mem_cons.1 hx with rfl | hx
      · exact h
      · exact joinFolds_no_lf ls _ h1 h2 x hx

theorem unfoldLines_no_lf {ls kvs : List Str} (h : unfoldLines ls = some kvs) (hl : ∀ l ∈ ls, '\n' ∉ l) :
    ∀ x ∈ kvs, '\n' ∉ x := by
  cases ls with
  | nil => rw [unfoldLines] at h; injection h with h; rw [← h]; intro x hx; cases hx
  | cons l ls =>
    rw [unfoldLines] at h
    split at h
    · cases h
    · split at h
      · injection h with h
        rw [← h]
        exact joinFolds_no_lf ls _ (fun hm => hl l List.mem_cons_self (mem_trimBlank hm))
          fun l hm => hl l (List.mem_cons_of_mem _ hm)
      · cases h

/-- A name that ends at a colon and stands in one line. -/
def CutName (k : Str) : Prop := ':' ∉ k ∧ '\n' ∉ k

theorem cut_mimeHeader {kvs : List Str} (h : ∀ x ∈ kvs, '\n' ∉ x) : ∀ k ∈ (mimeHeader kvs).map Prod.fst, CutName k := by
  intro k hk
  unfold mimeHeader at hk
  rcases (mem_keys_foldl_addField _ _ _).1 hk with hk | hk
  · cases hk
  · obtain ⟨f, hf, rfl⟩ := List.mem_map.1 hk
    obtain ⟨kv, hkv, rfl⟩ := List.mem_map.1 (List.mem_filter.1 hf).1
    show CutName (canon (cutAt ':' kv).1)
    have h1 : ':' ∉ (cutAt ':' kv).1 := by
      intro hm
      have := List.all_eq_true.1 (List.all_takeWhile (p := fun c => decide (c ≠ ':')) (l := kv)) ':'
        (by simpa [cutAt] using hm)
      simp at this
    have h2 : '\n' ∉ (cutAt ':' kv).1 := fun hm =>
      h kv hkv ((List.takeWhile_sublist _).mem (by simpa [cutAt] using hm))
    exact ⟨not_mem_canon (by decide) (by decide) h1, not_mem_canon (by decide) (by decide) h2⟩

theorem keys_fixPragma {e : Entries} {k : Str} (h : k ∈ (fixPragma e).map Prod.fst) :
    k ∈ e.map Prod.fst ∨ k = "Cache-Control".toList := by
  unfold fixPragma at h
  split at h
  · rw [List.map_append, List.mem_append] at h
    exact h.imp id fun h => List.mem_singleton.1 h
  · exact .inl h

theorem keys_delKey {e : Entries} {n : String} {k : Str} (h : k ∈ (delKey e n).map Prod.fst) : k ∈ e.map Prod.fst :=
  (List.Sublist.map _ List.filter_sublist).mem h

theorem keys_fixCoding {b c : Bool} {e e' : Entries} (hf : fixCoding b e = some (c, e')) {k : Str}
    (h : k ∈ e'.map Prod.fst) : k ∈ e.map Prod.fst := by
  unfold fixCoding at hf
  split at hf
  · simp only at hf
    split at hf
    · injection hf with hf; injection hf with _ hf; rw [← hf] at h; exact keys_delKey h
    · split at hf
      · split at hf
        · injection hf with hf; injection hf with _ hf; rw [← hf] at h; exact keys_delKey (keys_delKey h)
        · cases hf
      · cases hf
  · injection hf with hf; injection hf with _ hf; rw [← hf] at h; exact h

theorem keys_fixTrailer {c : Bool} {e e' : Entries} (hf : fixTrailer c e = some e') {k : Str}
    (h : k ∈ e'.map Prod.fst) : k ∈ e.map Prod.fst := by
  unfold fixTrailer at hf
  split at hf
  · simp only at hf
    split at hf
    · cases hf
    · injection hf with hf; rw [← hf] at h; exact keys_delKey h
  · injection hf with hf; rw [← hf] at h; exact h

/-- What is left of a header when the length has been looked at. -/
theorem fixRespLength_header {m : Str} {st : Int} {c : Bool} {n : Int} {e e' : Entries}
    (hf : fixRespLength m st c e = some (n, e')) : -1 ≤ n ∧ (e.WF → e'.WF) ∧
      (∀ k, k ≠ "Content-Length".toList → e'.values k = e.values k) ∧
      ∀ k ∈ e'.map Prod.fst, k ∈ e.map Prod.fst ∨ k = "Content-Length".toList := by
  unfold fixRespLength at hf
  simp only at hf
  split at hf
  · cases hf
  · generalize (if (e.values "Content-Length".toList).length > 1 then
      [trimSpace ((e.values "Content-Length".toList).headD [])] else e.values "Content-Length".toList) = one at hf
    have h1 : ∀ k, k ≠ "Content-Length".toList → (if (e.values "Content-Length".toList).length > 1 then
        delKey e "Content-Length" ++ [("Content-Length".toList, one)] else e).values k = e.values k := by
      intro k hk
      split
      · rw [values_append_single (delKey_not_mem _ _), if_neg hk, values_delKey, if_neg hk]
      · rfl
    have h2 : e.WF → (if (e.values "Content-Length".toList).length > 1 then
        delKey e "Content-Length" ++ [("Content-Length".toList, one)] else e).WF := by
      intro hw
      split
      · exact wf_append (wf_delKey hw _) "Content-Length" one (by decide) (delKey_not_mem _ _)
      · exact hw
    have h3 : ∀ k ∈ (if (e.values "Content-Length".toList).length > 1 then
        delKey e "Content-Length" ++ [("Content-Length".toList, one)] else e).map Prod.fst,
        k ∈ e.map Prod.fst ∨ k = "Content-Length".toList := by
      intro k hk
      split at hk
      · rw [List.map_append, List.mem_append] at hk
        exact hk.imp keys_delKey fun h => List.mem_singleton.1 h
      · exact .inl hk
    generalize (if (e.values "Content-Length".toList).length > 1 then
      delKey e "Content-Length" ++ [("Content-Length".toList, one)] else e) = e1 at hf h1 h2 h3
    have same : ∀ {i : Int}, -1 ≤ i → some (i, e1) = some (n, e') → _ := fun {i} (hi : -1 ≤ i) (h : some (i, e1) = some (n, e')) =>
      (show -1 ≤ n ∧ (e.WF → e'.WF) ∧ (∀ k, k ≠ "Content-Length".toList → e'.values k = e.values k) ∧
        ∀ k ∈ e'.map Prod.fst, k ∈ e.map Prod.fst ∨ k = "Content-Length".toList from by
        injection h with h; injection h with ha hb; subst ha hb; exact ⟨hi, h2, h1, h3⟩)
    have less : some ((-1 : Int), delKey e1 "Content-Length") = some (n, e') → _ :=
      fun (h : some ((-1 : Int), delKey e1 "Content-Length") = some (n, e')) =>
      (show -1 ≤ n ∧ (e.WF → e'.WF) ∧ (∀ k, k ≠ "Content-Length".toList → e'.values k = e.values k) ∧
        ∀ k ∈ e'.map Prod.fst, k ∈ e.map Prod.fst ∨ k = "Content-Length".toList from by
        injection h with h; injection h with ha hb; subst ha hb
        exact ⟨by omega, fun hw => wf_delKey (h2 hw) _, fun k hk => by rw [values_delKey, if_neg hk, h1 k hk],
          fun k hk => h3 k (keys_delKey hk)⟩)
    split at hf
    · exact same (by omega) hf
    · split at hf
      · exact same (by omega) hf
      · split at hf
        · exact same (by omega) hf
        · split at hf
          · split at hf
            · exact less hf
            · obtain ⟨i, -, hi⟩ := Option.map_eq_some_iff.1 hf
              exact same (i := Int.ofNat i) (by rw [Int.ofNat_eq_natCast]; omega) (by rw [← hi])
          · exact less hf

theorem readRespHead_some {method s : Str} {h : RespHead} {r : Str} (H : readRespHead method s = some (h, r)) :
    ∃ first r1 lines kvs c e1 rl e2, readLine s = some (first, r1) ∧
      parseStatusLine first = some (h.version, h.status) ∧ headLines (r1.length + 1) r1 = some (lines, r) ∧
      unfoldLines lines = some kvs ∧ (∃ b, fixCoding b (fixPragma (mimeHeader kvs)) = some (c, e1)) ∧
      fixRespLength method h.status c e1 = some (rl, e2) ∧ respLength method rl e2 = some h.length ∧
      fixTrailer c e2 = some h.header ∧ h.framing = respFraming method h.status c rl := by
  unfold readRespHead at H
  simp only [Option.bind_eq_bind, Option.bind_eq_some_iff, Prod.exists] at H
  obtain ⟨first, r1, a1, v1, v2, st, a2, lines, rest, a3, kvs, a4, c, e1, a5, rl, e2, a6, len, a7, e3, a8, H⟩ := H
  simp only [Option.some.injEq, Prod.mk.injEq] at H
  obtain ⟨rfl, rfl⟩ := H
  exact ⟨first, r1, lines, kvs, c, e1, rl, e2, a1, a2, a3, a4, ⟨_, a5⟩, a6, a7, a8, rfl⟩

/-- The head that is returned is one that was read, up to a switch of protocols. -/
theorem readFinal_some {method : Str} : ∀ (n : Nat) (s : Str) (h : RespHead) (r : Str), readFinal method n s = some (h, r) →
    isInterim h.status = false ∧ ∃ s' h', readRespHead method s' = some (h', r) ∧ h.status = h'.status ∧
      h.header = h'.header ∧ h.length = h'.length ∧ (h.framing = h'.framing ∨ h.framing = .untilEnd ∧ h.status = 101) := by
  intro n
  induction n with
  | zero =>
    intro s h r H
    rw [readFinal] at H
    simp only [Option.bind_eq_bind, Option.bind_eq_some_iff, Prod.exists] at H
    obtain ⟨h1, r1, a1, H⟩ := H
    split at H
    · cases H
    · rename_i hi
      split at H
      · rename_i hsw
        injection H with H; injection H with ha hb; subst ha hb
        unfold isSwitch at hsw
        simp only [Bool.and_eq_true, decide_eq_true_eq] at hsw
        exact ⟨by simpa using hi, s, h1, a1, rfl, rfl, rfl, .inr ⟨rfl, hsw.1.1⟩⟩
      · injection H with H; injection H with ha hb; subst ha hb
        exact ⟨by simpa using hi, s, h1, a1, rfl, rfl, rfl, .inl rfl⟩
  | succ n ih =>
    intro s h r H
    rw [readFinal] at H
    simp only [Option.bind_eq_bind, Option.bind_eq_some_iff, Prod.exists] at H
    obtain ⟨h1, r1, a1, H⟩ := H
    split at H
    · exact ih r1 h r H
    · rename_i hi
      split at H
      · rename_i hsw
        injection H with H; injection H with ha hb; subst ha hb
        unfold isSwitch at hsw
        simp only [Bool.and_eq_true, decide_eq_true_eq] at hsw
        exact ⟨by simpa using hi, s, h1, a1, rfl, rfl, rfl, .inr ⟨rfl, hsw.1.1⟩⟩
      · injection H with H; injection H with ha hb; subst ha hb
        exact ⟨by simpa using hi, s, h1, a1, rfl, rfl, rfl, .inl rfl⟩

theorem digits_small {s : Str} (h : s.length ≤ 3) (hd : ∀ c ∈ s, c.isDigit = true) : digitsVal s < 1000 := by
  have h1 := digitsVal_bound s 0 hd
  have h2 : 10 ^ s.length ≤ 10 ^ 3 := Nat.pow_le_pow_right (by decide) h
  unfold digitsVal
  omega

theorem atoi_three {s : Str} {n : Int} (hl : s.length = 3) (h : atoi s = some n) : n ≤ 999 := by
  unfold atoi at h
  split at h
  rename_i neg ds hm
  have hds : ds.length ≤ 3 := by
    split at hm <;> (obtain ⟨-, rfl⟩ := Prod.mk.inj hm; (try simp only [List.length_cons] at hl); omega)
  split at h
  · rename_i hc
    have := digits_small hds fun c hm => List.all_eq_true.1 hc.2 c hm
    simp only at h
    split at h <;> split at h
    · injection h with h; omega
    · cases h
    · injection h with h; omega
    · cases h
  · cases h

theorem parseStatusLine_range {l : Str} {v : Nat × Nat} {n : Int} (h : parseStatusLine l = some (v, n)) :
    0 ≤ n ∧ n ≤ 999 := by
  unfold parseStatusLine at h
  split at h
  · simp only [Option.bind_eq_bind] at h
    split at h
    · cases h
    · rename_i hl
      simp only [Option.bind_eq_some_iff] at h
      obtain ⟨i, hi, h⟩ := h
      split at h
      · cases h
      · rename_i h0
        simp only [Option.bind_eq_some_iff, Option.some.injEq, Prod.mk.injEq] at h
        obtain ⟨w, -, -, rfl⟩ := h
        exact ⟨by omega, atoi_three (by simpa using hl) hi⟩
  · cases h

theorem sized_zero {s : Str} : readRespBody (.sized 0) s = ([], some s) := by
  rw [readRespBody, readBody, if_pos (Nat.zero_le _)]
  rfl

/-- C166, part: whatever bytes an upstream sends, a response that gets to the gateway has what the other theorems ask of
responses: a status of at most three digits, which is not that of an interim response but for 101; a header map with
canonical names that end at a colon and stand in one line, and no Transfer-Encoding among them; a body with as many bytes as
announced if it is complete, and never more. Missing: that names are tokens, see C133_violated. -/
theorem C166_sound_partial (method stream : Str) (w : WireResp) (rest : Option Str) (hr : Received method stream w rest) :
    0 ≤ w.status ∧ w.status ≤ 999 ∧ ¬ (100 ≤ w.status ∧ w.status < 200 ∧ w.status ≠ 101) ∧ w.header.WF ∧
      (∀ kv ∈ w.header, ':' ∉ kv.1 ∧ '\n' ∉ kv.1) ∧ w.header.values "Transfer-Encoding".toList = [] ∧
      (method ≠ "HEAD".toList → 0 ≤ w.contentLength → w.status ≠ 101 → (w.body.length : Int) ≤ w.contentLength ∧
        (w.ending = .eof → (w.body.length : Int) = w.contentLength)) ∧
      (method = "HEAD".toList → w.status ≠ 101 → w.body = []) ∧
      (method ≠ "HEAD".toList → w.status = 204 ∨ w.status = 304 → w.contentLength = 0 ∧ w.body = []) := by
  obtain ⟨h, after, hd⟩ := hr
  obtain ⟨hi, s', h', a0, b1, b2, b3, b4⟩ := readFinal_some _ _ _ _ hd.head
  obtain ⟨first, r1, lines, kvs, c, e1, rl, e2, a1, a2, a3, a4, ⟨b, a5⟩, a6, a7, a8, a9⟩ := readRespHead_some a0
  obtain ⟨l1, l2, l3, l4⟩ := fixRespLength_header a6
  obtain ⟨r1, r2⟩ := parseStatusLine_range a2
  have wh : h.header.WF := by
    rw [b2]
    exact wf_fixTrailer (l2 (wf_fixCoding (wf_fixPragma (wf_mimeHeader kvs)) a5)) a8
  have wr : w.header.WF := ⟨(hd.header.map _).nodup_iff.1 wh.nodup,
    fun kv hkv => wh.canonical kv (hd.header.mem_iff.2 hkv)⟩
  have hfr : w.status ≠ 101 → h.framing = respFraming method h'.status c rl := by
    intro hne
    rcases b4 with b4 | b4
    · rw [b4, a9]
    · exact absurd b4.2 (by rw [← hd.status]; exact hne)
  have hlen : w.body.length = (readRespBody h.framing after).1.length := by
    rw [← hd.body, bodyText_length]
  refine ⟨?_, ?_, ?_, wr, ?_, ?_, ?_, ?_, ?_⟩
  · rw [hd.status, b1]; exact r1
  · rw [hd.status, b1]; exact r2
  · rw [hd.status]
    unfold isInterim at hi
    intro hx
    rw [Bool.and_eq_false_iff, Bool.and_eq_false_iff] at hi
    simp only [decide_eq_false_iff_not] at hi
    omega
  · intro kv hkv
    have hm : kv.1 ∈ h.header.map Prod.fst := List.mem_map_of_mem (hd.header.mem_iff.2 hkv)
    rw [b2] at hm
    show CutName kv.1
    rcases l4 _ (keys_fixTrailer a8 hm) with hm | hm
    · rcases keys_fixPragma (keys_fixCoding a5 hm) with hm | hm
      · exact cut_mimeHeader (unfoldLines_no_lf a4 (headLines_no_lf _ _ _ _ a3)) _ hm
      · rw [hm]; exact ⟨by decide, by decide⟩
    · rw [hm]; exact ⟨by decide, by decide⟩
  · rw [← values_perm wh hd.header, b2, values_fixTrailer a8 (by decide), l3 _ (by decide), coding_gone a5]
  · intro hm hl hs
    have hl' : h'.length = rl := by
      unfold respLength at a7
      rw [if_neg hm] at a7
      exact (Option.some.inj a7).symm
    have hcl : w.contentLength = rl := by rw [hd.length, b3, hl']
    rw [hcl] at hl ⊢
    have he : w.ending = .eof → ∃ r, (readRespBody h.framing after).2 = some r := hd.ending.1
    rw [hlen]
    rw [hfr hs] at he ⊢
    by_cases hb : allowsBody h'.status = true
    · have hc : c = false := by
        cases c with
        | false => rfl
        | true =>
          exfalso
          have : rl = -1 := by
            unfold fixRespLength at a6
            simp only [hb, if_neg hm, if_true, Bool.not_true, Bool.false_eq_true, if_false] at a6
            split at a6
            · cases a6
            · injection a6 with a6; injection a6 with a6 _; exact a6.symm
          omega
      have hf : respFraming method h'.status c rl = .sized rl.toNat := by
        unfold respFraming
        rw [hc, if_neg (by decide), if_pos hl]
      rw [hf] at he ⊢
      rw [readRespBody] at he ⊢
      have := @readBody_length rl.toNat after
      refine ⟨by omega, fun hw => ?_⟩
      obtain ⟨r, hr⟩ := he hw
      have := this.2 r hr
      omega
    · have hb : allowsBody h'.status = false := by simpa using hb
      have hf : ∃ k, respFraming method h'.status c rl = .sized k ∧ (k : Int) ≤ rl ∧ rl = 0 := by
        have : rl = 0 := by
          unfold fixRespLength at a6
          simp only [hb, if_neg hm, Bool.not_false, if_true] at a6
          split at a6
          · cases a6
          · injection a6 with a6; injection a6 with a6 _; exact a6.symm
        refine ⟨0, ?_, by omega, this⟩
        unfold respFraming
        rw [hb, this]
        cases c <;> simp
      obtain ⟨k, hf, hk, hz⟩ := hf
      obtain rfl : k = 0 := by omega
      rw [hf, sized_zero, hz]
      exact ⟨by simp, fun _ => by simp⟩
  · intro hm hs
    have hf : respFraming method h'.status c rl = .sized 0 := by
      have : rl = 0 := by
        unfold fixRespLength at a6
        simp only [if_pos hm] at a6
        split at a6
        · cases a6
        · injection a6 with a6; injection a6 with a6 _; exact a6.symm
      unfold respFraming
      rw [this]
      cases c <;> simp [hm]
    rw [hfr hs, hf, sized_zero] at hlen
    exact List.length_eq_zero_iff.1 hlen
  · intro hm hs
    have hb : allowsBody h'.status = false := by
      rw [hd.status, b1] at hs
      rcases hs with hs | hs <;> rw [hs] <;> decide
    have hz : rl = 0 := by
      unfold fixRespLength at a6
      simp only [hb, if_neg hm, Bool.not_false, if_true] at a6
      split at a6
      · cases a6
      · injection a6 with a6; injection a6 with a6 _; exact a6.symm
    have hl' : h'.length = rl := by
      unfold respLength at a7
      rw [if_neg hm] at a7
      exact (Option.some.inj a7).symm
    have hf : respFraming method h'.status c rl = .sized 0 := by
      unfold respFraming
      rw [hz, hb]
      cases c <;> simp
    rw [hfr (by omega), hf, sized_zero] at hlen
    exact ⟨by rw [hd.length, b3, hl', hz], List.length_eq_zero_iff.1 hlen⟩

/-! ## Well-formed responses -/

/-- C166, part: a response message that is well-formed is received as it is, after at most five interim ones and whatever
follows it on the connection: status, body and, for every name, the values; and the next response begins where the message
ends. Exceptions among the names: Transfer-Encoding, which the library keeps to itself, Trailer, and Cache-Control, which it
adds to `Pragma: no-cache`. -/
theorem C166_received_partial (method stream rest : Str) (n : Nat) (m : HttpResponse)
    (hr : ReadsFinal method n stream m rest) (hn : n ≤ 5) (w : WireResp) (rest' : Option Str)
    (hd : Received method stream w rest') :
    w.status = (m.status : Int) ∧ bodyText w.body = m.body ∧ w.ending = .eof ∧ rest' = some rest ∧
      (∀ k, k.all isTokenChar = true → k ≠ [] → toLower k ∉ ["transfer-encoding", "trailer", "cache-control"].map
        String.toList → w.header.values (canon k) = fieldValues m.fields (toLower k)) ∧
      w.header.values "Cache-Control".toList =
        (if (fieldValues m.fields "pragma".toList).head? = some "no-cache".toList ∧
          fieldValues m.fields "cache-control".toList = [] then ["no-cache".toList]
        else fieldValues m.fields "cache-control".toList) ∧
      (∀ kv ∈ w.header, Token kv.1 ∧ ∀ v ∈ kv.2, FieldText v) ∧
      (w.contentLength = 0 → method ≠ "HEAD".toList → m.body = []) := by
  obtain ⟨h, after, hd⟩ := hd
  obtain ⟨h', after', g1, g2⟩ := readFinal_reads (k := maxInterims) hr hn
  rw [hd.head] at g1
  injection g1 with g1
  injection g1 with g1 g1'
  subst g1 g1'
  have hp := fun k => values_perm g2.wf hd.header k
  refine ⟨hd.status.trans g2.status, ?_, ?_, ?_, ?_, ?_, ?_, ?_⟩
  · rw [hd.body, g2.body]
  · exact hd.ending.2 ⟨rest, by rw [g2.body]⟩
  · rw [hd.rest, g2.body]
  · intro k h1 h2 h3
    rw [← hp]
    exact g2.fields k h1 h2 h3
  · rw [← hp]
    exact g2.cache
  · intro kv hkv
    obtain ⟨v1, v2⟩ := g2.valid kv (hd.header.mem_iff.2 hkv)
    exact ⟨token_of_valid v1, fun v hv => fieldText_of_valid (List.all_eq_true.1 v2 v hv)⟩
  · intro h0 hm
    exact g2.length (by rw [← hd.length]; exact h0) hm

/-- C166, part: such a message is received. -/
theorem C166_accepted_partial (method stream rest : Str) (n : Nat) (m : HttpResponse)
    (hr : ReadsFinal method n stream m rest) (hn : n ≤ 5) (hbytes : ∀ c ∈ m.body, c.toNat < 256) :
    ∃ w, Received method stream w (some rest) := by
  obtain ⟨h, after, g1, g2⟩ := readFinal_reads (k := maxInterims) hr hn
  refine ⟨{ status := h.status, header := h.header, body := m.body.map fun c => UInt8.ofNat c.toNat,
            contentLength := h.length }, h, after, g1, rfl, List.Perm.refl _, rfl, ?_, ?_, by rw [g2.body]⟩
  · rw [bodyText_bytes hbytes, g2.body]
  · exact ⟨fun _ => ⟨rest, by rw [g2.body]⟩, fun _ => rfl⟩

/-- An upstream answers the request `p` with the bytes `stream`; the transport makes `w` of it, and the gateway hands `y` to
the library, which writes it to the client with the names in the order of `keys`. -/
structure Exchange (x : Setup K) (s : St) (T : NetLib) (p : Nat × UpReq) (stream : Str) (w : WireResp) (rest : Option Str)
    (y : Sent) (c : ReplyConn) (keys : List Str) : Prop where
  reaches : x.ReachesOrderly s
  forward : ∃ r u l, x.dec = .forward r u l
  done : s.pc = .done
  call : p ∈ s.calls
  received : Received p.2.method stream w rest
  response : s.curA.vResp = some (decompress T p.2 w).up
  sent : y ∈ s.sent
  good : y.status < 400
  ids : TextIds x
  head : toUpper x.rq.method = "HEAD".toList → x.rq.method = "HEAD".toList
  conn : ConnOf x c
  keys : Enumerates keys y.header

/-- Fields that the gateway or the library may change on the way to the client. -/
def changedReplyFields : List Str :=
  ["server", "date", "x-request-id", "strict-transport-security", "content-length", "content-encoding", "content-type",
    "connection", "transfer-encoding", "trailer", "cache-control"].map String.toList

theorem trimOws_reply {method stream rest : Str} {n : Nat} {m : HttpResponse} (h : ReadsFinal method n stream m rest)
    (k : Str) : (fieldValues m.fields k).map trimOws = fieldValues m.fields k := by
  induction h with
  | final hr _ =>
    obtain ⟨code, lines, s, -, -, -, hl, hf, -, -⟩ := hr.text
    rw [← hf]
    exact trimOws_field hl k
  | interim _ _ _ _ _ ih => exact ih

theorem decompress_values {T : NetLib} {q : UpReq} {w : WireResp} {k : Str} (h1 : k ≠ "Content-Length".toList)
    (h2 : k ≠ "Content-Encoding".toList) : (decompress T q w).header.values k = w.header.values k := by
  by_cases hz : Decoded q w
  · rw [decoded_values hz k h1, if_neg h2]
  · rw [decompress_neg hz]

theorem decompress_mem {T : NetLib} {q : UpReq} {w : WireResp} {kv : Str × List Str}
    (h : kv ∈ (decompress T q w).header) : kv ∈ w.header := by
  by_cases hz : Decoded q w
  · rw [decompress_pos hz] at h
    exact (List.mem_filter.1 (List.mem_filter.1 h).1).1
  · rw [decompress_neg hz] at h
    exact h

theorem decompress_wf {T : NetLib} {q : UpReq} {w : WireResp} (h : w.header.WF) : (decompress T q w).header.WF := by
  by_cases hz : Decoded q w
  · rw [decompress_pos hz]
    exact del_wf (del_wf h _) _
  · rw [decompress_neg hz]
    exact h

theorem Exchange.proxied {x : Setup K} {s : St} {T : NetLib} {p : Nat × UpReq} {stream : Str} {w : WireResp}
    {rest : Option Str} {y : Sent} {c : ReplyConn} {keys : List Str} (e : Exchange x s T p stream w rest y c keys) :
    y = proxiedResponse x.respEnv (decompress T p.2 w).up ∧ Proxied x (decompress T p.2 w).up y := by
  obtain ⟨r, u, l, hd⟩ := e.forward
  obtain ⟨v, h1, h2, h3⟩ := C37_partial x s e.reaches hd e.done y e.sent e.good
  rw [e.response] at h1
  injection h1 with h1
  subst h1
  exact ⟨h2, h3 (decompress_wf (C166_sound_partial _ _ _ _ e.received).2.2.2.1)⟩

/-- C166, part: one well-formed message in, one well-formed message out. If the upstream's bytes begin with message `m`,
after at most five interim ones, then what the client receives is read, whatever follows it and in one way only, as a message
with the same status and the same values of every field but those of `changedReplyFields`; of these, Content-Type is kept
if there is one, and Cache-Control but for what the library adds to `Pragma: no-cache`. Missing: the other fields of that list;
responses with status 400 and up; more interim responses, see C166_violated; messages that are not well-formed, see
C133_violated. For the body see C166_content_partial. -/
theorem C166_wire_partial (x : Setup K) (s : St) (T : NetLib) (p : Nat × UpReq) (stream rest : Str) (n : Nat)
    (m : HttpResponse) (hr : ReadsFinal p.2.method n stream m rest) (hn : n ≤ 5) (w : WireResp) (rest' : Option Str) (y : Sent)
    (c : ReplyConn) (keys : List Str) (e : Exchange x s T p stream w rest' y c keys) :
    ∃ m', ReadAs x (writeResponse c keys y) y m' ∧ m'.status = m.status ∧
      (∀ k, k.all isTokenChar = true → k ≠ [] → toLower k ∉ changedReplyFields →
        fieldValues m'.fields (toLower k) = fieldValues m.fields (toLower k)) ∧
      (fieldValues m.fields "content-type".toList ≠ [] → m.status ≠ 304 →
        fieldValues m'.fields "content-type".toList = fieldValues m.fields "content-type".toList) ∧
      fieldValues m'.fields "cache-control".toList =
        (if (fieldValues m.fields "pragma".toList).head? = some "no-cache".toList ∧
          fieldValues m.fields "cache-control".toList = [] then ["no-cache".toList]
        else fieldValues m.fields "cache-control".toList) := by
  obtain ⟨d1, d2, d3, d4, d5, d6, d7, -⟩ := C166_received_partial p.2.method stream rest n m hr hn w rest' e.received
  obtain ⟨r, u, l, hd⟩ := e.forward
  obtain ⟨-, hp⟩ := e.proxied
  obtain ⟨m', hm'⟩ := C133_clean_partial x s e.reaches hd e.done y e.sent e.ids (by
    intro v hv
    rw [e.response] at hv
    injection hv with hv
    subst hv
    exact fun kv hkv => d7 kv (decompress_mem hkv)) e.head c e.conn keys e.keys
  have hst : y.status = (m.status : Int) := by
    rw [hp.status, ← d1]
    exact decompress_status _ _ _
  have hup : ∀ k, toLower k ∉ droppedHeaders.map toLower →
      k ∉ ["X-Request-Id", "Strict-Transport-Security", "Content-Encoding"].map String.toList →
      k ≠ "Content-Length".toList → y.header k = w.header.values k := by
    intro k h1 h2 h3
    rw [hp.upstream k h1 h2]
    refine decompress_values h3 ?_
    rintro rfl
    exact h2 (by decide)
  refine ⟨m', hm', ?_, ?_, ?_, ?_⟩
  · have := hm'.status
    rw [hst] at this
    exact Int.ofNat.inj this
  · intro k hk hne hx
    have hc : ∀ n : String, toLower n.toList ∈ changedReplyFields → canon k ≠ n.toList := by
      intro n hn e
      apply hx
      rw [← e, lower_canon] at hn
      exact hn
    rw [hm'.fields k hk, hup, d5 k hk hne]
    · exact trimOws_reply hr _
    · intro hm
      apply hx
      generalize toLower k = kk at hm
      simp only [List.map_cons, List.map_nil, List.mem_cons, List.not_mem_nil, or_false] at hm
      rcases hm with rfl | rfl | rfl <;> decide
    · rw [lower_canon]
      intro hm
      apply hx
      generalize toLower k = kk at hm
      simp only [droppedHeaders, List.map_cons, List.map_nil, List.mem_cons, List.not_mem_nil, or_false] at hm
      rcases hm with rfl | rfl | rfl | rfl <;> decide
    · intro hm
      simp only [List.map_cons, List.map_nil, List.mem_cons, List.not_mem_nil, or_false] at hm
      rcases hm with h | h | h
      · exact hc _ (by decide) h
      · exact hc _ (by decide) h
      · exact hc _ (by decide) h
    · exact hc _ (by decide)
    · intro hm
      simp only [libraryNames, List.map_cons, List.map_nil, List.mem_cons, List.not_mem_nil, or_false] at hm
      rcases hm with h | h | h | h | h
      · exact hc _ (by decide) h
      · exact hc _ (by decide) h
      · exact hc _ (by decide) h
      · exact hc _ (by decide) h
      · exact hc _ (by decide) h
  · intro hct h304
    have h1 := d5 "Content-Type".toList (by decide) (by decide) (by decide)
    rw [show canon "Content-Type".toList = "Content-Type".toList by decide,
      show toLower "Content-Type".toList = "content-type".toList by decide] at h1
    have h2 := hup "Content-Type".toList (by decide) (by decide) (by decide)
    rw [hm'.kind (by rw [h2, h1]; exact hct) (by rw [hst]; omega), h2, h1]
    exact trimOws_reply hr _
  · have h1 := hm'.fields "Cache-Control".toList (by decide) (by decide)
    rw [show canon "Cache-Control".toList = "Cache-Control".toList by decide,
      show toLower "Cache-Control".toList = "cache-control".toList by decide] at h1
    rw [h1, hup "Cache-Control".toList (by decide) (by decide) (by decide), d6]
    split
    · decide
    · exact trimOws_reply hr _

/-- Nothing is left out of what is written, where there can be a body. -/
theorem delivered_all {x : Setup K} {s : St} (h : x.Reaches s) {y : Sent} (hy : y ∈ s.sent)
    (hm : toUpper x.rq.method ≠ "HEAD".toList) (hc : toUpper x.rq.method ≠ "CONNECT".toList)
    (hs : ¬ (100 ≤ y.status ∧ y.status < 200) ∧ y.status ≠ 204 ∧ y.status ≠ 304)
    (ho : y.header "Content-Length".toList ≠ []) : deliveredBody x.rq.method y = y.body := by
  rcases length_of_reaches h hy with ⟨code, msg, rfl⟩ | ⟨-, ⟨hn, -⟩ | ⟨-, hb⟩⟩
  · exact absurd (json_cl _ _ _) ho
  · rcases hn with hn | hn | hn
    · exact absurd hn hs.2.1
    · exact absurd hn hs.1
    · exact absurd hn hc
  · have hget : y.header.get "Content-Length".toList = natToDec y.body.length := by
      unfold Hdr.get
      rw [canon_cl, hb (show toUpper x.rq.method ≠ _ from hm)]; rfl
    unfold deliveredBody
    rw [if_neg (by
      rintro (h | h | h | h)
      · exact hm (by rw [h]; decide)
      · exact hs.1 h
      · exact hs.2.1 h
      · exact hs.2.2 h), hget]
    split
    · rename_i n hn'
      split
      · rename_i hlt
        exfalso
        rw [atoi_natToDec] at hn'
        split at hn'
        · cases hn'
          omega
        · cases hn'
      · rfl
    · rfl

theorem noBody_empty {method stream rest : Str} {n : Nat} {m : HttpResponse} (h : ReadsFinal method n stream m rest)
    (hb : NoBody method m.status) : m.body = [] ∧ 200 ≤ m.status := by
  induction h with
  | final hr hs =>
    obtain ⟨code, lines, s, -, -, -, -, -, hb', -⟩ := hr.text
    refine ⟨?_, hs⟩
    generalize _hx : HttpResponse.body _ = b at hb' ⊢
    cases hb' with
    | none => rfl
    | coded => rfl
    | sized h => exact absurd hb h
    | chunked h => exact absurd hb h
    | untilEnd h => exact absurd hb h
  | interim _ _ _ _ _ ih => exact ih hb

/-- C166, part: the body of the message that the client reads. Where there can be none there is none, and Content-Encoding is
that of the upstream. Elsewhere the client gets the entity that the upstream sent: the same bytes when both are decoded as
their Content-Encoding says. Missing: upstreams that say gzip and do not mean it, and codings other than gzip for clients
that accept gzip, see C38_violated; entities that are gzip archives, see C77_violated; CONNECT. -/
theorem C166_content_partial (x : Setup K) (s : St) (T : NetLib) (p : Nat × UpReq) (stream rest : Str) (n : Nat)
    (m : HttpResponse) (hr : ReadsFinal p.2.method n stream m rest) (hn : n ≤ 5) (w : WireResp) (rest' : Option Str) (y : Sent)
    (c : ReplyConn) (keys : List Str) (e : Exchange x s T p stream w rest' y c keys)
    (hl : x.sv.codec.Lossless) (ha : Agrees T x.sv.codec) (hc : toUpper x.rq.method ≠ "CONNECT".toList) (m' : HttpResponse)
    (hm' : ReadAs x (writeResponse c keys y) y m') :
    bodyText w.body = m.body ∧
    (NoBody p.2.method m.status → m'.body = [] ∧ m.body = [] ∧
      fieldValues m'.fields "content-encoding".toList = fieldValues m.fields "content-encoding".toList) ∧
    (¬ NoBody p.2.method m.status → w.up.Truthful →
      (contains (x.rq.header.get "Accept-Encoding".toList) "gzip".toList = true →
        codingOf (fieldValues m.fields "content-encoding".toList) = .identity ∨
        codingOf (fieldValues m.fields "content-encoding".toList) = .gzip) →
      (Decoded p.2 w → hasGzipMagic (T.gunzip w.body).1 = false) →
      ∃ b', bodyText b' = m'.body ∧
        entity x.sv.codec (codingOf (fieldValues m'.fields "content-encoding".toList)) b' =
          entity x.sv.codec (codingOf (fieldValues m.fields "content-encoding".toList)) w.body) := by
  obtain ⟨d1, d2, d3, d4, d5, d6, d7, -⟩ := C166_received_partial p.2.method stream rest n m hr hn w rest' e.received
  obtain ⟨r, u, l, hd⟩ := e.forward
  obtain ⟨hy, hp⟩ := e.proxied
  have hsound := C166_sound_partial _ _ _ _ e.received
  have hwf : w.header.WF := hsound.2.2.2.1
  have hst : y.status = (m.status : Int) := by
    rw [hp.status, ← d1]
    exact decompress_status _ _ _
  have hmeth : p.2.method = toUpper x.rq.method := by
    obtain ⟨r, v, l, -, hq⟩ := calls_of_reaches (e.reaches.imp fun _ h => h.1) e.call
    rw [hq]; rfl
  have hce := d5 "Content-Encoding".toList (by decide) (by decide) (by decide)
  rw [show canon "Content-Encoding".toList = "Content-Encoding".toList by decide,
    show toLower "Content-Encoding".toList = "content-encoding".toList by decide] at hce
  have hce' := hm'.fields "Content-Encoding".toList (by decide) (by decide)
  rw [show canon "Content-Encoding".toList = "Content-Encoding".toList by decide,
    show toLower "Content-Encoding".toList = "content-encoding".toList by decide] at hce'
  refine ⟨d2, ?_, ?_⟩
  · intro hnb
    obtain ⟨hb0, h200⟩ := noBody_empty hr hnb
    have hwb : w.body = [] := by
      have := congrArg List.length d2
      rw [bodyText_length, hb0] at this
      exact List.length_eq_zero_iff.1 this
    have hz : ¬ Decoded p.2 w := by
      intro hz
      rcases hnb with h | h | h | h
      · exact hz.1 h
      · omega
      · exact hz.2.1 (hsound.2.2.2.2.2.2.2.2 hz.1 (.inl (by omega))).1
      · exact hz.2.1 (hsound.2.2.2.2.2.2.2.2 hz.1 (.inr (by omega))).1
    refine ⟨?_, hb0, ?_⟩
    · rw [hm'.body]
      unfold deliveredBody
      rw [if_pos]
      · rfl
      · rcases hnb with h | h | h | h
        · exact .inl (e.head (by rw [← hmeth]; exact h))
        · omega
        · exact .inr (.inr (.inl (by omega)))
        · exact .inr (.inr (.inr (by omega)))
    · rw [hce', hy, decompress_neg hz, proxied_encoding, sentBody_empty hwb, if_neg (by decide), Entries.under_wf (src := w.up.header) hwf]
      show (w.header.values _).map trimOws = _
      rw [hce]
      exact trimOws_reply hr _
  · intro hnb ht hk hgz
    refine ⟨y.body, ?_, ?_⟩
    · rw [hm'.body, delivered_all (e.reaches.imp fun _ h => h.1) e.sent]
      · intro h
        exact hnb (.inl (by rw [hmeth]; exact h))
      · exact hc
      · rw [hst]
        refine ⟨fun h => hnb (.inr (.inl (by omega))), fun h => hnb (.inr (.inr (.inl (by omega)))),
          fun h => hnb (.inr (.inr (.inr (by omega))))⟩
      · rw [hy, proxied_length]
        exact List.cons_ne_nil _ _
    · have key := entity_kept e.reaches hd e.done hl ha e.response e.sent e.good hwf ht (by rw [hce]; exact hk) hgz
      rw [hce] at key
      rw [← key, hce']
      congr 2
      have hv : ∀ v ∈ (decompress T p.2 w).up.header.values "Content-Encoding".toList, trimOws v = v := by
        intro v hv
        have : v ∈ w.header.values "Content-Encoding".toList := by
          by_cases hz : Decoded p.2 w
          · have hv : v ∈ (decompress T p.2 w).header.values "Content-Encoding".toList := hv
            rw [decoded_values hz _ (by decide), if_pos rfl] at hv
            cases hv
          · rw [decompress_neg hz] at hv
            exact hv
        rw [hce] at this
        have h2 := trimOws_reply hr "content-encoding".toList
        exact List.map_inj_left.1 (h2.trans (List.map_id _).symm) v this
      have hle : ((decompress T p.2 w).up.header.values "Content-Encoding".toList).length ≤ 1 := by
        by_cases hz : Decoded p.2 w
        · show ((decompress T p.2 w).header.values _).length ≤ 1
          rw [decoded_values hz _ (by decide), if_pos rfl]
          decide
        · rw [decompress_neg hz]
          exact ht.single
      conv => rhs; rw [← List.map_id (y.header "Content-Encoding".toList)]
      apply List.map_congr_left
      intro v hm
      rw [hy, proxied_encoding] at hm
      split at hm
      · rw [List.mem_singleton] at hm
        rw [hm]
        unfold contentEncoding
        dsimp only
        generalize (decompress T p.2 w).up.header.values "Content-Encoding".toList = ce at hv hle
        split
        · decide
        · split
          · split
            · cases ce with
              | nil => decide
              | cons a as =>
                cases as with
                | nil =>
                  show trimOws a = a
                  exact hv a List.mem_cons_self
                | cons b bs => simp at hle
            · decide
          · decide
      · rw [Entries.under_wf (src := (decompress T p.2 w).up.header) (decompress_wf hwf)] at hm
        exact hv v hm

/-! ## An example -/

def Demo.hint : Str := "HTTP/1.1 103 Early Hints\r\nLink: </a>\r\n\r\n".toList

def Demo.hintMessage : HttpResponse where
  version := "HTTP/1.1".toList
  status := 103
  reason := "Early Hints".toList
  fields := [("Link".toList, "</a>".toList)]
  body := []

theorem Demo.hint_reads (next : Str) : ReadsReply "GET".toList (Demo.hint ++ next) Demo.hintMessage next := by
  refine ⟨.inl rfl, by decide, ?_, "103".toList,
    [("Link".toList ++ ':' :: ([' '] ++ ("</a>".toList ++ [])), ("Link".toList, "</a>".toList))], next, by decide, by decide,
    by decide, ?_, rfl, ?_, ?_⟩
  · intro v hv
    cases hv
  · intro l hl
    rw [List.mem_singleton.1 hl]
    exact Demo.line ⟨by decide, by decide⟩ (by decide) (by decide) (by decide)
  · exact ReplyBody.none (.inr (.inl (by decide))) (by decide) (.inl (by decide))
  · have : Demo.hint = "HTTP/1.1".toList ++ ' ' :: ("103".toList ++ ' ' :: ("Early Hints".toList ++ (crlf ++
      (("Link".toList ++ ':' :: ([' '] ++ ("</a>".toList ++ []))) ++ crlf ++ crlf)))) := by decide +kernel
    rw [this]
    simp only [List.append_assoc, List.cons_append, List.flatMap_cons, List.flatMap_nil, List.append_nil]
    rfl

def Demo.okText : Str :=
  "HTTP/1.1 200 Fine\r\nx: ok\r\ntransfer-Encoding: Chunked\r\n\r\n1;a\r\nh\r\n1\r\ni\r\n0\r\n\r\nHTTP".toList

def Demo.okMessage : HttpResponse where
  version := "HTTP/1.1".toList
  status := 200
  reason := "Fine".toList
  fields := [("x".toList, "ok".toList), ("transfer-Encoding".toList, "Chunked".toList)]
  body := "hi".toList

theorem Demo.ok_reads : ReadsFinal "GET".toList 0 Demo.okText Demo.okMessage "HTTP".toList := by
  refine .final ⟨.inl rfl, by decide, ?_, "200".toList,
    [("x".toList ++ ':' :: ([' '] ++ ("ok".toList ++ [])), ("x".toList, "ok".toList)),
      ("transfer-Encoding".toList ++ ':' :: ([' '] ++ ("Chunked".toList ++ [])),
        ("transfer-Encoding".toList, "Chunked".toList))],
    "1;a\r\nh\r\n1\r\ni\r\n0\r\n\r\nHTTP".toList, by decide, by decide, by decide, ?_, rfl, ?_, by decide +kernel⟩ (by decide)
  · intro v hv
    have e : fieldValues Demo.okMessage.fields "trailer".toList = [] := by decide
    rw [e] at hv
    cases hv
  · intro l hl
    rcases List.mem_cons.1 hl with rfl | hl
    · exact Demo.line ⟨by decide, by decide⟩ (by decide) (by decide) (by decide)
    · rw [List.mem_singleton.1 hl]
      exact Demo.line ⟨by decide, by decide⟩ (by decide) (by decide) (by decide)
  · refine ReplyBody.chunked (v := "Chunked".toList) ?_ rfl (by decide) (by decide) (by decide) ?_
    · rintro (h | h | h | h)
      · exact absurd h (by decide)
      · exact absurd h (by decide)
      · exact absurd h (by decide)
      · exact absurd h (by decide)
    · have h0 := Chunks.last (zeros := "0".toList) (ext := []) (rest := "HTTP".toList) (lines := [])
        (by decide) (by decide) (by decide) (.inl rfl) (by intro l hl; cases hl)
      have h1 := Chunks.chunk (size := "1".toList) (ext := []) (data := "i".toList) (by decide) (by decide) (by decide)
        (.inl rfl) (by decide) (by decide) h0
      have h2 := Chunks.chunk (size := "1".toList) (ext := ";a".toList) (data := "h".toList) (by decide) (by decide)
        (by decide) (.inr ⟨"a".toList, by decide, by decide, by decide⟩) (by decide) (by decide) h1
      exact h2

theorem Demo.hinted_reads {n : Nat} {stream rest : Str} {m : HttpResponse} (h : ReadsFinal "GET".toList n stream m rest) :
    ReadsFinal "GET".toList (n + 1) (Demo.hint ++ stream) m rest :=
  .interim (Demo.hint_reads stream) (by decide) (by decide) (by decide) h

def Demo.okWire : WireResp :=
  { status := 200, header := [("X".toList, ["ok".toList])], body := [104, 105] }

/-- The hypotheses are satisfiable, and what is written is what one expects. -/
example : ∃ s p y, ReadsFinal p.2.method 1 (Demo.hint ++ Demo.okText) Demo.okMessage "HTTP".toList ∧
    Exchange Demo.setup s Demo.lib p (Demo.hint ++ Demo.okText) Demo.okWire (some "HTTP".toList) y Demo.conn
      (["Content-Encoding", "Content-Length", "Server", "X", "X-Request-Id"].map String.toList) ∧
    Agrees Demo.lib Demo.setup.sv.codec ∧ toUpper Demo.setup.rq.method ≠ "CONNECT".toList ∧ Demo.okWire.up.Truthful ∧
    ¬ Decoded p.2 Demo.okWire ∧
    writeResponse Demo.conn (["Content-Encoding", "Content-Length", "Server", "X", "X-Request-Id"].map String.toList) y =
      ("HTTP/1.1 200 OK\r\nContent-Encoding: identity\r\nContent-Length: 2\r\nServer: j8a v1 abc\r\nX: ok\r\n" ++
      "X-Request-Id: XR-abc-u\r\nDate: Mon, 16 Nov 2026 10:00:00 GMT\r\n\r\nhi").toList := by
  obtain ⟨s, hs, hp⟩ := Demo.of_check (x := Demo.setup) (as := Demo.success Demo.ok)
    (p := fun s => (Demo.seen s).finished && s.curA.vResp == some Demo.ok && s.sent.map Sent.status == [200] &&
      s.calls.map (fun p => p.2.method) == ["GET".toList]) (by decide +kernel)
  simp only [Bool.and_eq_true, beq_iff_eq] at hp
  obtain ⟨⟨⟨h1, h3⟩, h4⟩, h6⟩ := hp
  have ho := Demo.orderly_success hs
  have hd := Demo.done_of_seen h1
  obtain ⟨y, hy, h5⟩ := Demo.one_of_map h4
  obtain ⟨p, hpc, hpm⟩ : ∃ p, s.calls = [p] ∧ p.2.method = "GET".toList := by
    cases hc : s.calls with
    | nil => rw [hc] at h6; cases h6
    | cons p ps =>
      rw [hc] at h6
      simp only [List.map_cons, List.cons.injEq, List.map_eq_nil_iff] at h6
      exact ⟨p, by rw [h6.2], h6.1⟩
  have hdec : ∃ r u l, Demo.setup.dec = .forward r u l := ⟨Demo.route, Demo.url, "default".toList, by decide +kernel⟩
  have hyv : y = proxiedResponse Demo.setup.respEnv Demo.ok := by
    obtain ⟨r0, u, l, hdec⟩ := hdec
    obtain ⟨v, hv, hyv, -⟩ := C37_partial Demo.setup s ho hdec hd y (by rw [hy]; simp) (by rw [h5]; decide)
    rw [hyv, Option.some.inj (hv.symm.trans h3)]
  have hz : ¬ Decoded p.2 Demo.okWire := fun h => absurd h.2.2.2 (by decide)
  have hrd : ReadsFinal "GET".toList 1 (Demo.hint ++ Demo.okText) Demo.okMessage "HTTP".toList :=
    Demo.hinted_reads Demo.ok_reads
  refine ⟨s, p, y, by rw [hpm]; exact hrd, ⟨ho, hdec, hd, by rw [hpc]; exact List.mem_cons_self, ?_, ?_,
    by rw [hy]; exact List.mem_cons_self, by rw [h5]; decide, ?_, by decide, Demo.conn_of, ?_⟩, fun b => rfl, by decide,
    ⟨by decide, by decide⟩, hz, ?_⟩
  · rw [hpm]
    refine ⟨⟨200, (1, 1), [("X".toList, ["ok".toList])], .chunked, -1⟩, Demo.okText.drop 56, by decide +kernel, rfl,
      List.Perm.refl _, rfl, by decide +kernel, ?_, by decide +kernel⟩
    exact ⟨fun _ => ⟨"HTTP".toList, by decide +kernel⟩, fun _ => rfl⟩
  · rw [decompress_neg hz]; exact h3
  · exact ⟨fieldText_lit (by decide), fieldText_lit (by decide), fieldText_lit (by decide)⟩
  · rw [hyv]
    exact enumerates_of (by decide) (by decide +kernel) (by decide +kernel)
  · rw [hyv]
    decide +kernel

/-! ## Where it fails -/

/-- C166 fails for every response that comes after more than five interim ones: nothing is received. -/
theorem C166_violated_always (method stream rest : Str) (n : Nat) (m : HttpResponse)
    (hr : ReadsFinal method n stream m rest) (hn : 5 < n) (w : WireResp) (rest' : Option Str) :
    ¬ Received method stream w rest' := by
  rintro ⟨h, after, hd⟩
  have := hd.head
  rw [readFinal_late (k := maxInterims) hr hn] at this
  cases this

/-- C166 fails: an upstream sends six hints and then its response. -/
theorem C166_violated : ∃ stream, ReadsFinal "GET".toList 6 stream Demo.okMessage "HTTP".toList ∧
    ∀ w rest, ¬ Received "GET".toList stream w rest := by
  have h := Demo.hinted_reads (Demo.hinted_reads (Demo.hinted_reads (Demo.hinted_reads (Demo.hinted_reads
    (Demo.hinted_reads Demo.ok_reads)))))
  exact ⟨_, h, fun w rest => C166_violated_always _ _ _ _ _ h (by decide) w rest⟩

end J8a
