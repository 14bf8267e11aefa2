import Verif.Go.ReqRead
import Verif.Lemmas.RespWire
import Verif.Lemmas.Message
/-!
# Reading requests
-/
namespace J8a
open Go

/-! ## Header maps -/

theorem lookup_filter_ne (e : Entries) (n k : Str) :
    (e.filter fun kv => kv.1 ≠ n).lookup k = if k = n then none else e.lookup k := by
  induction e with
  | nil => simp
  | cons a e ih =>
    obtain ⟨a1, a2⟩ := a
    by_cases ha : a1 = n
    · simp only [List.filter_cons, ha, ne_eq, not_true, decide_false]
      rw [if_neg (by decide)]
      simp only [ne_eq] at ih
      rw [ih]
      by_cases hk : k = n
      · simp [hk]
      · have : (k == n) = false := by simpa using hk
        simp [hk, List.lookup_cons, this]
    · simp only [List.filter_cons, ne_eq, ha, not_false_eq_true, decide_true, if_true, List.lookup_cons]
      simp only [ne_eq] at ih
      rw [ih]
      by_cases hk : k = n
      · have : (k == a1) = false := by simp only [beq_eq_false_iff_ne, ne_eq]; exact fun h => ha (by rw [← h, hk])
        rw [this, if_pos hk]
      · simp [hk]

theorem values_delKey (e : Entries) (n : String) (k : Str) :
    (delKey e n).values k = if k = n.toList then [] else e.values k := by
  unfold delKey Entries.values
  rw [lookup_filter_ne]
  split <;> rfl

theorem lookup_map_keep (e : Entries) (g : Str → List Str → List Str) (k : Str) :
    (e.map fun kv => (kv.1, g kv.1 kv.2)).lookup k = (e.lookup k).map (g k) := by
  induction e with
  | nil => rfl
  | cons a e ih =>
    obtain ⟨a1, a2⟩ := a
    simp only [List.map_cons, List.lookup_cons]
    cases h : k == a1 with
    | true =>
      have : k = a1 := by simpa using h
      simp [this]
    | false => simpa using ih

theorem lookup_append_single (e : Entries) (n : Str) (v : List Str) (k : Str) :
    (e ++ [(n, v)]).lookup k = (e.lookup k).or (if k = n then some v else none) := by
  induction e with
  | nil =>
    simp only [List.nil_append, List.lookup_cons, List.lookup_nil, Option.none_or]
    by_cases hk : k = n
    · simp [hk]
    · have : (k == n) = false := by simpa using hk
      simp [hk, this]
  | cons a e ih =>
    obtain ⟨a1, a2⟩ := a
    simp only [List.cons_append, List.lookup_cons]
    cases h : k == a1 with
    | true => simp
    | false => simpa using ih

theorem lookup_none_of_not_mem {e : Entries} {k : Str} (h : k ∉ e.map Prod.fst) : e.lookup k = none := by
  rw [List.lookup_eq_none_iff]
  intro p hp
  simp only [bne_iff_ne, ne_eq]
  intro he
  exact h (List.mem_map.2 ⟨p, hp, he.symm⟩)

theorem lookup_some_of_mem {e : Entries} {k : Str} (h : k ∈ e.map Prod.fst) : ∃ v, e.lookup k = some v := by
  cases hl : e.lookup k with
  | some v => exact ⟨v, rfl⟩
  | none =>
    rw [List.lookup_eq_none_iff] at hl
    obtain ⟨p, hp, rfl⟩ := List.mem_map.1 h
    have := hl p hp
    simp at this

theorem values_addField (e : Entries) (f : Str × Str) (k : Str) :
    (addField e f).values k = if k = f.1 then e.values k ++ [f.2] else e.values k := by
  unfold addField Entries.values
  split
  · rename_i hm
    have : (e.map fun kv => if kv.1 = f.1 then (kv.1, kv.2 ++ [f.2]) else kv) =
        e.map fun kv => (kv.1, (fun n vs => if n = f.1 then vs ++ [f.2] else vs) kv.1 kv.2) := by
      apply List.map_congr_left
      intro kv _
      simp only
      split <;> rfl
    rw [this, lookup_map_keep e (fun n vs => if n = f.1 then vs ++ [f.2] else vs)]
    by_cases hk : k = f.1
    · rw [if_pos hk]
      obtain ⟨v, hv⟩ := lookup_some_of_mem hm
      rw [hk, hv]
      simp
    · rw [if_neg hk]
      cases e.lookup k <;> simp [hk]
  · rename_i hm
    rw [lookup_append_single]
    by_cases hk : k = f.1
    · rw [if_pos hk, hk, lookup_none_of_not_mem hm]
      simp
    · rw [if_neg hk]
      cases e.lookup k <;> simp [hk]

theorem keys_addField (e : Entries) (f : Str × Str) :
    (addField e f).map Prod.fst = if f.1 ∈ e.map Prod.fst then e.map Prod.fst else e.map Prod.fst ++ [f.1] := by
  unfold addField
  split
  · rw [List.map_map]
    apply List.map_congr_left
    intro kv _
    simp only [Function.comp_apply]
    split <;> rfl
  · simp

theorem nodup_addField {e : Entries} (h : (e.map Prod.fst).Nodup) (f : Str × Str) :
    ((addField e f).map Prod.fst).Nodup := by
  rw [keys_addField]
  split
  · exact h
  · rename_i hm
    rw [List.nodup_append]
    refine ⟨h, by simp, ?_⟩
    intro a ha b hb hab
    simp only [List.mem_singleton] at hb
    exact hm (by rw [← hb, ← hab]; exact ha)

theorem values_foldl_addField (fs : List (Str × Str)) (e : Entries) (k : Str) :
    (fs.foldl addField e).values k = e.values k ++ (fs.filter fun f => f.1 = k).map Prod.snd := by
  induction fs generalizing e with
  | nil => simp
  | cons f fs ih =>
    rw [List.foldl_cons, ih, values_addField]
    by_cases hk : k = f.1
    · rw [if_pos hk, List.filter_cons, if_pos (by simp [hk])]
      simp
    · rw [if_neg hk, List.filter_cons, if_neg (by simp; exact fun h => hk h.symm)]

theorem nodup_foldl_addField (fs : List (Str × Str)) {e : Entries} (h : (e.map Prod.fst).Nodup) :
    ((fs.foldl addField e).map Prod.fst).Nodup := by
  induction fs generalizing e with
  | nil => exact h
  | cons f fs ih => exact ih (nodup_addField h f)

theorem mem_keys_foldl_addField (fs : List (Str × Str)) (e : Entries) (k : Str) :
    k ∈ (fs.foldl addField e).map Prod.fst ↔ k ∈ e.map Prod.fst ∨ k ∈ fs.map Prod.fst := by
  induction fs generalizing e with
  | nil => simp
  | cons f fs ih =>
    rw [List.foldl_cons, ih, keys_addField]
    split
    · rename_i hm
      simp only [List.map_cons, List.mem_cons]
      constructor
      · rintro (h | h)
        · exact .inl h
        · exact .inr (.inr h)
      · rintro (h | h | h)
        · exact .inl h
        · exact .inl (h ▸ hm)
        · exact .inr h
    · simp only [List.mem_append, List.map_cons, List.mem_cons, or_assoc, List.not_mem_nil, false_or]

theorem values_mimeHeader (kvs : List Str) (k : Str) (hk : k ≠ []) :
    (mimeHeader kvs).values k = ((kvs.map mimeField).filter fun f => f.1 = k).map Prod.snd := by
  unfold mimeHeader
  rw [values_foldl_addField]
  simp only [List.filter_filter, Entries.values, List.lookup_nil, Option.getD_none, List.nil_append]
  congr 1
  apply List.filter_congr
  intro f _
  by_cases h : f.1 = k
  · simp [h, hk]
  · simp [h]

theorem wf_mimeHeader (kvs : List Str) : (mimeHeader kvs).WF := by
  constructor
  · exact nodup_foldl_addField _ (by simp)
  · intro kv hkv
    have : kv.1 ∈ (mimeHeader kvs).map Prod.fst := List.mem_map.2 ⟨kv, hkv, rfl⟩
    unfold mimeHeader at this
    rw [mem_keys_foldl_addField] at this
    rcases this with h | h
    · simp at h
    · obtain ⟨f, hf, he⟩ := List.mem_map.1 h
      obtain ⟨s, -, rfl⟩ := List.mem_map.1 (List.mem_filter.1 hf).1
      rw [← he]
      exact canon_idem _

theorem wf_delKey {e : Entries} (h : e.WF) (n : String) : (delKey e n).WF :=
  ⟨h.nodup.sublist (List.filter_sublist.map _), fun kv hkv => h.canonical kv (List.mem_filter.1 hkv).1⟩

theorem hasKey_iff (e : Entries) (n : String) : hasKey e n = true ↔ n.toList ∈ e.map Prod.fst := by
  simp only [hasKey, List.any_eq_true, decide_eq_true_eq, List.mem_map]

theorem wf_append {e : Entries} (h : e.WF) (n : String) (v : List Str) (hc : canon n.toList = n.toList)
    (hn : n.toList ∉ e.map Prod.fst) : (e ++ [(n.toList, v)]).WF := by
  constructor
  · rw [List.map_append, List.nodup_append]
    refine ⟨h.nodup, by simp, ?_⟩
    intro a ha b hb hab
    simp only [List.map_cons, List.map_nil, List.mem_singleton] at hb
    exact hn (by rw [← hb, ← hab]; exact ha)
  · intro kv hkv
    rcases List.mem_append.1 hkv with hm | hm
    · exact h.canonical kv hm
    · simp only [List.mem_singleton] at hm
      rw [hm]; exact hc

theorem wf_fixPragma {e : Entries} (h : e.WF) : (fixPragma e).WF := by
  unfold fixPragma
  split
  · rename_i hc
    simp only [Bool.and_eq_true, Bool.not_eq_true'] at hc
    exact wf_append h "Cache-Control" _ (by decide) (fun hm => by rw [(hasKey_iff e _).2 hm] at hc; exact absurd hc.2 (by decide))
  · exact h

theorem delKey_not_mem (e : Entries) (n : String) : n.toList ∉ (delKey e n).map Prod.fst := by
  intro hm
  obtain ⟨kv, hkv, he⟩ := List.mem_map.1 hm
  have := (List.mem_filter.1 hkv).2
  simp only [ne_eq, decide_not, Bool.not_eq_true', decide_eq_false_iff_not] at this
  exact this he

theorem wf_fixCoding {b c : Bool} {e e' : Entries} (h : e.WF) (hf : fixCoding b e = some (c, e')) : e'.WF := by
  unfold fixCoding at hf
  split at hf
  · simp only at hf
    split at hf
    · injection hf with hf; injection hf with _ hf; rw [← hf]; exact wf_delKey h _
    · split at hf
      · split at hf
        · injection hf with hf; injection hf with _ hf; rw [← hf]; exact wf_delKey (wf_delKey h _) _
        · cases hf
      · cases hf
  · injection hf with hf; injection hf with _ hf; rw [← hf]; exact h

theorem wf_fixLength {m : Str} {c : Bool} {fr : Framing} {e e' : Entries} (h : e.WF)
    (hf : fixLength m c e = some (fr, e')) : e'.WF := by
  unfold fixLength at hf
  simp only at hf
  split at hf
  · cases hf
  · generalize (if (e.values "Content-Length".toList).length > 1 then
      [trimSpace ((e.values "Content-Length".toList).headD [])] else e.values "Content-Length".toList) = one at hf
    have h1 : (if (e.values "Content-Length".toList).length > 1 then
        delKey e "Content-Length" ++ [("Content-Length".toList, one)] else e).WF := by
      split
      · exact wf_append (wf_delKey h _) _ _ (by decide) (delKey_not_mem _ _)
      · exact h
    generalize (if (e.values "Content-Length".toList).length > 1 then
      delKey e "Content-Length" ++ [("Content-Length".toList, one)] else e) = e1 at hf h1
    split at hf
    · split at hf
      · injection hf with hf; injection hf with _ hf; rw [← hf]; exact h1
      · cases hf
    · split at hf
      · injection hf with hf; injection hf with _ hf; rw [← hf]; exact h1
      · split at hf
        · split at hf
          · injection hf with hf; injection hf with _ hf; rw [← hf]; exact wf_delKey h1 _
          · obtain ⟨n, -, hn⟩ := Option.map_eq_some_iff.1 hf
            injection hn with _ hn; rw [← hn]; exact h1
        · injection hf with hf; injection hf with _ hf; rw [← hf]; exact wf_delKey h1 _

theorem wf_fixTrailer {c : Bool} {e e' : Entries} (h : e.WF) (hf : fixTrailer c e = some e') : e'.WF := by
  unfold fixTrailer at hf
  split at hf
  · simp only at hf
    split at hf
    · cases hf
    · injection hf with hf; rw [← hf]; exact wf_delKey h _
  · injection hf with hf; rw [← hf]; exact h

theorem readHead_some {s : Str} {h : Head} {r : Str} (H : readHead s = some (h, r)) :
    ∃ first r1 proto lines kvs chunked e1 e2 e3, readLine s = some (first, r1) ∧
      parseRequestLine first = some (h.method, h.target, proto) ∧ validFieldName h.method = true ∧
      httpVersion proto = some h.version ∧ h.version.1 = 1 ∧ headLines (r1.length + 1) r1 = some (lines, r) ∧
      unfoldLines lines = some kvs ∧
      fixCoding (h.version.2 ≥ 1) (fixPragma (mimeHeader kvs)) = some (chunked, e1) ∧
      fixLength h.method chunked e1 = some (h.framing, e2) ∧ fixTrailer chunked e2 = some e3 ∧
      headerOk h.method h.version e3 = true ∧ expectOk e3 = true ∧ h.header = delKey e3 "Host" := by
  unfold readHead at H
  simp only [Option.bind_eq_bind, Option.bind_eq_some_iff, Prod.exists] at H
  obtain ⟨first, r1, a1, m, t, p, a2, H⟩ := H
  split at H
  · simp at H
  · rename_i hv
    simp only [Option.bind_eq_some_iff, Prod.exists] at H
    obtain ⟨v1, v2, a3, H⟩ := H
    split at H
    · simp at H
    · rename_i hv1
      simp only [Option.bind_eq_some_iff, Prod.exists] at H
      obtain ⟨lines, rest, a4, kvs, a5, c, e1, a6, fr, e2, a7, e3, a8, H⟩ := H
      split at H
      · rename_i hok
        simp only [Bool.and_eq_true] at hok
        simp only [Option.some.injEq, Prod.mk.injEq] at H
        obtain ⟨rfl, rfl⟩ := H
        exact ⟨first, r1, p, lines, kvs, c, e1, e2, e3, a1, a2, by simpa using hv, a3, by simpa using hv1, a4, a5, a6, a7, a8,
          hok.1, hok.2, rfl⟩
      · cases H

end J8a
