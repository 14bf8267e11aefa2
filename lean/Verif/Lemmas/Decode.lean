import Verif.Model.Decode
import Verif.Spec.Document
import Verif.Lemmas.Char
/-!
# Lemmas about decoding documents
-/
namespace J8a
open Go

variable {K : Type}

/-! ## Structs -/

theorem findField_some {S : Type} {fields : List (Str × Dec S)} {k : Str} {d : Dec S}
    (h : findField fields k = some d) : ∃ n, (n, d) ∈ fields ∧ toLower n = toLower k := by
  unfold findField at h
  split at h
  · rename_i f hf
    cases h
    have h1 := List.mem_of_find?_eq_some hf
    have h2 := List.find?_some hf
    simp only [beq_iff_eq] at h2
    exact ⟨f.1, h1, by rw [h2]⟩
  · cases hf : fields.find? (fun f => equalFold f.1 k) with
    | none => rw [hf] at h; cases h
    | some f =>
      rw [hf] at h
      cases h
      have h1 := List.mem_of_find?_eq_some hf
      have h2 := List.find?_some hf
      simp only [equalFold, beq_iff_eq] at h2
      exact ⟨f.1, h1, h2⟩

theorem findField_none {S : Type} {fields : List (Str × Dec S)} {k : Str} :
    findField fields k = none ↔ ∀ f ∈ fields, toLower f.1 ≠ toLower k := by
  unfold findField
  constructor
  · intro h
    split at h
    · cases h
    · simp only [Option.map_eq_none_iff, List.find?_eq_none, equalFold, beq_iff_eq] at h
      exact h
  · intro h
    have h1 : fields.find? (fun f => f.1 == k) = none := by
      rw [List.find?_eq_none]
      intro f hf he
      simp only [beq_iff_eq] at he
      exact h f hf (by rw [he])
    have h2 : fields.find? (fun f => equalFold f.1 k) = none := by
      rw [List.find?_eq_none]
      intro f hf he
      simp only [equalFold, beq_iff_eq] at he
      exact h f hf he
    rw [h1, h2]
    rfl

/-- The part of a struct that belongs to one key: decoded by the decoder for that key, left alone by all
others. -/
structure Lens {S α : Type} (fields : List (Str × Dec S)) (key : Str) (get : S → α) (d : Dec α) : Prop where
  there : ∃ f ∈ fields, toLower f.1 = toLower key
  own : ∀ f ∈ fields, toLower f.1 = toLower key → ∀ s v, get (f.2 s v) = d (get s) v
  other : ∀ f ∈ fields, toLower f.1 ≠ toLower key → ∀ s v, get (f.2 s v) = get s

/-- One key of a document, decoded. -/
def stepField {S : Type} (fields : List (Str × Dec S)) (s : S) (kv : Str × JVal) : S :=
  match findField fields kv.1 with
  | some d => d s kv.2
  | none => s

theorem decStruct_obj {S : Type} (fields : List (Str × Dec S)) (old : S) (kvs : List (Str × JVal)) :
    decStruct fields old (.obj kvs) = kvs.foldl (stepField fields) old := rfl

theorem Lens.step_other {S α : Type} {fields : List (Str × Dec S)} {key : Str} {get : S → α} {d : Dec α}
    (L : Lens fields key get d) (s : S) (kv : Str × JVal) (h : toLower kv.1 ≠ toLower key) :
    get (stepField fields s kv) = get s := by
  unfold stepField
  cases hf : findField fields kv.1 with
  | none => rfl
  | some d' =>
    obtain ⟨n, h1, h2⟩ := findField_some hf
    exact L.other _ h1 (by rw [h2]; exact h) _ _

theorem Lens.step_own {S α : Type} {fields : List (Str × Dec S)} {key : Str} {get : S → α} {d : Dec α}
    (L : Lens fields key get d) (s : S) (kv : Str × JVal) (h : toLower kv.1 = toLower key) :
    get (stepField fields s kv) = d (get s) kv.2 := by
  unfold stepField
  cases hf : findField fields kv.1 with
  | none =>
    obtain ⟨f, hm, hk⟩ := L.there
    exact absurd (hk.trans h.symm) (findField_none.mp hf f hm)
  | some d' =>
    obtain ⟨n, h1, h2⟩ := findField_some hf
    exact L.own _ h1 (by rw [h2]; exact h) _ _

theorem Lens.absent {S α : Type} {fields : List (Str × Dec S)} {key : Str} {get : S → α} {d : Dec α}
    (L : Lens fields key get d) (old : S) (kvs : List (Str × JVal))
    (h : ∀ kv ∈ kvs, toLower kv.1 ≠ toLower key) :
    get (decStruct fields old (.obj kvs)) = get old := by
  rw [decStruct_obj]
  induction kvs generalizing old with
  | nil => rfl
  | cons kv kvs ih =>
    rw [List.foldl_cons, ih _ fun x hx => h x (List.mem_cons_of_mem _ hx)]
    exact L.step_other _ _ (h kv (List.mem_cons_self ..))

theorem Lens.present {S α : Type} {fields : List (Str × Dec S)} {key : Str} {get : S → α} {d : Dec α}
    (L : Lens fields key get d) (old : S) (kvs : List (Str × JVal))
    (hn : (kvs.map fun kv => toLower kv.1).Nodup) (kv : Str × JVal) (hm : kv ∈ kvs)
    (h : toLower kv.1 = toLower key) :
    get (decStruct fields old (.obj kvs)) = d (get old) kv.2 := by
  induction kvs generalizing old with
  | nil => cases hm
  | cons x kvs ih =>
    rw [List.map_cons, List.nodup_cons] at hn
    rw [show decStruct fields old (.obj (x :: kvs))
      = decStruct fields (stepField fields old x) (.obj kvs) from rfl]
    rcases List.mem_cons.mp hm with rfl | hm
    · rw [L.absent _ _ fun y hy he => hn.1 (List.mem_map.mpr ⟨y, hy, he.trans h.symm⟩)]
      exact L.step_own _ _ h
    · rw [ih _ hn.2 hm, L.step_other]
      intro he
      exact hn.1 (List.mem_map.mpr ⟨kv, hm, h.trans he.symm⟩)

/-- What an object leaves in the part of one of its keys. -/
theorem Lens.object {S α : Type} {fields : List (Str × Dec S)} {key : Str} {get : S → α} {d : Dec α}
    (L : Lens fields key get d) {old : S} {items : List Item} {v : JVal} (ho : Object items v)
    {i : Item} (hi : i ∈ items) (hk : toLower i.key.toList = toLower key) {a : α}
    (hw : ∀ v, i.writes v → d (get old) v = a) (ha : i.absent → get old = a) :
    get (decStruct fields old v) = a := by
  obtain ⟨kvs, rfl, hn, -, h⟩ := ho
  rcases h i hi with ⟨kv, hm, h1, h2⟩ | ⟨h1, h2⟩
  · rw [L.present old kvs hn kv hm (h1.trans hk), hw _ h2]
  · rw [L.absent old kvs fun kv hkv => by rw [← hk]; exact h2 kv hkv, ha h1]

/-- Keys that are no field of the struct make no difference. -/
theorem Lens.object_unknown {S α : Type} {fields : List (Str × Dec S)} {key : Str} {get : S → α} {d : Dec α}
    (L : Lens fields key get d) {old : S} {items : List Item} {v : JVal} (ho : Object items v)
    (hi : items.all (fun i => toLower i.key.toList != toLower key) = true) :
    get (decStruct fields old v) = get old := by
  obtain ⟨kvs, rfl, -, hk, -⟩ := ho
  simp only [List.all_eq_true, bne_iff_ne] at hi
  refine L.absent old kvs fun kv hkv => ?_
  obtain ⟨i, h1, h2⟩ := hk kv hkv
  rw [h2]
  exact hi i h1

theorem Lens.of {S α : Type} {fields : List (Str × Dec S)} {key : Str} {get : S → α} {d : Dec α}
    (h1 : fields.any (fun f => toLower f.1 == toLower key) = true)
    (h2 : ∀ f ∈ fields, (toLower f.1 = toLower key ∧ ∀ s v, get (f.2 s v) = d (get s) v) ∨
      (toLower f.1 ≠ toLower key ∧ ∀ s v, get (f.2 s v) = get s)) : Lens fields key get d := by
  rw [List.any_eq_true] at h1
  obtain ⟨f, hf, hk⟩ := h1
  refine ⟨⟨f, hf, by simpa using hk⟩, fun f hf hk => ?_, fun f hf hk => ?_⟩
  · rcases h2 f hf with h | h
    · exact h.2
    · exact absurd hk h.1
  · rcases h2 f hf with h | h
    · exact absurd h.1 hk
    · exact h.2

/-- What no field touches stays. -/
theorem decStruct_keeps {S α : Type} {fields : List (Str × Dec S)} (get : S → α)
    (h : ∀ f ∈ fields, ∀ s v, get (f.2 s v) = get s) (old : S) (v : JVal) :
    get (decStruct fields old v) = get old := by
  cases v with
  | obj kvs =>
    rw [decStruct_obj]
    induction kvs generalizing old with
    | nil => rfl
    | cons kv kvs ih =>
      rw [List.foldl_cons, ih]
      unfold stepField
      cases hf : findField fields kv.1 with
      | none => rfl
      | some d' =>
        obtain ⟨n, h1, -⟩ := findField_some hf
        exact h _ h1 _ _
  | _ => rfl

/-- Proves `Lens` for a concrete list of fields. -/
macro "lens" : tactic => `(tactic| (
  refine Lens.of rfl ?_
  repeat' refine List.forall_mem_cons.mpr ⟨?_, ?_⟩
  all_goals first
    | exact fun _ h => nomatch h
    | exact .inl ⟨by dsimp only [field]; decide, fun _ _ => rfl⟩
    | exact .inr ⟨by dsimp only [field]; decide, fun _ _ => rfl⟩))

/-! ## Values -/

theorem Lens.str {S : Type} {fields : List (Str × Dec S)} {key : Str} {get : S → Str}
    (L : Lens fields key get decString) {old : S} {items : List Item} {v : JVal} (ho : Object items v)
    {k : String} {a : Str} (hi : strItem k a ∈ items) (hk : toLower k.toList = toLower key)
    (h0 : get old = []) : get (decStruct fields old v) = a :=
  L.object ho hi hk (fun v hv => by rw [show v = .str a from hv]; rfl)
    (fun ha => by rw [h0]; exact Eq.symm ha)

theorem Lens.int {S : Type} {fields : List (Str × Dec S)} {key : Str} {get : S → Int}
    (L : Lens fields key get decInt64) {old : S} {items : List Item} {v : JVal} (ho : Object items v)
    {k : String} {a : Int} (hi : intItem k a ∈ items) (hk : toLower k.toList = toLower key)
    (h0 : get old = 0) : get (decStruct fields old v) = a := by
  refine L.object ho hi hk (fun v hv => ?_) (fun ha => by rw [h0]; exact Eq.symm ha)
  obtain ⟨⟨n, rfl⟩, h1, h2⟩ := hv
  exact if_pos ⟨h1, by omega⟩

theorem decElems_each {α β : Type} {zero : α} {d : Dec α} {w : β → JVal → Prop} {g : β → α}
    {l : List β} {vs : List JVal} (he : Each w l vs) (h : ∀ b ∈ l, ∀ v, w b v → d zero v = g b) :
    decElems zero d [] vs = l.map g := by
  induction he with
  | nil => rfl
  | cons h1 _ ih =>
    simp only [List.map_cons, decElems, List.headD_nil, List.tail_nil]
    rw [h _ (List.mem_cons_self ..) _ h1, ih fun b hb => h b (List.mem_cons_of_mem _ hb)]

/-- A map is decoded element by element. -/
theorem decMap_other {α : Type} (d : JVal → Option α) (kvs : List (Str × JVal)) (n : Str)
    (h : ∀ kv ∈ kvs, kv.1 ≠ n) (old : Str → Option α) : decMap d old (.obj kvs) n = old n := by
  induction kvs generalizing old with
  | nil => rfl
  | cons kv kvs ih =>
    refine (ih (fun x hx => h x (List.mem_cons_of_mem _ hx)) _).trans ?_
    exact if_neg fun e => h kv (List.mem_cons_self ..) e.symm

theorem Each.keys {α : Type} {w : α → JVal → Prop} {l : List (Str × α)} {kvs : List (Str × JVal)}
    (h : Each (fun e kv => kv.1 = e.1 ∧ w e.2 kv.2) l kvs) : kvs.map Prod.fst = l.map Prod.fst := by
  induction h with
  | nil => rfl
  | cons h1 _ ih => rw [List.map_cons, List.map_cons, ih, h1.1]

theorem decMap_each {α β : Type} {d : JVal → Option α} {w : β → JVal → Prop} {g : β → α}
    {l : List (Str × β)} {kvs : List (Str × JVal)}
    (he : Each (fun e kv => kv.1 = e.1 ∧ w e.2 kv.2) l kvs) (hn : (l.map Prod.fst).Nodup)
    (h : ∀ e ∈ l, ∀ v, w e.2 v → d v = some (g e.2)) (n : Str) (old : Str → Option α) :
    decMap d old (.obj kvs) n = ((l.lookup n).map g).or (old n) := by
  induction he generalizing old with
  | nil => rfl
  | @cons e kv l kvs h1 h2 ih =>
    rw [List.map_cons, List.nodup_cons] at hn
    rw [show decMap d old (.obj (kv :: kvs))
      = decMap d (fun n => if n = kv.1 then d kv.2 else old n) (.obj kvs) from rfl]
    obtain ⟨k, b⟩ := e
    obtain ⟨h1, hw⟩ := h1
    simp only at h1
    have hd := h _ (List.mem_cons_self ..) _ hw
    by_cases he : n = k
    · subst he
      rw [decMap_other]
      · simp only [h1, if_true, hd, List.lookup_cons, BEq.rfl, Option.map_some, Option.some_or]
      · intro x hx hxn
        refine hn.1 ?_
        rw [← h2.keys]
        exact List.mem_map.mpr ⟨x, hx, hxn⟩
    · rw [ih hn.2 fun e he => h e (List.mem_cons_of_mem _ he)]
      have : (n == k) = false := by simpa using he
      simp only [List.lookup_cons, this, h1, if_neg he]

theorem putEntry_new {α : Type} (k : Str) (a : α) (l : List (Str × α)) (h : ∀ e ∈ l, e.1 ≠ k) :
    putEntry k a l = l ++ [(k, a)] := by
  induction l with
  | nil => rfl
  | cons e l ih =>
    rw [putEntry, if_neg (h e (List.mem_cons_self ..)), ih fun e he => h e (List.mem_cons_of_mem _ he)]
    rfl

theorem decEntries_each {α β : Type} {d : JVal → α} {w : β → JVal → Prop} {g : β → α}
    {l : List (Str × β)} {kvs : List (Str × JVal)}
    (he : Each (fun e kv => kv.1 = e.1 ∧ w e.2 kv.2) l kvs) (old : List (Str × α))
    (hn : (old.map Prod.fst ++ l.map Prod.fst).Nodup)
    (h : ∀ e ∈ l, ∀ v, w e.2 v → d v = g e.2) :
    decEntries d old (.obj kvs) = old ++ l.map fun e => (e.1, g e.2) := by
  induction he generalizing old with
  | nil => simp [decEntries]
  | @cons e kv l kvs h1 h2 ih =>
    rw [show decEntries d old (.obj (kv :: kvs))
      = decEntries d (putEntry kv.1 (d kv.2) old) (.obj kvs) from rfl]
    have hne : ∀ x ∈ old, x.1 ≠ e.1 := by
      intro x hx hxe
      rw [List.nodup_append] at hn
      exact hn.2.2 x.1 (List.mem_map_of_mem hx) e.1 (by simp) hxe
    rw [h1.1, putEntry_new _ _ _ hne, h e (List.mem_cons_self ..) _ h1.2, ih]
    · simp
    · simpa using hn
    · exact fun e he => h e (List.mem_cons_of_mem _ he)

/-! ## The structs of the configuration -/

theorem labelWeight_label : Lens labelWeightFields "label".toList (·.label) decString := by lens
theorem labelWeight_weight : Lens labelWeightFields "weight".toList (·.weight) decFloat := by lens
theorem route_path : Lens routeFields "path".toList (·.path) decString := by lens
theorem route_pathRegex : Lens routeFields "pathRegex".toList (·.pathRegex) decRegexp := by lens
theorem route_transform : Lens routeFields "transform".toList (·.transform) decString := by lens
theorem route_resource : Lens routeFields "resource".toList (·.resource) decString := by lens
theorem route_policy : Lens routeFields "policy".toList (·.policy) decString := by lens
theorem route_jwt : Lens routeFields "jwt".toList (·.jwt) decString := by lens
theorem url_scheme : Lens urlFields "scheme".toList (·.scheme) decString := by lens
theorem url_host : Lens urlFields "host".toList (·.host) decString := by lens
theorem url_port : Lens urlFields "port".toList (·.port) decUint16 := by lens
theorem mapping_name : Lens mappingFields "name".toList (·.name) decString := by lens
theorem mapping_labels :
    Lens mappingFields "labels".toList (·.labels) (decSlice [] decString) := by lens
theorem mapping_url : Lens mappingFields "url".toList (·.url) (decStruct urlFields) := by lens
theorem jwt_name : Lens (jwtFields (K := K)) "name".toList (·.name) decString := by lens
theorem jwt_alg : Lens (jwtFields (K := K)) "alg".toList (·.alg) decString := by lens
theorem jwt_key : Lens (jwtFields (K := K)) "key".toList (·.key) decString := by lens
theorem jwt_jwksUrl : Lens (jwtFields (K := K)) "jwksUrl".toList (·.jwksUrl) decString := by lens
theorem jwt_acceptableSkewSeconds :
    Lens (jwtFields (K := K)) "acceptableSkewSeconds".toList (·.acceptableSkewSeconds) decString := by lens
theorem downstream_readTimeoutSeconds :
    Lens downstreamFields "readTimeoutSeconds".toList (·.readTimeoutSeconds) decInt64 := by lens
theorem downstream_roundTripTimeoutSeconds :
    Lens downstreamFields "roundTripTimeoutSeconds".toList (·.roundTripTimeoutSeconds) decInt64 := by lens
theorem downstream_idleTimeoutSeconds :
    Lens downstreamFields "idleTimeoutSeconds".toList (·.idleTimeoutSeconds) decInt64 := by lens
theorem downstream_maxBodyBytes :
    Lens downstreamFields "maxBodyBytes".toList (·.maxBodyBytes) decInt64 := by lens
theorem downstream_mode : Lens downstreamFields "mode".toList (·.mode) decString := by lens
theorem downstream_port : Lens downstreamFields "port".toList (·.port) decInt64 := by lens
theorem downstream_cert : Lens downstreamFields "cert".toList (·.cert) decString := by lens
theorem downstream_key : Lens downstreamFields "key".toList (·.key) decString := by lens
theorem upstream_poolSize : Lens upstreamFields "poolSize".toList (·.poolSize) decInt64 := by lens
theorem upstream_idleTimeoutSeconds :
    Lens upstreamFields "idleTimeoutSeconds".toList (·.idleTimeoutSeconds) decInt64 := by lens
theorem upstream_socketTimeoutSeconds :
    Lens upstreamFields "socketTimeoutSeconds".toList (·.socketTimeoutSeconds) decInt64 := by lens
theorem upstream_readTimeoutSeconds :
    Lens upstreamFields "readTimeoutSeconds".toList (·.readTimeoutSeconds) decInt64 := by lens
theorem upstream_maxAttempts :
    Lens upstreamFields "maxAttempts".toList (·.maxAttempts) decInt64 := by lens
theorem upstream_tlsInsecureSkipVerify :
    Lens upstreamFields "tlsInsecureSkipVerify".toList (·.tlsInsecureSkipVerify) decBool := by lens
theorem connection_downstream :
    Lens connectionFields "downstream".toList (·.downstream) (decStruct downstreamFields) := by lens
theorem connection_upstream :
    Lens connectionFields "upstream".toList (·.upstream) (decStruct upstreamFields) := by lens
theorem config_policies :
    Lens (configFields (K := K)) "policies".toList (·.policies) (decMap decPolicy) := by lens
theorem config_routes :
    Lens (configFields (K := K)) "routes".toList (·.routes) (decSlice { path := [] } (decStruct routeFields)) := by lens
theorem config_jwt : Lens (configFields (K := K)) "jwt".toList (·.jwt) (decEntries decJwt) := by lens
theorem config_resources :
    Lens (configFields (K := K)) "resources".toList (·.resources) (decMap decResource) := by lens
theorem config_connection :
    Lens (configFields (K := K)) "connection".toList (·.connection) (decStruct connectionFields) := by lens

theorem labelWeight_written {w : LabelWeight} {v : JVal} (h : w.Written v) :
    decStruct labelWeightFields ⟨[], 0⟩ v = w := by
  have h1 := labelWeight_label.str (old := ⟨[], 0⟩) h (k := "label") (a := w.label) (by simp) rfl rfl
  have h2 : (decStruct labelWeightFields ⟨[], 0⟩ v).weight = w.weight :=
    labelWeight_weight.object h (i := ⟨"weight", WritesWeight w.weight, w.weight = 0⟩) (by simp) rfl
      (fun v hv => by obtain ⟨i, rfl⟩ := hv; rfl) (fun ha => Eq.symm ha)
  cases hd : decStruct labelWeightFields ⟨[], 0⟩ v
  rw [hd] at h1 h2
  cases w
  simp only at h1 h2
  rw [h1, h2]

end J8a
