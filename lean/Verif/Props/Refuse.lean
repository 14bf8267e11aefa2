import Verif.Props.Config
import Verif.Props.Route
import Verif.Lemmas.Decision
import Verif.Model.Listen
import Verif.Spec.Demo
/-!
# C87–C89: what the gateway makes of configurations that contradict themselves
-/
namespace J8a
open Go

variable {J K : Type}

/-! ## C87 a configured policy is used as configured -/

/-- C87, part: every policy with another name than `default` is used as configured. -/
theorem C87_partial {E : Regexp} {validate : Str → J → Option J} {srt} {c c' : Config J}
    (h : boot E validate srt c = some c') (n : Str) (hn : n ≠ "default".toList) :
    c'.policies n = c.policies n := (C12_default_policy h).2 n hn

/-- C87 fails for every configuration with a policy of the name `default` that means anything else than
the built-in one: the policy is gone after boot, and its labels are not chosen by any dice. -/
theorem C87_violated_always {E : Regexp} {validate : Str → J → Option J} {srt} {c c' : Config J}
    (h : boot E validate srt c = some c') (p : Policy)
    (hp : p ≠ [⟨"default".toList, F64.one⟩]) (_hc : c.policies "default".toList = some p) :
    c'.policies "default".toList ≠ some p ∧
    ∀ q, c'.policies "default".toList = some q → ∀ dice, IsDice dice → ∀ q' label,
      Policy.ResolveLabel q dice q' label → label = "default".toList := by
  obtain ⟨⟨q, hq, hl⟩, -⟩ := C12_default_policy h
  have hb : c'.policies "default".toList = some [⟨"default".toList, F64.one⟩] := by
    obtain ⟨-, -, -, -, -, hp', -, -⟩ := boot_elim h
    rw [hp']; simp [Config.addDefaultPolicy]
  constructor
  · rw [hb]
    intro he
    injection he with he
    exact hp he.symm
  · intro q' hq'
    rw [hq] at hq'
    injection hq' with hq'
    rw [← hq']
    exact hl

/-- C87 fails: a configuration whose policy `default` sends everything to green boots, and afterwards green
is not a label of that policy. -/
theorem C87_violated : ∃ (c c' : Config Unit), boot literalEngine (fun _ _ => some ()) exSort c = some c' ∧
    c.policies "default".toList = some [⟨"green".toList, F64.one⟩] ∧
    ∀ q, c'.policies "default".toList = some q → ∀ dice, IsDice dice → ∀ q' label,
      Policy.ResolveLabel q dice q' label → label = "default".toList := by
  let c : Config Unit := { exConfig with policies := fun _ => some [⟨"green".toList, F64.one⟩] }
  cases hb : boot literalEngine (fun _ _ => some ()) exSort c with
  | none => exact absurd hb (by rw [show (boot literalEngine (fun _ _ => some ()) exSort c) = some _ from rfl]; simp)
  | some c' =>
    refine ⟨c, c', hb, rfl, ?_⟩
    exact (C87_violated_always hb [⟨"green".toList, F64.one⟩] (by decide) rfl).2

/-! ## C88 every name a route refers to exists -/

/-- When a configuration boots. -/
theorem boot_isSome (E : Regexp) (validate : Str → J → Option J) (srt) (c : Config J) :
    (boot E validate srt c).isSome =
      match c.jwt.mapM (fun (n, j) => (validate n j).map fun j' => (n, j')) with
      | none => false
      | some js => c.routes.all (fun r => E.compiles ('^' :: r.path)) &&
          (c.routes.all (fun r => !(0 < r.transform.length && !(r.transform.take 1 == ['/']))) &&
            c.routes.all (fun r => !r.hasJwt || (js.lookup r.jwt).isSome)) := by
  unfold boot Config.validateJwt
  simp only [Config.reApplyResourceNames, Config.reApplyResourceSchemes]
  cases hm : c.jwt.mapM (fun (n, j) => (validate n j).map fun j' => (n, j')) with
  | none => rfl
  | some js =>
    simp only [Option.map_some, Option.bind_eq_bind, Option.bind_some, Config.compileRoutePaths]
    cases h1 : c.routes.all (fun r => E.compiles ('^' :: r.path)) with
    | false => rfl
    | true =>
      simp only [if_true, Option.bind_some, Config.compileRouteTransforms, List.all_map,
        Function.comp_def]
      cases h2 : c.routes.all
          (fun r => !(0 < r.transform.length && !(r.transform.take 1 == ['/']))) with
      | false => rfl
      | true =>
        simp only [if_true, Option.bind_some, Config.validateRoutes, List.all_map, Function.comp_def]
        have e : (c.routes.all fun r =>
            !Route.hasJwt { r with pathRegex := some ('^' :: r.path) } || (js.lookup r.jwt).isSome)
          = c.routes.all (fun r => !r.hasJwt || (js.lookup r.jwt).isSome) := rfl
        rw [e]
        cases h3 : c.routes.all (fun r => !r.hasJwt || (js.lookup r.jwt).isSome) with
        | false => rfl
        | true => rfl

/-- C88 fails: whether a configuration boots does not depend on its policies and resources at all. -/
theorem C88_violated_always (E : Regexp) (validate : Str → J → Option J) (srt) (c : Config J)
    (policies : Str → Option Policy) (resources : Str → Option (List ResourceMapping)) :
    (boot E validate srt { c with policies := policies, resources := resources }).isSome =
      (boot E validate srt c).isSome := by
  rw [boot_isSome, boot_isSome]

/-- C88 fails: a configuration without any resource or policy boots, though its routes name both. -/
theorem C88_violated : ∃ (c c' : Config Unit) (r : Route),
    boot literalEngine (fun _ _ => some ()) exSort c = some c' ∧ r ∈ c'.routes ∧
    r.resource ≠ [] ∧ r.policy ≠ [] ∧ c'.resources r.resource = none ∧ c'.policies r.policy = none :=
  ⟨{ exConfig with policies := fun _ => none, resources := fun _ => none }, _,
    { path := "/a".toList, resource := "r".toList, policy := "ab".toList,
      pathRegex := some "^/a".toList }, rfl, by decide +kernel,
    by decide, by decide, rfl, rfl⟩

/-- C88 fails, what comes of it: each request to a route whose resource is not configured (and that is not
turned away before) gets a 503, and nothing else. -/
theorem C88_violated_unavailable (x : Setup K) (s : St) (h : x.Reaches s)
    (hm : parseMethod x.rq ∈ legalMethods) (hl : x.pb.tooLarge = false) (r : Route)
    (hr : dispatch x.E x.c.routes x.rq.requestURI = some r) (hj : r.jwt = [])
    (hres : x.c.resources r.resource = none) :
    s.calls = [] ∧ (∀ y ∈ s.sent, y.status = 503) ∧ (s.pc = .done → s.sent.length = 1) := by
  have ha : authorise x.L x.c.jwt x.now r x.rq = .accept := by
    unfold authorise Route.hasJwt
    rw [hj]; rfl
  have hd : x.dec = .respond 503 "unable to map upstream resource".toList := by
    rw [decision_legal hm hl, hr]
    simp only [ha, Route.mapURL, hres]
  have := onlyAnswer h hd (by decide)
  refine ⟨this.calls, ?_, ?_⟩
  · intro y hy
    rcases this.sent with h | h
    · rw [h] at hy; cases hy
    · rw [h, List.mem_singleton] at hy
      rw [hy]; rfl
  · intro hp
    rw [this.done hp]; rfl

/-- C88 fails, what comes of it: a resource configured as an empty list crashes each request to a route
without policy that names it (and that is not turned away before). -/
theorem C88_violated_crash (x : Setup K)
    (hm : parseMethod x.rq ∈ legalMethods) (hl : x.pb.tooLarge = false) (r : Route)
    (hr : dispatch x.E x.c.routes x.rq.requestURI = some r) (hj : r.jwt = []) (hp : r.policy = [])
    (hres : x.c.resources r.resource = some []) : x.dec = .panic := by
  have ha : authorise x.L x.c.jwt x.now r x.rq = .accept := by
    unfold authorise Route.hasJwt
    rw [hj]; rfl
  rw [decision_legal hm hl, hr]
  simp only [ha, Route.mapURL, hres, hp]
  rfl

/-- C88, part: a name that is not configured leads nowhere wrong. A request to a route with an unknown
resource is sent to no upstream, and one to a route with an unknown policy only to a server that carries the
label `default`. -/
theorem C88_partial (x : Setup K) (s : St) (h : x.Reaches s) (r : Route)
    (hr : dispatch x.E x.c.routes x.rq.requestURI = some r)
    (hpick : ∃ dice p', Policy.ResolveLabel [] dice p' (x.pick [])) :
    (x.c.resources r.resource = none → s.calls = []) ∧
    (r.policy ≠ [] → x.c.policies r.policy = none → ∀ p ∈ s.calls,
      ∃ ms m, x.c.resources r.resource = some ms ∧ m ∈ ms ∧ "default".toList ∈ m.labels ∧
        p.2 = scaffoldUpstreamRequest x.xrid x.pb x.rq r m.url) := by
  constructor
  · intro hn
    cases hc : s.calls with
    | nil => rfl
    | cons p ps =>
      obtain ⟨r', u, l, hd, -⟩ := calls_of_reaches h (p := p) (by rw [hc]; exact List.mem_cons_self)
      obtain ⟨-, -, h1, -, h2⟩ := decision_forward hd
      rw [hr] at h1
      injection h1 with h1
      rw [← h1] at h2
      simp only [Route.mapURL, hn] at h2
      cases h2
  · intro hp hn p hpc
    obtain ⟨r', u, l, hd, hq⟩ := calls_of_reaches h hpc
    obtain ⟨-, -, h1, -, h2⟩ := decision_forward hd
    rw [hr] at h1
    injection h1 with h1
    rw [← h1] at h2 hq
    have hlab : x.pick [] = "default".toList := by
      obtain ⟨dice, p', hres⟩ := hpick
      rw [hres.result, List.perm_nil.mp hres.sorted.perm]
      rfl
    unfold Route.mapURL at h2
    cases hm : x.c.resources r.resource with
    | none => simp only [hm] at h2; cases h2
    | some ms =>
      simp only [hm, hn, Option.getD_none, if_pos (List.length_pos_iff.mpr hp), hlab] at h2
      split at h2
      · rename_i u' hf
        injection h2 with h2 _
        subst h2
        obtain ⟨m, h3, h4, h5⟩ := findLabelled_some hf
        exact ⟨ms, m, rfl, h3, h5, by rw [hq, h4]⟩
      · cases h2

/-- The gateway of `Demo` with a missing and with an empty resource. -/
example : ({ Demo.setup with c := { Demo.config with resources := fun _ => none } } : Setup Nat).dec =
    .respond 503 "unable to map upstream resource".toList := by decide +kernel

example : ({ Demo.setup with c := { Demo.config with resources := fun _ => some [] } } : Setup Nat).dec =
    .panic := by decide +kernel

/-- A policy that does not exist selects `default`. -/
example : Policy.ResolveLabel [] 0 [] "default".toList := ⟨⟨.refl _, .nil⟩, by decide⟩

/-! ## C89 the gateway does not serve in the clear unless told to -/

theorem isTLSMode_setDefaults (d : Downstream) :
    d.setDefaults.isTLSMode = true ↔ d.mode.map Char.toUpper = "TLS".toList := by
  obtain ⟨-, -, -, -, hm, -⟩ := C10_downstream_defaults d
  unfold Downstream.isTLSMode
  rw [beq_iff_eq, hm]
  by_cases h : d.mode = []
  · rw [if_pos h, h]; decide
  · rw [if_neg h]
    have e : toUpper (d.mode.map Char.toUpper) = d.mode.map Char.toUpper := toUpper_idem d.mode
    rw [e]

/-- C89, part: TLS is served exactly if the mode is TLS in any spelling and the certificate and key are good;
if they are not the gateway does not start. -/
theorem C89_partial (tlsStarts : Str → Str → Bool) (d : Downstream) (port : Int) :
    (d.setDefaults.serve tlsStarts = .tls port ↔ d.mode.map Char.toUpper = "TLS".toList ∧
      tlsStarts d.cert d.key = true ∧ port = if d.port = 0 then 443 else d.port) ∧
    (d.mode.map Char.toUpper = "TLS".toList → tlsStarts d.cert d.key = false →
      d.setDefaults.serve tlsStarts = .exits) := by
  obtain ⟨-, -, -, -, hm, hp, hc, hk⟩ := C10_downstream_defaults d
  have ht := isTLSMode_setDefaults d
  unfold Downstream.serve
  rw [hc, hk, hp]
  by_cases h : d.mode.map Char.toUpper = "TLS".toList
  · rw [if_pos (ht.mpr h)]
    simp only [h, if_true, true_and, forall_const]
    cases tlsStarts d.cert d.key <;> simp [eq_comm]
  · rw [if_neg (fun h' => h (ht.mp h'))]
    exact ⟨⟨fun h' => (nomatch h'), fun h' => absurd h'.1 h⟩, fun h' => absurd h' h⟩

/-- C89 fails: with every other mode, "HTTPS" or "TLS1.2" say, the gateway serves in the clear, whatever
certificate and key are configured, and even on port 443 if that is the configured one. -/
theorem C89_violated_always (tlsStarts : Str → Str → Bool) (d : Downstream)
    (h : d.mode.map Char.toUpper ≠ "TLS".toList) :
    d.setDefaults.serve tlsStarts = .plain (if d.port = 0 then 8080 else d.port) := by
  obtain ⟨-, -, -, -, hm, hp, hc, hk⟩ := C10_downstream_defaults d
  unfold Downstream.serve
  rw [if_neg (fun h' => h ((isTLSMode_setDefaults d).mp h')), hp, if_neg h]

/-- C89 fails: mode HTTPS, certificate, key and port configured; served in the clear. -/
theorem C89_violated : ∃ d : Downstream, d.mode = "HTTPS".toList ∧ d.cert ≠ [] ∧ d.key ≠ [] ∧
    ∀ tlsStarts, d.setDefaults.serve tlsStarts = .plain 443 :=
  ⟨{ mode := "HTTPS".toList, cert := "c".toList, key := "k".toList, port := 443 }, rfl, by decide,
    by decide, fun t => by rw [C89_violated_always t _ (by decide)]; rfl⟩

/-- Both cases of C89_partial occur. -/
example : ({ mode := "tls".toList } : Downstream).setDefaults.serve (fun _ _ => true) = .tls 443 ∧
    ({ mode := "Tls".toList } : Downstream).setDefaults.serve (fun _ _ => false) = .exits := by decide

end J8a
