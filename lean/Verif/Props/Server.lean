import Verif.Lemmas.Path
import Verif.Lemmas.Mux
import Verif.Lemmas.Num
import Verif.Model.Listen
import Verif.Model.Source
import Verif.Model.About
import Verif.Props.Responses
import Verif.Props.Requests
import Verif.Props.Config
/-!
# C63 - C66, C70 - C72 — the listener, the configuration source and the about endpoint
-/
namespace J8a
open Go

/-! ## C63: the write timeout is larger than the round trip timeout -/

theorem wrap64_of_range {x : Int} (h1 : -(2 ^ 63) ≤ x) (h2 : x < 2 ^ 63) : wrap64 x = x := by
  unfold wrap64; omega

/-- C63, exactly: the write timeout is larger iff adding the second of grace does not overflow. -/
theorem C63_larger_iff (d : Downstream) :
    d.setDefaults.roundTripTimeout < d.setDefaults.writeTimeout ↔
      d.setDefaults.roundTripTimeout + 1000000000 ≤ 2 ^ 63 - 1 := by
  unfold Downstream.roundTripTimeout Downstream.writeTimeout timeoutSeconds
  generalize second * d.setDefaults.roundTripTimeoutSeconds = n
  have h1 : -(2 ^ 63) ≤ wrap64 n ∧ wrap64 n < 2 ^ 63 := by unfold wrap64; omega
  generalize wrap64 n = m at *
  unfold wrap64 second
  omega

/-- C63, part: for every configured number of seconds up to the 292 years of a duration the write timeout
is one second more. -/
theorem C63_one_second_more_partial (d : Downstream) (h1 : -9223372036 ≤ d.roundTripTimeoutSeconds)
    (h2 : d.roundTripTimeoutSeconds ≤ 9223372035) :
    d.setDefaults.roundTripTimeout < d.setDefaults.writeTimeout ∧
    d.setDefaults.writeTimeout = d.setDefaults.roundTripTimeout + 1000000000 ∧
    d.setDefaults.roundTripTimeout = 1000000000 * d.setDefaults.roundTripTimeoutSeconds := by
  have h3 : -9223372036 ≤ d.setDefaults.roundTripTimeoutSeconds ∧
      d.setDefaults.roundTripTimeoutSeconds ≤ 9223372035 := by
    rw [(C10_downstream_defaults d).2.1]; split <;> omega
  unfold Downstream.roundTripTimeout Downstream.writeTimeout timeoutSeconds second
  generalize d.setDefaults.roundTripTimeoutSeconds = n at *
  rw [wrap64_of_range (x := 1000000000 * n) (by omega) (by omega),
    wrap64_of_range (by omega) (by omega)]
  omega

example : ({ } : Downstream).setDefaults.roundTripTimeout = 240000000000 ∧
    ({ } : Downstream).setDefaults.writeTimeout = 241000000000 := by decide

/-- C63 fails for a round trip timeout of 292 years: the write timeout wraps around to a time long ago,
so that no response can be written. -/
theorem C63_violated_overflow :
    ¬ ({ roundTripTimeoutSeconds := 9223372036 } : Downstream).setDefaults.roundTripTimeout <
      ({ roundTripTimeoutSeconds := 9223372036 } : Downstream).setDefaults.writeTimeout ∧
    ({ roundTripTimeoutSeconds := 9223372036 } : Downstream).setDefaults.writeTimeout < 0 := by decide

/-! ## C70: a slow body does not cost the client its answer

net/http sets the read deadline of a request `ReadTimeout` after it starts reading it and the write
deadline `WriteTimeout` after it has read the headers, which is when the handler starts. Reading the body
(proxy.go:260) takes until the read deadline at most; the round trip timeout does not interrupt it. -/

/-- The handler may still write at time `t` after it started. -/
def Downstream.mayWriteAt (d : Downstream) (t : Int) : Prop := d.writeTimeout ≠ 0 → t < d.writeTimeout

/-- The body may arrive until time `t` after the headers were read. -/
def Downstream.bodyMayTake (d : Downstream) (t : Int) : Prop :=
  0 ≤ t ∧ (d.readTimeout ≠ 0 → t < d.readTimeout)

/-- C70, exactly: whenever the body arrives in time an answer can be written, iff the read timeout is not
larger than the write timeout (positive timeouts). -/
theorem C70_answer_iff (d : Downstream) (hr : 0 < d.readTimeout) (hw : 0 < d.writeTimeout) :
    (∀ t, d.bodyMayTake t → d.mayWriteAt t) ↔ d.readTimeout ≤ d.writeTimeout := by
  unfold Downstream.bodyMayTake Downstream.mayWriteAt
  constructor
  · intro h
    have := h (d.readTimeout - 1) ⟨by omega, fun _ => by omega⟩ (by omega)
    omega
  · intro h t ht hn
    have := ht.2 (by omega)
    omega

/-- C70, part: if the read timeout is at most one second above the round trip timeout. -/
theorem C70_answer_partial (d : Downstream) (h1 : 0 < d.setDefaults.readTimeoutSeconds)
    (h2 : d.setDefaults.readTimeoutSeconds ≤ d.setDefaults.roundTripTimeoutSeconds + 1)
    (h3 : d.setDefaults.roundTripTimeoutSeconds ≤ 9223372035) :
    ∀ t, d.setDefaults.bodyMayTake t → d.setDefaults.mayWriteAt t := by
  unfold Downstream.bodyMayTake Downstream.mayWriteAt Downstream.readTimeout Downstream.writeTimeout
    timeoutSeconds second
  generalize d.setDefaults.readTimeoutSeconds = r at *
  generalize d.setDefaults.roundTripTimeoutSeconds = n at *
  rw [wrap64_of_range (x := 1000000000 * n) (by omega) (by omega),
    wrap64_of_range (x := 1000000000 * r) (by omega) (by omega),
    wrap64_of_range (by omega) (by omega)]
  intro t ht hn
  have := ht.2 (by omega)
  omega

/-- With the defaults. -/
example : ∀ t, ({ } : Downstream).setDefaults.bodyMayTake t → ({ } : Downstream).setDefaults.mayWriteAt t :=
  C70_answer_partial {} (by decide) (by decide) (by decide)

/-- C70 fails for a round trip timeout of ten seconds: a body that takes a minute is read, and then no
answer, 504 included, can be written. -/
theorem C70_violated : ∃ d : Downstream, d.roundTripTimeoutSeconds = 10 ∧
    ∃ t, d.setDefaults.bodyMayTake t ∧ ¬ d.setDefaults.mayWriteAt t :=
  ⟨{ roundTripTimeoutSeconds := 10 }, rfl, 60000000000, by
    unfold Downstream.bodyMayTake; decide, by unfold Downstream.mayWriteAt; decide⟩

/-! ## C64: where the configuration comes from -/

/-- The text of the configuration, by precedence: the file named by the flag, the environment variable,
the default file. An empty name or variable counts as absent. -/
inductive ChosenText (s : Sources) : Option Str → Prop
  | file (name : Str) : name ≠ [] → s.flag = some name → ChosenText s (s.files name)
  | env : (s.flag = none ∨ s.flag = some []) → s.env ≠ [] → ChosenText s (some s.env)
  | fallback : (s.flag = none ∨ s.flag = some []) → s.env = [] →
      ChosenText s (s.files "j8acfg.yml".toList)

theorem ChosenText.det {s : Sources} {a b : Option Str} (ha : ChosenText s a) (hb : ChosenText s b) : a = b := by
  cases ha with
  | file n h1 h2 =>
    cases hb with
    | file m h3 h4 => rw [h2] at h4; cases h4; rfl
    | env h3 h4 => rcases h3 with h | h <;> rw [h2] at h <;> cases h; exact absurd rfl h1
    | fallback h3 h4 => rcases h3 with h | h <;> rw [h2] at h <;> cases h; exact absurd rfl h1
  | env h1 h2 =>
    cases hb with
    | file m h3 h4 => rcases h1 with h | h <;> rw [h4] at h <;> cases h; exact absurd rfl h3
    | env h3 h4 => rfl
    | fallback h3 h4 => exact absurd h4 h2
  | fallback h1 h2 =>
    cases hb with
    | file m h3 h4 => rcases h1 with h | h <;> rw [h4] at h <;> cases h; exact absurd rfl h3
    | env h3 h4 => exact absurd h2 h4
    | fallback h3 h4 => rfl

theorem ChosenText.exists (s : Sources) : ∃ t, ChosenText s t := by
  cases hf : s.flag with
  | none =>
    by_cases he : s.env = []
    · exact ⟨_, .fallback (.inl hf) he⟩
    · exact ⟨_, .env (.inl hf) he⟩
  | some n =>
    by_cases hn : n = []
    · subst hn
      by_cases he : s.env = []
      · exact ⟨_, .fallback (.inr hf) he⟩
      · exact ⟨_, .env (.inr hf) he⟩
    · exact ⟨_, .file n hn hf⟩

/-- C64: exactly one source is looked at, by precedence, and the process starts with its configuration iff
it can be read and has a route; otherwise it exits. -/
theorem C64_precedence {C : Type} (parse : Str → C) (routes : C → Nat) (s : Sources) (c : C) :
    load parse routes s = some c ↔
      ∃ text, ChosenText s (some text) ∧ c = parse text ∧ 0 < routes c := by
  have key : ∀ o, ChosenText s o → (load parse routes s = some c ↔
      ∃ text, o = some text ∧ c = parse text ∧ 0 < routes c) := by
    intro o ho
    have fin : ∀ o : Option Str, (match o.map parse with
        | some c => if configOk routes c then some c else none
        | none => none) = some c ↔ ∃ text, o = some text ∧ c = parse text ∧ 0 < routes c := by
      intro o
      cases o with
      | none => simp
      | some t =>
        simp only [Option.map_some, configOk, decide_eq_true_eq, Option.some.injEq]
        by_cases h : 0 < routes (parse t)
        · rw [if_pos h]
          simp only [Option.some.injEq]
          constructor
          · rintro rfl; exact ⟨t, rfl, rfl, h⟩
          · rintro ⟨_, rfl, rfl, _⟩; rfl
        · rw [if_neg h]
          constructor
          · intro hh; cases hh
          · rintro ⟨_, rfl, rfl, h'⟩; exact absurd h' h
    unfold load Sources.configFile
    cases ho with
    | file n h1 h2 =>
      rw [h2]
      rw [if_pos (show 0 < ((some n : Option Str).getD []).length from List.length_pos_iff.mpr h1)]
      exact fin (s.files n)
    | env h1 h2 =>
      have hc : s.flag.getD [] = [] := by rcases h1 with h | h <;> rw [h] <;> rfl
      rw [hc, if_neg (by simp), if_pos (List.length_pos_iff.mpr h2)]
      exact fin (some s.env)
    | fallback h1 h2 =>
      have hc : s.flag.getD [] = [] := by rcases h1 with h | h <;> rw [h] <;> rfl
      rw [hc, if_neg (by simp), h2, if_neg (by simp)]
      exact fin (s.files defaultConfigFile)
  obtain ⟨o, ho⟩ := ChosenText.exists s
  rw [key o ho]
  constructor
  · rintro ⟨t, rfl, h⟩; exact ⟨t, ho, h⟩
  · rintro ⟨t, ht, h⟩; exact ⟨t, ho.det ht, h⟩

/-- C64: no fall-through: with an explicit file neither the environment nor any other file matters. -/
theorem C64_file_alone {C : Type} (parse : Str → C) (routes : C → Nat) (s s' : Sources) (name : Str)
    (hn : name ≠ []) (h1 : s.flag = some name) (h2 : s'.flag = some name)
    (h3 : s.files name = s'.files name) : load parse routes s = load parse routes s' := by
  apply Option.ext
  intro c
  have e : ∀ x : Sources, x.flag = some name → ∀ t, ChosenText x (some t) ↔ x.files name = some t := by
    intro x hx t
    constructor
    · intro h; exact (ChosenText.file name hn hx).det h
    · intro h; rw [← h]; exact .file name hn hx
  rw [C64_precedence, C64_precedence]
  constructor
  · rintro ⟨t, ht, h⟩; exact ⟨t, (e s' h2 t).mpr (h3 ▸ (e s h1 t).mp ht), h⟩
  · rintro ⟨t, ht, h⟩; exact ⟨t, (e s h1 t).mpr (h3.symm ▸ (e s' h2 t).mp ht), h⟩

/-- A flag with a file without routes is refused although the environment has a route; without the flag
the environment wins. Here a text has as many routes as letters `r`. -/
example : let parse : Str → Nat := fun s => s.count 'r'
    let s : Sources := { flag := some "a".toList, env := "r".toList, files := fun _ => some "none".toList }
    load parse id s = none ∧ load parse id { s with flag := none } = some 1 := by decide

/-! ## C65: what the about endpoint answers -/

/-- The server starts exactly if the about routes have distinct paths other than the root. (Paths start
with a slash after `validateRoutes`, so they are not empty.) -/
theorem C65_starts_iff (routes : List Route) : (mapPathsToHandler routes).isSome ↔
    (aboutPaths routes).Nodup ∧ [] ∉ aboutPaths routes ∧ ['/'] ∉ aboutPaths routes :=
  mapPathsToHandler_isSome routes

/-- The path is no about path, but with a slash it is. -/
def GainsSlash (A : List Str) (p : Str) : Prop :=
  p ∉ A ∧ p ++ ['/'] ∈ A ∧ ¬ ∃ b, p = b ++ ['/']

theorem root_not_about {routes : List Route} {x : Mux} (hx : mapPathsToHandler routes = some x) :
    ¬ (['/'] ∈ aboutPaths routes ∨ Under (aboutPaths routes) ['/']) := by
  obtain ⟨-, h1, h2⟩ := (mapPathsToHandler_isSome routes).mp (by rw [hx]; rfl)
  rintro (h | ⟨a, ha, ⟨b, rfl⟩, s, hs⟩)
  · exact h2 h
  · cases b with
    | nil => exact h2 ha
    | cons c b => simp at hs

theorem handler_answer {routes : List Route} {x : Mux} (hx : mapPathsToHandler routes = some x)
    {path : Str} (hh : path.head? = some '/') :
    x.handler path = .served .about ∧ (path ∈ aboutPaths routes ∨ Under (aboutPaths routes) path) ∨
    x.handler path = .served .proxy ∧ ¬ (path ∈ aboutPaths routes ∨ Under (aboutPaths routes) path) := by
  obtain ⟨h1, h2⟩ := match_eq hx path
  by_cases h : path ∈ aboutPaths routes ∨ Under (aboutPaths routes) path
  · left
    have hn : path ≠ ['/'] := by rintro rfl; exact root_not_about hx h
    exact ⟨by unfold Mux.handler; rw [h1 ⟨hn, h⟩], h⟩
  · right
    exact ⟨by unfold Mux.handler; rw [h2 fun hc => h hc.2, if_pos hh], h⟩

/-- C65: the answer to every request but CONNECT and `*`, in terms of the canonical path. If the path has
to gain a slash to be an about path, the request is redirected there. Otherwise, if the path is not
canonical, the request is redirected to the canonical form. Otherwise about paths and paths under one are
answered by the about handler, and all others by the proxy. -/
theorem C65_answer {routes : List Route} {x : Mux} (hx : mapPathsToHandler routes = some x)
    (method uri path : Str) (hu : uri ≠ ['*']) (hm : method ≠ "CONNECT".toList) :
    (GainsSlash (aboutPaths routes) (canonicalPath path) →
      x.serve method uri path = .moved (canonicalPath path ++ ['/'])) ∧
    (¬ GainsSlash (aboutPaths routes) (canonicalPath path) → canonicalPath path ≠ path →
      x.serve method uri path = .moved (canonicalPath path)) ∧
    (¬ GainsSlash (aboutPaths routes) (canonicalPath path) → canonicalPath path = path →
      (path ∈ aboutPaths routes ∨ Under (aboutPaths routes) path) →
        x.serve method uri path = .served .about) ∧
    (¬ GainsSlash (aboutPaths routes) (canonicalPath path) → canonicalPath path = path →
      ¬ (path ∈ aboutPaths routes ∨ Under (aboutPaths routes) path) →
        x.serve method uri path = .served .proxy) := by
  have hr : x.shouldRedirect (canonicalPath path) = true ↔
      GainsSlash (aboutPaths routes) (canonicalPath path) := by
    rw [shouldRedirect_iff hx _ (canonical_ne_nil path), ne_eq, ends_slash_iff]; rfl
  unfold Mux.serve
  rw [if_neg hu, if_neg hm]
  simp only [cleanPath_eq]
  refine ⟨?_, ?_, ?_, ?_⟩
  · intro h; rw [if_pos (hr.mpr h)]
  · intro h hne; rw [if_neg (fun hc => h (hr.mp hc)), if_pos hne]
  all_goals
    intro h he hA
    rw [if_neg (fun hc => h (hr.mp hc)), if_neg (fun hc => hc he)]
    have hh : path.head? = some '/' := by rw [← he]; exact canonical_head path
    rcases handler_answer hx hh with ⟨h1, h2⟩ | ⟨h1, h2⟩
  · exact h1
  · exact absurd hA h2
  · exact absurd h2 hA
  · exact h1

/-- The about handler answers a request directly iff the path is canonical and is an about path or under
one, unless adding a slash makes it a longer about path. -/
theorem C65_about_iff {routes : List Route} {x : Mux} (hx : mapPathsToHandler routes = some x)
    (method uri path : Str) (hu : uri ≠ ['*']) (hm : method ≠ "CONNECT".toList) :
    x.serve method uri path = .served .about ↔
      canonicalPath path = path ∧ (path ∈ aboutPaths routes ∨ Under (aboutPaths routes) path) ∧
      ¬ GainsSlash (aboutPaths routes) path := by
  obtain ⟨h1, h2, h3, h4⟩ := C65_answer hx method uri path hu hm
  by_cases hg : GainsSlash (aboutPaths routes) (canonicalPath path)
  · rw [h1 hg]
    constructor
    · intro h; cases h
    · rintro ⟨he, -, hn⟩; rw [he] at hg; exact absurd hg hn
  · by_cases he : canonicalPath path = path
    · by_cases hA : path ∈ aboutPaths routes ∨ Under (aboutPaths routes) path
      · rw [h3 hg he hA]
        exact ⟨fun _ => ⟨he, hA, he ▸ hg⟩, fun _ => rfl⟩
      · rw [h4 hg he hA]
        constructor
        · intro h; cases h
        · rintro ⟨-, h, -⟩; exact absurd h hA
    · rw [h2 hg he]
      constructor
      · intro h; cases h
      · rintro ⟨h, -⟩; exact absurd h he

/-- What a client gets that follows redirections. -/
inductive Eventually (x : Mux) (method uri : Str) : Str → Served → Prop
  | now {path : Str} {h : Served} : x.serve method uri path = .served h → Eventually x method uri path h
  | follow {path q : Str} {h : Served} : x.serve method uri path = .moved q → Eventually x method uri q h →
      Eventually x method uri path h

/-- C65 for clients that follow redirections: every request but CONNECT and `*` is answered, after at most
one redirection, by the about handler if its canonical path is an about path, lies under one or becomes
one by a slash, and by the proxy otherwise. -/
theorem C65_eventually {routes : List Route} {x : Mux} (hx : mapPathsToHandler routes = some x)
    (method uri path : Str) (hu : uri ≠ ['*']) (hm : method ≠ "CONNECT".toList) (h : Served) :
    Eventually x method uri path h ↔
      (h = .about ↔ canonicalPath path ∈ aboutPaths routes ∨ Under (aboutPaths routes) (canonicalPath path) ∨
        GainsSlash (aboutPaths routes) (canonicalPath path)) := by
  -- a canonical path that gains no slash is answered at once
  have direct : ∀ p, canonicalPath p = p → ¬ GainsSlash (aboutPaths routes) p → ∀ h,
      (Eventually x method uri p h ↔ (h = .about ↔ p ∈ aboutPaths routes ∨ Under (aboutPaths routes) p)) := by
    intro p hp hg h
    obtain ⟨-, -, h3, h4⟩ := C65_answer hx method uri p hu hm
    rw [hp] at h3 h4
    by_cases hA : p ∈ aboutPaths routes ∨ Under (aboutPaths routes) p
    · have hs := h3 hg rfl hA
      constructor
      · intro he
        cases he with
        | now h' => rw [hs] at h'; cases h'; exact ⟨fun _ => hA, fun _ => rfl⟩
        | follow h' => rw [hs] at h'; cases h'
      · intro hi
        rw [hi.mpr hA]; exact .now hs
    · have hs := h4 hg rfl hA
      constructor
      · intro he
        cases he with
        | now h' => rw [hs] at h'; cases h'; exact Iff.intro (fun hc => nomatch hc) (fun hc => absurd hc hA)
        | follow h' => rw [hs] at h'; cases h'
      · intro hi
        cases h with
        | about => exact absurd (hi.mp rfl) hA
        | proxy => exact .now hs
  have step : ∀ p q, x.serve method uri p = .moved q →
      ∀ h, (Eventually x method uri p h ↔ Eventually x method uri q h) := by
    intro p q hpq h
    constructor
    · intro he
      cases he with
      | now h' => rw [hpq] at h'; cases h'
      | follow h' h'' => rw [hpq] at h'; cases h'; exact h''
    · exact .follow hpq
  obtain ⟨h1, h2, -, -⟩ := C65_answer hx method uri path hu hm
  by_cases hg : GainsSlash (aboutPaths routes) (canonicalPath path)
  · rw [step _ _ (h1 hg)]
    have hl : (canonicalPath path).getLast? ≠ some '/' := by
      rw [ne_eq, ends_slash_iff]; exact hg.2.2
    have hc := canonical_snoc (canonical_canonical path) hl
    have hn : ¬ GainsSlash (aboutPaths routes) (canonicalPath path ++ ['/']) :=
      fun hh => hh.2.2 ⟨_, rfl⟩
    rw [direct _ hc hn]
    constructor
    · intro hi
      exact ⟨fun _ => .inr (.inr hg), fun _ => hi.mpr (.inl hg.2.1)⟩
    · intro hi
      exact ⟨fun _ => .inl hg.2.1, fun _ => hi.mpr (.inr (.inr hg))⟩
  · have e : (canonicalPath path ∈ aboutPaths routes ∨ Under (aboutPaths routes) (canonicalPath path) ∨
        GainsSlash (aboutPaths routes) (canonicalPath path)) ↔
        (canonicalPath path ∈ aboutPaths routes ∨ Under (aboutPaths routes) (canonicalPath path)) :=
      ⟨fun h => h.elim .inl fun h => h.elim .inr fun h => absurd h hg, fun h => h.elim .inl fun h => .inr (.inl h)⟩
    rw [e]
    by_cases he : canonicalPath path = path
    · rw [he] at hg ⊢; exact direct path he hg h
    · rw [step _ _ (h2 hg he)]
      exact direct _ (canonical_canonical path) hg h

namespace Demo

/-- Two about routes and a proxied one. -/
def aboutRoutes : List Route :=
  [{ path := "/about/users".toList, resource := "users".toList },
   { path := "/about/".toList, resource := "about".toList },
   { path := "/health".toList, resource := "about".toList }]

def aboutMux : Mux := ((mapPathsToHandler aboutRoutes).getD {})

theorem aboutMux_eq : mapPathsToHandler aboutRoutes = some aboutMux := by
  have : (mapPathsToHandler aboutRoutes).isSome = true := by decide +kernel
  obtain ⟨x, hx⟩ := Option.isSome_iff_exists.mp this
  unfold aboutMux
  rw [hx]; rfl

end Demo

example : Demo.aboutMux.serve "GET".toList "/health".toList "/health".toList = .served .about ∧
    Demo.aboutMux.serve "GET".toList "/about/x".toList "/about/x".toList = .served .about ∧
    Demo.aboutMux.serve "GET".toList "/about".toList "/about".toList = .moved "/about/".toList ∧
    Demo.aboutMux.serve "GET".toList "/healthy".toList "/healthy".toList = .served .proxy ∧
    Demo.aboutMux.serve "GET".toList "/a/../health".toList "/a/../health".toList = .moved "/health".toList := by
  decide +kernel

/-- C65 as stated fails: a request with the canonical path of about is redirected, not answered, and a
CONNECT request without path is answered by neither handler. -/
theorem C65_violated : ∃ routes x, mapPathsToHandler routes = some x ∧
    (∃ path, canonicalPath path ∈ aboutPaths routes ∧
      x.serve "GET".toList path path ≠ .served .about) ∧
    (∃ uri, x.serve "CONNECT".toList uri [] = .notFound) :=
  ⟨Demo.aboutRoutes, Demo.aboutMux, Demo.aboutMux_eq,
    ⟨"//health".toList, by decide +kernel, by decide +kernel⟩, ⟨"a:443".toList, by decide +kernel⟩⟩

/-! ## C27: a jwt on an about route -/

/-- C27 fails: a gateway boots with a single about route that names a jwt, whose path every request below it
matches, and every such request — with any header — is answered by the about handler with status 200. -/
theorem C27_violated_about : ∃ (c : Config (Jwt Nat)) (r : Route) (j : Jwt Nat) (m : Mux),
    c.routes = [r] ∧ r.jwt ≠ [] ∧ c.jwt.lookup r.jwt = some j ∧ j.alg ∈ hmacAlgs ∧
    (boot literalEngine (bootJwt exX509 (fun _ => 1) (fun _ => "u".toList) (fun _ _ => none)) exSort
      c).isSome = true ∧
    mapPathsToHandler c.routes = some m ∧
    m.serve "GET".toList "/about".toList "/about".toList = .served .about ∧
    ∀ e id version seed ae, (aboutHandler e id version seed ae).status = 200 := by
  refine ⟨{ Demo.config with routes := [{ path := "/about".toList, resource := "about".toList, jwt := "j".toList }], jwt := [("j".toList, { alg := "HS256".toList, key := "secret".toList })] },
    { path := "/about".toList, resource := "about".toList, jwt := "j".toList },
    { alg := "HS256".toList, key := "secret".toList },
    (mapPathsToHandler [{ path := "/about".toList, resource := "about".toList, jwt := "j".toList }]).getD {},
    rfl, by decide, rfl, by decide, by decide +kernel, ?_, by decide +kernel, ?_⟩
  · have h : (mapPathsToHandler
        [{ path := "/about".toList, resource := "about".toList, jwt := "j".toList }]).isSome = true := by
      decide +kernel
    obtain ⟨x, hx⟩ := Option.isSome_iff_exists.mp h
    dsimp only
    rw [hx]; rfl
  · intro e id version seed ae
    unfold aboutHandler
    dsimp only
    repeat' split
    all_goals rfl

/-! ## C71: about does not hide longer routes -/

/-- C71, part: if no proxied route lies below an about path that ends in a slash, a request answered by the
about handler is claimed by an about path at least as long as every proxied path that is a prefix of it. -/
theorem C71_longest_partial {routes : List Route} {x : Mux} (hx : mapPathsToHandler routes = some x)
    (hns : ∀ a ∈ aboutPaths routes, (∃ b, a = b ++ ['/']) → ∀ r ∈ routes, r.resource ≠ "about".toList →
      a <+: r.path → r.path = a) (method uri path : Str) (hu : uri ≠ ['*'])
    (hm : method ≠ "CONNECT".toList) (hs : x.serve method uri path = .served .about) :
    ∃ a ∈ aboutPaths routes, a <+: path ∧
      ∀ r ∈ routes, r.resource ≠ "about".toList → r.path <+: path → r.path.length ≤ a.length := by
  obtain ⟨-, h | ⟨a, ha, hb, t, ht⟩, -⟩ := (C65_about_iff hx method uri path hu hm).mp hs
  · exact ⟨path, h, List.prefix_refl _, fun r _ _ hp => hp.length_le⟩
  · have hp : a <+: path := ⟨t, ht.symm⟩
    refine ⟨a, ha, hp, fun r hr hra hrp => ?_⟩
    rcases Nat.le_total r.path.length a.length with hle | hle
    · exact hle
    · rw [hns a ha hb r hr hra (List.prefix_of_prefix_length_le hp hrp hle)]
      exact Nat.le_refl _

/-- C71, exactly when it fails: a request with the canonical path of a proxied route is answered by about iff
the path is an about path too or lies below an about path that ends in a slash. -/
theorem C71_hidden_iff {routes : List Route} {x : Mux} (hx : mapPathsToHandler routes = some x)
    (r : Route) (hr : canonicalPath r.path = r.path) (method : Str) (hm : method ≠ "CONNECT".toList)
    (hg : ¬ GainsSlash (aboutPaths routes) r.path) :
    x.serve method r.path r.path = .served .about ↔
      r.path ∈ aboutPaths routes ∨ Under (aboutPaths routes) r.path := by
  have hu : r.path ≠ ['*'] := by
    intro h; rw [h] at hr; exact absurd hr (by decide)
  rw [C65_about_iff hx method r.path r.path hu hm]
  constructor
  · rintro ⟨-, h, -⟩; exact h
  · intro h; exact ⟨hr, h, hg⟩

/-- C71 fails: a request for a proxied route is answered by the about handler, although the proxied route
has the longer path and is first in the list of routes. -/
theorem C71_violated : ∃ (r : Route) (path : Str), r ∈ Demo.aboutRoutes ∧ r.resource ≠ "about".toList ∧
    r.path = path ∧ (∀ a ∈ aboutPaths Demo.aboutRoutes, a.length < r.path.length) ∧
    Demo.aboutMux.serve "GET".toList path path = .served .about :=
  ⟨{ path := "/about/users".toList, resource := "users".toList }, "/about/users".toList,
    by simp [Demo.aboutRoutes], by decide, rfl, by decide +kernel, by decide +kernel⟩

/-! ## C72: no dot segments reach an upstream -/

/-- C72, part: a request that reaches the proxy handler, unless its method is CONNECT, has a decoded path
without `.` or `..` segments. -/
theorem C72_no_dot_segments_partial {routes : List Route} {x : Mux} (hx : mapPathsToHandler routes = some x)
    (method uri path : Str) (hm : method ≠ "CONNECT".toList)
    (hs : x.serve method uri path = .served .proxy) : NoDotSegs path ∧ canonicalPath path = path := by
  by_cases hu : uri = ['*']
  · unfold Mux.serve at hs; rw [if_pos hu] at hs; cases hs
  obtain ⟨h1, h2, -, -⟩ := C65_answer hx method uri path hu hm
  by_cases hg : GainsSlash (aboutPaths routes) (canonicalPath path)
  · rw [h1 hg] at hs; cases hs
  · by_cases he : canonicalPath path = path
    · exact ⟨canonical_noDot he, he⟩
    · rw [h2 hg he] at hs; cases hs

example : Demo.aboutMux.serve "GET".toList "/x/y".toList "/x/y".toList = .served .proxy := by decide +kernel
example : ¬ NoDotSegs "/x/../y".toList := by
  intro h; exact (h ['.', '.'] (by decide)).2 rfl

/-- C72 fails for CONNECT, which the proxy accepts: its path is not cleaned. -/
theorem C72_violated_connect : ∃ path, ¬ NoDotSegs path ∧
    Demo.aboutMux.serve "CONNECT".toList path path = .served .proxy ∧ "CONNECT".toList ∈ legalMethods :=
  ⟨"/x/../../secret".toList, by intro h; exact (h ['.', '.'] (by decide)).2 rfl, by decide +kernel,
    by decide⟩

/-! ## C66: the about response describes itself -/

theorem aboutJson_spec (id version : Str) (seed : Nat) :
    ∃ text hello i v, aboutJson id version seed = utf8 text ∧
      Json.parse text = some [("j8a".toList, .str hello), ("ServerID".toList, .str i),
        ("Version".toList, .str v)] ∧ (∀ cs, id = utf8 cs → i = cs) ∧ (∀ cs, version = utf8 cs → v = cs) := by
  unfold aboutJson aboutFields
  rw [fixName_object]
  obtain ⟨text, vals, h1, h2, h3⟩ := jsonObject_spec (("j8a".toList, .str (randomHuttese seed)) ::
    [("ServerID".toList, .str id), ("Version".toList, .str version)]) (by simp)
    (by
      intro f hf
      simp only [List.mem_cons, List.not_mem_nil, or_false] at hf
      rcases hf with rfl | rfl | rfl <;> dsimp only <;> decide)
  rcases h3 with _ | ⟨r1, _ | ⟨r2, _ | ⟨r3, r4⟩⟩⟩
  cases r4
  obtain ⟨hello, rfl, -, -⟩ := reads_str r1
  obtain ⟨i, rfl, hi, -⟩ := reads_str r2
  obtain ⟨v, rfl, hv, -⟩ := reads_str r3
  exact ⟨text, hello, i, v, h1, h2, hi, hv⟩

theorem contains_sep {sep : Char} {sub : Str} (h : sep ∉ sub) (a b : Str) :
    contains (a ++ sep :: b) sub = true ↔ contains a sub = true ∨ contains b sub = true := by
  constructor
  · intro hc
    obtain ⟨u, v, he⟩ := contains_iff.mp hc
    rcases List.append_eq_append_iff.mp he with ⟨c, h1, h2⟩ | ⟨c, h1, h2⟩
    · cases c with
      | nil => exact .inl (contains_iff.mpr ⟨u, [], by rw [h1]; simp⟩)
      | cons x c =>
        simp only [List.cons_append, List.cons.injEq] at h2
        obtain ⟨rfl, h2⟩ := h2
        rcases List.append_eq_append_iff.mp h1 with ⟨d, h3, h4⟩ | ⟨d, h3, h4⟩
        · exact absurd (h4 ▸ (by simp : sep ∈ d ++ sep :: c)) h
        · cases d with
          | nil => exact absurd ((by simpa using h4 : sep :: c = sub) ▸ (by simp : sep ∈ sep :: c)) h
          | cons y d =>
            simp only [List.cons_append, List.cons.injEq] at h4
            exact .inr (contains_iff.mpr ⟨d, v, by rw [h2, h4.2]⟩)
    · exact .inl (contains_iff.mpr ⟨u, c, h1⟩)
  · rintro (hc | hc)
    · obtain ⟨u, v, rfl⟩ := contains_iff.mp hc
      exact contains_iff.mpr ⟨u, v ++ sep :: b, by simp⟩
    · obtain ⟨u, v, rfl⟩ := contains_iff.mp hc
      exact contains_iff.mpr ⟨a ++ sep :: u, v, by simp⟩

theorem contains_join {sep : Char} {sub : Str} (h : sep ∉ sub) (hne : sub ≠ []) (l : List Str) :
    contains (join [sep] l) sub = true ↔ ∃ a ∈ l, contains a sub = true := by
  induction l with
  | nil =>
    constructor
    · intro hc
      obtain ⟨u, v, he⟩ := contains_iff.mp hc
      have := congrArg List.length he
      have h0 := List.length_pos_iff.mpr hne
      simp only [join, List.length_nil, List.length_append] at this
      omega
    · rintro ⟨a, ha, -⟩; cases ha
  | cons a l ih =>
    cases l with
    | nil => simp [join]
    | cons b l =>
      have e : join [sep] (a :: b :: l) = a ++ sep :: join [sep] (b :: l) := by simp [join]
      rw [e, contains_sep h, ih]
      simp

theorem set_self {h : Hdr} {k v : Str} (hk : canon k = k) : (h.set k v) k = [v] := by
  unfold Hdr.set; rw [hk, if_pos rfl]

theorem set_other {h : Hdr} {k k' v : Str} (hk : canon k = k) (hn : k' ≠ k) : (h.set k v) k' = h k' := by
  unfold Hdr.set; rw [hk, if_neg hn]

/-- C66: for every list of Accept-Encoding values there is one Content-Length, the number of bytes
written, and one Content-Encoding that says what was done to the JSON text: gzip if a value contains
"gzip", nothing otherwise. -/
theorem C66_truthful (e : RespEnv) (id version : Str) (seed : Nat) (ae : List Str) :
    let y := aboutHandler e id version seed ae
    ∃ text hello i v, Json.parse text = some [("j8a".toList, .str hello), ("ServerID".toList, .str i),
        ("Version".toList, .str v)] ∧ (∀ cs, id = utf8 cs → i = cs) ∧ (∀ cs, version = utf8 cs → v = cs) ∧
      y.status = 200 ∧
      y.header "Content-Type".toList = ["application/json".toList] ∧
      y.header "Content-Length".toList = [natToDec y.body.length] ∧
      (codingOf (y.header "Content-Encoding".toList) = .gzip ∧ (∃ a ∈ ae, contains a "gzip".toList = true) ∧
          y.body = e.codec.enc (strBytes (utf8 text)) ∨
       codingOf (y.header "Content-Encoding".toList) = .identity ∧
          (∀ a ∈ ae, contains a "gzip".toList = false) ∧ y.body = strBytes (utf8 text)) := by
  obtain ⟨text, hello, i, v, h1, h2, h3, h4⟩ := aboutJson_spec id version seed
  have hj : contains (join [' '] ae) "gzip".toList = true ↔ ∃ a ∈ ae, contains a "gzip".toList = true :=
    contains_join (by decide) (by decide) ae
  have c1 : canon "Content-Length".toList = "Content-Length".toList := canon_cl
  have c2 : canon "Content-Encoding".toList = "Content-Encoding".toList := canon_ce
  have c3 : canon "Content-Type".toList = "Content-Type".toList := canon_ct
  have n1 : "Content-Encoding".toList ≠ "Content-Length".toList := by decide
  have n2 : "Content-Type".toList ≠ "Content-Length".toList := by decide
  have n3 : "Content-Type".toList ≠ "Content-Encoding".toList := by decide
  refine ⟨text, hello, i, v, h2, h3, h4, ?_⟩
  unfold aboutHandler
  rw [h1]
  have hg : codingOf ["gzip".toList] = .gzip := by decide
  have hi : codingOf ["identity".toList] = .identity := by decide
  by_cases hc : contains (join [' '] ae) "gzip".toList = true
  · obtain ⟨a, ha, hac⟩ := hj.mp hc
    have hl : 0 < ae.length := List.length_pos_of_mem ha
    rw [if_pos hl, if_pos hc]
    refine ⟨rfl, ?_, ?_, .inl ⟨?_, ⟨a, ha, hac⟩, rfl⟩⟩
    · (dsimp only; rw [set_other c1 n2, set_other c2 n3, set_self c3])
    · (dsimp only; rw [set_self c1])
    · (dsimp only; rw [set_other c1 n1, set_self c2, hg])
  · have hno : ∀ a ∈ ae, contains a "gzip".toList = false := by
      intro a ha
      cases h : contains a "gzip".toList with
      | false => rfl
      | true => exact absurd (hj.mpr ⟨a, ha, h⟩) hc
    dsimp only
    rw [if_neg hc]
    split <;> refine ⟨rfl, ?_, ?_, .inr ⟨?_, hno, rfl⟩⟩
    all_goals first
      | (dsimp only; rw [set_other c1 n2, set_other c2 n3, set_self c3])
      | (dsimp only; rw [set_self c1])
      | (dsimp only; rw [set_other c1 n1, set_self c2, hi])

/-- C66: what the client decodes is the JSON text, and net/http delivers all bytes written. -/
theorem C66_delivered (e : RespEnv) (hl : e.codec.Lossless) (id version : Str) (seed : Nat) (ae : List Str)
    (method : Str) (hm : method ≠ "HEAD".toList) :
    let y := aboutHandler e id version seed ae
    entity e.codec (codingOf (y.header "Content-Encoding".toList)) (deliveredBody method y) =
      (.identity, strBytes (aboutJson id version seed)) := by
  have hb : ∀ y : Sent, y.status = 200 → y.header "Content-Length".toList = [natToDec y.body.length] →
      deliveredBody method y = y.body := by
    intro y h1 h2
    unfold deliveredBody
    rw [if_neg (by rw [h1]; rintro (h | h | h | h); exact hm h; all_goals omega)]
    have : y.header.get "Content-Length".toList = natToDec y.body.length := by
      unfold Hdr.get; rw [canon_cl, h2]; rfl
    rw [this, atoi_natToDec]
    split
    · rename_i n hn
      split at hn
      · cases hn; rw [if_neg (by omega)]
      · cases hn
    · rfl
  obtain ⟨text, hello, i, v, h1, -⟩ := aboutJson_spec id version seed
  obtain ⟨text', hello', i', v', -, -, -, g1, -, g2, -⟩ := C66_truthful e id version seed ae
  intro y
  rw [hb y g1 g2]
  have c1 : canon "Content-Length".toList = "Content-Length".toList := canon_cl
  have c2 : canon "Content-Encoding".toList = "Content-Encoding".toList := canon_ce
  have n1 : "Content-Encoding".toList ≠ "Content-Length".toList := by decide
  have hg : codingOf ["gzip".toList] = .gzip := by decide
  have hi : codingOf ["identity".toList] = .identity := by decide
  show entity e.codec (codingOf ((aboutHandler e id version seed ae).header "Content-Encoding".toList))
    (aboutHandler e id version seed ae).body = _
  unfold aboutHandler
  split
  · split
    · dsimp only; rw [set_other c1 n1, set_self c2, hg]; simp only [entity, hl.roundtrip]
    · dsimp only; rw [set_other c1 n1, set_self c2, hi]; rfl
  · dsimp only; rw [set_other c1 n1, set_self c2, hi]; rfl

/-- Two header lines, one of which mentions gzip. -/
example : (aboutHandler Demo.setup.respEnv "id".toList "v0.7.2".toList 3
    ["br".toList, "deflate, gzip".toList]).header "Content-Encoding".toList = ["gzip".toList] ∧
    (aboutHandler Demo.setup.respEnv "id".toList "v0.7.2".toList 3 []).body =
      strBytes "{\"j8a\":\"Chuba!\",\"ServerID\":\"id\",\"Version\":\"v0.7.2\"}".toList := by
  decide +kernel

end J8a
