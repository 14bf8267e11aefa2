import Verif.Props.Target
import Verif.Lemmas.UrlOk
/-!
# C92: request targets that crash their handler

`http.NewRequestWithContext` returns no request when the URL does not parse; proxyhandler.go:118-130 ignores
the error and uses the request.
-/
namespace J8a
open Go Uri

variable {K : Type}

/-- An attempt is only set up for requests that are forwarded, always to the same URL. -/
theorem scaffold_of_reaches {x : Setup K} {s : St} (h : x.Reaches s) (hpc : s.pc = .scaffold) :
    ∃ r u l, x.dec = .forward r u l ∧ x.env.route = r ∧ s.curA.url = u := by
  obtain ⟨as, h⟩ := h
  cases hd : x.dec with
  | forward r u l =>
    have hi := run_invariant (P := CallInv x.env u) (fun s a s' hi hs => hi.step hs)
      (s := initial x.dec) (by rw [hd]; constructor <;> simp [initial, St.cur]) h
    exact ⟨r, u, l, rfl, by unfold Setup.env; simp only [hd], hi.url _ (cur_lt hi.pos)⟩
  | respond code msg =>
    exfalso
    have := run_invariant (P := fun s =>
      s.pc = .sendJson code msg ∨ s.pc = .log1 ∨ s.pc = .log2 ∨ s.pc = .done ∨ s.pc = .panicked) (fun s a s' hi hs => by
        cases a <;> step_cases hs <;> simp_all) (s := initial x.dec) (by simp [hd, initial]) h
    simp [hpc] at this
  | panic =>
    exfalso
    have := run_invariant (P := fun s => s.pc = .panicked)
      (fun s a s' hi hs => by
        cases a <;> step_cases hs <;> simp_all) (s := initial x.dec) (by simp [hd, initial]) h
    rw [hpc] at this
    cases this

/-- The URL of a forwarded request: base, path, query. -/
theorem forwarded_wire {x : Setup K} (hh : PlainHosts x.c) {u0 : Url} (hf : x.rq.From u0)
    (hb : ∀ c ∈ x.rq.requestURI, c.toNat < 256) (hs : x.rq.requestURI.head? = some '/')
    {r : Route} {u : URL} {l : Str} (hd : x.dec = .forward r u l) :
    (u.scheme = "http".toList ∨ u.scheme = "https".toList) ∧ HostName u.host ∧ r ∈ x.c.routes ∧
      ∃ p q, WirePath p ∧ RawQuery q ∧ x.rq.uri = p ++ q ∧ q = x.rq.requestURI.dropWhile (· ≠ '?') := by
  obtain ⟨-, -, hdi, -, hm⟩ := decision_forward hd
  obtain ⟨ms, hms, m, hmm, hmu, -⟩ := C07_mapped_sound _ _ _ _ _ _ hm
  obtain ⟨h1, h2⟩ := hh _ _ hms m hmm
  rw [hmu] at h1 h2
  have hu := hf.url
  rw [requestUrl_slash hs] at hu
  obtain ⟨p, q, hp, hq, he, hq'⟩ := target_wire hb hs hu
  exact ⟨h1, h2, List.mem_of_find?_eq_some hdi, p, q, hp, hq, by rw [hf.uri, he], hq'⟩

theorem mem_dropWhile {c : Char} {P : Char → Bool} {s : Str} (h : c ∈ s.dropWhile P) : c ∈ s :=
  (List.dropWhile_suffix P).mem h

/-- C92: with plain routes and hosts and transforms that are paths, no target crashes its handler where the
upstream request is made, if it starts with a slash and has no `#`. Full statement: no target that `net/http`
accepts does; missing: targets with `#` in the query (`C92_violated`, `C92_exact`), and the transform `/`
(`C92_violated_root`). -/
theorem C92_built_partial (x : Setup K) (s s' : St) (c : Choice) (h : x.Reaches s)
    (hok : x.sv.uriOk = newRequestOk)
    (hr : ∀ r ∈ x.c.routes, PlainRoute r) (hh : PlainHosts x.c)
    (ht : ∀ r ∈ x.c.routes, r.transform = [] ∨ pathText r.transform = true ∧ ∃ t, r.transform = '/' :: t ∧ t ≠ [])
    (u0 : Url) (hf : x.rq.From u0) (hb : ∀ c ∈ x.rq.requestURI, c.toNat < 256)
    (hs : x.rq.requestURI.head? = some '/') (hfr : '#' ∉ x.rq.requestURI)
    (hpc : s.pc = .scaffold) (hst : stepMain x.env s c = some s') : s'.pc = .selHeader := by
  obtain ⟨r, u, l, hd, hrt, hurl⟩ := scaffold_of_reaches h hpc
  obtain ⟨h1, h2, hmem, p, q, hp, hq, huri, hq'⟩ := forwarded_wire hh hf hb hs hd
  have hqf : '#' ∉ q := fun hm => hfr (mem_dropWhile (hq' ▸ hm))
  have hall : ∀ {q : Str}, '#' ∉ q → escapesOk (q.dropWhile (· ≠ '#')) = true := by
    intro q hq
    rw [dropWhile_all]
    · rfl
    · intro d hd
      simp only [decide_eq_true_eq]
      rintro rfl
      exact hq hd
  have hgood : newRequestOk (resolveUpstreamURI u r x.rq.uri) = true := by
    unfold newRequestOk
    rcases ht r hmem with h0 | ⟨h3, t, h4, h5⟩
    · have : resolveUpstreamURI u r x.rq.uri = u.str ++ (p ++ q) := by simp [resolveUpstreamURI, h0, huri]
      rw [this]
      have := parse_wire h1 h2 u.port hp hq
      rw [hall hqf] at this
      exact this
    · obtain ⟨p', q', hp', hq', he, hn⟩ := replace_wire hp hq (hr r hmem).text
        (by obtain ⟨w, hw⟩ := (hr r hmem).slash; rw [hw]; rfl) h3 (by rw [h4]; rfl)
      have : resolveUpstreamURI u r x.rq.uri = u.str ++ (p' ++ q') := by
        unfold resolveUpstreamURI
        rw [if_pos (by rw [h4]; simp), if_neg (by rw [h4]; simpa using h5), huri]
        show u.str ++ replace1 (p ++ q) r.path r.transform = _
        rw [he]
      rw [this]
      have := parse_wire h1 h2 u.port hp' hq'
      rw [hall (hn hqf)] at this
      exact this
  simp only [stepMain, hpc] at hst
  rw [if_pos] at hst
  · obtain rfl := Option.some.inj hst; rfl
  · show x.sv.uriOk (resolveUpstreamURI s.curA.url x.env.route x.rq.uri) = true
    rw [hok, hrt, hurl]
    exact hgood

/-- C92, exactly: with routes that transform nothing, the handler crashes where the upstream request is made
precisely when what follows the first `#` in the query has a `%` that starts no encoded byte. -/
theorem C92_exact (x : Setup K) (s s' : St) (c : Choice) (h : x.Reaches s) (hok : x.sv.uriOk = newRequestOk)
    (hh : PlainHosts x.c) (ht : ∀ r ∈ x.c.routes, r.transform = [])
    (u0 : Url) (hf : x.rq.From u0) (hb : ∀ c ∈ x.rq.requestURI, c.toNat < 256)
    (hs : x.rq.requestURI.head? = some '/') (hpc : s.pc = .scaffold) (hst : stepMain x.env s c = some s') :
    s'.pc = .panicked ↔
      escapesOk ((x.rq.requestURI.dropWhile (· ≠ '?')).dropWhile (· ≠ '#')) = false := by
  obtain ⟨r, u, l, hd, hrt, hurl⟩ := scaffold_of_reaches h hpc
  obtain ⟨h1, h2, hmem, p, q, hp, hq, huri, hq'⟩ := forwarded_wire hh hf hb hs hd
  have hgood : newRequestOk (resolveUpstreamURI u r x.rq.uri) = escapesOk (q.dropWhile (· ≠ '#')) := by
    have : resolveUpstreamURI u r x.rq.uri = u.str ++ (p ++ q) := by simp [resolveUpstreamURI, ht r hmem, huri]
    unfold newRequestOk
    rw [this]
    exact parse_wire h1 h2 u.port hp hq
  have hcond : x.env.uriOk (scaffoldUpstreamRequest x.env.xrid x.env.pb x.env.rq x.env.route s.curA.url).uri =
      escapesOk (q.dropWhile (· ≠ '#')) := by
    show x.sv.uriOk (resolveUpstreamURI s.curA.url x.env.route x.rq.uri) = _
    rw [hok, hrt, hurl, hgood]
  simp only [stepMain, hpc] at hst
  rw [hcond] at hst
  rw [← hq']
  cases he : escapesOk (q.dropWhile (· ≠ '#')) with
  | true => rw [he, if_pos rfl] at hst; obtain rfl := Option.some.inj hst; simp
  | false => rw [he, if_neg (by simp)] at hst; obtain rfl := Option.some.inj hst; simp

/-- C92 fails for every route that transforms nothing: such a request never gets an answer, in no execution,
and the upstream is never called. -/
theorem C92_violated_always (x : Setup K) (s : St) (h : x.Reaches s) (hok : x.sv.uriOk = newRequestOk)
    (hh : PlainHosts x.c) (ht : ∀ r ∈ x.c.routes, r.transform = [])
    (u0 : Url) (hf : x.rq.From u0) (hb : ∀ c ∈ x.rq.requestURI, c.toNat < 256)
    (hs : x.rq.requestURI.head? = some '/') (r : Route) (u : URL) (l : Str) (hd : x.dec = .forward r u l)
    (hbad : escapesOk ((x.rq.requestURI.dropWhile (· ≠ '?')).dropWhile (· ≠ '#')) = false) :
    s.sent = [] ∧ s.calls = [] ∧ (s.pc = .scaffold ∨ s.pc = .panicked) := by
  obtain ⟨as, h⟩ := h
  have hi := run_invariant (e := x.env) (P := fun s => x.Reaches s ∧ s.sent = [] ∧ s.calls = [] ∧
      (s.pc = .scaffold ∨ s.pc = .panicked) ∧ ∀ k, (s.atmpt k).hg = .idle ∧ (s.atmpt k).bg = .idle)
    (fun s a s' hi hst => by
      obtain ⟨⟨as, hr⟩, h1, h2, h3, h4⟩ := hi
      have hr' : x.Reaches s' := ⟨as ++ [a], by rw [run_append hr, run, hst]; rfl⟩
      refine ⟨hr', ?_⟩
      by_cases ha : ∃ c, a = .main c
      · obtain ⟨c, rfl⟩ := ha
        rcases h3 with h3 | h3
        · have hp := (C92_exact x s s' c ⟨as, hr⟩ hok hh ht u0 hf hb hs h3 hst).mpr hbad
          simp only [step, stepMain, h3] at hst
          split at hst
          · obtain rfl := Option.some.inj hst
            cases hp
          · obtain rfl := Option.some.inj hst
            refine ⟨h1, h2, .inr rfl, ?_⟩
            intro k
            simp only [upd_atmpt]
            split <;> exact h4 k
        · simp [step, stepMain, h3] at hst
      · cases a with
        | main c => exact absurd ⟨c, rfl⟩ ha
        | dwnTimer => simp only [step, stepOther] at hst; obtain rfl := Option.some.inj hst; exact ⟨h1, h2, h3, h4⟩
        | atmptTimer i =>
          simp only [step, stepOther] at hst
          split at hst
          · obtain rfl := Option.some.inj hst
            refine ⟨h1, h2, h3, ?_⟩
            intro k
            simp only [upd_atmpt]
            split <;> exact h4 k
          · cases hst
        | hgCall i => simp [step, stepOther, (h4 i).1] at hst
        | hgReturn i r => simp [step, stepOther, (h4 i).1] at hst
        | hgWrite i => simp [step, stepOther, (h4 i).1] at hst
        | hgClose i => simp [step, stepOther, (h4 i).1] at hst
        | bgStatus i => simp [step, stepOther, (h4 i).2] at hst
        | bgRead i f => simp [step, stepOther, (h4 i).2] at hst
        | bgGzip i => simp [step, stepOther, (h4 i).2] at hst
        | bgClose i => simp [step, stepOther, (h4 i).2] at hst)
    (s := initial x.dec)
    (by
      refine ⟨⟨[], rfl⟩, ?_⟩
      rw [hd]
      refine ⟨rfl, rfl, .inl rfl, ?_⟩
      intro k
      simp only [initial]
      split <;> exact ⟨rfl, rfl⟩) h
  exact ⟨hi.2.1, hi.2.2.1, hi.2.2.2.1⟩

/-- Did the handler panic? -/
def St.crashed (s : St) : Bool := match s.pc with | .panicked => true | _ => false

theorem crashed_pc {s : St} (h : s.crashed = true) : s.pc = .panicked := by
  unfold St.crashed at h
  split at h
  · assumption
  · cases h

/-- The hypotheses hold and the crash happens: `GET /a?x#%zz`. -/
theorem C92_violated : (∃ u, (Demo.targeted "" "/a?x#%zz").rq.From u) ∧
    (∃ r u l, (Demo.targeted "" "/a?x#%zz").dec = .forward r u l) ∧
    ∃ s, (Demo.targeted "" "/a?x#%zz").Reaches s ∧ s.pc = .panicked ∧ s.sent = [] := by
  refine ⟨Demo.targeted_from (by decide +kernel), ⟨Demo.route, Demo.url, "default".toList, by decide +kernel⟩, ?_⟩
  obtain ⟨s, h1, h2⟩ := Demo.of_check (x := Demo.targeted "" "/a?x#%zz") (as := [Demo.go])
    (p := fun s => s.crashed && s.sent.isEmpty) (by decide +kernel)
  simp only [Bool.and_eq_true, List.isEmpty_iff] at h2
  exact ⟨s, Demo.reaches h1, crashed_pc h2.1, h2.2⟩

/-- With the transform `/` the target `/ab` crashes its handler: the port becomes `80b`. -/
theorem C92_violated_root : OriginForm "/ab".toList ∧ (∃ u, (Demo.targeted "/" "/ab").rq.From u) ∧
    ∃ s, (Demo.targeted "/" "/ab").Reaches s ∧ s.pc = .panicked ∧ s.sent = [] := by
  refine ⟨⟨"ab".toList, by decide +kernel, .inl rfl⟩, Demo.targeted_from (by decide +kernel), ?_⟩
  obtain ⟨s, h1, h2⟩ := Demo.of_check (x := Demo.targeted "/" "/ab") (as := [Demo.go])
    (p := fun s => s.crashed && s.sent.isEmpty) (by decide +kernel)
  simp only [Bool.and_eq_true, List.isEmpty_iff] at h2
  exact ⟨s, Demo.reaches h1, crashed_pc h2.1, h2.2⟩

/-- The hypotheses of `C92_built_partial`, and one that must be escaped anew before it is sent on. -/
example : Demo.check (Demo.targeted "/z" "/a/\"x/a?q=/a") (Demo.success Demo.ok)
      (fun s => s.calls.map (fun p => p.2.uri) == ["http://up:80/z/%22x/a?q=/a".toList]) = true ∧
    (∀ r ∈ (Demo.targeted "/z" "/a/\"x/a?q=/a").c.routes, PlainRoute r) ∧
    PlainHosts (Demo.targeted "/z" "/a/\"x/a?q=/a").c ∧ pathText "/z".toList = true ∧
    (∃ u, (Demo.targeted "/z" "/a/\"x/a?q=/a").rq.From u) ∧ '#' ∉ "/a/\"x/a?q=/a".toList :=
  ⟨by decide +kernel, (Demo.targeted_plain _ _).1, (Demo.targeted_plain _ _).2.1, by decide +kernel,
    Demo.targeted_from (by decide +kernel), by decide +kernel⟩

end J8a
