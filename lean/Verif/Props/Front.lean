import Verif.Model.About
import Verif.Model.Front
import Verif.Props.Redirect
import Verif.Props.Responses
import Verif.Props.Requests
import Verif.Props.Server
/-!
# C153: every response names the gateway and the request
-/
namespace J8a
open Go

variable {K : Type}

/-- The headers by which a response of the gateway can be known: its name, the id of the request, and over TLS the demand to
stay there. -/
structure Named (h : Hdr) (server id : Str) (tls : Bool) : Prop where
  server : h "Server".toList = [server]
  request : (h "X-Request-Id".toList).head? = some id
  transport : tls = true → (h "Strict-Transport-Security".toList).head? = some "max-age=31536000".toList

/-- C153, in part: every response of the handler for proxied requests, under every schedule. -/
theorem C153_proxy_partial (x : Setup K) (s : St) (h : x.Reaches s) (y : Sent) (hy : y ∈ s.sent) :
    Named y.header ("j8a ".toList ++ x.sv.version ++ " ".toList ++ x.sv.id) (requestId x.sv.id x.uuid x.rq)
      x.c.connection.downstream.isTLSMode := by
  obtain ⟨h1, up, -, h2⟩ := C42_identity_headers x s h y hy
  obtain ⟨rest, h3⟩ := (C32_request_id x s h).2 y hy
  refine ⟨h1, by rw [h3]; rfl, fun ht => ?_⟩
  rw [h2, if_pos ht]
  rfl

/-- One answer over TLS, with the request id of the client. -/
example : (Demo.exec Demo.tlsSetup (Demo.success Demo.ok)).map (fun s => s.sent.map fun y =>
      (y.header "Server".toList, (y.header "X-Request-Id".toList).length, y.header "Strict-Transport-Security".toList)) =
    some [(["j8a v1 abc".toList], 1, ["max-age=31536000".toList])] := by
  decide +kernel

/-- C153, in part: every response of the handler for about. -/
theorem C153_about_partial (e : RespEnv) (id version : Str) (seed : Nat) (ae : List Str) :
    Named (aboutHandler e id version seed ae).header e.server e.xrid e.tls := by
  have hk : ∀ k, k ≠ "Content-Length".toList → k ≠ "Content-Encoding".toList → k ≠ "Content-Type".toList →
      (aboutHandler e id version seed ae).header k = writeStandardResponseHeaders e Hdr.empty k := by
    intro k n1 n2 n3
    unfold aboutHandler
    dsimp only
    split
    · split <;> (dsimp only; rw [set_other canon_cl n1, set_other canon_ce n2, set_other canon_ct n3])
    · dsimp only; rw [set_other canon_cl n1, set_other canon_ce n2, set_other canon_ct n3]
  refine ⟨?_, ?_, fun ht => ?_⟩
  · rw [hk _ (by decide) (by decide) (by decide), std_server]
  · rw [hk _ (by decide) (by decide) (by decide), show "X-Request-Id".toList = xRequestID by decide, std_xrid]; rfl
  · rw [hk _ (by decide) (by decide) (by decide), std_sts, if_pos ht]; rfl

/-- C153, in part: which requests the handlers get. Everything else is answered by `net/http`. -/
theorem C153_handled_iff {routes : List Route} {x : Mux} (hx : mapPathsToHandler routes = some x)
    (method target user : Str) (hm : method ≠ "CONNECT".toList) :
    (∀ st hd, front x method target user ≠ .library st hd) ↔
      target ≠ ['*'] ∧ ∃ u, requestUrl method target = some u ∧ canonicalPath u.path = u.path ∧
        ¬ GainsSlash (aboutPaths routes) u.path := by
  unfold front
  cases hu : requestUrl method target with
  | none => simp
  | some u =>
    simp only [Option.some.injEq, exists_eq_left']
    by_cases ht : target = ['*']
    · subst ht
      have : x.serve method ['*'] u.path = .badRequest := by unfold Mux.serve; rw [if_pos rfl]
      rw [this]
      simp
    · obtain ⟨h1, h2, h3, h4⟩ := C65_answer hx method target u.path ht hm
      by_cases hg : GainsSlash (aboutPaths routes) (canonicalPath u.path)
      · rw [h1 hg]
        constructor
        · intro h; exact absurd rfl (h _ _)
        · rintro ⟨-, hc, hn⟩
          rw [hc] at hg
          exact absurd hg hn
      · by_cases hc : canonicalPath u.path = u.path
        · have hg' := hg
          rw [hc] at hg'
          by_cases ha : u.path ∈ aboutPaths routes ∨ Under (aboutPaths routes) u.path
          · rw [h3 hg hc ha]
            simp [ht, hc, hg']
          · rw [h4 hg hc ha]
            simp [ht, hc, hg']
        · rw [h2 hg hc]
          constructor
          · intro h; exact absurd rfl (h _ _)
          · rintro ⟨-, hc', -⟩
            exact absurd hc' hc

/-- Handled: `/about/` and `/x`. Not handled: `/about`, `//x` and `*`. -/
example : (["/about/", "/x", "/about", "//x", "*", "x y"].map fun t =>
      match front Demo.aboutMux "GET".toList t.toList [] with
      | .library st _ => st
      | .about => 1
      | .proxy => 2) = [1, 2, 301, 301, 400, 400] := by
  decide +kernel

/-- C153 as stated fails: none of the answers that `net/http` writes for the gateway has any of the three headers. -/
theorem C153_violated_always (x : Mux) (method target user : Str) (st : Nat) (hd : Hdr)
    (h : front x method target user = .library st hd) :
    hd "Server".toList = [] ∧ hd "X-Request-Id".toList = [] ∧ hd "Strict-Transport-Security".toList = [] := by
  have key : ∀ (h : Hdr) (k : Str) (v : Str), canon k = k → k ∉ ["Server".toList, "X-Request-Id".toList, "Strict-Transport-Security".toList] →
      (h "Server".toList = [] ∧ h "X-Request-Id".toList = [] ∧ h "Strict-Transport-Security".toList = []) →
      ((h.set k v) "Server".toList = [] ∧ (h.set k v) "X-Request-Id".toList = [] ∧
        (h.set k v) "Strict-Transport-Security".toList = []) := by
    intro h k v hc hk h0
    simp only [List.mem_cons, List.not_mem_nil, or_false, not_or] at hk
    unfold Hdr.set
    rw [hc]
    rw [if_neg (fun e => hk.1 e.symm), if_neg (fun e => hk.2.1 e.symm), if_neg (fun e => hk.2.2 e.symm)]
    exact h0
  have h0 : Hdr.empty "Server".toList = [] ∧ Hdr.empty "X-Request-Id".toList = [] ∧
      Hdr.empty "Strict-Transport-Security".toList = [] := ⟨rfl, rfl, rfl⟩
  have ct := fun h v => key h "Content-Type".toList v (by decide) (by decide)
  have hl : ∀ m l, redirectHeader m l "Server".toList = [] ∧ redirectHeader m l "X-Request-Id".toList = [] ∧
      redirectHeader m l "Strict-Transport-Security".toList = [] := by
    intro m l
    have := key Hdr.empty "Location".toList l (by decide) (by decide) h0
    unfold redirectHeader
    split
    · exact ct _ _ this
    · exact this
  unfold front at h
  split at h
  · cases h; exact ct _ _ h0
  · split at h
    · cases h; exact h0
    · cases h; exact key _ _ _ (by decide) (by decide) (ct _ _ h0)
    · cases h; exact hl _ _
    · cases h
    · cases h

/-- C153 as stated fails: over TLS, the client of a request for about without the slash is redirected without being told
to stay with TLS. -/
theorem C153_violated : ∃ routes x hd, mapPathsToHandler routes = some x ∧
    front x "GET".toList "/about".toList [] = .library 301 hd ∧ hd "Location".toList = ["/about/".toList] ∧
    ∀ server id, ¬ Named hd server id true := by
  refine ⟨Demo.aboutRoutes, Demo.aboutMux, redirectHeader "GET".toList "/about/".toList, Demo.aboutMux_eq, ?_, by decide, ?_⟩
  · have h1 : requestUrl "GET".toList "/about".toList = some { path := "/about".toList } := by decide +kernel
    have h2 : Demo.aboutMux.serve "GET".toList "/about".toList "/about".toList = .moved "/about/".toList := by
      decide +kernel
    have h3 : redirectLocation [] ((movedUrl Demo.aboutMux { path := "/about".toList } "/about/".toList).string []) =
        "/about/".toList := by decide +kernel
    unfold front
    rw [h1]
    simp only
    rw [h2]
    simp only
    rw [h3]
  · intro server id hn
    have := hn.server
    rw [show redirectHeader "GET".toList "/about/".toList "Server".toList = [] by decide] at this
    cases this

end J8a
