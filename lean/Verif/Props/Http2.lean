import Verif.Go.Http2
import Verif.Props.Handshake
import Verif.Props.Server
/-!
# C120 and C121 — HTTP/2
-/
namespace J8a
open Go

/-- C120: the listener starts with the suites it sets, and a client that offers HTTP/2 is served HTTP/2 on
every connection that comes about, whatever else it offers and in which order; another client is served
HTTP/1. No connection is refused after the handshake. -/
theorem C120_protocol :
    configureHttp2 listenerTls = true ∧
    ∀ (key : KeyType) (aes : Bool) (sign : Nat → Bool) (h : Hello) (offered : List String) (s : Session),
      listenerTls.negotiate key aes sign h = some s →
      protocol s offered = if "h2" ∈ offered then .http2 else .http1 := by
  refine ⟨by decide +kernel, ?_⟩
  intro key aes sign h offered s hs
  have hst := C103_strong key aes sign h s hs
  have hgood : ∀ i ∈ strongSuites, isBadCipher i = false := by decide +kernel
  have hv : ¬ s.version < tls12 := by
    rcases hst.1 with h | h <;> rw [h] <;> decide
  have hb : isBadCipher s.suite = false := by
    refine hgood _ ?_
    exact hst.2.1
  have hm : mutualProtocol offered = "h2" ↔ "h2" ∈ offered := by
    unfold mutualProtocol nextProtos
    by_cases h1 : "h2" ∈ offered
    · simp [h1]
    · by_cases h2 : "http/1.1" ∈ offered <;> simp [List.find?, h1, h2]
  unfold protocol
  by_cases h1 : "h2" ∈ offered
  · rw [if_pos (hm.2 h1), if_neg hv, hb, if_pos h1]; rfl
  · rw [if_neg (mt hm.1 h1), if_neg h1]

/-- A browser. -/
example : (listenerTls.negotiate .rsa true (fun _ => true)
      { vers := tls12, supportedVersions := [tls13, tls12], suites := [0x1301, 0xc02f], curves := [29, 23], keyShares := [29] }).map
    (protocol · ["h2", "http/1.1"]) = some .http2 := by decide +kernel

/-- Without the suite 0xc02f the listener would not start, nor with one that is not approved before it. -/
example : configureHttp2 { listenerTls with cipherSuites := [0x1302, 0xc030] } = false ∧
    configureHttp2 { listenerTls with cipherSuites := [0x1302, 0xc014, 0xc02f] } = false ∧
    configureHttp2 { listenerTls with cipherSuites := [0x1302, 0xc02f, 0xc014] } = true := by decide +kernel

/-! ## C121 -/

/-- What holds of the streams of a connection. -/
def H2Conn.Timely (writeTimeout : Int) (c : H2Conn) : Prop :=
  (∀ s ∈ c.streams, ∀ t, s.finished = some t → s.opened ≤ t ∧ (writeTimeout = 0 ∨ t < s.opened + writeTimeout)) ∧
  c.streams.Pairwise (fun a b => b.id < a.id) ∧ ∀ s ∈ c.streams, s.opened ≤ c.now

theorem stream_unique {l : List H2Stream} (h : l.Pairwise (fun a b => b.id < a.id)) {a b : H2Stream} (ha : a ∈ l)
    (hb : b ∈ l) (he : a.id = b.id) : a = b := by
  induction h with
  | nil => cases ha
  | cons hx _ ih =>
    rcases List.mem_cons.1 ha with rfl | ha' <;> rcases List.mem_cons.1 hb with rfl | hb'
    · rfl
    · have := hx b hb'; omega
    · have := hx a ha'; omega
    · exact ih ha' hb'

theorem H2Conn.Timely.step {rt wt : Int} {c c' : H2Conn} {a : H2Act} (h : H2Conn.Timely wt c)
    (hs : c.step rt wt a = some c') : H2Conn.Timely wt c' := by
  obtain ⟨h1, h2, h3⟩ := h
  cases a with
  | wait d =>
    cases hs
    exact ⟨h1, h2, fun s hs => by have := h3 s hs; show s.opened ≤ c.now + d; omega⟩
  | data id =>
    simp only [H2Conn.step] at hs
    split at hs
    · cases hs; exact ⟨h1, h2, h3⟩
    · cases hs
  | headers id =>
    simp only [H2Conn.step] at hs
    split at hs
    · rename_i hc
      cases hs
      simp only [Bool.and_eq_true, List.all_eq_true, decide_eq_true_eq] at hc
      refine ⟨?_, List.pairwise_cons.2 ⟨fun b hb => hc.2 b hb, h2⟩, ?_⟩
      · intro s hs t ht
        rcases List.mem_cons.1 hs with rfl | hs
        · cases ht
        · exact h1 s hs t ht
      · intro s hs
        rcases List.mem_cons.1 hs with rfl | hs
        · exact Int.le_refl _
        · exact h3 s hs
    · cases hs
  | finish id =>
    simp only [H2Conn.step] at hs
    split at hs
    · rename_i hc
      cases hs
      simp only [Bool.and_eq_true] at hc
      obtain ⟨s0, hs0, hok⟩ := List.any_eq_true.1 hc.2
      simp only [Bool.and_eq_true, beq_iff_eq] at hok
      obtain ⟨⟨hid, -⟩, halive⟩ := hok
      have huniq : ∀ s ∈ c.streams, s.id = id → s = s0 := by
        intro s hs he
        exact stream_unique h2 hs hs0 (he.trans hid.symm)
      refine ⟨?_, ?_, ?_⟩
      · intro s hs t ht
        obtain ⟨s', hs', rfl⟩ := List.mem_map.1 hs
        split at ht
        · rename_i he
          rw [if_pos he]
          have := huniq s' hs' he
          cases ht
          refine ⟨h3 s' hs', ?_⟩
          rw [← this] at halive
          simpa [H2Conn.alive] using halive
        · rename_i he
          rw [if_neg he]
          exact h1 s' hs' t ht
      · rw [List.pairwise_map]
        refine h2.imp ?_
        intro a b hab
        split <;> split <;> exact hab
      · intro s hs
        obtain ⟨s', hs', rfl⟩ := List.mem_map.1 hs
        split
        · exact h3 s' hs'
        · exact h3 s' hs'
    · cases hs

theorem H2Conn.Timely.run {rt wt : Int} {as : List H2Act} : ∀ {c c' : H2Conn}, H2Conn.Timely wt c →
    c.run rt wt as = some c' → H2Conn.Timely wt c' := by
  induction as with
  | nil => intro c c' h hr; cases hr; exact h
  | cons a as ih =>
    intro c c' h hr
    obtain ⟨c1, h1, h2⟩ := Option.bind_eq_some_iff.1 hr
    exact ih (h.step h1) h2

/-- C121, part: over HTTP/2 a request is complete within the write timeout after its headers, in every
execution of a connection. -/
theorem C121_http2_partial (d : Downstream) (hw : d.setDefaults.writeTimeout ≠ 0) (as : List H2Act) (c : H2Conn)
    (h : (H2Conn.accept d.setDefaults.readTimeout).run d.setDefaults.readTimeout d.setDefaults.writeTimeout as =
      some c) :
    ∀ s ∈ c.streams, ∀ t, s.finished = some t → s.opened ≤ t ∧ t < s.opened + d.setDefaults.writeTimeout := by
  have h0 : H2Conn.Timely d.setDefaults.writeTimeout (H2Conn.accept d.setDefaults.readTimeout) :=
    ⟨fun s hs => (nomatch hs), .nil, fun s hs => (nomatch hs)⟩
  intro s hs t ht
  obtain ⟨h1, h2⟩ := (h0.run h).1 s hs t ht
  exact ⟨h1, h2.resolve_left hw⟩

/-- C121, part, in numbers: one second more than the configured round trip timeout. -/
theorem C121_seconds_partial (d : Downstream) (h1 : 0 ≤ d.roundTripTimeoutSeconds)
    (h2 : d.roundTripTimeoutSeconds ≤ 9223372035) (as : List H2Act) (c : H2Conn)
    (h : (H2Conn.accept d.setDefaults.readTimeout).run d.setDefaults.readTimeout d.setDefaults.writeTimeout as =
      some c) :
    ∀ s ∈ c.streams, ∀ t, s.finished = some t →
      t < s.opened + (d.setDefaults.roundTripTimeoutSeconds + 1) * second := by
  have hm := C63_one_second_more_partial d (by omega) h2
  have hd := (C10_downstream_defaults d).2.1
  have hp : 0 ≤ d.setDefaults.roundTripTimeoutSeconds := by rw [hd]; split <;> omega
  intro s hs t ht
  have := (C121_http2_partial d (by omega) as c h s hs t ht).2
  unfold second
  omega

/-- C121, part: over HTTP/1 a request is complete within the read timeout. -/
theorem C121_http1_partial (d : Downstream) (h : d.setDefaults.readTimeout ≠ 0) (t : Int)
    (ht : d.setDefaults.bodyMayTake t) : t < d.setDefaults.readTimeout := ht.2 h

/-- C121 fails over HTTP/2: with every read timeout, a body may take any time below the write timeout. -/
theorem C121_violated_always (d : Downstream) (hr : 0 < d.setDefaults.readTimeout) (t : Nat)
    (ht : (t : Int) < d.setDefaults.writeTimeout) :
    ∃ as c, (H2Conn.accept d.setDefaults.readTimeout).run d.setDefaults.readTimeout d.setDefaults.writeTimeout as =
      some c ∧ ∃ s ∈ c.streams, s.opened = 0 ∧ s.finished = some (t : Int) := by
  refine ⟨[.headers 1, .wait t, .finish 1],
    { now := t, readDeadline := none, streams := [⟨1, 0, some t⟩] }, ?_, _, List.mem_cons_self, rfl, rfl⟩
  have hr0 : d.setDefaults.readTimeout ≠ 0 := by omega
  simp [H2Conn.run, H2Conn.step, H2Conn.accept, H2Conn.readable, H2Conn.open, H2Conn.alive, hr0, hr, ht]

/-- C121 fails: with the defaults a client has 120 seconds, but over HTTP/2 a body may take 240. -/
theorem C121_violated : ({} : Downstream).setDefaults.readTimeout = 120 * second ∧
    ∃ as c, (H2Conn.accept (120 * second)).run (120 * second) ({} : Downstream).setDefaults.writeTimeout as = some c ∧
      ∃ s ∈ c.streams, s.opened = 0 ∧ s.finished = some (240 * second) :=
  ⟨by decide, [.headers 1, .wait 120000000000, .data 1, .wait 120000000000, .finish 1], _, rfl, _,
    List.mem_cons_self, by decide, by decide⟩

/-- A request that is not complete in time: its stream has been reset. -/
example : (H2Conn.accept 5).run 5 10 [.headers 1, .wait 4, .headers 3, .wait 6, .finish 1] = none ∧
    ((H2Conn.accept 5).run 5 10 [.headers 1, .wait 4, .headers 3, .wait 6, .finish 3]).isSome = true ∧
    (H2Conn.accept 5).run 5 10 [.wait 5, .headers 1] = none := by decide

end J8a
