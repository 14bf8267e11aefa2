import Verif.Lemmas.Words
import Verif.Lemmas.Zerolog
import Verif.Props.Iprex
import Verif.Props.Crash
/-!
# C117 to C119 — what is in the log
-/
namespace J8a
open Go Iprex Rex

/-! ## C117 -/

theorem json_ne_nil (context : List (Str × ZVal)) (time : Str) (e : ZEvent) : e.json context time ≠ [] := by
  simp [ZEvent.json]

theorem console_ne_nil (quote : Str → Str) (srt) (context : List (Str × ZVal)) (clock : Str) (e : ZEvent) :
    e.console quote srt context clock ≠ [] := by
  simp [ZEvent.console]

theorem write_eq_nil (L : Logger) (time clock : Str) (e : ZEvent) :
    L.write time clock e = [] ↔ (logLevel L.level).should e.level = false := by
  unfold Logger.write
  split
  · rename_i h
    rw [h]
    split
    · simp [console_ne_nil]
    · simp [json_ne_nil]
  · rename_i h
    simpa using h

/-- The possible global levels. -/
theorem logLevel_cases (env : Str) : logLevel env = .trace ∨ logLevel env = .debug ∨ logLevel env = .info ∨
    logLevel env = .warn := by
  unfold logLevel
  repeat' split
  all_goals simp

theorem logLevel_trace (env : Str) : logLevel env = .trace ↔ toUpper env = "TRACE".toList := by
  unfold logLevel
  constructor
  · intro h
    split at h
    · assumption
    · repeat' split at h
      all_goals cases h
  · intro h
    rw [if_pos h]

theorem index_append (sub : Str) (rest : Str) : ∀ pre : Str, (index (pre ++ (sub ++ rest)) sub).isSome = true := by
  intro pre
  induction pre with
  | nil =>
    cases h : sub ++ rest with
    | nil =>
      have : sub = [] := (List.append_eq_nil_iff.1 h).1
      subst this
      rfl
    | cons c t =>
      rw [List.nil_append, index, ← h]
      simp [hasPrefix]
  | cons c pre ih =>
    rw [List.cons_append, index]
    split
    · rfl
    · simpa using ih

/-- C117, part: a failed handshake is logged, whatever LOGLEVEL is, as a warning. -/
theorem C117_logged (L : Logger) (time clock remote reason : Str) :
    (adapterEvent (handshakeMsg remote reason)).level = .warn ∧
    ("dwnReqRemoteAddr".toList, ZVal.str (extractAddr (handshakeMsg remote reason))) ∈
      (adapterEvent (handshakeMsg remote reason)).fields ∧
    L.write time clock (adapterEvent (handshakeMsg remote reason)) ≠ [] := by
  have h : contains (handshakeMsg remote reason) tlsHandshakeError = true := by
    have := index_append tlsHandshakeError (" from ".toList ++ remote ++ ": ".toList ++ reason ++ ['\n'])
      "http: ".toList
    unfold contains
    rw [← this]
    congr 2
  have hl : (adapterEvent (handshakeMsg remote reason)).level = .warn := by
    unfold adapterEvent
    rw [if_pos h]
  refine ⟨hl, by unfold adapterEvent; rw [if_pos h]; exact .tail _ (.head _), ?_⟩
  rw [Ne, write_eq_nil, hl]
  rcases logLevel_cases L.level with h | h | h | h <;> rw [h] <;> decide

theorem calm_digits {port : Str} (hp : ∀ x ∈ port, x.isDigit = true) (k : Nat) (s : Str)
    (h0 : port ≠ []) : calm k true (port ++ s) = calm k false s := by
  have hd : ∀ c : Char, c.isDigit = true → c ≠ '%' ∧ ¬ IsSeparator c ∧ c ≠ ':' ∧ c ≠ '.' := by
    intro c hc
    have hdig := digit_not_colon hc
    refine ⟨hdig.2.2, ?_, hdig.1, hdig.2.1⟩
    have : 48 ≤ c.toNat ∧ c.toNat ≤ 57 := by
      simp only [Char.isDigit, Bool.and_eq_true, decide_eq_true_eq] at hc
      exact hc
    have hf : ∀ n : Fin 10, ¬ IsSeparator (Char.ofNat (48 + n.val)) := by decide
    have := hf ⟨c.toNat - 48, by omega⟩
    rwa [show 48 + (c.toNat - 48) = c.toNat by omega, Char.ofNat_toNat] at this
  have step : ∀ p (c : Char) (s : Str), c.isDigit = true → calm k p (c :: s) = calm k false s := by
    intro p c s hc
    obtain ⟨h1, h2, h3, h4⟩ := hd c hc
    rw [calm, if_neg h1, if_neg h2, if_neg h3, if_neg h4]
  have all : ∀ (port : Str), (∀ x ∈ port, x.isDigit = true) → calm k false (port ++ s) = calm k false s := by
    intro port hp
    induction port with
    | nil => rfl
    | cons c port ih =>
      rw [List.cons_append, step _ _ _ (hp c (by simp)), ih fun x hx => hp x (by simp [hx])]
  cases port with
  | nil => exact absurd rfl h0
  | cons c port =>
    rw [List.cons_append, step _ _ _ (hp c (by simp)), all port fun x hx => hp x (by simp [hx])]

theorem calm_v4 (a b c d : Nat) (s : Str) : calm 0 false (v4Text a b c d ++ s) = calm 0 false s := by
  have dig : ∀ (n : Nat) (s : Str), calm 0 false (natToDec n ++ s) = calm 0 false s := by
    intro n s
    have hn : natToDec n ≠ [] := natToDec_ne_nil n
    have hp : ∀ x ∈ natToDec n, x.isDigit = true := fun x hx => natToDec_isDigit hx
    cases h : natToDec n with
    | nil => exact absurd h hn
    | cons x xs =>
      have := calm_digits (port := x :: xs) (by rw [← h]; exact hp) 0 s (by simp)
      rw [← this, List.cons_append]
      simp only [calm]
      rw [h] at hp
      have hx := digit_not_colon (hp x (by simp))
      rw [if_neg hx.2.2, if_neg hx.2.2, if_neg hx.1, if_neg hx.1]
  have dot : ∀ s, calm 0 false ('.' :: s) = calm 0 false s := by
    intro s
    rw [calm, if_neg (by decide), if_neg (by decide), if_neg (by decide), if_pos rfl]
    rfl
  simp only [v4Text, List.append_assoc, List.cons_append]
  rw [dig, dot, dig, dot, dig, dot, dig]

/-- The part of the message behind the address. -/
theorem calm_tail {port : Str} (hp : ∀ x ∈ port, x.isDigit = true) (h0 : port ≠ []) {reason : Str}
    (hr : calm 0 false (reason ++ ['\n']) = true) :
    calm 0 false (':' :: port ++ ": ".toList ++ reason ++ ['\n']) = true := by
  have e : ':' :: port ++ ": ".toList ++ reason ++ ['\n'] =
      ':' :: (port ++ (':' :: ' ' :: (reason ++ ['\n']))) := by simp
  rw [e, calm, if_neg (by decide), if_neg (by decide), if_pos rfl, calm_digits hp _ _ h0, calm,
    if_neg (by decide), if_neg (by decide), if_pos rfl, calm, if_neg (by decide), if_pos (by decide), hr]
  rfl

theorem calm_end {reason : Str} : ∀ {k p}, calm k p reason = true → calm k p (reason ++ ['\n']) = true := by
  induction reason with
  | nil =>
    intro k p _
    rw [List.nil_append, calm, if_neg (by decide), if_pos (by decide)]
    rfl
  | cons c s ih =>
    intro k p h
    rw [List.cons_append]
    rw [calm] at h ⊢
    split
    · rename_i hc; rw [if_pos hc] at h; cases h
    rename_i hc; rw [if_neg hc] at h
    split
    · rename_i hc; rw [if_pos hc] at h; exact ih h
    rename_i hc; rw [if_neg hc] at h
    split
    · rename_i hc; rw [if_pos hc, Bool.and_eq_true] at h; rw [Bool.and_eq_true]; exact ⟨h.1, ih h.2⟩
    rename_i hc; rw [if_neg hc] at h
    split
    · rename_i hc; rw [if_pos hc, Bool.and_eq_true] at h; rw [Bool.and_eq_true]; exact ⟨h.1, ih h.2⟩
    · rename_i hc; rw [if_neg hc] at h; exact ih h

def handshakeIntro : Str := "http: TLS handshake error from".toList

theorem handshakeMsg_eq (remote reason : Str) : handshakeMsg remote reason =
    handshakeIntro ++ ' ' :: (remote ++ ": ".toList ++ reason ++ ['\n']) := by
  have e : "http: TLS handshake error from ".toList = handshakeIntro ++ [' '] := by decide +kernel
  unfold handshakeMsg
  rw [e]
  simp only [List.append_assoc, List.cons_append, List.nil_append]

theorem find_intro (t : Str) : ∀ r ∈ [ipv64e, ipv6s, ipv6, ipv4],
    r.find (handshakeIntro ++ ' ' :: t) = r.find t := by
  have h : ∀ r ∈ [ipv64e, ipv6s, ipv6, ipv4], rejects ' ' r = true ∧ r.ends [] = [] ∧
      r.find handshakeIntro = none := by
    simp only [List.mem_cons, List.not_mem_nil, or_false, forall_eq_or_imp, forall_eq]
    refine ⟨?_, ?_, ?_, ?_⟩ <;> decide +kernel
  intro r hr
  obtain ⟨h1, h2, h3⟩ := h r hr
  rw [find_stop h1 h2, h3]

/-- C117, part: for every client with an IPv4 address and every reason in a text like those of crypto/tls and
net, the address that is logged is the client's. -/
theorem C117_ipv4_partial (a b c d : Nat) (port reason : Str) (ha : a < 256) (hb : b < 256) (hc : c < 256)
    (hd : d < 256) (hport : port ≠ [] ∧ ∀ x ∈ port, x.isDigit = true) (hr : calm 0 false reason = true) :
    extractAddr (handshakeMsg (v4Text a b c d ++ ':' :: port) reason) = v4Text a b c d := by
  rw [handshakeMsg_eq]
  have e : v4Text a b c d ++ ':' :: port ++ ": ".toList ++ reason ++ ['\n'] =
      v4Text a b c d ++ (':' :: port ++ ": ".toList ++ reason ++ ['\n']) := by simp
  rw [e]
  have hc' : calm 0 false (v4Text a b c d ++ (':' :: port ++ ": ".toList ++ reason ++ ['\n'])) = true := by
    rw [calm_v4]
    exact calm_tail hport.2 hport.1 (calm_end hr)
  have h1 := (find_intro _ ipv64e (by simp)).trans (calm_ipv64e hc')
  have h2 := (find_intro _ ipv6s (by simp)).trans (calm_ipv6s hc')
  have h3 := (find_intro _ ipv6 (by simp)).trans (calm_ipv6 hc')
  have h4 := (find_intro (v4Text a b c d ++ (':' :: port ++ ": ".toList ++ reason ++ ['\n']))
    ipv4 (by simp)).trans (find_here (r := ipv4) (quad_spec a b c d ha hb hc hd ':'
      (port ++ ": ".toList ++ reason ++ ['\n']) (.inl rfl)))
  simp only [extractAddr, h1, h2, h3, h4]

example : calm 0 false "remote error: tls: bad certificate".toList = true ∧
    calm 0 false "read tcp 10.0.0.1:443->10.0.0.2:5000: i/o timeout".toList = true ∧
    calm 0 false "tls: first record does not look like a TLS handshake".toList = true := by decide +kernel

/-- C117, part: of a client with any other address in brackets, the same is logged as for its requests. -/
theorem C117_same_partial (addr port reason : Str) (hport : port ≠ [] ∧ ∀ x ∈ port, x.isDigit = true)
    (hr : calm 0 false reason = true)
    (hfound : extractAddr (v6Remote addr port) ≠ "not found".toList) :
    extractAddr (handshakeMsg (v6Remote addr port) reason) = extractAddr (v6Remote addr port) := by
  rw [handshakeMsg_eq]
  have e : v6Remote addr port ++ ": ".toList ++ reason ++ ['\n'] =
      '[' :: addr ++ ']' :: (':' :: port ++ ": ".toList ++ reason ++ ['\n']) := by simp [v6Remote]
  have e' : v6Remote addr port = '[' :: addr ++ ']' :: (':' :: port) := by simp [v6Remote]
  have hc1 := calm_tail hport.2 hport.1 (calm_end hr)
  have hc2 : calm 0 false (':' :: port) = true := by
    rw [calm, if_neg (by decide), if_neg (by decide), if_pos rfl]
    have := calm_digits hport.2 1 [] hport.1
    rw [List.append_nil] at this
    rw [this]
    rfl
  have stop : ∀ r ∈ [ipv64e, ipv6s, ipv6, ipv4], rejects ']' r = true ∧ r.ends [] = [] := by
    simp only [List.mem_cons, List.not_mem_nil, or_false, forall_eq_or_imp, forall_eq]
    refine ⟨?_, ?_, ?_, ?_⟩ <;> decide +kernel
  have cut : ∀ r ∈ [ipv64e, ipv6s, ipv6, ipv4], ∀ t,
      r.find ('[' :: addr ++ ']' :: t) = match r.find ('[' :: addr) with
        | some m => some m
        | none => r.find t := fun r hr t => find_stop (stop r hr).1 (stop r hr).2 t _
  have h4 : ipv4.find (':' :: port) = none :=
    find_none_of_need (by decide) isDot (by
      have : cnt isDot (':' :: port) = 0 := cnt_zero fun x hx => by
        rcases List.mem_cons.1 hx with rfl | hx
        · rfl
        · simp [isDot, (digit_not_colon (hport.2 x hx)).2.1]
      rw [this]; decide)
  rw [e]
  rw [e'] at hfound ⊢
  simp only [extractAddr, find_intro _ ipv64e (by simp), find_intro _ ipv6s (by simp),
    find_intro _ ipv6 (by simp), find_intro _ ipv4 (by simp), cut ipv64e (by simp), cut ipv6s (by simp),
    cut ipv6 (by simp), cut ipv4 (by simp), calm_ipv64e hc1, calm_ipv64e hc2, calm_ipv6s hc1, calm_ipv6s hc2,
    calm_ipv6 hc1, calm_ipv6 hc2, h4] at hfound ⊢
  cases h1 : ipv64e.find ('[' :: addr) with
  | some m => rfl
  | none =>
  cases h2 : ipv6s.find ('[' :: addr) with
  | some m => rfl
  | none =>
  cases h3 : ipv6.find ('[' :: addr) with
  | some m => rfl
  | none =>
  cases h5 : ipv4.find ('[' :: addr) with
  | some m => rfl
  | none => rw [h1, h2, h3, h5] at hfound; exact absurd rfl hfound

/-- C117 fails for every client whose IPv6 address has a gap with more than four groups before it or more
than three behind it. -/
theorem C117_violated_always (pre post : List Str) (port reason : Str) (hpre : ∀ g ∈ pre, IsGroup g)
    (hpost : ∀ g ∈ post, IsGroup g) (h1 : pre ≠ []) (h2 : post ≠ [])
    (hport : port ≠ [] ∧ ∀ x ∈ port, x.isDigit = true) (hr : calm 0 false reason = true)
    (hlong : 4 < pre.length ∨ 3 < post.length) :
    extractAddr (handshakeMsg (v6Remote (v6Short pre post) port) reason) ≠ v6Short pre post := by
  have hres := C62_gap_middle_result pre post port hpre hpost h1 h2 hport.2
  rw [C117_same_partial _ _ _ hport hr]
  · intro h
    rw [C62_gap_middle_exact_iff pre post port hpre hpost h1 h2 hport.2] at h
    omega
  · rw [hres]
    intro h
    have hm : ':' ∈ "not found".toList := by
      rw [← h]; simp [v6Short]
    exact absurd hm (by decide)

/-- C117 fails. -/
theorem C117_violated :
    extractAddr (handshakeMsg (v6Remote "fe80::a00:27ff:fe4e:66a1".toList "443".toList) "EOF".toList) =
      "fe80::a00:27ff:fe4e".toList := by decide +kernel

example : (adapterEvent (handshakeMsg "203.0.113.9:40000".toList "EOF".toList)).fields.lookup
    "dwnReqRemoteAddr".toList = some (.str "203.0.113.9".toList) := by decide +kernel

/-! ## C118 -/

/-- C118, part: what is written when a handler panicked, unless the message has the words
`TLS handshake error` in it. It is logged exactly if LOGLEVEL is TRACE. -/
theorem C118_exact_partial (L : Logger) (time clock remote err stack : Str)
    (h : contains (panicMsg remote err stack) tlsHandshakeError = false) :
    L.write time clock (adapterEvent (panicMsg remote err stack)) ≠ [] ↔
      L.level.map Char.toUpper = "TRACE".toList := by
  have hl : (adapterEvent (panicMsg remote err stack)).level = .trace := by
    unfold adapterEvent
    rw [h]
    rfl
  rw [Ne, write_eq_nil, hl]
  rw [show L.level.map Char.toUpper = toUpper L.level from rfl, ← logLevel_trace]
  rcases logLevel_cases L.level with h | h | h | h <;> rw [h] <;> decide

/-- C118 fails: with any other LOGLEVEL, and so without one, nothing is written. -/
theorem C118_violated_always (L : Logger) (time clock remote err stack : Str)
    (h : contains (panicMsg remote err stack) tlsHandshakeError = false)
    (hl : L.level.map Char.toUpper ≠ "TRACE".toList) :
    L.write time clock (adapterEvent (panicMsg remote err stack)) = [] := by
  cases hw : L.write time clock (adapterEvent (panicMsg remote err stack)) with
  | nil => rfl
  | cons c s => exact absurd ((C118_exact_partial L time clock remote err stack h).1 (by rw [hw]; simp)) hl

/-- C118 fails: the request `GET /a?x#%zz` crashes its handler (C92); the client gets no response, and there
is neither a line of the handler nor one about the crash. -/
theorem C118_violated : ∃ as s, (Demo.targeted "" "/a?x#%zz").Logs as s [] ∧ s.pc = .panicked ∧ s.sent = [] ∧
    ∀ (L : Logger) (time clock : Str), L.level = [] →
      L.write time clock (adapterEvent (panicMsg "203.0.113.9:40000".toList
        "runtime error: invalid memory address or nil pointer dereference".toList
        "goroutine 20 [running]:".toList)) = [] := by
  have h : ((watch (Demo.targeted "" "/a?x#%zz").env (logged (Demo.targeted "" "/a?x#%zz").env)
      (initial (Demo.targeted "" "/a?x#%zz").dec) (LogSt.initial (Demo.targeted "" "/a?x#%zz").dec)
      [Demo.go]).map fun p => (decide (p.2.lines = []), p.1.crashed, p.1.sent.isEmpty)) =
      some (true, true, true) := by
    decide +kernel
  obtain ⟨⟨s, w⟩, hw, hp⟩ := Option.map_eq_some_iff.mp h
  simp only [Prod.mk.injEq, decide_eq_true_eq, List.isEmpty_iff] at hp
  refine ⟨_, s, ⟨w, hw, hp.1⟩, crashed_pc hp.2.1, hp.2.2, ?_⟩
  intro L time clock hL
  refine C118_violated_always L time clock _ _ _ (by decide +kernel) ?_
  rw [hL]
  decide

/-! ## C119 -/

/-- C119, part: without the console writer each event is one line, the UTF-8 form of a JSON object with the
members in their order, and a line break; texts are read back if they are UTF-8. -/
theorem C119_json_partial (L : Logger) (time clock : Str) (e : ZEvent)
    (hlevel : (logLevel L.level).should e.level = true) (hcolor : logColor L.color = false)
    (hkeys : ∀ f ∈ e.fields, ∀ c ∈ f.1, c.toNat < 0x80) :
    ∃ text vals, L.write time clock e = utf8 text ++ ['\n'] ∧ '\n' ∉ utf8 text ∧
      Json.parse text = some vals ∧ ZReadsAll (e.members L.context time) vals := by
  have hk : ∀ f ∈ e.members L.context time, ∀ c ∈ f.1, c.toNat < 0x80 := by
    have k1 : ∀ c ∈ "level".toList, c.toNat < 0x80 := by decide
    have k2 : ∀ c ∈ "srvId".toList, c.toNat < 0x80 := by decide
    have k3 : ∀ c ∈ "time".toList, c.toNat < 0x80 := by decide
    have k4 : ∀ c ∈ "message".toList, c.toNat < 0x80 := by decide
    intro f hf
    unfold ZEvent.members Logger.context at hf
    simp only [List.cons_append, List.nil_append, List.mem_cons, List.mem_append,
      List.not_mem_nil, or_false] at hf
    rcases hf with rfl | rfl | (hf | rfl) | hf
    · exact k1
    · exact k2
    · exact hkeys f hf
    · exact k3
    · split at hf
      · cases hf
      · simp only [List.mem_cons, List.not_mem_nil, or_false] at hf
        rw [hf]; exact k4
  obtain ⟨text, vals, h1, h2, h3⟩ := zObject_spec (e.members L.context time) (by
    simp [ZEvent.members]) hk
  refine ⟨text, vals, ?_, ?_, h2, h3⟩
  · unfold Logger.write
    rw [if_pos hlevel, hcolor]
    simp only [Bool.false_eq_true, if_false, ZEvent.json, h1]
  · rw [← h1]
    intro hm
    exact zObject_noCtl _ _ hm (.inl (by decide))

/-- C119, part: no member of the line about a served request has the name of another, so nothing a client
sends takes the place of another value. -/
theorem C119_access_partial (L : Logger) (time : Str) (l : LogLine) (a : AccessFields) :
    (((accessEvent l a).members L.context time).map (·.1)).Nodup ∧
    ∀ f ∈ (accessEvent l a).fields, ∀ c ∈ f.1, c.toNat < 0x80 := by
  obtain ⟨lv, em, m, ua, cd, ce, xr⟩ := l
  obtain ⟨pa, ra, hv, mi, tv, up⟩ := a
  have hmsg : (accessEvent ⟨lv, em, m, ua, cd, ce, xr⟩ ⟨pa, ra, hv, mi, tv, up⟩).msg ≠ [] := by
    cases em <;> simp [accessEvent]
  constructor
  · unfold ZEvent.members
    rw [if_neg hmsg]
    cases em <;> cases tv <;> cases up <;>
      simp only [accessEvent, Logger.context, List.map_append, List.map_cons, List.map_nil] <;> decide
  · cases em <;> cases tv <;> cases up <;>
      simp only [accessEvent, List.nil_append, List.append_nil, List.cons_append, List.mem_cons,
        List.not_mem_nil, or_false, forall_eq_or_imp, forall_eq] <;> decide

/-- C119, part: which values the members have. With distinct names (`C119_access_partial`), each name has one
value. The address is the one that iprex.go finds in the address of the connection (C61, C62). -/
theorem C119_access_values_partial (l : LogLine) (a : AccessFields) :
    ("dwnReqPath".toList, .str a.path) ∈ (accessEvent l a).fields ∧
    ("dwnReqRemoteAddr".toList, .str (Iprex.extractAddr a.remoteAddr)) ∈ (accessEvent l a).fields ∧
    ("dwnReqMethod".toList, .str l.method) ∈ (accessEvent l a).fields ∧
    ("dwnReqUserAgent".toList, .str l.userAgent) ∈ (accessEvent l a).fields ∧
    ("dwnHttpVer".toList, .str a.httpVer) ∈ (accessEvent l a).fields ∧
    ("dwnResCode".toList, .int l.code) ∈ (accessEvent l a).fields ∧
    ("dwnResContentEnc".toList, .str l.contentEnc) ∈ (accessEvent l a).fields ∧
    ("dwnElapsedMicros".toList, .int a.micros) ∈ (accessEvent l a).fields ∧
    ("X-Request-Id".toList, .str l.xrid) ∈ (accessEvent l a).fields ∧
    (∀ m, ("dwnResErrMsg".toList, .str m) ∈ (accessEvent l a).fields ↔ l.errMsg = some m) ∧
    (∀ v, ("dwnTlsVer".toList, .str v) ∈ (accessEvent l a).fields ↔ a.tlsVer = some v) ∧
    (∀ u, a.up = some u →
      ("upReqURI".toList, .str u.uri) ∈ (accessEvent l a).fields ∧
      ("upLabel".toList, .str u.label) ∈ (accessEvent l a).fields ∧
      ("upAtmptResCode".toList, .int u.code) ∈ (accessEvent l a).fields ∧
      ("upAtmptElapsedMicros".toList, .int u.micros) ∈ (accessEvent l a).fields ∧
      ("upAtmptAbort".toList, .bool u.abort) ∈ (accessEvent l a).fields ∧
      ("upAtmpt".toList, .str u.atmpt) ∈ (accessEvent l a).fields) ∧
    (a.up = none → ∀ f ∈ (accessEvent l a).fields, "up".toList.isPrefixOf f.1 = false) ∧
    ((accessEvent l a).level = .warn ↔ l.level = .warn) ∧
    ((accessEvent l a).level = .info ↔ l.level = .info) ∧
    ((accessEvent l a).msg = "downstream error response served".toList ↔ l.errMsg.isSome = true) := by
  obtain ⟨lv, em, m, ua, cd, ce, xr⟩ := l
  obtain ⟨pa, ra, hv, mi, tv, up⟩ := a
  refine ⟨?_, ?_, ?_, ?_, ?_, ?_, ?_, ?_, ?_, ?_, ?_, ?_, ?_, ?_, ?_, ?_⟩
  iterate 9 simp [accessEvent]
  · intro m'
    cases em <;> cases tv <;> cases up <;>
      simp [accessEvent] <;> exact eq_comm
  · intro v
    cases em <;> cases tv <;> cases up <;>
      simp [accessEvent] <;> exact eq_comm
  · intro u hu
    cases hu
    simp [accessEvent]
  · intro hu
    cases hu
    cases em <;> cases tv <;>
      simp only [accessEvent, List.nil_append, List.append_nil, List.cons_append, List.mem_cons,
        List.not_mem_nil, or_false, forall_eq_or_imp, forall_eq] <;> decide
  · cases lv <;> simp [accessEvent]
  · cases lv <;> simp [accessEvent]
  · cases em <;> simp [accessEvent]

/-- The line about a request with a user agent that has quotes and a line break in it. -/
example : ({ srvId := "abcdef01".toList, quote := id, srt := id } : Logger).write "T".toList "K".toList
    (accessEvent ⟨.info, none, "GET".toList, "a\"\n{".toList, 200, "gzip".toList, "X".toList⟩
      ⟨"/a".toList, "10.0.0.1:1".toList, "HTTP/1.1".toList, 5, none, none⟩) =
    ("{\"level\":\"info\",\"srvId\":\"abcdef01\",\"dwnReqPath\":\"/a\",\"dwnReqRemoteAddr\":\"10.0.0.1\"," ++
     "\"dwnReqMethod\":\"GET\",\"dwnReqUserAgent\":\"a\\\"\\n{\",\"dwnHttpVer\":\"HTTP/1.1\"," ++
     "\"dwnResCode\":200,\"dwnResContentEnc\":\"gzip\",\"dwnElapsedMicros\":5,\"X-Request-Id\":\"X\"," ++
     "\"time\":\"T\",\"message\":\"downstream response served\"}\n").toList := by decide +kernel

/-- C119, part: with the console writer an event is one line exactly if its message is. `strconv.Quote` writes
no line break. -/
theorem C119_console_partial (L : Logger) (time clock : Str) (e : ZEvent)
    (hlevel : (logLevel L.level).should e.level = true) (hcolor : logColor L.color = true)
    (hquote : ∀ s, '\n' ∉ L.quote s) (hsort : ∀ l, ∀ f ∈ L.srt l, f ∈ l)
    (hkeys : ∀ f ∈ e.fields, '\n' ∉ f.1) (hclock : '\n' ∉ clock) :
    (∃ line, L.write time clock e = line ++ ['\n'] ∧ '\n' ∉ line) ↔ '\n' ∉ e.msg := by
  have hcol : ∀ n s, '\n' ∈ colorize n s → '\n' ∈ s := by
    intro n s h
    unfold colorize at h
    simp only [List.mem_append, List.mem_cons] at h
    rcases h with ((h | h) | h | h) | h
    · exact absurd h (by decide)
    · exact absurd (natToDec_isDigit h) (by decide)
    · exact absurd h (by decide)
    · exact h
    · exact absurd h (by decide)
  have hval : ∀ v, '\n' ∉ consoleVal L.quote v := by
    intro v h
    cases v with
    | str s =>
      simp only [consoleVal] at h
      split at h
      · exact hquote s h
      · rename_i hn
        refine hn ?_
        simp only [needsQuote, List.any_eq_true]
        exact ⟨'\n', h, by decide⟩
    | int n => exact itoa_noCtl n _ h (.inl (by decide))
    | bool b =>
      cases b
      · exact absurd (show '\n' ∈ "false".toList from h) (by decide)
      · exact absurd (show '\n' ∈ "true".toList from h) (by decide)
  have hlev : '\n' ∉ consoleLevel e.level := by
    cases e.level <;> decide
  have key : ∃ fs : Str, '\n' ∉ fs ∧ L.write time clock e =
      (colorize 90 clock ++ ' ' :: consoleLevel e.level ++ ' ' :: e.msg ++ fs) ++ ['\n'] := by
    unfold Logger.write
    rw [if_pos hlevel, if_pos hcolor]
    refine ⟨_, ?_, rfl⟩
    intro h
    split at h
    · cases h
    · rcases List.mem_cons.1 h with h | h
      · exact absurd h (by decide)
      · rcases mem_join h with h | ⟨x, hx, h⟩
        · exact absurd h (by decide)
        · rw [List.mem_map] at hx
          obtain ⟨f, hf, rfl⟩ := hx
          rw [List.mem_append] at h
          rcases h with h | h
          · have := hcol _ _ h
            simp only [List.mem_append, List.mem_cons, List.not_mem_nil, or_false] at this
            rcases this with this | this
            · have hm := hsort _ f hf
              simp only [Logger.context, List.cons_append, List.nil_append, List.mem_cons] at hm
              rcases hm with rfl | hm
              · exact absurd (show '\n' ∈ "srvId".toList from this) (by decide)
              · exact hkeys f hm this
            · exact absurd this (by decide)
          · exact hval _ h
  obtain ⟨fs, hfs, hw⟩ := key
  rw [hw]
  constructor
  · rintro ⟨line, h, hl⟩ hm
    refine hl ?_
    rw [← List.append_cancel_right h]
    simp [hm]
  · intro hm
    refine ⟨_, rfl, ?_⟩
    simp only [List.mem_append, List.mem_cons]
    rintro (((h | h | h) | h | h) | h)
    · exact hclock (hcol _ _ h)
    · exact absurd h (by decide)
    · exact hlev h
    · exact absurd h (by decide)
    · exact hm h
    · exact hfs h

/-- C119 fails: with the console writer and LOGLEVEL DEBUG, whatever line a client wants to see in the log,
there is a key id (in the header of its token, which nobody has to have signed) that puts it there. -/
theorem C119_violated_always (L : Logger) (time clock path jwt xrid forged : Str)
    (hlevel : L.level.map Char.toUpper = "DEBUG".toList) (hcolor : L.color.map Char.toUpper = "TRUE".toList) :
    ∃ kid before after,
      L.write time clock (rotationEvent kid path jwt xrid) = before ++ '\n' :: forged ++ '\n' :: after := by
  refine ⟨'\n' :: forged ++ ['\n'], ?_⟩
  have h1 : (logLevel L.level).should (rotationEvent ('\n' :: forged ++ ['\n']) path jwt xrid).level = true := by
    unfold logLevel
    rw [show toUpper L.level = "DEBUG".toList from hlevel]
    rfl
  have h2 : logColor L.color = true := by
    unfold logColor
    rw [show toUpper L.color = "TRUE".toList from hcolor]
    decide
  unfold Logger.write
  rw [if_pos h1, if_pos h2]
  unfold ZEvent.console
  have hm : ∃ b a : Str, (rotationEvent ('\n' :: forged ++ ['\n']) path jwt xrid).msg =
      b ++ ('\n' :: forged ++ '\n' :: a) := by
    refine ⟨"unmatched kid [".toList, "] on incoming req triggered background key rotation search for route [".toList ++
      path ++ "] jwt [".toList ++ jwt ++ "]".toList, ?_⟩
    simp [rotationEvent]
  obtain ⟨b, a, hm⟩ := hm
  rw [hm]
  exact ⟨colorize 90 clock ++ ' ' :: consoleLevel (rotationEvent ('\n' :: forged ++ ['\n']) path jwt xrid).level ++
    ' ' :: b, a ++ (_ ++ ['\n']), by
      simp only [List.append_assoc, List.cons_append, List.nil_append]; rfl⟩

/-- C119 fails: a request of which the key id starts a second line. -/
theorem C119_violated : ∃ L : Logger, L.write "T".toList "1:02PM".toList
      (rotationEvent "\nforged".toList "/a".toList "j".toList "X".toList) =
    "\x1b[90m1:02PM\x1b[0m \x1b[33mDBG\x1b[0m unmatched kid [\nforged] on incoming req triggered background key rotation search for route [/a] jwt [j] \x1b[36msrvId=\x1b[0mabcdef01 \x1b[36mroute=\x1b[0m/a \x1b[36mjwt=\x1b[0mj \x1b[36mX-Request-Id=\x1b[0mX\n".toList :=
  ⟨{ level := "debug".toList, color := "true".toList, srvId := "abcdef01".toList, quote := id, srt := id }, by
    decide +kernel⟩

end J8a
