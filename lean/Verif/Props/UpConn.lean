import Verif.Lemmas.Prefix
import Verif.Model.UpConn
import Verif.Props.Reception
import Verif.Props.Wish
/-!
# C173: whose answer a request gets on a connection to an upstream
-/
namespace J8a
open Go

/-! ## What has been read -/

/-- A response was made of bytes that arrived, from the place on where reading began; the request came before they were
all there. -/
def MadeOf (arrived : Str) (e : Handed) : Prop :=
  ∃ k rest h after, Receives e.method ((arrived.drop e.start).take k) e.w rest h after ∧ e.start + k ≤ arrived.length ∧
    e.came ≤ e.start + k

/-- It was read to its end, and the connection could be used again. -/
def ReadWhole (arrived : Str) (e : Handed) : Prop :=
  ∃ k r h after, Receives e.method ((arrived.drop e.start).take k) e.w (some r) h after ∧ keepsConn h = true ∧
    e.start + k ≤ arrived.length ∧ e.stop = e.start + k - r.length

/-- Responses that were read one behind the other, up to a place. -/
inductive Chain (arrived : Str) : List Handed → Nat → Prop
  | nil : Chain arrived [] 0
  | snoc {l : List Handed} {p : Nat} {e : Handed} : Chain arrived l p → e.start = p → ReadWhole arrived e →
      Chain arrived (l ++ [e]) e.stop

theorem take_drop_append {A B : Str} {s k : Nat} (h : s + k ≤ A.length) :
    ((A ++ B).drop s).take k = (A.drop s).take k := by
  rw [List.drop_append_of_le_length (by omega), List.take_append_of_le_length (by simp; omega)]

theorem MadeOf.more {A : Str} {e : Handed} (h : MadeOf A e) (B : Str) : MadeOf (A ++ B) e := by
  obtain ⟨k, rest, hd, after, h1, h2, h3⟩ := h
  exact ⟨k, rest, hd, after, by rw [take_drop_append h2]; exact h1, by simp; omega, h3⟩

theorem ReadWhole.more {A : Str} {e : Handed} (h : ReadWhole A e) (B : Str) : ReadWhole (A ++ B) e := by
  obtain ⟨k, rest, hd, after, h1, h2, h3, h4⟩ := h
  exact ⟨k, rest, hd, after, by rw [take_drop_append h3]; exact h1, h2, by simp; omega, h4⟩

theorem Chain.more {A : Str} {l : List Handed} {p : Nat} (h : Chain A l p) (B : Str) : Chain (A ++ B) l p := by
  induction h with
  | nil => exact .nil
  | snoc _ h1 h2 ih => exact .snoc ih h1 (h2.more B)

theorem Chain.whole {A : Str} {l : List Handed} {p : Nat} (h : Chain A l p) : ∀ e ∈ l, ReadWhole A e := by
  induction h with
  | nil => exact fun e he => (nomatch he)
  | snoc _ _ h2 ih =>
    intro e he
    rcases List.mem_append.1 he with he | he
    · exact ih e he
    · rw [List.mem_singleton.1 he]; exact h2

/-- What is always true of a connection. -/
structure UpConn.Inv (c : UpConn) : Prop where
  pos : c.pos ≤ c.arrived.length
  made : ∀ e ∈ c.log, MadeOf c.arrived e
  chain : ∃ l p, Chain c.arrived l p ∧ (c.log = l ∧ p = c.pos ∨ c.alive = false ∧ ∃ e, c.log = l ++ [e] ∧ e.start = p)
  asking : ∀ q, c.asking = some q → q.start = c.pos ∧ q.came ≤ c.arrived.length ∧ c.alive = true

theorem UpConn.Inv.alive {c : UpConn} (h : c.Inv) (ha : c.alive = true) : Chain c.arrived c.log c.pos := by
  obtain ⟨l, p, h1, h2 | h2⟩ := h.chain
  · rw [h2.1, ← h2.2]; exact h1
  · rw [ha] at h2; cases h2.1

theorem UpConn.inv {c : UpConn} (h : c.Reached) : c.Inv := by
  induction h with
  | new => exact ⟨Nat.zero_le _, fun e he => (nomatch he), ⟨[], 0, .nil, .inl ⟨rfl, rfl⟩⟩, fun q hq => (nomatch hq)⟩
  | @step c _ _ hs ih =>
    cases hs with
    | arrive bytes _ =>
      obtain ⟨l, p, h1, h2⟩ := ih.chain
      refine ⟨?_, fun e he => (ih.made e he).more _, ⟨l, p, h1.more _, h2⟩, fun q hq => ?_⟩
      · have := ih.pos
        simp only [List.length_append]
        omega
      · obtain ⟨g1, g2, g3⟩ := ih.asking q hq
        refine ⟨g1, ?_, g3⟩
        simp only [List.length_append]
        omega
    | ends => exact ⟨ih.pos, ih.made, ih.chain, ih.asking⟩
    | ask tag method ha hn =>
      refine ⟨ih.pos, ih.made, ih.chain, fun q hq => ?_⟩
      injection hq with hq
      subst hq
      exact ⟨rfl, Nat.le_refl _, ha⟩
    | unsolicited hn _ =>
      obtain ⟨l, p, h1, h2⟩ := ih.chain
      refine ⟨ih.pos, ih.made, ⟨l, p, h1, h2.imp id fun h => ⟨rfl, h.2⟩⟩, fun q hq => ?_⟩
      rw [show _ = _ from hn] at hq
      cases hq
    | fail q _ =>
      obtain ⟨l, p, h1, h2⟩ := ih.chain
      exact ⟨ih.pos, ih.made, ⟨l, p, h1, h2.imp id fun h => ⟨rfl, h.2⟩⟩, fun q hq => by cases hq⟩
    | answer q w rest hd after keep hq hr hend hk =>
      obtain ⟨g1, g2, g3⟩ := ih.asking q hq
      have hp := ih.pos
      have hch := ih.alive g3
      have hall : (c.arrived.drop q.start).take (c.arrived.length - q.start) = c.unread := by
        rw [g1, List.take_of_length_le (by simp)]
        rfl
      refine ⟨Nat.sub_le _ _, ?_, ?_, fun q hq => by cases hq⟩
      · intro e he
        rcases List.mem_append.1 he with he | he
        · exact ih.made e he
        · rw [List.mem_singleton.1 he]
          exact ⟨c.arrived.length - q.start, rest, hd, after, by rw [hall]; exact hr, by simp only; omega, by simp only; omega⟩
      · cases keep with
        | false => exact ⟨c.log, c.pos, hch, .inr ⟨rfl, _, rfl, g1⟩⟩
        | true =>
          obtain ⟨k1, k2⟩ := hk rfl
          obtain ⟨r, rfl⟩ := Option.isSome_iff_exists.1 k1
          refine ⟨_, _, Chain.snoc (e := ⟨q, c.arrived.length - r.length, w⟩) hch g1
            ⟨c.arrived.length - q.start, r, hd, after, by rw [hall]; exact hr, k2, by simp only; omega, ?_⟩, .inl ⟨rfl, rfl⟩⟩
          simp only
          omega

/-! ## Upstreams that answer what they are asked -/

theorem keepsConn_framing {h : RespHead} (hk : keepsConn h = true) : h.framing ≠ .untilEnd := by
  unfold keepsConn at hk
  simp only [Bool.and_eq_true, decide_eq_true_eq] at hk
  exact hk.1.2

theorem Receives.grow {method s : Str} {w : WireResp} {r : Str} {h : RespHead} {after : Str}
    (hr : Receives method s w (some r) h after) (hf : h.framing ≠ .untilEnd) (t : Str) :
    Receives method (s ++ t) w (some (r ++ t)) h (after ++ t) := by
  have hb : readRespBody h.framing after = ((readRespBody h.framing after).1, some r) := by
    rw [hr.rest]
  have hg := readRespBody_append hf hb t
  exact ⟨readFinal_append _ _ _ _ hr.head t, hr.status, hr.header, hr.length, by rw [hg]; exact hr.body,
    by rw [hg]; exact ⟨fun _ => ⟨_, rfl⟩, fun _ => hr.ending.2 ⟨r, hr.rest.symm⟩⟩, by rw [hg]⟩

/-- The upstream sends nothing but these answers, one to each request: when a request is put on the connection, the answers
to the earlier ones have arrived, and nothing else; each is one well-formed final response to its request, after at most
five interim ones. -/
structure Answers (c : UpConn) (as : List Str) : Prop where
  count : as.length = c.asked.length
  sent : c.arrived <+: as.flatten
  came : ∀ (i : Nat) (q : Asked), c.asked[i]? = some q → q.came = (as.take i).flatten.length
  well : ∀ (i : Nat) (q : Asked) (a : Str), c.asked[i]? = some q → as[i]? = some a → ∃ n m, n ≤ 5 ∧ ReadsFinal q.method n a m []

theorem flatten_at {as : List Str} {i : Nat} {a : Str} (h : as[i]? = some a) :
    as.flatten = (as.take i).flatten ++ (a ++ (as.drop (i + 1)).flatten) := by
  obtain ⟨hi, rfl⟩ := List.getElem?_eq_some_iff.1 h
  have : as = as.take i ++ as[i] :: as.drop (i + 1) := by
    rw [← List.drop_eq_getElem_cons hi, List.take_append_drop]
  calc as.flatten = (as.take i ++ as[i] :: as.drop (i + 1)).flatten := by rw [← this]
    _ = _ := by rw [List.flatten_append, List.flatten_cons]

theorem take_succ_length {as : List Str} {i : Nat} {a : Str} (h : as[i]? = some a) :
    (as.take (i + 1)).flatten.length = (as.take i).flatten.length + a.length := by
  obtain ⟨hi, rfl⟩ := List.getElem?_eq_some_iff.1 h
  rw [List.take_succ_eq_append_getElem hi, List.flatten_append, List.length_append]
  simp

/-- What is read at the place where an answer begins is a beginning of what is sent from there on. -/
theorem piece_prefix {A : Str} {as : List Str} {i k : Nat} {a : Str} (hA : A <+: as.flatten) (h : as[i]? = some a) :
    (A.drop (as.take i).flatten.length).take k <+: a ++ (as.drop (i + 1)).flatten := by
  refine (List.take_prefix _ _).trans ?_
  have : A.drop (as.take i).flatten.length <+: as.flatten.drop (as.take i).flatten.length := by
    obtain ⟨t, ht⟩ := hA
    rw [← ht, List.drop_append]
    exact List.prefix_append _ _
  rw [flatten_at h, List.drop_left' rfl] at this
  exact this

/-- A response that was read to its end, from bytes that begin with a whole answer or are a beginning of it. -/
theorem read_whole {method s a : Str} {w : WireResp} {r : Str} {hd : RespHead} {after tail : Str}
    (hr : Receives method s w (some r) hd after) (hf : hd.framing ≠ .untilEnd) (hs : s <+: a ++ tail)
    {n : Nat} {m : HttpResponse} (hn : n ≤ 5) (hm : ReadsFinal method n a m []) :
    (∃ after, Receives method a w (some []) hd after) ∧ s.length = a.length + r.length := by
  rcases List.prefix_or_prefix_of_prefix hs (List.prefix_append a tail) with ⟨q, rfl⟩ | ⟨q, rfl⟩
  · have hg := hr.grow hf q
    have h0 := (C166_received_partial method _ [] n m hm hn w _ ⟨_, _, hg⟩).2.2.2.1
    injection h0 with h0
    obtain ⟨rfl, rfl⟩ := List.append_eq_nil_iff.1 h0
    exact ⟨⟨_, hg⟩, by simp⟩
  · obtain ⟨h', after', g1, g2⟩ := readFinal_reads (k := maxInterims) hm hn
    have g3 := readFinal_append _ _ _ _ g1 q
    rw [hr.head] at g3
    injection g3 with g3
    injection g3 with g3 g4
    subst g3 g4
    have hb := readRespBody_append hf g2.body q
    have hrest := hr.rest
    rw [hb] at hrest
    injection hrest with hrest
    rw [List.nil_append] at hrest
    subst hrest
    refine ⟨⟨after', g1, hr.status, hr.header, hr.length, ?_, ?_, by rw [g2.body]⟩, by simp⟩
    · rw [g2.body]
      have := hr.body
      rw [hb] at this
      exact this
    · exact ⟨fun _ => ⟨[], by rw [g2.body]⟩, fun _ => hr.ending.2 ⟨_, by rw [hb]⟩⟩

theorem chain_own {A : Str} {as : List Str} (hA : A <+: as.flatten) {l : List Handed} {p : Nat} (h : Chain A l p)
    (hl : l.length ≤ as.length)
    (hw : ∀ (i : Nat) (e : Handed) (a : Str), l[i]? = some e → as[i]? = some a → ∃ n m, n ≤ 5 ∧ ReadsFinal e.method n a m []) :
    p = (as.take l.length).flatten.length ∧ ∀ i e, l[i]? = some e → e.start = (as.take i).flatten.length ∧
      ∃ a hd after, as[i]? = some a ∧ Receives e.method a e.w (some []) hd after ∧ keepsConn hd = true := by
  induction h with
  | nil => exact ⟨by simp, fun i e h => by simp at h⟩
  | @snoc l p e _ h1 h2 ih =>
    rw [List.length_append, List.length_singleton] at hl
    obtain ⟨i1, i2⟩ := ih (by omega) fun i e' a h => hw i e' a (by
      rw [List.getElem?_append_left (List.getElem?_eq_some_iff.1 h).1]
      exact h)
    have ha : as[l.length]? = some (as[l.length]'(by omega)) := List.getElem?_eq_getElem (by omega)
    generalize as[l.length]'(by omega) = a at ha
    have he : (l ++ [e])[l.length]? = some e := by simp
    obtain ⟨n, m, hn, hm⟩ := hw _ e a he ha
    obtain ⟨k, r, hd, after, k1, k2, k3, k4⟩ := h2
    rw [h1, i1] at k1
    obtain ⟨w1, w2⟩ := read_whole k1 (keepsConn_framing k2) (piece_prefix hA ha) hn hm
    have hk : ((A.drop (as.take l.length).flatten.length).take k).length = k := by
      simp only [List.length_take, List.length_drop]
      omega
    refine ⟨?_, ?_⟩
    · rw [List.length_append, List.length_singleton, take_succ_length ha]
      omega
    · intro i e' hi
      by_cases hlt : i < l.length
      · rw [List.getElem?_append_left hlt] at hi
        exact i2 i e' hi
      · have : i = l.length := by
          have := (List.getElem?_eq_some_iff.1 hi).1
          simp at this
          omega
        subst this
        rw [he] at hi
        injection hi with hi
        subst hi
        exact ⟨by rw [h1, i1], a, hd, w1.choose, ha, w1.choose_spec, k2⟩

theorem asked_log {c : UpConn} {i : Nat} {e : Handed} (h : c.log[i]? = some e) : c.asked[i]? = some e.toAsked := by
  unfold UpConn.asked
  rw [List.getElem?_append_left (by simpa using (List.getElem?_eq_some_iff.1 h).1), List.getElem?_map, h]
  rfl

/-- C173, part: on a connection to an upstream that sends one well-formed answer to each request and nothing else, whatever
is handed to a request is made of the bytes of the answer to this request, and of no other; it is all of the answer if the
connection is used again. Missing: upstreams that send anything else, for which it does not hold, see C173_violated_always. -/
theorem C173_own_partial (c : UpConn) (h : c.Reached) (as : List Str) (ha : Answers c as) (i : Nat) (e : Handed)
    (he : c.log[i]? = some e) :
    e.start = e.came ∧ ∃ a, as[i]? = some a ∧ (∃ p rest, p <+: a ∧ Received e.method p e.w rest) ∧
      (i + 1 < c.asked.length ∨ c.alive = true → Received e.method a e.w (some [])) := by
  have hi := UpConn.inv h
  obtain ⟨l, p, h1, h2⟩ := hi.chain
  have hle : l.length ≤ c.log.length := by
    rcases h2 with ⟨h2, -⟩ | ⟨-, e', h2, -⟩ <;> rw [h2] <;> simp
  have hll : c.log.length ≤ as.length := by
    rw [ha.count]
    unfold UpConn.asked
    simp
  have hsub : ∀ (i : Nat) (e : Handed), l[i]? = some e → c.log[i]? = some e := by
    intro i e hl
    rcases h2 with ⟨h2, -⟩ | ⟨-, e', h2, -⟩
    · rw [h2]; exact hl
    · rw [h2, List.getElem?_append_left (List.getElem?_eq_some_iff.1 hl).1]; exact hl
  obtain ⟨g1, g2⟩ := chain_own ha.sent h1 (by omega) fun i e a h1 h2 => ha.well i e.toAsked a (asked_log (hsub i e h1)) h2
  have hcame := ha.came i e.toAsked (asked_log he)
  have hcase : l[i]? = some e ∨ c.alive = false ∧ i = l.length ∧ c.log.length = l.length + 1 ∧ e.start = p := by
    rcases h2 with ⟨h2, -⟩ | ⟨h2, e', h3, h4⟩
    · rw [h2] at he; exact .inl he
    · by_cases hlt : i < l.length
      · rw [h3, List.getElem?_append_left hlt] at he; exact .inl he
      · have hlen := (List.getElem?_eq_some_iff.1 he).1
        rw [h3] at hlen
        simp only [List.length_append, List.length_singleton] at hlen
        have : i = l.length := by omega
        subst this
        rw [h3, List.getElem?_append_right (Nat.le_refl _)] at he
        simp only [Nat.sub_self, List.getElem?_cons_zero, Option.some.injEq] at he
        exact .inr ⟨h2, rfl, by rw [h3]; simp, by rw [← he]; exact h4⟩
  rcases hcase with hl | ⟨hdead, rfl, hlog, hst⟩
  · obtain ⟨k1, a, hd, after, k2, k3, -⟩ := g2 i e hl
    exact ⟨k1.trans hcame.symm, a, k2, ⟨a, some [], List.prefix_rfl, hd, after, k3⟩, fun _ => ⟨hd, after, k3⟩⟩
  · have hnone : c.asking = none := by
      cases hq : c.asking with
      | none => rfl
      | some q => exact absurd (hi.asking q hq).2.2 (by rw [hdead]; decide)
    have hask : c.asked.length = l.length + 1 := by
      unfold UpConn.asked
      rw [hnone]
      simp [hlog]
    have hlt : l.length < as.length := by omega
    have hal : as[l.length]? = some (as[l.length]'hlt) := List.getElem?_eq_getElem hlt
    generalize as[l.length]'hlt = a at hal
    obtain ⟨k, rest, hd, after, m1, -, -⟩ := hi.made e (List.mem_of_getElem? he)
    refine ⟨(hst.trans g1).trans hcame.symm, a, hal, ⟨_, rest, ?_, hd, after, m1⟩, ?_⟩
    · have := piece_prefix (k := k) ha.sent hal
      rw [hst, g1]
      have hcount := ha.count
      rw [List.drop_eq_nil_of_le (show as.length ≤ l.length + 1 by omega)] at this
      simpa using this
    · rintro (h | h)
      · omega
      · rw [hdead] at h; cases h

/-- The body of a response ends with the connection (RFC 7230, section 3.3.3, 7). -/
def EndsWithConn (method : Str) (m : HttpResponse) : Prop :=
  ¬ NoBody method m.status ∧ fieldValues m.fields "transfer-encoding".toList = [] ∧ fieldValues m.fields "content-length".toList = []

/-- The end of a response can be told from itself: it is read in the same way whatever follows. -/
def EndsItself (method a : Str) : Prop := ∃ n m, n ≤ 5 ∧ ∀ more, ReadsFinal method n (a ++ more) m more

theorem Chunks.more {s b r : Str} (h : Chunks s b r) (t : Str) : Chunks (s ++ t) b (r ++ t) := by
  induction h with
  | last h1 h2 h3 h4 h5 =>
    simp only [List.append_assoc]
    exact .last h1 h2 h3 h4 h5
  | chunk h1 h2 h3 h4 h5 h6 _ ih =>
    simp only [List.append_assoc]
    exact .chunk h1 h2 h3 h4 h5 h6 ih

theorem ReadsReply.more {method s r : Str} {m : HttpResponse} (h : ReadsReply method s m r) (hu : ¬ EndsWithConn method m) (t : Str) :
    ReadsReply method (s ++ t) m (r ++ t) := by
  obtain ⟨code, lines, b, h1, h2, h3, h4, h5, h6, rfl⟩ := h.text
  refine ⟨h.version, h.reason, h.trailer, code, lines, b ++ t, h1, h2, h3, h4, h5, ?_, by simp only [List.append_assoc, List.cons_append]⟩
  generalize m.body = body at h6
  cases h6 with
  | none k1 k2 k3 => exact .none k1 k2 k3
  | coded k1 k2 k3 k4 k5 => exact .coded k1 k2 k3 k4 k5
  | sized k1 k2 k3 =>
    rw [List.append_assoc]
    exact .sized k1 k2 k3
  | chunked k1 k2 k3 k4 k5 k6 => exact .chunked k1 k2 k3 k4 k5 (k6.more t)
  | untilEnd k1 k2 k3 => exact absurd ⟨k1, k2, k3⟩ hu

theorem ReadsFinal.more {method s r : Str} {n : Nat} {m : HttpResponse} (h : ReadsFinal method n s m r)
    (hu : ¬ EndsWithConn method m) (t : Str) : ReadsFinal method n (s ++ t) m (r ++ t) := by
  induction h with
  | final h1 h2 => exact .final (h1.more hu t) h2
  | interim h1 h2 h3 h4 _ ih => exact .interim (h1.more (fun h => h.1 (.inr (.inl ⟨h2, h3⟩))) t) h2 h3 h4 (ih hu)

theorem ReadsFinal.endsItself {method a : Str} {n : Nat} {m : HttpResponse} (hn : n ≤ 5) (h : ReadsFinal method n a m [])
    (hu : ¬ EndsWithConn method m) : EndsItself method a :=
  ⟨n, m, hn, fun more => h.more hu more⟩

theorem EndsItself.framing {method a : Str} (h : EndsItself method a) {hd : RespHead} {after : Str}
    (hr : readFinal method maxInterims a = some (hd, after)) : hd.framing ≠ .untilEnd := by
  obtain ⟨n, m, hn, h⟩ := h
  obtain ⟨hd', after', g1, g2⟩ := readFinal_reads (k := maxInterims) (h ['a']) hn
  rw [readFinal_append _ _ _ _ hr ['a']] at g1
  injection g1 with g1
  injection g1 with g1 g3
  subst g1 g3
  intro hf
  have := g2.body
  rw [hf] at this
  simp [readRespBody] at this

/-- A response that ends with the connection is read when it has ended, and made of everything that arrived. -/
theorem UpConn.toEnd {c : UpConn} (h : c.Reached) : ∀ e ∈ c.log, ∃ k rest hd after,
    Receives e.method ((c.arrived.drop e.start).take k) e.w rest hd after ∧ e.start + k ≤ c.arrived.length ∧
      (hd.framing = .untilEnd → c.ended = true ∧ e.start + k = c.arrived.length) := by
  induction h with
  | new => exact fun e he => (nomatch he)
  | @step c _ hc hs ih =>
    cases hs with
    | arrive bytes ho =>
      intro e he
      obtain ⟨k, rest, hd, after, h1, h2, h3⟩ := ih e he
      refine ⟨k, rest, hd, after, by rw [take_drop_append h2]; exact h1, by simp; omega, fun hf => ?_⟩
      rw [(h3 hf).1] at ho
      cases ho
    | ends =>
      intro e he
      obtain ⟨k, rest, hd, after, h1, h2, h3⟩ := ih e he
      exact ⟨k, rest, hd, after, h1, h2, fun hf => ⟨rfl, (h3 hf).2⟩⟩
    | ask => exact ih
    | unsolicited => exact ih
    | fail => exact ih
    | answer q w rest hd after keep hq hr hend hk =>
      obtain ⟨g1, g2, g3⟩ := (UpConn.inv hc).asking q hq
      have hp := (UpConn.inv hc).pos
      have hall : (c.arrived.drop q.start).take (c.arrived.length - q.start) = c.unread := by
        rw [g1, List.take_of_length_le (by simp)]
        rfl
      intro e he
      rcases List.mem_append.1 he with he | he
      · exact ih e he
      · rw [List.mem_singleton.1 he]
        exact ⟨c.arrived.length - q.start, rest, hd, after, by rw [hall]; exact hr, by simp only; omega,
          fun hf => ⟨hend hf, by simp only; omega⟩⟩

/-- C173, part: a response that was read to its end is all of the upstream's answer to this request, also if the connection is
not used again; for an answer that ends with the connection, if the upstream does not close it before it has sent all of the
answer. Missing: other answers that end with the connection, of which a beginning cannot be told from the whole, see
C177_violated, and other upstreams, see C173_own_partial. -/
theorem C173_ended_partial (c : UpConn) (h : c.Reached) (as : List Str) (ha : Answers c as) (i : Nat) (e : Handed)
    (he : c.log[i]? = some e) (hw : e.w.ending = .eof) (a : Str) (hi : as[i]? = some a) (n : Nat) (m : HttpResponse) (hn : n ≤ 5)
    (hm : ReadsFinal e.method n a m [])
    (hc : EndsWithConn e.method m → c.ended = true → (as.take (i + 1)).flatten.length ≤ c.arrived.length) :
    Received e.method a e.w (some []) := by
  obtain ⟨h0, a', h1, -, h3⟩ := C173_own_partial c h as ha i e he
  rw [hi] at h1
  injection h1 with h1
  subst h1
  by_cases hlast : i + 1 < c.asked.length
  · exact h3 (.inl hlast)
  have hcame := h0.trans (ha.came i e.toAsked (asked_log he))
  obtain ⟨k, rest, hd, after, hr, hk, hend⟩ := UpConn.toEnd h e (List.mem_of_getElem? he)
  obtain ⟨r, hrest⟩ := hr.ending.1 hw
  obtain rfl : rest = some r := by rw [hr.rest, hrest]
  have hpre := piece_prefix (k := k) ha.sent hi
  have hcount := ha.count
  rw [List.drop_eq_nil_of_le (show as.length ≤ i + 1 by omega), ← hcame] at hpre
  by_cases hf : hd.framing = .untilEnd
  · have hE : EndsWithConn e.method m := Classical.byContradiction fun hu => by
      obtain ⟨t, ht⟩ := hpre
      refine (hm.endsItself hn hu).framing (hd := hd) (after := after ++ t) ?_ hf
      have := readFinal_append _ _ _ _ hr.head t
      rw [ht] at this
      simpa using this
    obtain ⟨k1, k2⟩ := hend hf
    have hlen := hc hE k1
    rw [take_succ_length hi] at hlen
    have heq : (c.arrived.drop e.start).take k = a := by
      have hpre' : (c.arrived.drop e.start).take k <+: a := by simpa using hpre
      exact hpre'.eq_of_length_le (by simp only [List.length_take, List.length_drop]; omega)
    rw [heq] at hr
    have : some r = some [] := by rw [hr.rest, hf]; rfl
    rw [this] at hr
    exact ⟨hd, after, hr⟩
  · obtain ⟨after', h2⟩ := (read_whole (tail := []) hr hf (by simpa using hpre) hn hm).1
    exact ⟨hd, after', h2⟩

/-- C173, part: the same, for answers that do not end with the connection. -/
theorem C173_whole_partial (c : UpConn) (h : c.Reached) (as : List Str) (ha : Answers c as) (i : Nat) (e : Handed)
    (he : c.log[i]? = some e) (hw : e.w.ending = .eof) (a : Str) (hi : as[i]? = some a) (n : Nat) (m : HttpResponse) (hn : n ≤ 5)
    (hm : ReadsFinal e.method n a m []) (hu : ¬ EndsWithConn e.method m) : Received e.method a e.w (some []) :=
  C173_ended_partial c h as ha i e he hw a hi n m hn hm fun hE => absurd hE hu

/-- C173, part: and a request that waits begins to read where its own answer begins. -/
theorem C173_waiting_partial (c : UpConn) (h : c.Reached) (as : List Str) (ha : Answers c as) (q : Asked)
    (hq : c.asking = some q) : q.start = q.came ∧ c.pos = q.came := by
  have hi := UpConn.inv h
  obtain ⟨g1, -, g3⟩ := hi.asking q hq
  have hl : c.log.length < c.asked.length := by
    unfold UpConn.asked
    rw [hq]
    simp
  have hqi : c.asked[c.log.length]? = some q := by
    unfold UpConn.asked
    rw [hq, List.getElem?_append_right (by simp)]
    simp
  have hcount := ha.count
  obtain ⟨k1, -⟩ := chain_own ha.sent (hi.alive g3) (by omega) fun i e a h1 h2 => ha.well i e.toAsked a (asked_log h1) h2
  have := ha.came _ q hqi
  exact ⟨g1.trans (k1.trans this.symm), k1.trans this.symm⟩

/-- C173, part: a connection is used again only if the answer that was read does not say that it ends. -/
theorem C173_close_partial (c : UpConn) (h : c.Reached) (as : List Str) (ha : Answers c as) (i : Nat) (e : Handed)
    (he : c.log[i]? = some e) (hu : i + 1 < c.asked.length ∨ c.alive = true) (a : Str) (hi : as[i]? = some a)
    (n : Nat) (m : HttpResponse) (hn : n ≤ 5) (hm : ReadsFinal e.method n a m []) : ¬ SaysClose m := by
  obtain ⟨l, p, h1, h2⟩ := (UpConn.inv h).chain
  have hle : l.length ≤ c.log.length := by
    rcases h2 with ⟨h2, -⟩ | ⟨-, e', h2, -⟩ <;> rw [h2] <;> simp
  have hll : c.log.length ≤ as.length := by
    rw [ha.count]
    unfold UpConn.asked
    simp
  have hsub : ∀ (i : Nat) (e : Handed), l[i]? = some e → c.log[i]? = some e := by
    intro i e hl
    rcases h2 with ⟨h2, -⟩ | ⟨-, e', h2, -⟩
    · rw [h2]; exact hl
    · rw [h2, List.getElem?_append_left (List.getElem?_eq_some_iff.1 hl).1]; exact hl
  obtain ⟨-, g2⟩ := chain_own ha.sent h1 (by omega) fun i e a h1 h2 => ha.well i e.toAsked a (asked_log (hsub i e h1)) h2
  have hl : l[i]? = some e := by
    rcases h2 with ⟨h2, -⟩ | ⟨h2, e', h3, -⟩
    · rw [h2] at he; exact he
    · have hnone : c.asking = none := by
        cases hq : c.asking with
        | none => rfl
        | some q => exact absurd ((UpConn.inv h).asking q hq).2.2 (by rw [h2]; decide)
      have hask : c.asked.length = l.length + 1 := by
        unfold UpConn.asked
        rw [hnone, h3]
        simp
      have hlt : i < l.length := by
        rcases hu with hu | hu
        · omega
        · rw [h2] at hu; cases hu
      rw [h3, List.getElem?_append_left hlt] at he
      exact he
  obtain ⟨-, a', hd, after, k2, k3, k4⟩ := g2 i e hl
  rw [hi] at k2
  injection k2 with k2
  subst k2
  obtain ⟨h', after', m1, m2⟩ := readFinal_reads (k := maxInterims) hm hn
  rw [k3.head] at m1
  injection m1 with m1
  injection m1 with m1 _
  subst m1
  have hval := m2.fields "Connection".toList (by decide) (by decide) (by decide)
  rw [show canon "Connection".toList = "Connection".toList by decide,
    show toLower "Connection".toList = "connection".toList by decide] at hval
  have hk : shouldClose hd.version hd.header = false := by
    unfold keepsConn at k4
    rw [Bool.and_eq_true] at k4
    simpa using k4.2
  unfold shouldClose at hk
  dsimp only at hk
  rw [hval] at hk
  rintro (hc | ⟨hv, hc⟩)
  · rw [← values_token (by decide)] at hc
    rw [hc] at hk
    split at hk <;> cases hk
  · have hw := m2.version
    rw [hv] at hw
    have hw : hd.version = (1, 0) := by
      injection hw with hw
      exact hw.symm
    rw [if_pos hw] at hk
    rw [← values_token (by decide), Bool.not_eq_true] at hc
    rw [hc] at hk
    simp at hk

/-! ## Whatever the upstream sends -/

/-- C173, part: if a connection is used again after a response, this was a final one whose end is known without the end of the
connection, for every upstream; so what follows a switch to another protocol is never read as a response. -/
theorem C173_reused (c : UpConn) (h : c.Reached) (i : Nat) (e : Handed) (he : c.log[i]? = some e)
    (hu : i + 1 < c.asked.length ∨ c.alive = true) :
    200 ≤ e.w.status ∧ e.w.ending = .eof ∧ ∃ s r, s <:+: c.arrived ∧ ∀ t, Received e.method (s ++ t) e.w (some (r ++ t)) := by
  obtain ⟨l, p, h1, h2⟩ := (UpConn.inv h).chain
  have hl : l[i]? = some e := by
    rcases h2 with ⟨h2, -⟩ | ⟨h2, e', h3, -⟩
    · rw [h2] at he; exact he
    · have hnone : c.asking = none := by
        cases hq : c.asking with
        | none => rfl
        | some q => exact absurd ((UpConn.inv h).asking q hq).2.2 (by rw [h2]; decide)
      have hask : c.asked.length = l.length + 1 := by
        unfold UpConn.asked
        rw [hnone, h3]
        simp
      have hlt : i < l.length := by
        rcases hu with hu | hu
        · omega
        · rw [h2] at hu; cases hu
      rw [h3, List.getElem?_append_left hlt] at he
      exact he
  obtain ⟨k, r, hd, after, k1, k2, -, -⟩ := h1.whole e (List.mem_of_getElem? hl)
  have k3 := k2
  unfold keepsConn at k3
  simp only [Bool.and_eq_true, decide_eq_true_eq] at k3
  exact ⟨by rw [k1.status]; exact k3.1.1.1, k1.ending.2 ⟨r, k1.rest.symm⟩, _, r,
    (List.take_prefix _ _).isInfix.trans (List.drop_suffix _ _).isInfix, fun t => ⟨_, _, k1.grow (keepsConn_framing k2) t⟩⟩

/-- C173, part: a connection that was given up is not used again, for every upstream: what is still to come as the answer to
a request that was cancelled, or whose time was over, is handed to no one. -/
theorem C173_abandoned {c c' : UpConn} (h : c.Reached) (hd : c.alive = false) (hs : c.Step c') :
    c'.alive = false ∧ c'.log = c.log := by
  have hi := UpConn.inv h
  cases hs with
  | arrive _ _ => exact ⟨hd, rfl⟩
  | ends => exact ⟨hd, rfl⟩
  | ask _ _ ha _ => rw [hd] at ha; cases ha
  | unsolicited _ _ => exact ⟨rfl, rfl⟩
  | fail _ _ => exact ⟨rfl, rfl⟩
  | answer q _ _ _ _ _ hq => rw [(hi.asking q hq).2.2] at hd; cases hd

/-- C173 is violated, for every upstream that sends more than it was asked for: if the bytes that follow an answer read as a
response, then a request that takes the connection before the read loop looks at it gets this response. All of it had
arrived before the request was put on the connection, which nothing in it depends on. -/
theorem C173_violated_always (c : UpConn) (h : c.Reached) (ha : c.alive = true) (hn : c.asking = none) (tag : Nat) (method : Str)
    (w : WireResp) (rest : Option Str) (hd : RespHead) (after : Str) (hr : Receives method c.unread w rest hd after)
    (hf : hd.framing ≠ .untilEnd) :
    ∃ (c' : UpConn) (e : Handed), c'.Reached ∧ c'.arrived = c.arrived ∧ c'.log = c.log ++ [e] ∧ e.tag = tag ∧ e.method = method ∧ e.w = w ∧
      e.came = c.arrived.length ∧ e.start < e.came := by
  refine ⟨_, _, .step (.step h (.ask tag method ha hn)) (.answer _ w rest hd after false rfl hr (fun e => absurd e hf)
    (fun e => (nomatch e))), rfl, rfl, rfl, rfl, rfl, rfl, ?_⟩
  have hp := (UpConn.inv h).pos
  have : c.pos ≠ c.arrived.length := by
    intro e
    have hz : c.unread = [] := by
      unfold UpConn.unread
      rw [e, List.drop_length]
    have := hr.head
    rw [hz] at this
    exact absurd this (by
      have : readFinal method maxInterims [] = none := rfl
      rw [this]
      simp)
  exact Nat.lt_of_le_of_ne hp this

/-- An answer with a body of four bytes. -/
def Demo.evilText : Str := "HTTP/1.1 200 OK\r\nContent-Length: 4\r\n\r\nevil".toList

/-- An answer to HEAD; it tells the length of what is not to be sent. -/
def Demo.headText : Str := "HTTP/1.1 200 OK\r\nContent-Length: 42\r\n\r\n".toList

def Demo.headWire : WireResp where
  status := 200
  header := [("Content-Length".toList, ["42".toList])]
  contentLength := 42

def Demo.evilWire : WireResp where
  status := 200
  header := [("Content-Length".toList, ["4".toList])]
  contentLength := 4
  body := "evil".toUTF8.toList

theorem Demo.head_receives : Receives "HEAD".toList (Demo.headText ++ Demo.evilText) Demo.headWire (some Demo.evilText)
    ⟨200, (1, 1), [("Content-Length".toList, ["42".toList])], .sized 0, 42⟩ Demo.evilText :=
  ⟨by decide +kernel, rfl, List.Perm.refl _, rfl, by decide +kernel, ⟨fun _ => ⟨_, rfl⟩, fun _ => rfl⟩, rfl⟩

theorem Demo.evil_receives : Receives "GET".toList Demo.evilText Demo.evilWire (some [])
    ⟨200, (1, 1), [("Content-Length".toList, ["4".toList])], .sized 4, 4⟩ "evil".toList :=
  ⟨by decide +kernel, rfl, List.Perm.refl _, rfl, by decide +kernel, ⟨fun _ => ⟨[], by decide +kernel⟩, fun _ => rfl⟩,
    by decide +kernel⟩

/-- The connection after the answer to HEAD. -/
theorem Demo.after_head : ∃ c : UpConn, c.Reached ∧ c.alive = true ∧ c.asking = none ∧ c.arrived = Demo.headText ++ Demo.evilText ∧
    c.unread = Demo.evilText ∧ c.log.map (fun e => (e.tag, e.method)) = [(1, "HEAD".toList)] := by
  refine ⟨_, .step (.step (.step .new (.ask 1 "HEAD".toList rfl rfl)) (.arrive (Demo.headText ++ Demo.evilText) rfl))
    (.answer ⟨1, "HEAD".toList, 0, 0⟩ Demo.headWire (some Demo.evilText) _ _ true rfl Demo.head_receives (fun e => absurd e (by decide))
      (fun _ => ⟨rfl, by decide +kernel⟩)), rfl, rfl, rfl, by decide +kernel, rfl⟩

/-- C173 is violated: an upstream answers the HEAD request of one client with a body as well, and the body reads as a
response. The GET request of another client takes the connection; it gets this body, and so does the client. -/
theorem C173_violated : ∃ (c : UpConn) (e1 e2 : Handed), c.Reached ∧ c.log = [e1, e2] ∧ e1.tag = 1 ∧ e2.tag = 2 ∧
    e1.method = "HEAD".toList ∧ e2.method = "GET".toList ∧ e2.w = Demo.evilWire ∧ e2.came = c.arrived.length ∧ e2.start < e2.came ∧
    ∃ s, Demo.setup.ReachesOrderly s ∧ s.pc = .done ∧ s.curA.vResp = some e2.w.up ∧
      s.sent.map Sent.body = ["evil".toUTF8.toList] := by
  obtain ⟨c, h1, h2, h3, h4, h5, h6⟩ := Demo.after_head
  obtain ⟨c', e, g1, g2, g3, g4, g5, g6, g7, g8⟩ := C173_violated_always c h1 h2 h3 2 "GET".toList Demo.evilWire _ _ _
    (by rw [h5]; exact Demo.evil_receives) (by decide)
  obtain ⟨e1, he1⟩ : ∃ e1, c.log = [e1] := by
    have hl : c.log.length = 1 := by simpa using congrArg List.length h6
    exact List.length_eq_one_iff.1 hl
  rw [he1] at h6
  injection h6 with h6 _
  injection h6 with h6 h7
  obtain ⟨s, s1, s2, s3, -, s4⟩ := Demo.answered (r := Demo.evilWire.up) (by decide) (by
    obtain ⟨s, hs, hp⟩ : ∃ s, Demo.exec Demo.setup (Demo.success Demo.evilWire.up) = some s ∧ _ :=
      Option.isSome_iff_exists.1 (show (Demo.exec Demo.setup (Demo.success Demo.evilWire.up)).isSome = true by decide +kernel)
        |>.elim fun s hs => ⟨s, hs, trivial⟩
    refine ⟨s, hs, ?_⟩
    have : ((Demo.exec Demo.setup (Demo.success Demo.evilWire.up)).map fun s => (Demo.seen s).finished && (s.n == 1 && s.cur == 0) &&
      s.curA.vResp == some Demo.evilWire.up && s.sent.map Sent.status == [Demo.evilWire.up.status]) = some true := by
      decide +kernel
    rw [hs] at this
    injection this)
  refine ⟨c', e1, e, g1, by rw [g3, he1]; rfl, h6, g4, h7, g5, g6, by rw [g2]; exact g7, g8, s, s1, s2, by rw [g6]; exact s3, ?_⟩
  rw [s4]
  decide +kernel

theorem Demo.evil_reads : ReadsFinal "GET".toList 0 Demo.evilText
    ⟨"HTTP/1.1".toList, 200, "OK".toList, [("Content-Length".toList, "4".toList)], "evil".toList⟩ [] := by
  refine .final ⟨.inl rfl, by decide, ?_, "200".toList,
    [("Content-Length".toList ++ ':' :: ([' '] ++ ("4".toList ++ [])), ("Content-Length".toList, "4".toList))],
    "evil".toList, by decide, by decide, by decide, ?_, rfl, ?_, by decide +kernel⟩ (by decide)
  · intro v hv
    have e : fieldValues [("Content-Length".toList, "4".toList)] "trailer".toList = [] := by decide
    rw [e] at hv
    cases hv
  · intro l hl
    rw [List.mem_singleton.1 hl]
    exact Demo.line ⟨by decide, by decide⟩ (by decide) (by decide) (by decide)
  · refine ReplyBody.sized (body := "evil".toList) (rest := []) ?_ (by decide) ⟨"4".toList, by decide, by decide, by decide, by decide, by decide⟩
    rintro (h | h | h | h)
    · exact absurd h (by decide)
    · exact absurd h (by decide)
    · exact absurd h (by decide)
    · exact absurd h (by decide)

/-- The hypotheses of `C173_whole_partial` are satisfiable: the answer is read to its end, and then the connection is closed. -/
example : ∃ c as e a m, UpConn.Reached c ∧ Answers c as ∧ c.log = [e] ∧ c.alive = false ∧ e.w.ending = .eof ∧ as = [a] ∧
    ReadsFinal e.method 0 a m [] ∧ ¬ EndsWithConn e.method m := by
  have r1 := UpConn.Reached.step (.step (.step (.step .new (.ask 1 "GET".toList rfl rfl)) (.arrive Demo.evilText rfl)) .ends)
    (.answer ⟨1, "GET".toList, 0, 0⟩ Demo.evilWire (some []) _ _ false rfl Demo.evil_receives (fun e => absurd e (by decide))
      (fun e => (nomatch e)))
  refine ⟨_, [Demo.evilText], _, _, _, r1, ?_, rfl, rfl, rfl, rfl, Demo.evil_reads, fun h => absurd h.2.2 (by decide)⟩
  have ha : ∀ c : UpConn, c.asked = [⟨1, "GET".toList, 0, 0⟩] → c.arrived = Demo.evilText → Answers c [Demo.evilText] := by
    intro c h1 h2
    refine ⟨by rw [h1]; rfl, by rw [h2]; exact ⟨[], by simp⟩, ?_, ?_⟩
    · intro i q hq
      rw [h1] at hq
      rcases i with _ | n
      · injection hq with hq; rw [← hq]; rfl
      · cases hq
    · intro i q a hq ha
      rw [h1] at hq
      rcases i with _ | n
      · injection hq with hq
        injection ha with ha
        rw [← hq, ← ha]
        exact ⟨0, _, by decide, Demo.evil_reads⟩
      · cases hq
  exact ha _ rfl rfl

/-- An answer that ends with the connection. -/
def Demo.openText : Str := "HTTP/1.1 200 OK\r\n\r\ncomplete".toList

theorem Demo.open_reads : ReadsFinal "GET".toList 0 Demo.openText
    ⟨"HTTP/1.1".toList, 200, "OK".toList, [], "complete".toList⟩ [] := by
  refine .final ⟨.inl rfl, by decide, fun v hv => (nomatch hv), "200".toList, [], "complete".toList, by decide, by decide, by decide,
    fun l hl => (nomatch hl), rfl, .untilEnd ?_ rfl rfl, by decide +kernel⟩ (by decide)
  rintro (h | h | h | h)
  · exact absurd h (by decide)
  · exact absurd h (by decide)
  · exact absurd h (by decide)
  · exact absurd h (by decide)

def Demo.openWire : WireResp := { status := 200, header := [], body := "complete".toUTF8.toList, ending := .eof, contentLength := -1 }

theorem Demo.open_receives : Receives "GET".toList Demo.openText Demo.openWire (some [])
    ⟨200, (1, 1), [], .untilEnd, -1⟩ "complete".toList :=
  ⟨by decide +kernel, rfl, List.Perm.refl _, rfl, by decide +kernel, ⟨fun _ => ⟨[], by decide +kernel⟩, fun _ => rfl⟩,
    by decide +kernel⟩

/-- The hypotheses of `C173_ended_partial` are satisfiable, with an answer that ends with the connection. -/
example : ∃ c as e a m, UpConn.Reached c ∧ Answers c as ∧ c.log = [e] ∧ c.ended = true ∧ e.w.ending = .eof ∧ as = [a] ∧
    ReadsFinal e.method 0 a m [] ∧ EndsWithConn e.method m ∧ (as.take (0 + 1)).flatten.length ≤ c.arrived.length := by
  have r1 := UpConn.Reached.step (.step (.step (.step .new (.ask 1 "GET".toList rfl rfl)) (.arrive Demo.openText rfl)) .ends)
    (.answer ⟨1, "GET".toList, 0, 0⟩ Demo.openWire (some []) _ _ false rfl Demo.open_receives (fun _ => rfl) (fun e => (nomatch e)))
  refine ⟨_, [Demo.openText], _, _, _, r1, ?_, rfl, rfl, rfl, rfl, Demo.open_reads, ⟨?_, rfl, rfl⟩, by simp⟩
  · have ha : ∀ c : UpConn, c.asked = [⟨1, "GET".toList, 0, 0⟩] → c.arrived = Demo.openText → Answers c [Demo.openText] := by
      intro c h1 h2
      refine ⟨by rw [h1]; rfl, by rw [h2]; exact ⟨[], by simp⟩, ?_, ?_⟩
      · intro i q hq
        rw [h1] at hq
        rcases i with _ | n
        · injection hq with hq; rw [← hq]; rfl
        · cases hq
      · intro i q a hq ha
        rw [h1] at hq
        rcases i with _ | n
        · injection hq with hq
          injection ha with ha
          rw [← hq, ← ha]
          exact ⟨0, _, by decide, Demo.open_reads⟩
        · cases hq
    exact ha _ rfl rfl
  · rintro (h | h | h | h)
    · exact absurd h (by decide)
    · exact absurd h (by decide)
    · exact absurd h (by decide)
    · exact absurd h (by decide)

/-- The hypotheses of `C173_own_partial` are satisfiable: two requests, each with its answer, the second of which arrives in
two portions, and one that waits. -/
example : ∃ c as, UpConn.Reached c ∧ Answers c as ∧ c.asked.map Asked.tag = [1, 2, 3] ∧ c.log.length = 2 ∧ c.alive = true := by
  have two : Receives "GET".toList (Demo.evilText ++ (Demo.evilText.take 7 ++ Demo.evilText.drop 7) |>.drop 42) Demo.evilWire (some [])
      ⟨200, (1, 1), [("Content-Length".toList, ["4".toList])], .sized 4, 4⟩ "evil".toList := by
    rw [show (Demo.evilText ++ (Demo.evilText.take 7 ++ Demo.evilText.drop 7) |>.drop 42) = Demo.evilText by decide +kernel]
    exact Demo.evil_receives
  have r1 := UpConn.Reached.step (.step (.step .new (.ask 1 "GET".toList rfl rfl)) (.arrive Demo.evilText rfl))
    (.answer ⟨1, "GET".toList, 0, 0⟩ Demo.evilWire (some []) _ _ true rfl Demo.evil_receives (fun e => absurd e (by decide))
      (fun _ => ⟨rfl, by decide +kernel⟩))
  have r2 := UpConn.Reached.step (.step (.step (.step r1 (.ask 2 "GET".toList rfl rfl)) (.arrive (Demo.evilText.take 7) rfl))
    (.arrive (Demo.evilText.drop 7) rfl))
    (.answer ⟨2, "GET".toList, 42, 42⟩ Demo.evilWire (some []) _ _ true (by decide +kernel) (by
      refine Eq.mp ?_ two
      congr 1) (fun e => absurd e (by decide))
      (fun _ => ⟨rfl, by decide +kernel⟩))
  have r3 := UpConn.Reached.step r2 (.ask 3 "GET".toList rfl rfl)
  refine ⟨_, [Demo.evilText, Demo.evilText, Demo.evilText], r3, ?_, rfl, rfl, rfl⟩
  have ha : ∀ c : UpConn, c.asked = [⟨1, "GET".toList, 0, 0⟩, ⟨2, "GET".toList, 42, 42⟩, ⟨3, "GET".toList, 84, 84⟩] →
      c.arrived = Demo.evilText ++ Demo.evilText → Answers c [Demo.evilText, Demo.evilText, Demo.evilText] := by
    intro c h1 h2
    refine ⟨by rw [h1]; rfl, by rw [h2]; exact ⟨Demo.evilText, by decide +kernel⟩, ?_, ?_⟩
    · intro i q hq
      rw [h1] at hq
      match i, hq with
      | 0, hq => injection hq with hq; rw [← hq]; decide +kernel
      | 1, hq => injection hq with hq; rw [← hq]; decide +kernel
      | 2, hq => injection hq with hq; rw [← hq]; decide +kernel
      | n + 3, hq => cases hq
    · intro i q a hq ha
      rw [h1] at hq
      match i, hq, ha with
      | 0, hq, ha => injection hq with hq; injection ha with ha; rw [← hq, ← ha]; exact ⟨0, _, by decide, Demo.evil_reads⟩
      | 1, hq, ha => injection hq with hq; injection ha with ha; rw [← hq, ← ha]; exact ⟨0, _, by decide, Demo.evil_reads⟩
      | 2, hq, ha => injection hq with hq; injection ha with ha; rw [← hq, ← ha]; exact ⟨0, _, by decide, Demo.evil_reads⟩
      | n + 3, hq, _ => cases hq
  exact ha _ (by decide +kernel) (by decide +kernel)

end J8a
