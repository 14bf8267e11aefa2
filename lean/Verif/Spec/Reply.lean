import Verif.Spec.Incoming
/-!
# Response messages with every kind of body (RFC 7230, sections 3.3.3 and 4.1; RFC 7231, section 6.2)

As `ReadsResponse`, and with chunk extensions and trailers, and with interim responses before the final one. A response
without a body may have a length or a coding, not both, that tell about the one it would have had. CONNECT is left out.
-/
namespace J8a
open Go (digitsVal toLower)

/-- A response to this method with this status has no body (section 3.3.3, 1). -/
def NoBody (method : Str) (status : Nat) : Prop :=
  method = "HEAD".toList ∨ (100 ≤ status ∧ status < 200) ∨ status = 204 ∨ status = 304

/-- Section 3.3.2: one length that fits in 63 bits. -/
def OneLength (fields : List (Str × Str)) (n : Nat) : Prop :=
  ∃ v, fieldValues fields "content-length".toList = [v] ∧ v ≠ [] ∧ (∀ c ∈ v, c.isDigit = true) ∧ digitsVal v = n ∧ n < 2 ^ 63

/-- Section 3.3.3: the body at the beginning of a stream, and what follows. -/
inductive ReplyBody (method version : Str) (status : Nat) (fields : List (Str × Str)) : (stream body rest : Str) → Prop
  | none {rest : Str} : NoBody method status → fieldValues fields "transfer-encoding".toList = [] →
      (fieldValues fields "content-length".toList = [] ∨ ∃ n, OneLength fields n) →
      ReplyBody method version status fields rest [] rest
  | coded {v rest : Str} : NoBody method status → version = "HTTP/1.1".toList →
      fieldValues fields "transfer-encoding".toList = [v] → toLower v = "chunked".toList →
      fieldValues fields "content-length".toList = [] → ReplyBody method version status fields rest [] rest
  | sized {body rest : Str} : ¬ NoBody method status → fieldValues fields "transfer-encoding".toList = [] →
      OneLength fields body.length → ReplyBody method version status fields (body ++ rest) body rest
  | chunked {v stream body rest : Str} : ¬ NoBody method status → version = "HTTP/1.1".toList →
      fieldValues fields "transfer-encoding".toList = [v] → toLower v = "chunked".toList →
      fieldValues fields "content-length".toList = [] → Chunks stream body rest →
      ReplyBody method version status fields stream body rest
  | untilEnd {stream : Str} : ¬ NoBody method status → fieldValues fields "transfer-encoding".toList = [] →
      fieldValues fields "content-length".toList = [] → ReplyBody method version status fields stream stream []

/-- Section 4.1.2: no field announced as a trailer that tells how the message is read. -/
def TrailerOk (fields : List (Str × Str)) : Prop :=
  ∀ v ∈ fieldValues fields "trailer".toList, ∀ n ∈ ["transfer-encoding", "trailer", "content-length"], ¬ n.toList <:+: toLower v

/-- The stream begins with this response to a request with that method; `rest` is what follows it. -/
structure ReadsReply (method stream : Str) (m : HttpResponse) (rest : Str) : Prop where
  version : m.version = "HTTP/1.1".toList ∨ m.version = "HTTP/1.0".toList
  reason : ∀ c ∈ m.reason, c = '\t' ∨ (0x20 ≤ c.toNat ∧ c.toNat ≠ 0x7f)
  trailer : TrailerOk m.fields
  text : ∃ (code : Str) (lines : List (Str × (Str × Str))) (s : Str), code.length = 3 ∧
    (∀ c ∈ code, c.isDigit = true) ∧ digitsVal code = m.status ∧ (∀ l ∈ lines, FieldLine l.1 l.2) ∧
    lines.map Prod.snd = m.fields ∧ ReplyBody method m.version m.status m.fields s m.body rest ∧
    stream = m.version ++ ' ' :: (code ++ ' ' :: (m.reason ++ (crlf ++
      (lines.flatMap (fun l => l.1 ++ crlf) ++ (crlf ++ s)))))

/-- A final response, after as many interim ones. -/
inductive ReadsFinal (method : Str) : (interims : Nat) → (stream : Str) → HttpResponse → (rest : Str) → Prop
  | final {stream rest : Str} {m : HttpResponse} : ReadsReply method stream m rest → 200 ≤ m.status →
      ReadsFinal method 0 stream m rest
  | interim {n : Nat} {stream next rest : Str} {i m : HttpResponse} : ReadsReply method stream i next → 100 ≤ i.status →
      i.status < 200 → i.status ≠ 101 → ReadsFinal method n next m rest → ReadsFinal method (n + 1) stream m rest

end J8a
