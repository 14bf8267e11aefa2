import Verif.Spec.RespMessage
/-!
# Request messages with every kind of body (RFC 7230, sections 3.3.3 and 4.1)

As `ReadsRequest`, and with chunked bodies, chunk extensions and trailers. Chunk sizes have at most sixteen digits.
-/
namespace J8a
open Go (digitsVal toLower)

/-- Section 4.1.1, roughly: anything behind a semicolon. -/
def ChunkExt (s : Str) : Prop := s = [] ∨ ∃ t, s = ';' :: t ∧ '\r' ∉ t ∧ '\n' ∉ t

/-- Section 4.1: what stands for a body in a stream, and what follows. -/
inductive Chunks : (stream body rest : Str) → Prop
  | last {zeros ext rest : Str} {lines : List (Str × (Str × Str))} : zeros ≠ [] → (∀ c ∈ zeros, c = '0') →
      zeros.length ≤ 16 → ChunkExt ext → (∀ l ∈ lines, FieldLine l.1 l.2) →
      Chunks (zeros ++ (ext ++ (crlf ++ (lines.flatMap (fun l => l.1 ++ crlf) ++ (crlf ++ rest))))) [] rest
  | chunk {size ext data stream body rest : Str} : size ≠ [] → (∀ c ∈ size, c ∈ hexDigits) → size.length ≤ 16 →
      ChunkExt ext → data ≠ [] → hexNumber size = data.length → Chunks stream body rest →
      Chunks (size ++ (ext ++ (crlf ++ (data ++ (crlf ++ stream))))) (data ++ body) rest

/-- Section 3.3.3: the body at the beginning of a stream, and what follows. -/
inductive ReqBody (fields : List (Str × Str)) : (stream body rest : Str) → Prop
  | none {rest : Str} : fieldValues fields "transfer-encoding".toList = [] →
      fieldValues fields "content-length".toList = [] → ReqBody fields rest [] rest
  | sized {v body rest : Str} : fieldValues fields "transfer-encoding".toList = [] →
      fieldValues fields "content-length".toList = [v] → v ≠ [] → (∀ c ∈ v, c.isDigit = true) →
      digitsVal v = body.length → ReqBody fields (body ++ rest) body rest
  | chunked {v stream body rest : Str} : fieldValues fields "transfer-encoding".toList = [v] →
      toLower v = "chunked".toList → fieldValues fields "content-length".toList = [] → Chunks stream body rest →
      ReqBody fields stream body rest

/-- The stream begins with this request; `rest` is what follows it. -/
structure ReadsIncoming (stream : Str) (m : HttpRequest) (rest : Str) : Prop where
  method : Token m.method
  target : m.target ≠ [] ∧ ∀ c ∈ m.target, 0x20 < c.toNat ∧ c.toNat ≠ 0x7f
  text : ∃ (lines : List (Str × (Str × Str))) (s : Str), (∀ l ∈ lines, FieldLine l.1 l.2) ∧
    lines.map Prod.snd = m.fields ∧ ReqBody m.fields s m.body rest ∧
    stream = m.method ++ ' ' :: (m.target ++ ' ' :: ("HTTP/1.1".toList ++ (crlf ++
      (lines.flatMap (fun l => l.1 ++ crlf) ++ (crlf ++ s)))))

/-- Characters of hosts and ports (RFC 3986, section 3.2.2). -/
def hostChars : List Char :=
  "!$&'()*+,;=-._~:[]%0123456789abcdefghijklmnopqrstuvwxyzABCDEFGHIJKLMNOPQRSTUVWXYZ".toList

/-- What a recipient may ask of a request besides its grammar: one Host (section 5.4), no expectation but 100-continue
(RFC 7231, section 5.1.1), no field announced as a trailer that tells how the message is read (section 4.1.2). -/
structure Acceptable (m : HttpRequest) : Prop where
  host : ∃ h, fieldValues m.fields "host".toList = [h] ∧ ∀ c ∈ h, c ∈ hostChars
  expect : fieldValues m.fields "expect".toList = [] ∨
    ∃ v, fieldValues m.fields "expect".toList = [v] ∧ toLower v = "100-continue".toList
  trailer : ∀ v ∈ fieldValues m.fields "trailer".toList, ∀ n ∈ ["transfer-encoding", "trailer", "content-length"],
    ¬ n.toList <:+: toLower v

/-- There is no body with HEAD (RFC 7231, section 4.3.2 lets a recipient refuse one). -/
def HeadBare (m : HttpRequest) : Prop :=
  m.method = "HEAD".toList → fieldValues m.fields "transfer-encoding".toList = [] ∧
    (fieldValues m.fields "content-length".toList = [] ∨ fieldValues m.fields "content-length".toList = ["0".toList])

end J8a
