import Verif.Spec.Message
/-!
# Response messages (RFC 7230, section 3)

A relation between a stream of bytes and the response at its beginning, as strict as the one for requests. How the
body is delimited depends on the method of the request and the version of the response (section 3.3.3).
-/
namespace J8a
open Go (digitsVal toLower)

/-- Section 4.1: hexadecimal digits and their number. -/
def hexDigits : List Char := "0123456789abcdefABCDEF".toList

def hexDigitValue (c : Char) : Nat :=
  if c.isDigit then c.toNat - 48 else if c.isUpper then c.toNat - 55 else c.toNat - 87

def hexNumber (s : Str) : Nat := s.foldl (fun n c => 16 * n + hexDigitValue c) 0

/-- Section 4.1: the chunked coding, without extensions and trailers: what stands for a body in a stream, and what
follows. -/
inductive Chunked : (stream body rest : Str) → Prop
  | last {zeros rest : Str} : zeros ≠ [] → (∀ c ∈ zeros, c = '0') →
      Chunked (zeros ++ (crlf ++ (crlf ++ rest))) [] rest
  | chunk {size data stream body rest : Str} : size ≠ [] → (∀ c ∈ size, c ∈ hexDigits) → data ≠ [] →
      hexNumber size = data.length → Chunked stream body rest →
      Chunked (size ++ (crlf ++ (data ++ (crlf ++ stream)))) (data ++ body) rest

/-- Section 3.3.3, 1 and 2: responses without body. -/
def Bodiless (method : Str) (status : Nat) : Prop :=
  method = "HEAD".toList ∨ (100 ≤ status ∧ status < 200) ∨ status = 204 ∨ status = 304 ∨
    (method = "CONNECT".toList ∧ 200 ≤ status ∧ status < 300)

/-- Section 3.3.3: the body at the beginning of a stream, and what follows. -/
inductive RespBody (method version : Str) (status : Nat) (fields : List (Str × Str)) : (stream body rest : Str) → Prop
  | none {rest : Str} : Bodiless method status → RespBody method version status fields rest [] rest
  | sized {v body rest : Str} : ¬ Bodiless method status →
      fieldValues fields "transfer-encoding".toList = [] →
      fieldValues fields "content-length".toList = [v] → v ≠ [] → (∀ c ∈ v, c.isDigit = true) →
      digitsVal v = body.length → RespBody method version status fields (body ++ rest) body rest
  | chunked {stream body rest : Str} : ¬ Bodiless method status → version = "HTTP/1.1".toList →
      fieldValues fields "transfer-encoding".toList = ["chunked".toList] →
      fieldValues fields "content-length".toList = [] → Chunked stream body rest →
      RespBody method version status fields stream body rest
  | untilEnd {stream : Str} : ¬ Bodiless method status →
      fieldValues fields "transfer-encoding".toList = [] →
      fieldValues fields "content-length".toList = [] → RespBody method version status fields stream stream []

structure HttpResponse where
  version : Str
  status : Nat
  reason : Str
  fields : List (Str × Str)
  body : Str
deriving DecidableEq, Repr

/-- The stream begins with this response to a request with that method; `rest` is what follows it. -/
structure ReadsResponse (method stream : Str) (m : HttpResponse) (rest : Str) : Prop where
  version : m.version = "HTTP/1.1".toList ∨ m.version = "HTTP/1.0".toList
  reason : ∀ c ∈ m.reason, c = '\t' ∨ (0x20 ≤ c.toNat ∧ c.toNat ≠ 0x7f)
  text : ∃ (code : Str) (lines : List (Str × (Str × Str))) (s : Str), code.length = 3 ∧
    (∀ c ∈ code, c.isDigit = true) ∧ digitsVal code = m.status ∧ (∀ l ∈ lines, FieldLine l.1 l.2) ∧
    lines.map Prod.snd = m.fields ∧ RespBody method m.version m.status m.fields s m.body rest ∧
    stream = m.version ++ ' ' :: (code ++ ' ' :: (m.reason ++ (crlf ++
      (lines.flatMap (fun l => l.1 ++ crlf) ++ (crlf ++ s)))))

/-- The body of the response ends with the connection. -/
def UntilEnd (method : Str) (m : HttpResponse) : Prop :=
  ¬ Bodiless method m.status ∧ fieldValues m.fields "transfer-encoding".toList = [] ∧
    fieldValues m.fields "content-length".toList = []

end J8a
