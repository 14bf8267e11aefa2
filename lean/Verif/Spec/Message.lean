import Verif.Go.Num
/-!
# Request messages (RFC 7230, section 3)

A relation between a stream of bytes and the request at its beginning. It is strict: one space in the request line
where one is due, CRLF at the end of lines, no folding.
-/
namespace J8a
open Go (digitsVal toLower)

/-- Section 3.2.6. -/
def tchars : List Char :=
  "!#$%&'*+-.^_`|~0123456789abcdefghijklmnopqrstuvwxyzABCDEFGHIJKLMNOPQRSTUVWXYZ".toList

def Token (s : Str) : Prop := s ≠ [] ∧ ∀ c ∈ s, c ∈ tchars

/-- Optional white space. -/
def Ows (s : Str) : Prop := ∀ c ∈ s, c = ' ' ∨ c = '\t'

def crlf : Str := ['\r', '\n']

/-- Section 3.2: a header field. -/
structure FieldLine (line : Str) (f : Str × Str) : Prop where
  name : Token f.1
  value : ∀ c ∈ f.2, c = '\t' ∨ (0x20 ≤ c.toNat ∧ c.toNat ≠ 0x7f)
  first : ∀ c, f.2.head? = some c → c ≠ ' ' ∧ c ≠ '\t'
  last : ∀ c, f.2.getLast? = some c → c ≠ ' ' ∧ c ≠ '\t'
  text : ∃ w1 w2, Ows w1 ∧ Ows w2 ∧ line = f.1 ++ ':' :: (w1 ++ (f.2 ++ w2))

/-- Values of the fields with a name, which is given in lower case. -/
def fieldValues (fields : List (Str × Str)) (name : Str) : List Str :=
  (fields.filter fun f => toLower f.1 = name).map Prod.snd

/-- Section 3.3.3: the length of the body. A request with a transfer coding, or with several lengths, has
none here. -/
inductive BodyLength (fields : List (Str × Str)) : Nat → Prop
  | none : fieldValues fields "transfer-encoding".toList = [] →
      fieldValues fields "content-length".toList = [] → BodyLength fields 0
  | one {v : Str} : fieldValues fields "transfer-encoding".toList = [] →
      fieldValues fields "content-length".toList = [v] → v ≠ [] → (∀ c ∈ v, c.isDigit = true) →
      BodyLength fields (digitsVal v)

structure HttpRequest where
  method : Str
  target : Str
  fields : List (Str × Str)
  body : Str
deriving DecidableEq, Repr

/-- The stream begins with this request; `rest` is what follows it. -/
structure ReadsRequest (stream : Str) (m : HttpRequest) (rest : Str) : Prop where
  method : Token m.method
  target : m.target ≠ [] ∧ ∀ c ∈ m.target, 0x20 < c.toNat ∧ c.toNat ≠ 0x7f
  length : BodyLength m.fields m.body.length
  text : ∃ lines : List (Str × (Str × Str)), (∀ l ∈ lines, FieldLine l.1 l.2) ∧
    lines.map Prod.snd = m.fields ∧
    stream = m.method ++ ' ' :: (m.target ++ ' ' :: ("HTTP/1.1".toList ++ (crlf ++
      (lines.flatMap (fun l => l.1 ++ crlf) ++ (crlf ++ (m.body ++ rest))))))

end J8a
