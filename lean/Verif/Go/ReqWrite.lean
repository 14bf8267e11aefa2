import Verif.Go.Header
import Verif.Go.Url
/-!
# net/http of Go 1.15: how requests are read from and written to a connection

`parseRequestLine`, `cleanHost`, `removeZone` (request.go), `validMethod` (request.go), `ValidHeaderFieldName`,
`ValidHeaderFieldValue` (golang.org/x/net/http/httpguts), `TrimString` (net/textproto). Strings of bytes.
Simplified: host names that are not ASCII are left as they are.
-/
namespace J8a.Go

/-- request.go `parseRequestLine`: the parts between the first two spaces. -/
def parseRequestLine (line : Str) : Option (Str × Str × Str) :=
  if ' ' ∈ line ∧ ' ' ∈ (cutAt ' ' line).2 then
    some ((cutAt ' ' line).1, (cutAt ' ' (cutAt ' ' line).2).1, (cutAt ' ' (cutAt ' ' line).2).2)
  else none

/-- httpguts `ValidHeaderFieldName`; `validMethod` is the same. -/
def validFieldName (s : Str) : Bool := s ≠ [] && s.all isTokenChar

/-- httpguts `ValidHeaderFieldValue`: no control characters but tabs. -/
def validFieldValue (s : Str) : Bool :=
  s.all fun c => !((c.toNat < 0x20 || c.toNat = 0x7f) && !(c = ' ' || c = '\t'))

/-- textproto `isASCIISpace`. -/
def isASCIISpace (c : Char) : Bool := c = ' ' || c = '\t' || c = '\n' || c = '\r'

/-- textproto `TrimString`. -/
def trimString (s : Str) : Str := ((s.dropWhile isASCIISpace).reverse.dropWhile isASCIISpace).reverse

/-- header.go `headerNewlineToSpace`. -/
def newlineToSpace (s : Str) : Str := s.map fun c => if c = '\n' ∨ c = '\r' then ' ' else c

/-- request.go `cleanHost`. -/
def cleanHost (s : Str) : Str := s.takeWhile fun c => c ≠ '/' && c ≠ ' '

/-- request.go `removeZone`. -/
def removeZone (h : Str) : Str :=
  if h.head? = some '[' ∧ ']' ∈ h ∧ '%' ∈ beforeLast ']' h then
    beforeLast '%' (beforeLast ']' h) ++ ']' :: afterLast ']' h
  else h

end J8a.Go
