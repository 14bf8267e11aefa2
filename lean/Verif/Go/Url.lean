import Verif.Go.Str
/-!
# Package `net/url` of Go 1.15

Parsing of URLs and of request targets, and what is written back. Strings are sequences of bytes, one
`Char` below 256 each. Errors are `none`; their texts are not modelled. Left out: the query component
(`RawQuery` is never decoded here) and the fragment itself (only whether it decodes).
-/
namespace J8a.Go

/-- The parts of a URL that are escaped differently. -/
inductive Enc where
  | path | userPassword | host | zone | fragment
deriving DecidableEq, Repr

/-- url.go `ishex`. -/
def isHex (c : Char) : Bool :=
  ('0' ≤ c && c ≤ '9') || ('a' ≤ c && c ≤ 'f') || ('A' ≤ c && c ≤ 'F')

/-- url.go `unhex`. -/
def unhex (c : Char) : Nat :=
  if '0' ≤ c && c ≤ '9' then c.toNat - '0'.toNat
  else if 'a' ≤ c && c ≤ 'f' then c.toNat - 'a'.toNat + 10
  else if 'A' ≤ c && c ≤ 'F' then c.toNat - 'A'.toNat + 10
  else 0

/-- Letters and digits of ASCII. -/
def isAlnum (c : Char) : Bool :=
  ('a' ≤ c && c ≤ 'z') || ('A' ≤ c && c ≤ 'Z') || ('0' ≤ c && c ≤ '9')

/-- url.go `shouldEscape`. -/
def shouldEscape (m : Enc) (c : Char) : Bool :=
  if isAlnum c then false
  else if (m = .host ∨ m = .zone) ∧ c ∈ "!$&'()*+,;=:[]<>\"".toList then false
  else if c ∈ "-_.~".toList then false
  else if c ∈ "$&+,/:;=?@".toList ∧ m = .path then c = '?'
  else if c ∈ "$&+,/:;=?@".toList ∧ m = .userPassword then c = '@' ∨ c = '/' ∨ c = '?' ∨ c = ':'
  else if c ∈ "$&+,/:;=?@".toList ∧ m = .fragment then false
  else if m = .fragment ∧ c ∈ "!()*".toList then false
  else true

/-- url.go `unescape`. -/
def unescape (m : Enc) : Str → Option Str
  | [] => some []
  | c :: r =>
    if c = '%' then
      match r with
      | a :: b :: r =>
        if !(isHex a && isHex b) then none
        else if m = .host ∧ unhex a < 8 ∧ ¬(a = '2' ∧ b = '5') then none
        else
          let v := Char.ofNat (16 * unhex a + unhex b)
          if m = .zone ∧ ¬(a = '2' ∧ b = '5') ∧ v ≠ ' ' ∧ shouldEscape .host v then none
          else (unescape m r).map (v :: ·)
      | _ => none
    else if (m = .host ∨ m = .zone) ∧ c.toNat < 128 ∧ shouldEscape m c then none
    else (unescape m r).map (c :: ·)

/-- url.go `upperhex`. -/
def upperHex (n : Nat) : Char :=
  if n < 10 then Char.ofNat ('0'.toNat + n) else Char.ofNat ('A'.toNat + (n - 10))

/-- url.go `escape`. -/
def escape (m : Enc) : Str → Str
  | [] => []
  | c :: r =>
    if shouldEscape m c then '%' :: upperHex (c.toNat / 16) :: upperHex (c.toNat % 16) :: escape m r
    else c :: escape m r

/-- url.go `validEncoded`. -/
def validEncoded (m : Enc) (s : Str) : Bool :=
  s.all fun c => c ∈ "!$&'()*+,;=:@[]%".toList || !shouldEscape m c

/-- url.go `URL`. `user` is the user information, name and password, if there is any. -/
structure Url where
  scheme : Str := []
  opaq : Str := []
  user : Option (Str × Str) := none
  host : Str := []
  path : Str := []
  rawPath : Str := []
  forceQuery : Bool := false
  rawQuery : Str := []
deriving DecidableEq, Repr

def Url.hasUser (u : Url) : Bool := u.user.isSome

/-- url.go `split` at the first `c`, without it. -/
def cutAt (c : Char) (s : Str) : Str × Str := (s.takeWhile (· ≠ c), (s.dropWhile (· ≠ c)).tail)

/-- `s[strings.LastIndex(s, c)+1:]`. -/
def afterLast (c : Char) (s : Str) : Str := (s.reverse.takeWhile (· ≠ c)).reverse

/-- `s[:strings.LastIndex(s, c)]` for a string that contains `c`. -/
def beforeLast (c : Char) (s : Str) : Str := (s.reverse.dropWhile (· ≠ c)).tail.reverse

/-- url.go `stringContainsCTLByte`. -/
def containsCTL (s : Str) : Bool := s.any fun c => c.toNat < 0x20 || c.toNat = 0x7f

/-- url.go `getscheme`: what was read is kept in reverse. -/
def getScheme (raw : Str) : Str → Str → Option (Str × Str)
  | _, [] => some ([], raw)
  | acc, c :: r =>
    if ('a' ≤ c && c ≤ 'z') || ('A' ≤ c && c ≤ 'Z') then getScheme raw (c :: acc) r
    else if ('0' ≤ c && c ≤ '9') || c ∈ "+-.".toList then
      if acc = [] then some ([], raw) else getScheme raw (c :: acc) r
    else if c = ':' then if acc = [] then none else some (acc.reverse, r)
    else some ([], raw)

/-- url.go `validOptionalPort`. -/
def validOptionalPort : Str → Bool
  | [] => true
  | c :: r => c = ':' && r.all fun d => '0' ≤ d && d ≤ '9'

/-- url.go `parseHost`. -/
def parseHost (h : Str) : Option Str :=
  if h.head? = some '[' then
    if ']' ∈ h then
      if validOptionalPort (afterLast ']' h) then
        match index (beforeLast ']' h) "%25".toList with
        | some z =>
          match unescape .host (h.take z), unescape .zone ((beforeLast ']' h).drop z),
              unescape .host (']' :: afterLast ']' h) with
          | some a, some b, some c => some (a ++ b ++ c)
          | _, _, _ => none
        | none => unescape .host h
      else none
    else none
  else if ':' ∈ h then
    if validOptionalPort (':' :: afterLast ':' h) then unescape .host h else none
  else unescape .host h

/-- url.go `validUserinfo`. -/
def validUserinfo (s : Str) : Bool :=
  s.all fun c => isAlnum c || c ∈ "-._:~!$&'()*+,;=%@".toList

/-- url.go `parseAuthority`. No password is the same as an empty one for those who look at it. -/
def parseAuthority (a : Str) : Option (Option (Str × Str) × Str) :=
  if '@' ∈ a then
    match parseHost (afterLast '@' a) with
    | none => none
    | some h =>
      let u := beforeLast '@' a
      if !validUserinfo u then none
      else match unescape .userPassword (cutAt ':' u).1, unescape .userPassword (cutAt ':' u).2 with
        | some name, some password => some (some (name, password), h)
        | _, _ => none
  else (parseHost a).map fun h => (none, h)

/-- url.go `URL.setPath`. -/
def Url.setPath (u : Url) (p : Str) : Option Url :=
  match unescape .path p with
  | none => none
  | some path => some { u with path := path, rawPath := if p = escape .path path then [] else p }

/-- url.go `parse`, the query: `ForceQuery`, `RawQuery` and the rest. -/
def splitQuery (rest : Str) : Bool × Str × Str :=
  if rest.getLast? = some '?' ∧ rest.count '?' = 1 then (true, [], rest.dropLast)
  else (false, (cutAt '?' rest).2, (cutAt '?' rest).1)

/-- url.go `parse`, from the authority on. -/
def parseRest (viaRequest : Bool) (u : Url) (rest : Str) : Option Url :=
  if (u.scheme ≠ [] ∨ (viaRequest = false ∧ ¬ hasPrefix rest "///".toList)) ∧ hasPrefix rest "//".toList then
    match parseAuthority ((rest.drop 2).takeWhile (· ≠ '/')) with
    | none => none
    | some (user, h) => { u with user := user, host := h }.setPath ((rest.drop 2).dropWhile (· ≠ '/'))
  else u.setPath rest

/-- url.go `parse`. -/
def parseUrl (viaRequest : Bool) (raw : Str) : Option Url :=
  if containsCTL raw then none
  else if raw = [] ∧ viaRequest then none
  else if raw = ['*'] then some { path := ['*'] }
  else match getScheme raw [] raw with
  | none => none
  | some (scheme, rest) =>
    let (force, query, rest) := splitQuery rest
    let u : Url := { scheme := toLower scheme, forceQuery := force, rawQuery := query }
    if rest.head? = some '/' then parseRest viaRequest u rest
    else if u.scheme ≠ [] then some { u with opaq := rest }
    else if viaRequest then none
    else if ':' ∈ rest.takeWhile (· ≠ '/') then none
    else parseRest viaRequest u rest

/-- url.go `ParseRequestURI`. -/
def parseRequestURI (raw : Str) : Option Url := parseUrl true raw

/-- url.go `Parse`. The fragment is cut off and must decode. -/
def Url.parse (raw : Str) : Option Url :=
  match parseUrl false (cutAt '#' raw).1 with
  | none => none
  | some u => if (unescape .fragment (cutAt '#' raw).2).isSome then some u else none

/-- url.go `URL.EscapedPath`. -/
def Url.escapedPath (u : Url) : Str :=
  if u.rawPath ≠ [] ∧ validEncoded .path u.rawPath ∧ unescape .path u.rawPath = some u.path then u.rawPath
  else if u.path = ['*'] then ['*']
  else escape .path u.path

/-- url.go `URL.RequestURI`. -/
def Url.requestURI (u : Url) : Str :=
  (if u.opaq = [] then if u.escapedPath = [] then ['/'] else u.escapedPath
   else if hasPrefix u.opaq "//".toList then u.scheme ++ ':' :: u.opaq else u.opaq) ++
  if u.forceQuery ∨ u.rawQuery ≠ [] then '?' :: u.rawQuery else []

end J8a.Go
