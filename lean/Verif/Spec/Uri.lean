import Verif.Go.Str
/-!
# The syntax of URIs (RFC 3986) and request targets (RFC 7230 §5.3), independently of package `net/url`
-/
namespace J8a.Uri

def alpha : List Char := "abcdefghijklmnopqrstuvwxyzABCDEFGHIJKLMNOPQRSTUVWXYZ".toList
def digit : List Char := "0123456789".toList
def hexdig : List Char := "0123456789abcdefABCDEF".toList

/-- RFC 3986 §2.3. -/
def unreserved : List Char := alpha ++ digit ++ "-._~".toList

/-- RFC 3986 §2.2. -/
def subDelims : List Char := "!$&'()*+,;=".toList

/-- RFC 3986 §3.3: `segment = *pchar`, segments separated by slashes; `%` must start an encoded byte. -/
def pathText : Str → Bool
  | [] => true
  | c :: r =>
    if c = '%' then
      match r with
      | a :: b :: r => a ∈ hexdig && b ∈ hexdig && pathText r
      | _ => false
    else (c ∈ unreserved || c ∈ subDelims || c ∈ ":@/".toList) && pathText r

/-- Every `%` starts an encoded byte (RFC 3986 §2.1). -/
def escapesOk : Str → Bool
  | [] => true
  | c :: r =>
    if c = '%' then
      match r with
      | a :: b :: r => a ∈ hexdig && b ∈ hexdig && escapesOk r
      | _ => false
    else escapesOk r

/-- What may follow the question mark. RFC 3986 §3.4 allows less; no fragment, no control characters. -/
def queryText (q : Str) : Bool := q.all fun c => c ≠ '#' && 0x20 < c.toNat && c.toNat ≠ 0x7f

/-- RFC 7230 §5.3.1 `origin-form = absolute-path [ "?" query ]`. -/
def OriginForm (t : Str) : Prop :=
  ∃ p, pathText ('/' :: p) = true ∧
    (t = '/' :: p ∨ ∃ q, queryText q = true ∧ t = '/' :: p ++ '?' :: q)

/-- RFC 3986 §3.2.2: a registered name or IPv4 address, or an IPv6 address in brackets. -/
def HostName (h : Str) : Prop :=
  (h ≠ [] ∧ ∀ c ∈ h, c ∈ unreserved ∨ c ∈ subDelims) ∨
  ∃ a, h = '[' :: a ++ [']'] ∧ ∀ c ∈ a, c ∈ hexdig ∨ c ∈ ":.".toList

/-- The value of a hexadecimal digit. -/
def hexVal (c : Char) : Nat :=
  if c ∈ digit then c.toNat - 48 else if c ∈ "abcdef".toList then c.toNat - 87 else c.toNat - 55

/-- A hexadecimal digit in upper case. -/
def hexUpper (c : Char) : Char := if c ∈ "abcdef".toList then Char.ofNat (c.toNat - 32) else c

/-- RFC 3986 §6.2.2.1 and §6.2.2.2: encoded unreserved characters are decoded, the digits of other encoded
bytes are written in upper case. -/
def normal : Str → Str
  | [] => []
  | c :: r =>
    match c, r with
    | '%', a :: b :: r =>
      if a ∈ hexdig ∧ b ∈ hexdig then
        if Char.ofNat (16 * hexVal a + hexVal b) ∈ unreserved then Char.ofNat (16 * hexVal a + hexVal b) :: normal r
        else '%' :: hexUpper a :: hexUpper b :: normal r
      else '%' :: normal (a :: b :: r)
    | c, r => c :: normal r

/-- Two spellings of one URI. -/
def Equivalent (s t : Str) : Prop := normal s = normal t

/-- No unreserved character is encoded. -/
def Unencoded : Str → Prop
  | [] => True
  | c :: r =>
    match c, r with
    | '%', a :: b :: r => (a ∈ hexdig ∧ b ∈ hexdig → Char.ofNat (16 * hexVal a + hexVal b) ∉ unreserved) ∧ Unencoded (a :: b :: r)
    | _, r => Unencoded r

/-- RFC 7230 §5.3.2: a target in absolute form starts with a scheme and `://`. -/
def AbsoluteForm (t : Str) : Prop :=
  ∃ s rest, s ≠ [] ∧ (∀ c ∈ s, c ∈ alpha ∨ c ∈ digit ∨ c ∈ "+-.".toList) ∧ t = s ++ "://".toList ++ rest

/-- A target is at a path or below it: segments are not torn apart. -/
def Below (base t : Str) : Prop :=
  t = base ∨ (∃ rest, t = base ++ '/' :: rest ∨ t = base ++ '?' :: rest) ∨
  (base.getLast? = some '/' ∧ ∃ rest, t = base ++ rest)

end J8a.Uri
