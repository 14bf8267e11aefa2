import Verif.Spec.Path
import Verif.Spec.Uri
/-!
# The resource named by the path of a request target
-/
namespace J8a
open Go Uri

/-- A text with its encoded bytes decoded. -/
def decoded : Str → Str
  | [] => []
  | c :: r =>
    match c, r with
    | '%', a :: b :: r =>
      if a ∈ hexdig ∧ b ∈ hexdig then Char.ofNat (16 * hexVal a + hexVal b) :: decoded r
      else '%' :: decoded (a :: b :: r)
    | c, r => c :: decoded r

/-- The path of a target in origin form, as it is written. -/
def writtenPath (t : Str) : Str := t.takeWhile (· ≠ '?')

/-- The query of a target in origin form, as it is written, with the question mark. -/
def writtenQuery (t : Str) : Str := t.dropWhile (· ≠ '?')

/-- RFC 3986 §2.2, §3.3 and §5.2.4: a path is split into its segments first, then the segments are decoded, and empty
segments and dots are resolved. -/
def named (t : Str) : List Str := ((split '/' (writtenPath t)).map decoded).foldl segStep []

/-- No slash is encoded. -/
def NoEncodedSlash (p : Str) : Prop := ¬ "%2F".toList <:+: p ∧ ¬ "%2f".toList <:+: p

end J8a
