import Verif.Model.Route
/-!
# Specification vocabulary for routing
-/
namespace J8a

/-- The characters with a meaning of their own in Go regular expressions. -/
def metaChars : List Char := "\\.+*?()|[]{}^$".toList

/-- A route path without regular expression syntax. -/
def Literal (p : Str) : Prop := ∀ c ∈ p, c ∉ metaChars

instance (p : Str) : Decidable (Literal p) := by unfold Literal; infer_instance

/-- The one assumption about `regexp` used for literal routes: `^` followed by a literal
compiles, and matches exactly the strings that start with the literal. -/
def Regexp.LiteralLaw (E : Regexp) : Prop :=
  ∀ p, Literal p → E.compiles ('^' :: p) = true ∧
    ∀ s, E.isMatch ('^' :: p) s = true ↔ ∃ rest, s = p ++ rest

/-- An engine satisfying the law (so the assumption is consistent): everything is literal. -/
def literalEngine : Regexp where
  compiles := fun _ => true
  isMatch := fun src s => (src.drop 1).isPrefixOf s

/-- The part of a URL string between `://` and the first `/`, `?` or `#` (RFC 3986 §3.2),
without the user information in front of the last `@`: the host and port connected to. -/
def dropUserinfo (a : Str) : Str := (a.reverse.takeWhile (· ≠ '@')).reverse

def urlAuthority (s : Str) : Str :=
  match Go.index s "://".toList with
  | none => []
  | some i => dropUserinfo ((s.drop (i + 3)).takeWhile (fun c => !(c = '/' || c = '?' || c = '#')))

end J8a
