import Verif.Go.Num
import Verif.Go.Header
/-!
# Parts, validators and caches (RFC 7232, 7233, 7234)
-/
namespace J8a
open Go

/-- A member of comma separated lists of tokens, in lower case. -/
def Listed (values : List Str) (m : Str) : Prop :=
  ∃ v ∈ values, ∃ el ∈ split ',' v, toLower (el.filter fun c => c != ' ' && c != '\t') = m

/-- RFC 7233, 4.2: the value of Content-Range for the bytes `first` to `last` of `total`. -/
def contentRangeText (first last total : Nat) : Str :=
  "bytes ".toList ++ (natToDec first ++ '-' :: (natToDec last ++ '/' :: natToDec total))

/-- The body is the part of a representation that Content-Range names. -/
def IsPart (whole : Bytes) (contentRange : List Str) (body : Bytes) : Prop :=
  ∃ first last, contentRange = [contentRangeText first last whole.length] ∧ first ≤ last ∧
    last < whole.length ∧ body = (whole.drop first).take (last + 1 - first)

/-- RFC 7232, 2.3: one entity tag, and it is not weak. -/
def StrongTag (etag : List Str) : Prop := ∃ t, etag = ['"' :: t]

/-- RFC 7234, 4.1: a cache may use a stored response for another request as far as Vary is concerned. -/
def Reusable (vary : List Str) (stored new : Entries) : Prop :=
  ¬ Listed vary ['*'] ∧ ∀ k, canon k = k → Listed vary (toLower k) → stored.values k = new.values k

/-- RFC 7234, 5.2.2.4. -/
def NoTransform (cacheControl : List Str) : Prop := Listed cacheControl "no-transform".toList

end J8a
