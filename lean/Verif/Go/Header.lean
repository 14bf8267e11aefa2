import Verif.Go.Str
/-!
# net/http header maps

`http.Header` is a `map[string][]string` keyed by canonical names. A header being built is a
lookup function (`Hdr`); a header being iterated over is an association list in some iteration
order (`Entries`), since Go leaves the order of map iteration unspecified.
-/
namespace J8a
open Go

/-- A header map seen as a lookup function. A missing key and a key without values look alike to
all users in the repository. -/
abbrev Hdr := Str → List Str

/-- A header map in one iteration order. -/
abbrev Entries := List (Str × List Str)

/-- Bytes allowed in a header field name (RFC 7230 `tchar`). -/
def isTokenChar (c : Char) : Bool :=
  c.isAlphanum || c ∈ "!#$%&'*+-.^_`|~".toList

/-- `textproto.CanonicalMIMEHeaderKey`: upper case first letter and letters following a hyphen,
the rest lower case; names with other than token characters are returned unchanged. -/
def canonGo (upper : Bool) : Str → Str
  | [] => []
  | c :: cs => (if upper then c.toUpper else c.toLower) :: canonGo (c == '-') cs

def canon (k : Str) : Str := if k.all isTokenChar then canonGo true k else k

namespace Hdr

/-- `Header.Set`. -/
def set (h : Hdr) (k v : Str) : Hdr := fun k' => if k' = canon k then [v] else h k'

/-- `Header.Add`. -/
def add (h : Hdr) (k v : Str) : Hdr := fun k' => if k' = canon k then h k' ++ [v] else h k'

/-- `Header.Get`: first value or the empty string. -/
def get (h : Hdr) (k : Str) : Str := (h (canon k)).headD []

/-- The empty header. -/
def empty : Hdr := fun _ => []

end Hdr

namespace Entries

/-- Index expression `h[key]` (no canonicalisation). -/
def values (e : Entries) (k : Str) : List Str := (e.lookup k).getD []

/-- `Header.Get`. -/
def get (e : Entries) (k : Str) : Str := (e.values (canon k)).headD []

/-- What net/http guarantees about a parsed header: canonical, distinct keys. -/
structure WF (e : Entries) : Prop where
  nodup : (e.map Prod.fst).Nodup
  canonical : ∀ kv ∈ e, canon kv.1 = kv.1

end Entries
end J8a
