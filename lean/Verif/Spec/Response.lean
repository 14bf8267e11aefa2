import Verif.Model.Response
/-!
# What a response means to its receiver
-/
namespace J8a
open Go

/-- A content coding, from the values of Content-Encoding (RFC 7231, 3.1.2). -/
inductive Coding where
  | identity
  | gzip
  | other (values : List Str)
deriving DecidableEq, Repr

def codingOf : List Str → Coding
  | [] => .identity
  | [v] => if toLower v = "identity".toList then .identity
    else if toLower v ∈ ["gzip", "x-gzip"].map String.toList then .gzip
    else .other [v]
  | vs => .other vs

/-- The entity a receiver gets: the body without the coding, or the coding it does not know and the
body as it is. -/
def entity (c : Codec) : Coding → Bytes → Coding × Bytes
  | .identity, b => (.identity, b)
  | .gzip, b => (.identity, c.dec b)
  | .other v, b => (.other v, b)

/-- `compress/gzip` works: what is compressed decompresses to the same, and starts with the magic
bytes. -/
structure Codec.Lossless (c : Codec) : Prop where
  roundtrip : ∀ b, c.dec (c.enc b) = b
  magic : ∀ b, hasGzipMagic (c.enc b) = true
  /-- `Gunzip` of nothing is nothing: reading the header fails with `io.EOF`. -/
  empty : c.dec [] = []

/-- An upstream body that is gzip exactly when the upstream says so, and has at most one coding. -/
structure UpResp.Truthful (r : UpResp) : Prop where
  single : (r.header.values "Content-Encoding".toList).length ≤ 1
  magic : r.body ≠ [] → (hasGzipMagic r.body = true ↔
    codingOf (r.header.values "Content-Encoding".toList) = .gzip)

/-! ## Accept-Encoding (RFC 7231, 5.3.4) -/

/-- The coding of one element of the list: what stands before the first semicolon, without white
space. -/
def codingName (element : Str) : Str :=
  toLower (((split ';' element).headD []).filter fun c => c != ' ' && c != '\t')

/-- The parameters of an element. -/
def codingParams (element : Str) : List Str :=
  (split ';' element).tail.map fun p => p.filter fun c => c != ' ' && c != '\t'

/-- An element with weight 0 forbids its coding. -/
def forbids (element : Str) : Prop :=
  ∃ p ∈ codingParams element, ∃ zeros : Str, (∀ c ∈ zeros, c = '0') ∧
    (p = "q=0".toList ∨ p = "q=0.".toList ++ zeros)

/-- Does a client with these values of Accept-Encoding accept gzip? -/
def acceptsGzip (values : List Str) : Prop :=
  ∃ v ∈ values, ∃ el ∈ split ',' v, ¬ forbids el ∧
    codingName el ∈ ["gzip", "x-gzip", "*"].map String.toList

/-- The registered content codings (and the wildcard) but pack200-gzip. -/
def usualCodings : List Str :=
  ["aes128gcm", "br", "compress", "dcb", "dcz", "deflate", "exi", "gzip", "identity", "x-compress",
   "x-gzip", "zstd", "*"].map String.toList

/-- An element with a usual coding and nothing but a weight above zero. -/
structure UsualElement (el : Str) : Prop where
  name : codingName el ∈ usualCodings
  params : ∀ p ∈ codingParams el, ∀ c ∈ p, c ∈ "q=.0123456789".toList
  weight : ¬ forbids el

end J8a
