import Verif.Go.Json
import Verif.Go.Path
import Verif.Go.Url
/-!
# `URL.String` and `http.Redirect` of Go 1.15, from the source as remembered
-/
namespace J8a.Go

/-- url.go `URL.String`. `user` is the text of the user information; the fragment is left out, a request's URL has none. -/
def Url.string (user : Str) (u : Url) : Str :=
  let start := if u.scheme ≠ [] then u.scheme ++ [':'] else []
  let rest :=
    if u.opaq ≠ [] then start ++ u.opaq
    else
      let start := start ++
        if u.scheme ≠ [] ∨ u.host ≠ [] ∨ u.hasUser then
          (if u.host ≠ [] ∨ u.path ≠ [] ∨ u.hasUser then ['/', '/'] else []) ++
            (if u.hasUser then user ++ ['@'] else []) ++ escape .host u.host
        else []
      let path := u.escapedPath
      let start := if path ≠ [] ∧ path.head? ≠ some '/' ∧ u.host ≠ [] then start ++ ['/'] else start
      -- a first segment with a colon would be taken for a scheme
      let start := if start = [] ∧ ':' ∈ path.takeWhile (· ≠ '/') then ['.', '/'] else start
      start ++ path
  rest ++ if u.forceQuery ∨ u.rawQuery ≠ [] then '?' :: u.rawQuery else []

/-- http.go `hexEscapeNonASCII`. -/
def hexEscapeNonASCII (s : Str) : Str :=
  s.flatMap fun c => if 128 ≤ c.toNat then ['%', hexDigit (c.toNat / 16), hexDigit (c.toNat % 16)] else [c]

/-- server.go `Redirect`, a URL without scheme and host: path.Clean, the trailing slash and the query stay. `dir` is the
directory of the path of the request, in front of what does not begin with a slash. -/
def cleanRelative (dir url : Str) : Str :=
  let url := if url.head? ≠ some '/' then dir ++ url else url
  let p := url.takeWhile (· ≠ '?')
  let c := pathClean p
  (if p.getLast? = some '/' ∧ c.getLast? ≠ some '/' then c ++ ['/'] else c) ++ url.dropWhile (· ≠ '?')

/-- server.go `Redirect`: the value of `Location`. -/
def redirectLocation (dir url : Str) : Str :=
  hexEscapeNonASCII (match Url.parse url with
    | some u => if u.scheme = [] ∧ u.host = [] then cleanRelative dir url else url
    | none => url)

end J8a.Go
