import Verif.Go.Header
import Verif.Go.Num
import Verif.Go.Url
/-!
# net/http of Go 1.15: how responses are written to a connection

`statusText` (status.go), `bodyAllowedForStatus` (transfer.go), `suppressedHeaders` (transfer.go), `hasToken`
(header.go), `writeStatusLine` (server.go), and how a header line is read (`ReadMIMEHeader` of net/textproto, for one
line).
-/
namespace J8a.Go

/-- status.go `statusText`. -/
def statusTexts : List (Nat × String) :=
  [(100, "Continue"), (101, "Switching Protocols"), (102, "Processing"), (103, "Early Hints"),
   (200, "OK"), (201, "Created"), (202, "Accepted"), (203, "Non-Authoritative Information"), (204, "No Content"),
   (205, "Reset Content"), (206, "Partial Content"), (207, "Multi-Status"), (208, "Already Reported"), (226, "IM Used"),
   (300, "Multiple Choices"), (301, "Moved Permanently"), (302, "Found"), (303, "See Other"), (304, "Not Modified"),
   (305, "Use Proxy"), (307, "Temporary Redirect"), (308, "Permanent Redirect"),
   (400, "Bad Request"), (401, "Unauthorized"), (402, "Payment Required"), (403, "Forbidden"), (404, "Not Found"),
   (405, "Method Not Allowed"), (406, "Not Acceptable"), (407, "Proxy Authentication Required"),
   (408, "Request Timeout"), (409, "Conflict"), (410, "Gone"), (411, "Length Required"), (412, "Precondition Failed"),
   (413, "Request Entity Too Large"), (414, "Request URI Too Long"), (415, "Unsupported Media Type"),
   (416, "Requested Range Not Satisfiable"), (417, "Expectation Failed"), (418, "I'm a teapot"),
   (421, "Misdirected Request"), (422, "Unprocessable Entity"), (423, "Locked"), (424, "Failed Dependency"),
   (425, "Too Early"), (426, "Upgrade Required"), (428, "Precondition Required"), (429, "Too Many Requests"),
   (431, "Request Header Fields Too Large"), (451, "Unavailable For Legal Reasons"),
   (500, "Internal Server Error"), (501, "Not Implemented"), (502, "Bad Gateway"), (503, "Service Unavailable"),
   (504, "Gateway Timeout"), (505, "HTTP Version Not Supported"), (506, "Variant Also Negotiates"),
   (507, "Insufficient Storage"), (508, "Loop Detected"), (510, "Not Extended"),
   (511, "Network Authentication Required")]

/-- server.go `writeStatusLine`, what stands after the code. (`WriteHeader` takes codes from 100 to 999 only.) -/
def reasonFor (code : Nat) : Str :=
  match statusTexts.lookup code with
  | some t => t.toList
  | none => "status code ".toList ++ natToDec code

/-- transfer.go `bodyAllowedForStatus`. -/
def bodyAllowed (status : Int) : Bool := !(100 ≤ status && status ≤ 199) && status ≠ 204 && status ≠ 304

/-- transfer.go `suppressedHeaders`, for statuses that allow no body. -/
def suppressedHeaders (status : Int) : List Str :=
  if status = 304 then ["Content-Type", "Content-Length", "Transfer-Encoding"].map String.toList
  else ["Content-Length", "Transfer-Encoding"].map String.toList

/-- header.go `isTokenBoundary`. -/
def isTokenBoundary (c : Char) : Bool := c = ' ' || c = ',' || c = '\t'

/-- header.go `hasToken`, behind a character `prev` (if there is one). -/
def hasTokenAfter (token : Str) : (prev : Option Char) → Str → Bool
  | _, [] => false
  | prev, c :: s =>
    (prev.all isTokenBoundary && equalFold ((c :: s).take token.length) token &&
      ((c :: s).drop token.length).head?.all isTokenBoundary) || hasTokenAfter token (some c) s

def hasToken (v token : Str) : Bool := hasTokenAfter token none v

/-- `fmt.Fprintf("%x")`. -/
def natToHex (n : Nat) : Str := Nat.toDigits 16 n

/-- textproto `ReadMIMEHeader`, for one line: the name before the first colon, whatever its characters; the value
without white space in front (the line has none at its end). Lines without a name are left out. -/
def readFieldLine (line : Str) : Option (Str × Str) :=
  if ':' ∈ line ∧ (cutAt ':' line).1 ≠ [] then
    some (canon (cutAt ':' line).1, (cutAt ':' line).2.dropWhile fun c => c = ' ' || c = '\t')
  else none

end J8a.Go
