import Verif.Go.Json
/-!
# responses.go:12-152, server.go:221-229 — the gateway's own bodies
-/
namespace J8a
open Go

/-- responses.go:12-20 `huttese`. -/
def huttese : List Str :=
  ["Achuta!", "Goodde da lodia!", "H'chu apenkee!", "Chuba!", "Ka Cheesa Crispa Greedo?",
   "De wanna wanga?", "Peedunkee, caba dee unko!"].map String.toList

/-- responses.go:149-152 `randomHuttese`; `seed` is the non-negative `rand.Int()`. -/
def randomHuttese (seed : Nat) : Str := huttese.getD (seed % huttese.length) []

/-- responses.go:22-94 `httpResponses`. -/
def httpResponses : List (Int × String) :=
  [(100, "continue"), (101, "switching protocols"), (102, "processing"), (103, "early hints"),
   (200, "ok"), (201, "created"), (202, "accepted"), (203, "non-authoritative information"),
   (204, "no content"), (205, "reset content"), (206, "partial content"), (207, "multi-status"),
   (208, "already reported"), (226, "IM used"), (300, "multiple choices"),
   (301, "moved permanently"), (302, "found"), (303, "see other"), (304, "not modified"),
   (305, "use proxy"), (306, "switch proxy"), (307, "temporary redirect"),
   (308, "permanent redirect"), (400, "bad request"), (401, "unauthorized"),
   (402, "payment required"), (403, "forbidden"), (404, "not found"),
   (405, "method not allowed"), (406, "not acceptable"), (407, "proxy authentication required"),
   (408, "request timeout"), (409, "conflict"), (410, "gone"), (411, "length required"),
   (412, "precondition failed"), (413, "payload too large"), (414, "URI too long"),
   (415, "unsupported media type"), (416, "requested range not satisfiable"),
   (417, "expectation failed"), (418, "i'm a teapot"), (420, "enhance your calm"),
   (421, "misdirected request"), (422, "unprocessable entity"), (423, "locked"),
   (424, "failed dependency"), (425, "too early"), (426, "upgrade required"),
   (428, "precondition required"), (429, "too many requests"),
   (431, "request header fields too large"), (444, "no response by upstream nginx"),
   (449, "retry with"), (450, "blocked by windows parental controls"),
   (451, "unavailable for legal reasons"), (499, "client closed request"),
   (500, "internal server error"), (501, "not implemented"), (502, "bad gateway"),
   (503, "service unavailable"), (504, "gateway timeout"), (505, "http version not supported"),
   (506, "variant also negotiates"), (507, "insufficient storage"), (508, "loop detected"),
   (509, "bandwidth limit exceeded"), (510, "not extended"),
   (511, "network authentication required"), (598, "network read timeout error"),
   (599, "network connect timeout error")]

/-- responses.go:125-132 `withCode`, the message. -/
def messageFor (code : Int) : Str :=
  match httpResponses.lookup code with
  | some m => m.toList
  | none => "unspecified response code".toList

/-- server.go:226-229: the message of the response. -/
def responseMessage (code : Int) (msg : Str) : Str :=
  if msg.length = 0 ∨ msg = "none".toList then messageFor code else msg

/-- `response[2] = 0x6a`, responses.go:117 and 141. -/
def fixName (s : Str) : Str := s.set 2 'j'

/-- The fields of `AboutResponse` (responses.go:97-101) as set by `AsJSON`. -/
def aboutFields (id version : Str) (seed : Nat) : List (Str × JsonField) :=
  [("J8a".toList, .str (randomHuttese seed)), ("ServerID".toList, .str id),
   ("Version".toList, .str version)]

/-- responses.go:111-119 `AboutResponse.AsJSON`. -/
def aboutJson (id version : Str) (seed : Nat) : Str :=
  fixName (jsonObject (aboutFields id version seed))

/-- responses.go:135-143 `StatusCodeResponse.AsJSON` for the response of server.go:221-229. -/
def statusJson (id version : Str) (seed : Nat) (code : Int) (msg : Str) : Str :=
  fixName (jsonObject (aboutFields id version seed ++
    [("Code".toList, .int code), ("Message".toList, .str (responseMessage code msg))]))

end J8a
