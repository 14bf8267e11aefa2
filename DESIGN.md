# Formal model of j8a (w-sr/w-j8a) in Lean 4 — design

Subject: the Go reverse proxy in `/repo` (package `j8a`, Go 1.15, net/http).
Deliverable: `/verif/lean` (Lake project), `properties.jsonl`, `MANIFEST.json`,
`seeded/LOG.jsonl`.

## 1. Layout

| directory | contents |
|---|---|
| `lean/Verif/Go/*.lean` | the Go standard library facts the model needs, as executable functions (strings, header maps, regexp, readers) |
| `lean/Verif/Model/*.lean` | the model of the repository, function by function, each definition citing file:lines |
| `lean/Verif/Spec/*.lean` | small independent specifications used by theorem statements |
| `lean/Verif/Lemmas/*.lean` | helper lemmas |
| `lean/Verif/Props/*.lean` | the property theorems (`Cnn_…`), with satisfiability examples beside each |

Property theorems are never mixed with helper lemmas, so that a statement is
never silently weakened to get a proof through.

## 2. Trusted base

* Lean 4.33.0's kernel. The axioms used are `propext`, `Classical.choice` and `Quot.sound`; what each
  theorem named in the manifest depends on is listed in `AXIOMS.md` (generated by `tools/axioms.py` from
  `#print axioms`). No own axioms, no `sorry`, no `native_decide`, no `bv_decide`. Concrete executions
  (witnesses of violations, examples) are evaluated by the kernel (`decide +kernel`).
* Reading of the Go source: the code is not executed here; every definition cites the lines it models.
* Library behaviour listed in §4: assumed, each as an explicit parameter with explicit hypotheses in the
  theorem statement, or as a modelled function.

## 3. Modelling conventions

* A Go string is a sequence of bytes: `Str = List Char`, one `Char` per byte (literals in the source are
  all ASCII so this is faithful for them). `strings.ToUpper/EqualFold` are modelled on ASCII.
* `int`/`int64` are `Int` (unbounded), except where a property is about overflow (C18, C19, C57, C58, C63,
  C70), where 64 bit wrap-around or saturation is explicit.
* A finite `float64` is its integer multiple of 2^-1074; addition and division of integers are correctly
  rounded to 53 bits (ties to even). Overflow to infinity and NaN occur only where division by zero makes
  them (C57).
* A Go map is an association list (one iteration order); results are shown independent of the order where
  Go leaves it unspecified.
* `sort.Sort` is unstable: it is modelled by *any* sorted permutation. C06, C83 and C84 model the algorithm of
  Go 1.15's package sort itself, function by function; `C06_sequential` proves that it is such a permutation.
* A Go panic is an explicit outcome; `log.Fatal`/`config.panic` is "boot refused".
* Goroutines, channels, timers: a small-step machine in which every goroutine step, timer and upstream
  event is an action chosen by an arbitrary schedule. Memory is sequentially consistent; Go's weaker
  semantics of data races is not modelled, nor is a torn read of a slice header (C67) or of a struct (C06).

## 4. Which parts of the code are modelled

| file in /repo | modelled | in | not modelled |
|---|---|---|---|
| `config.go` | source selection, decoding of documents, the whole boot pipeline, defaults | `Model/Source`, `Model/Decode`, `Model/Config`, `Model/Boot`, `Model/KeyLog` (log lines about jwt entries) | YAML to JSON (a parameter), key sets inside a document's jwt entry, other log lines |
| `route.go`, `resource.go`, `upstream.go` | all | `Model/Route`, `Model/Regexp` (the engine) | |
| `policy.go` | all; sequentially and under concurrent sorting; the shared source of random numbers | `Model/Policy`, `Model/SortRace`, `Model/Rand` | torn reads of one entry under concurrency |
| `connection.go` | the structures | `Model/Config` | |
| `jwt.go` | `Validate`, `parseKey`, `LoadJwks`, `KeySet`; `LoadJwks` under concurrency; `Upsert` store by store | `Model/Jwt`, `Model/JwksTimed`, `Model/KeyRace`, `Model/KeyLog` (log lines and error texts, proved to do what `Model/Jwt` does) | texts of errors of libraries (parameters) |
| `proxy.go` | request parsing, headers, token check, key id, retries, response construction | `Model/Request`, `Model/JwtAuth`, `Model/Kid`, `Model/Response`, `Model/Machine`, `Model/TokenLog` (lines about a token), `Model/RequestId` (ids from random numbers), `Model/Taken` (bytes taken from a client) | other lines of level trace before the first attempt |
| `proxyhandler.go` | all, also with time; the log lines about the request and about attempts | `Model/Request`, `Model/Machine`, `Model/Timed`, `Model/Handler`, `Model/Observe`, `Model/AttemptLog`, `Model/Leaving` (clients that go away) | the times in log lines (parameters) |
| `responses.go` | all | `Model/Responses`, `Model/About`, `Model/Rand` | |
| `server.go` | plain or TLS serving, listener timeouts, mux, standard headers, own responses, TLS start | `Model/Listen`, `Model/Mux`, `Model/Redirect` (`Location` of the mux), `Model/Front` (who answers, and the headers of `net/http`'s own answers), `Model/Response`, `Model/Tls`, `Model/Handshake`, `Model/Logger` (the adapter of net/http's log) | the listener itself, frames of HTTP/2 |
| `server.go:58-147`, `config.go:34-143, 243-258`, `httpclient.go:48-57` | the start with its log lines | `Model/BootLog` | lines of the goroutines; fields with seconds |
| `logger.go:16-74`, `time.go:9-19`, `server.go:58-60` | the logger: level, format, server id, zone, and its own lines | `Model/InitLog` | zones are functions of the instant; `initLocal` of package time from the source as remembered; `strings.ToUpper` on ASCII only, which decides no level (no other letter has an upper case in TRACE, DEBUG or WARN, and INFO is the default) |
| `gzip.go` | pools under concurrency, writer and reader objects | `Model/Pool` | the deflate algorithm (a parameter) |
| `stats.go` | history, growth rates, both goroutines, uptime and growth lines, failing readings | `Model/Stats`, `Model/StatsRace`, `Model/StatsLog` | how gopsutil reads, the line `server performance` |
| `tls.go` | chain check, health check, serials, text of the report | `Model/Tls`, `Model/CertReport` | other log lines |
| `iprex.go` | all | `Model/Iprex`, `Go/Rex` | |
| `proxy.go:208-210`, `proxyhandler.go:117-121` | request targets through `net/url` | `Model/Target`, `Go/Url` | texts of errors, fragments |
| `server.go:132-147` | what a client asks about its connection | `Model/Wish` | whether its body is read to the end (inputs `broken` and `unread`) |
| `server.go:132-147` | the requests on one connection | `Model/Pipeline` | handlers other than `proxyHandler`; requests that are refused before a handler; when the rest of a body is read; that the connection's fate (`ReplyConn`) follows from the request |
| `server.go:132-147`, `proxy.go:195-220` | the bytes of a request from a client | `Model/Arrival`, `Go/ReqRead` | limits on the size of a head (1 MB) and of a line with a chunk's size (4 KB); time limits; HTTP/2 |
| `httpclient.go:26-48`, `proxyhandler.go:155` | the bytes of a response from an upstream | `Model/Reception`, `Go/RespRead` | limits on the size of a head (10 MB); time limits; what `Expect` has to do with interim responses |
| `proxyhandler.go:105-156` | the bytes of a request to an upstream | `Model/WireBytes`, `Go/ReqWrite` | host names that are not ASCII |
| `proxyhandler.go:255-262`, `server.go:214-238` | the bytes of a response to a client | `Model/RespBytes`, `Go/RespWrite` | trailers, connections in which the handler dies; `MaxBytesReader` sets `Connection: close` in the header when the body is too large (`requestTooLarge`), here that is the input `broken`; only chunked bodies get there, so only HTTP/1.1 |
| `httpclient.go` | the client, with redirections, own headers, decompression and connection pool of `net/http`; keep-alive interval; TLS to upstreams; requests on one connection | `Model/Client`, `Model/Conns`, `Model/UpConn`, `Model/Hub`, `Model/UpTls` | dialing |
| `logger.go` | level, console or JSON, the bytes of a line, the server id | `Model/Logger`, `Go/Zerolog`, `Model/ServerId`, `Go/Md5` | the clock |
| `cmd/` | the command line, package `flag` as remembered | `Model/Main`, `Model/Source` | what is printed; `Boot.Add` |

Assumed library behaviour:

* `regexp` (routes): elsewhere than in C108 to C111 an abstract engine; only "a pattern without metacharacters anchored at the
  start matches exactly the strings having it as prefix" is used, and only where the statement says so. C162, C163, C170
  and C178 ask instead that the engine is right about the paths in the document (`FollowsPath`: with an anchor in front, a
  path matches what it, as a regular expression, matches at the beginning); that is so for every engine with this law if
  the paths have no special characters (`follows_literal`), and for `goRegexp` if they have no `|` (`follows_pattern`). C108 to
  C111 use `goRegexp`: the syntax of Go 1.15 with Perl flags (literals, classes, escapes, groups, alternatives,
  repetitions, anchors), with a parser proved equal to the grammar in `Spec/ReSyntax` and a matcher proved equal to the
  meaning in `Spec/Regexp`. It satisfies that law
  (`goRegexp_law`). Flags, named groups, Unicode and POSIX classes and escapes by number are answered by another
  arbitrary engine. For `iprex.go` the
  leftmost-first (Perl) semantics is modelled by a concrete matcher in `Go/Rex.lean`.
* `jwx` (`jws.Parse`, `jwt.Parse`, `jwt.Verify`, `jwk.Fetch`, `Key.Raw`): arbitrary functions; `jwt.Verify`'s
  date checks are modelled as documented by the library. Two things about it are parameters: the strictness of its `nbf`
  test, and whether a claim of Unix second 0 counts as absent.
* `compress/gzip`: for responses a codec, with `decode (encode x) = x` as a hypothesis where needed; for the
  pools the writer and reader of Go 1.15 over an arbitrary deflate whose `Reset` returns to a state that is
  equivalent to a new one.
* `net/http` of Go 1.15, from its documentation and source as remembered: canonical header names, body
  suppression for HEAD/1xx/204/304, Content-Length enforcement, `MaxBytesReader`, `ServeMux`, `cleanPath`,
  read and write deadlines; for the client `Client.do`, `redirectBehavior`, `Request.write` and the
  decompression of `Transport`. The attempt machine takes any response as the result of `Do`; C73 to C77 say
  which ones `Do` gives. The pool of
  connections and the repetition of requests on dead ones (`Transport.roundTrip`, `shouldRetryRequest`) are in
  `Model/Conns` (C112 to C114) and `Model/UpConn` (C173), apart from the attempt machine: an attempt there is one call of `Do`. `Model/Hub` (C174 to C177) puts many executions of the attempt machine and many connections together.
* `net/url` of Go 1.15 (`Go/Url.lean`), from its source as remembered: `ParseRequestURI`, `Parse`, `EscapedPath`,
  `RequestURI` over strings of bytes. Only C91 to C95 use it; elsewhere "the upstream URL parses" is a parameter.
* How `net/http` of Go 1.15 reads request lines and writes requests (`Go/ReqWrite.lean`, `Model/WireBytes.lean`), from
  its source as remembered: the checks of `Transport.roundTrip` and `Request.write`. `Spec/Message` is the grammar of
  RFC 7230, strict where the RFC allows leniency, and independent of them.
* How `net/http` and `net/textproto` of Go 1.15 read requests (`Go/ReqRead.lean`), from their source as remembered: lines,
  continuation lines, header maps, Host, Pragma, Content-Length, Transfer-Encoding, Trailer, Expect, chunked bodies with
  extensions and trailers. White space is ASCII. `Spec/Incoming` is the grammar of RFC 7230, independent of it.
* How `net/http` of Go 1.15 reads responses (`Go/RespRead.lean`), from its source as remembered: the status line, the length,
  which bodies there can be, interim responses (at most five), switches of protocols. The rest is shared with `Go/ReqRead`.
  `Spec/Reply` is the grammar, independent of it.
* How `net/http` of Go 1.15 writes responses (`Go/RespWrite.lean`, `Model/RespBytes.lean`), from its source as remembered:
  `response.WriteHeader`, `response.Write`, `chunkWriter.writeHeader` and `extraHeader.Write` for a handler that writes
  once, to clients with HTTP/1.1 and HTTP/1.0. Names of headers are not checked there (`Header.writeSubset` of Go 1.15); line breaks in values become spaces.
  The date and the content type found by sniffing are parameters. `textproto` keeps the space in front of a colon
  (`readFieldLine`). `Spec/RespMessage` is the grammar of responses of RFC 7230; `Spec/Caching` has the rules of RFC 7232,
  7233 and 7234 that C129 to C132 need.
* `encoding/json`: string escaping and integers as in `Go/Json.lean`; the parser used by statements is the
  independent one in `Spec/Json.lean`.
* `encoding/json` decoding (`Go/Unmarshal.lean`): from a document given as a tree, with the case-insensitive
  choice of fields and the skipping of values that do not fit.
* `math/rand`: any source with `Seed`, `Int` and `Float64`.
* `crypto/x509`, `encoding/pem`: parameters.
* `crypto/tls` of Go 1.15, the server's negotiation (`Go/Handshake.lean`), from its source as remembered: choice of
  version, suite and curve for full handshakes. Whether the key can sign for a client is a parameter. Not modelled:
  resumption (it keeps version and suite of the first connection), ALPN, the cryptography. `X509KeyPair` is a parameter.
* `crypto/tls` of Go 1.15, the client's side (`Go/ClientTls.lean`), from its source as remembered: which answers of a
  server it goes on with. Verification of certificates is a parameter, the signatures of the handshake are taken to be right.
* `encoding/base64` (decoding, and the standard encoding) and `encoding/json` decoding of bytes into a map (`Go/Base64.lean`, `Go/JsonDecode.lean`), from
  the sources as remembered; whether a number fits in a float64 is a parameter. `Spec/JsonText` is the grammar of
  RFC 8259, independent of the decoder.
* The memory model for C122: the stores of one `append` (the words of the slice header and of the new entry) happen one by one in
  any order, as the Go memory model leaves open; memory is otherwise sequentially consistent.
* `net/http` of Go 1.15 over HTTP/2 (`Go/Http2.lean`), from its source as remembered: the check of the cipher suites at
  start, the choice of the protocol, and of a connection only its read deadline and the timers of its streams.
* `zerolog` 1.20 (`Go/Zerolog.lean`), from its source as remembered: the JSON of an event, with the escaping of
  `appendString`, and the console writer. The console writer reads the JSON again, which replaces what is no UTF-8;
  the model writes the text itself. `strconv.Quote` and the sorting of fields are parameters.
* `durafmt` (`Go/Durafmt.lean`), from its source as remembered: `Parse`, `LimitFirstN`, `String`.
* `time` of Go 1.15 (`Go/Time.lean`), from its source as remembered: dates and clock of an instant and the two formats used,
  RFC 3339 and the date of `net/http`; leap seconds do not exist there. `Spec/Calendar` is the Gregorian calendar and the
  readers of both formats, independent of it. Time zones are arbitrary functions from instants to offsets. Date claims of
  `jwx` are times in UTC, the zero time if absent (as remembered).
* `google/uuid` 1.1.2 (`Go/Uuid.lean`), from its source as remembered: `NewRandom`, `String`. The source of random numbers is
  an arbitrary sequence of bytes, which may end. `Spec/Uuid` reads UUIDs as in RFC 4122, independent of it.
* `crypto/md5`: the algorithm of RFC 1321 (`Go/Md5.lean`), with the test vectors of the RFC as examples.
* Statuses: `ReadResponse` takes three digits, `WriteHeader` panics outside 100 to 999 (C106, C107).

## 5. Properties: what is modelled and how it is proved

| id | model | proof |
|---|---|---|
| C01 | `validateRoutes` with any sorted permutation, `proxyHandler` route loop, abstract regexp engine | first match in a list sorted by descending length; permutation invariance |
| C02 | request prelude + attempt machine | case analysis of the prelude; the machine only starts from `forward` |
| C03 | boot pipeline order compile → add slash | violated: counterexample; `_partial` for paths that already start with a slash |
| C04 | `resolveLabel` over any sorted permutation, IEEE addition | induction over cumulative sums; interval characterisation |
| C05 | same | induction; rounding counterexample; `_partial` for exact sums |
| C06 | small-step machine: n goroutines running `sort.Sort` (a tree of `Less` and `Swap` calls) with non-atomic swaps on one array | violated: schedule witnesses (2 labels unsorted, 13 labels sorted); `_partial`: sorted array of at most 12 is never written under any schedule; undisturbed runs sort (heap and partition invariants) |
| C07 | `mapURL` | induction over resource list |
| C08 | `resolveUpstreamURI`, `strings.Replace` | first-occurrence lemma |
| C09 | same + URL authority syntax | violated for transform `/`: witness; `_partial` for every other transform |
| C10–C13 | `config.go` pipeline | case analysis, idempotence, list lemmas |
| C14–C17 | `validateJwt`, `verifySignature`, prelude | case analysis and induction over the key set; C15, C16 violated: witness, `_partial` |
| C18, C19 | `verifyDateClaims` with wrap-around | arithmetic; violated at overflow-size skews: witness, `_partial` below |
| C20, C21 | `KeySet` | C20 violated: witness and exact characterisation; C21 induction over histories |
| C22 | timed machine for `LoadJwks` with arbitrary callers | invariant over timed traces |
| C23–C26 | `LoadJwks`, `Validate`, `parseKey` | induction over documents; C24 violated: witness |
| C27 | token check before anything but an error | violated for about routes: witness; `_partial`: case analysis of the prelude |
| C28–C31 | `parseRequestBody` over an arbitrary chunked reader through `MaxBytesReader` | induction over reads; C29, C31 violated: witness |
| C32–C34 | request construction | map-extensional equality, permutation invariance |
| C35, C45–C54 | attempt machine | inductive invariants over all schedules; C50, C51 violated: schedule witness, `_partial` for runs without late writes |
| C36–C44 | response construction | equational; C38, C39, C44 violated: witness, `_partial` |
| C55 | pool machine | invariant over histories |
| C56, C57 | `samples` | induction over appends; correctly rounded division; violated by rounding and by a zero oldest sample: witness |
| C58–C60 | `tls.go` | induction over chain; C59 violated: exact characterisation |
| C61, C62 | concrete leftmost-first regexp matcher + the four expressions | symbolic matching proof; C62 violated: witness |
| C63, C70 | listener timeouts | arithmetic with wrap-around; exact conditions; violated: witness |
| C64 | `load` | case analysis against a relational specification |
| C65, C71, C72 | `ServeMux` and `path.Clean` against a segment-wise specification of canonical paths | invariants of the mux, induction over segments; violated for redirects, CONNECT: witness |
| C66 | `aboutHandler` | equational, with the JSON parser of the specification |
| C67 | two goroutines over the history | violated: schedule witness; `_partial` when the logger runs between appends |
| C68, C69 | the daily check as a daemon | induction over rounds; violated by serials, by expiry: witness |
| C73–C77 | `http.Client.Do` above an arbitrary network, composed with the attempt machine | exact result of `Do`; composition with C34, C37, C38; C74–C77 violated: witness |
| C78 | attempt machine with failing reads | invariant over all schedules; violated for `Gunzip`: witness |
| C79 | executions watched for deferred calls, every schedule | invariant over executions |
| C80 | the attempt machine, every state | the steps, computed |
| C81, C82 | executions watched for the log line | invariant relating the logged variables to the response; violated: witness |
| C83, C84 | the machine of C06 | every branch of the tree stays in range whatever `Less` returns; the height of the tree bounds the steps; entries are only copied |
| C85 | any source of random numbers shared by dice and own responses | histories; violated by every source that does not always roll the same |
| C86 | request and response headers, with the client of C73 | composition with C75 and C37; violated: witnesses in both directions |
| C87–C89 | boot pipeline, prelude, serving mode | case analysis; violated for all configurations of the kind: witness, consequences under every schedule |
| C90 | `json.Unmarshal` into the structures of the program | one lemma per field (decoded by its own key, untouched by all others); violated: witnesses from document to served configuration |
| C91, C92 | `net/url` composed with `resolveUpstreamURI` and the attempt machine | round trip of parser and printer; occurrences of a path inside an escaped one; exact condition for the crash; violated: witnesses, and under every schedule |
| C93–C95 | dispatch on the raw target, plain routes | prefixes of normalised spellings; violated for every plain route, or every target of the kind |
| C96, C97 | the attempt machine with a clock: timers are punctual, the handler takes an enabled step within a constant, nothing else is assumed | invariants over timed executions, with the measure of C49; the clock is never stuck |
| C98 | `time.Duration` arithmetic with wrap-around, timed executions | arithmetic; violated above 292 years, under every schedule |
| C99–C101 | `LoadJwks` over any document, histories of refreshes, `verifySignature` | induction over documents and histories; violated: for every document with a foreign key, every replaced key, every withdrawn key |
| C102 | timed machine for `LoadJwks`; executions in which goroutines are prompt | invariant of the machine; violated: under every schedule in which one fetch does not return |
| C103–C105 | negotiation of `crypto/tls` with the configuration of `tlsConfig`, any ClientHello | case analysis of the negotiation; violated for every non-RSA key with TLS 1.2, every TLS 1.3 client with AES |
| C106, C107 | attempt machine with any statuses | invariant without late writes; violated: status 99, status 101 |
| C108–C111 | parser and matcher of `regexp/syntax`, `goRegexp` as the engine of routes | parser = grammar; simulation of the parser with and without `^`; matcher = meaning; violated: every `p\|q`, every `*q`, every `p.*` |
| C112–C114 | pool of `http.Transport` as a machine; repetition on broken connections | invariant of all interleavings; violated: any number of connections, a request on every idle connection |
| C115 | float64 rounding of the interval | error bounds of two roundings; violated: `OS=Windows_NT` |
| C116 | boot pipeline, mux, serving mode, ports | exact condition; violated: about routes `p` and `/p`, about at `/`, ports that are none |
| C117 | log adapter with the expressions of C61 | the search stops at characters that no expression takes; calm texts (no double colon, few colons in a word) match none of them; violated where C62 is |
| C118 | log adapter, log level; execution of C92 | exact condition; violated: nothing is written unless LOGLEVEL is TRACE |
| C119 | JSON and console output of zerolog | the independent parser of `Spec/Json` reads the object back; violated: key ids in the console output |
| C120 | check of suites, choice of protocol, negotiation of C103 | case analysis |
| C121 | streams of an HTTP/2 connection with their timers | invariant of all executions; violated: any time below the write timeout |
| C122 | `append` store by store, a reader load by load | invariant of all interleavings; violated: old array with new length, entry without key |
| C123, C124 | client side of the TLS negotiation with the configuration of httpclient.go | case analysis; C123 violated: TLS 1.0 with RSA key exchange, whatever is configured |
| C125, C126 | `Validate` with any fetcher and any PEM | case analysis; violated: any URL, any RSA key, any secret |
| C127 | base64url and JSON decoders, `extractKid` | induction over the grammar of RFC 8259, both ways: what it allows is read, and nothing else is; base64url bit by bit |
| C128 | bytes of `Request.write`, grammar of RFC 7230 | unique reading of messages; violated: any target with a space |
| C129–C132 | proxied responses with range, entity tag, Vary and no-transform (RFC 7232 to 7234) | exact conditions; violated: witnesses for clients with and without gzip |
| C133 | bytes of `chunkWriter`, grammar of responses of RFC 7230 | unique reading of responses to clients with HTTP/1.1 and HTTP/1.0; exact condition; violated: any name that is no token |
| C134 | both writers of responses, the machine | the two forms of a response; violated: every status from 400 on |
| C135 | the wire requests of C75 | exact values; violated: always |
| C136 | the same | violated: always |
| C137 | bytes of responses, the calendar | no response has a Date before the server adds its own; reading back proved by calendar arithmetic; violated: every response passed on |
| C138 | the attempt machine with every line it logs (`Model/AttemptLog`) | invariant of all executions; violated: late write of a status |
| C139 | the same and the last line with the fields of the request | two runs of the machine step by step (`Lemmas/Recode`); violated: any query |
| C140 | `initServerID` with a concrete MD5 | form by induction; violated: joining without separator, pigeonhole over 2^32+1 hosts |
| C141 | `validateJwt` with its log events, Go's calendar | case analysis; texts read back by the independent calendar; violated: level, malformed tokens, early claims, year 10000 |
| C142 | `logCertStats`, `PDuration`, durafmt | texts read back by an independent reader of spans; float division bounded by its rounding error; violated: disruption beyond expiry, sign, 292 years, authorities unmarked |
| C143 | `createXRequestID` with `uuid.NewRandom` over any source of random numbers, the attempt machine | bits of the text read back; equality of ids iff equal random bits; violated: source at its end, id chosen by the client |
| C144 | `logUptime` with durafmt, the line of `samples.log` over the history of C56 | words read back by `Spec/Span`; violated: first day, memory given back, right after the start, 23 hours for a day |
| C145 | `getSample` with failing readings | induction over readings; violated: any failed reading ends the process |
| C146 | the machine of C96 with clients that leave | leaving has no influence on any execution; violated: attempts begun, and none cancelled, after it |
| C147 | every configuration, two sets of secrets | boot lines independent of HMAC secrets; a configured key shows only as one of 14 answers or a curve size; violated: key set URLs are logged with their credentials |
| C148 | every configuration and key set | truthful for accepted keys, for key sets of usable new keys, and the last line of boot; violated: unusable, known and refused keys are reported as parsed |
| C149 | every route table, target, method but CONNECT | origin-form targets: Location is a clean path on this server with the same query, and following it ends; violated: an encoded slash becomes a separator, targets with an opaque part are sent back as they are, `#` in a query is lost |
| C150 | every request, header, configuration, schedule | one Authorization header of two fields: the upstream sees exactly the verified token; in general the first token of the first header; violated: a second header or a third field is handed on unverified |
| C151 | every request body, however it comes | requests: at most one byte beyond the limit is taken and at most the limit kept; violated: responses are read without limit |
| C152 | every request | nothing is taken of a body announced as too large; violated: every other body is taken before the head is judged |
| C153 | every route table, request line, schedule | both handlers; exactly which requests reach them; violated: none of `net/http`'s own answers (301, 400) carries any of the headers |
| C154 | every response that a client can read, every schedule | without a Connection header of an upstream: the connection ends exactly for the client's or the gateway's reasons, and the response says so; violated: `close` of an upstream ends the client's connection, `Close` is announced and not done, and an HTTP/1.0 client that asked for keep-alive reads keep-alive when a broken request or a shutdown ends the connection; a body in answer to CONNECT is lost and ends the connection without a word |
| C155 | every response that a client can read, every schedule | Content-Length and Transfer-Encoding as RFC 7230 3.3 demands, chunks, or for HTTP/1.0 the end of the connection, exactly for own responses of more than 2048 bytes; for methods other than misspelt HEAD; violated: 2xx responses to CONNECT have a Content-Length |
| C156 | every document, certificate, key and port | an exit is preceded by one fatal line, which gives a true reason and is written at every LOGLEVEL; violated by every crash |
| C157 | every document, certificate, key and port | the log of a start line by line; violated: "listening" is logged before the port is opened |
| C158 | every document and pair of keys that the certificate treats alike | the log of the start is the same |
| C159 | every environment and start | all lines but the first three name the server, and all lines that are written at INFO and WARN; the logger is the one of C117 to C119; violated at DEBUG and TRACE |
| C160 | every environment, start and line | a line is written if and only if it is as severe as LOGLEVEL asks; a written line about the level is true |
| C161 | every environment and machine | the zone in the log is the one of its times if and only if TZ names a known zone, or is not set and the machine runs on UTC; violated otherwise |
| C162 | every document, start, history of key refreshes, request and execution | what goes upstream has the target, server and token that the document asks for, from the text of the configuration to the bytes on the wire, also for paths that are regular expressions; violated for the transform `/` |
| C163 | every document, start, history of key refreshes, request and execution | an answer without an attempt has its reason in the document; violated for a body of exactly the limit |
| C164 | every command line, environment, set of files | options `-c` are understood and the last one names the only source; anything else ends the process, help with status 0; violated for arguments without an option and an empty name |
| C165 | every stream of bytes, request made of it, configuration and execution | what is delivered meets the assumptions that other theorems make about requests; well-formed messages, chunked or not, are delivered as they are and written to the upstream with the same method, fields and body; violated for HEAD with a chunked body |
| C166 | every stream of bytes, response made of it, configuration and execution | what is received meets the assumptions that other theorems make about responses; well-formed messages, with any kind of body and after up to five interim ones, are received as they are and written to the client with the same status, fields and entity; violated after more than five interim responses |
| C167 | every stream of bytes on a connection, every sequence of requests made of it, each with its configuration and execution | the bytes that the client receives are read, in one way only, as one answer per request, in the order of the requests, and the i-th answer is the one to the i-th message; violated when an upstream's 101 is passed on |
| C168 | every key set, jwt entry and answer of its URL | a refresh warns, once, exactly if nothing is fetched or a key has another algorithm; violated: key sets that are empty or have no usable key are errors without a warning |
| C169 | every message on a connection, configuration and execution | the connection ends, and the response says so, exactly if `close` is among the options of the message; violated by upstreams that send Connection, and for HTTP/1.0 with both options |
| C170 | every document, start, history of key refreshes, bytes of a client and execution | the bytes written to an upstream are read, in one way only, as the message that the document makes of the client's message: C162 and C165 put together, in terms of the document and the bytes only; violated for the transform `/` |
| C171 | every execution, every transport | an upstream gets the client's Authorization and no other; exactly when and what the HTTP client adds (Basic, from user information in the URL); violated for the transform `/`, for every target that goes on with text, `@` and a host |
| C172 | every undisturbed execution, every connection | a client reads a switch of protocols only if an upstream announced one; violated: then it always does, the gateway drops what follows and goes on with HTTP |
| C173 | every execution of a connection to an upstream, every upstream | what a request gets is made of the answer to it, if the upstream sends one well-formed answer to each request and nothing else; a connection that was given up is not used again (every upstream); violated: what follows an answer and reads as a response goes to the next request that takes the connection, though it had arrived before |
| C174 | every number of requests at a time, every interleaving of their steps, of connections and of upstreams | each request is an execution of its own, so that all that is proved of one holds for each of many; what an attempt gets was read for its own request, from a connection to its address (every upstream); it is made of the answer to that request, and so is what its client reads, if upstreams send one well-formed answer to each request and nothing else; violated: what else an upstream sends goes to another client |
| C175 | every number of clients, every bytes that they send over HTTP/1, every interleaving | what is written to an upstream's connection is read as one message for each request that was put there, in order, with its method, target and body, and in no other way; violated: targets with a space, from HTTP/2 |
| C176 | every number of requests, every execution without end of the gateway with its shared connections, every upstream | a request whose handler is scheduled and whose read timers fire comes to its end: the handler takes at most 30 steps for each attempt and then has returned, with one response, or panicked |
| C177 | every number of requests, every interleaving, every upstream | a client gets the gateway's 502 or 504, or a response that was read to its end for a request of its last attempt; with sound upstreams the whole answer to its own request, or its status in a message of the gateway; violated: answers that end with the connection, if it breaks |
| C178 | every plain document, every number of clients and their bytes, every interleaving | what an upstream reads on a shared connection is, message by message, what the document makes of the messages of clients, and each client reads the answer to its own, or a message of the gateway with its status; violated: transform `/` and a target that continues after the path, as in C170 |
| C179 | every document, bytes of a client, start, history of key refreshes and execution | a client that is turned away before an upstream is asked reads one message of the gateway, whose status the document and the client's own message explain: C163 from bytes to bytes; violated for a body of exactly the limit |
| C180 | every document, any number of clients and upstreams, their bytes, start and execution | each client whose handler ended reads one message: refused for a reason in the document, or 502/504, or what the upstream answered to the message that the document makes of the client's own; joins C178 and C179; violated where the handler crashes |
| C181 | every document, any number of clients and upstreams, their bytes, start and execution | the converse of C179: a client whose message the document refuses (413, 400, 404, 401, 503, in this order) reads one message with that status, and no upstream is asked; violated for texts that are no token |
| C182 | every document, any number of clients and upstreams, their bytes, start and execution | the upstreams are asked, and anything but 400, 401, 404, 413, 503 is answered, only for messages that the document admits: nobody else learns from 502 or 504 whether the upstreams are there |
| C183 | every document, any number of clients and upstreams, their bytes, start and execution | the converse of C182: what the document admits is passed on, and an answer that is given without asking an upstream is 502 or 504; violated for bodies as long as the limit |
| C184 | every document, any number of clients and upstreams, their bytes, start and execution | no handler crashes, whether its client is refused or passed on; violated for texts that are no tokens, statuses below 100 (C106), late writes (C51) and some targets (C92) |
| C185 | every document, any number of clients and upstreams, their bytes, start and infinite execution | who is admitted is served in the end: C176, C180, C183 and C184 together; violated for bodies as long as the limit |
| C186 | every document, any number of clients, their bytes, start and infinite execution | who is refused is told so in the end: C176 and C181 together; violated for what is no token |
| C187 | every document, any number of clients and upstreams, their bytes, start and infinite execution | everyone is answered in the end: C176, C180 and C184 together; violated for what is no token |

Where the unchanged code violates a property, the property is kept as stated,
its negation is proved with a concrete witness, and the part that does hold is
proved under the suffix `_partial`.

## 6. Testing the theorems

`seeded/LOG.jsonl` records edits of the model as a realistic bug would change the program, made in a scratch
copy: the definition, the edit, the claim it breaks, the theorems that failed, and what was tightened.
A theorem counts as failed if its proof, or the proof of a lemma it uses, no longer goes through.
This does not by itself show that its statement is false of the edited program: where one invariant carries many theorems
(`Model/Machine`, `Model/Hub`), all of them fail with it, also for an equivalent edit such as m1451. For edits of `Hub.Step`
the notes say which statement is false, and for some of them its negation was proved of the edited program.
