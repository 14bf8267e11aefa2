{"id": "C01", "title": "Longest matching route wins", "statement": "Whatever order the routes are written in, a request is handled by a route whose pattern matches the request URI and no other matching route has a longer path. Two configurations listing the same literal routes in a different order dispatch every request to the same path.", "quantifier": "every route list (any length, any order, any admissible outcome of the unstable sort), every request URI", "why_tests_cant": "Route lists, orders and URIs are unbounded, and the sort is unstable so a test only sees one of the legal outcomes.", "anchors": ["route.go: Routes.Less, Route.matchURI", "config.go: validateRoutes", "proxyhandler.go: proxyHandler"]}
{"id": "C02", "title": "Unrouted requests get 404 and never reach an upstream", "statement": "If no route matches the request URI the client receives exactly one 404 JSON response and no upstream request is made; conversely the gateway itself produces its 404 only in that case.", "quantifier": "every configuration, every well-formed request", "why_tests_cant": "Needs all route sets and URIs; a test cannot show the absence of an upstream call for all of them.", "anchors": ["proxyhandler.go: proxyHandler", "route.go: matchURI"]}
{"id": "C03", "title": "A route path written without a leading slash behaves as if it had one", "statement": "Configuring `path: todos` is the same as configuring `path: /todos`.", "quantifier": "every literal route path, every request URI", "why_tests_cant": "Must hold for every path and URI; the unit tests only use paths that already start with a slash.", "anchors": ["config.go: compileRoutePaths, validateRoutes", "server.go: BootStrap", "route.go: matchURI"]}
{"id": "C04", "title": "Weighted policy gives each label exactly its share of the dice range", "statement": "For non-negative weights, the set of dice values in [0,1) that select a given policy entry is exactly a half-open interval; its length is that entry's weight up to one float64 rounding of the running sum (exactly the weight when the sums are representable), intervals are adjacent and disjoint, and an entry of weight 0 is never selected.", "quantifier": "every policy (any number of labels and weights), every dice value", "why_tests_cant": "Sampling gives statistical evidence for one policy; the claim is an exact measure for all of them.", "anchors": ["policy.go: resolveLabel"]}
{"id": "C05", "title": "A policy whose weights add up to at least one always selects one of its own labels", "statement": "If the weights sum to one or more then for every dice value the selected label is one of the configured ones, never the fall-through label `default`; if they sum to less, `default` is returned exactly for dice at or above the sum.", "quantifier": "every policy, every dice value", "why_tests_cant": "The failing dice values form a tiny interval that random tests do not hit (and in IEEE arithmetic the sum itself can round below one).", "anchors": ["policy.go: resolveLabel"]}
{"id": "C06", "title": "Concurrent label resolution never loses or duplicates a configured label", "statement": "However many requests resolve labels of the same policy at the same time, the policy keeps exactly its configured labels and weights.", "quantifier": "every policy, every number of concurrent requests, every interleaving of their memory accesses", "why_tests_cant": "The loss needs a specific interleaving of unsynchronised swaps; tests cannot enumerate schedules.", "anchors": ["policy.go: resolveLabel (sort.Sort on the shared slice)", "route.go: mapURL"]}
{"id": "C07", "title": "A request is only ever sent to an upstream configured for its route and label", "statement": "When a route maps, the URL is one listed under that route's resource and, if the route has a policy, listed under an entry carrying the label the policy selected; if there is no such entry the client gets 503 and nothing is sent upstream.", "quantifier": "every configuration, every dice value, every request", "why_tests_cant": "Ranges over all configurations and random draws.", "anchors": ["route.go: mapURL", "proxyhandler.go: proxyHandler", "policy.go: resolveLabel"]}
{"id": "C08", "title": "Path transform replaces exactly the matched route path once and keeps the rest of the URI", "statement": "For a literal route path the upstream URI is the upstream base followed by the transform (nothing if the transform is `/`) followed by the unmodified remainder of the request URI including the query; without a transform it is the base followed by the unmodified request URI.", "quantifier": "every literal route path, transform, request URI (including ones repeating the route path)", "why_tests_cant": "All strings; repeated occurrences and query strings are unbounded cases.", "anchors": ["proxy.go: resolveUpstreamURI", "upstream.go: URL.String"]}
{"id": "C09", "title": "The upstream host and port are those of the mapped resource, whatever the client sends", "statement": "The authority (host and port) of every upstream request URI equals the host and port of the mapped resource; a client cannot redirect the gateway to another host through the request path.", "quantifier": "every route, transform, resource and request URI", "why_tests_cant": "An attacker chooses the URI; a test cannot enumerate all of them.", "anchors": ["proxy.go: resolveUpstreamURI", "proxyhandler.go: scaffoldUpstreamRequest"]}
{"id": "C10", "title": "Connection defaults fill exactly the unset parameters", "statement": "After boot every connection parameter left at its zero value holds its documented default (the port default depends on TLS mode, case-insensitively) and every non-zero parameter keeps the configured value; applying the defaults again changes nothing.", "quantifier": "every connection configuration", "why_tests_cant": "All combinations of set/unset parameters and modes.", "anchors": ["config.go: setDefaultDownstreamParams, setDefaultUpstreamParams, isTLSMode"]}
{"id": "C11", "title": "Upstream schemes are normalised to http or https", "statement": "After boot an empty scheme has become http, any scheme containing `https` has become https, any other containing `http` has become http, all else is unchanged; normalisation is idempotent and touches no other field of any resource.", "quantifier": "every resource map, every scheme string", "why_tests_cant": "All strings and all map sizes.", "anchors": ["config.go: reApplyResourceSchemes, reApplyResourceNames"]}
{"id": "C12", "title": "The default policy always exists and always selects label default", "statement": "After boot the policy named `default` exists and resolves to label `default` for every dice value; every other policy is unchanged.", "quantifier": "every configuration, every dice value", "why_tests_cant": "Ranges over all user supplied policy maps.", "anchors": ["config.go: addDefaultPolicy", "policy.go: resolveLabel"]}
{"id": "C13", "title": "The gateway refuses to boot with a route naming an unknown jwt, an illegal transform or an uncompilable path", "statement": "If boot succeeds then each route's jwt reference (if any) exists, each non-empty transform starts with a slash, each path pattern compiled, and all routes start with a slash and are sorted by descending path length.", "quantifier": "every configuration", "why_tests_cant": "All configurations.", "anchors": ["config.go: validateRoutes, compileRouteTransforms, compileRoutePaths", "server.go: BootStrap"]}
{"id": "C14", "title": "On a jwt route nothing reaches the upstream without a token verified by a configured key", "statement": "If a request on a route protected by a jwt configuration with an algorithm other than `none` causes any upstream request, then the presented token verified, under the configured algorithm, against one of the keys of that configuration of the matching key type.", "quantifier": "every configuration that boots, every request and token, every behaviour of the cryptographic library", "why_tests_cant": "Soundness over all tokens and key sets; tests only present a few forged tokens.", "anchors": ["proxy.go: validateJwt, verifySignature", "proxyhandler.go: proxyHandler", "jwt.go: Validate"]}
{"id": "C15", "title": "A rejected token yields exactly one 401 and no upstream request", "statement": "If the route requires a jwt and the token is missing, has no verifying key, or fails its date claims, the client receives exactly one 401 response and no upstream request is made.", "quantifier": "every request and key set", "why_tests_cant": "All tokens, all key sets.", "anchors": ["proxyhandler.go: proxyHandler", "proxy.go: validateJwt"]}
{"id": "C16", "title": "Only the Bearer scheme is accepted in the Authorization header", "statement": "A token is only taken from an Authorization header of the form `Bearer <token>`.", "quantifier": "every Authorization header value", "why_tests_cant": "All header strings.", "anchors": ["proxy.go: validateJwt"]}
{"id": "C17", "title": "Token acceptance depends only on whether some configured key verifies it, not on its kid", "statement": "For a parsable token with a signature, signature verification succeeds if and only if at least one key in the key set verifies it, whatever the token's kid and wherever that key stands in the set.", "quantifier": "every key set, every token, every kid", "why_tests_cant": "All positions and key set sizes; the single-key, matching-kid, no-kid and unknown-kid branches interact.", "anchors": ["proxy.go: verifySignature", "jwt.go: KeySet.Find"]}
{"id": "C18", "title": "Date claims are enforced with the configured skew", "statement": "A token passes the date check exactly when: exp (if present) is later than now minus the skew, iat (if present) is not later than now plus the skew, nbf (if present) is not later than now plus the skew.", "quantifier": "every combination of claims, every clock value, every skew accepted at boot", "why_tests_cant": "All timestamps and skews, including thresholds in the code that compare unrelated quantities.", "anchors": ["proxy.go: verifyDateClaims, validateJwt"]}
{"id": "C19", "title": "A larger acceptable skew never rejects more tokens", "statement": "If a token passes the date check under a skew, it passes under any larger skew accepted at boot.", "quantifier": "every token, every pair of skews accepted at boot", "why_tests_cant": "Fails only for overflow-size skews.", "anchors": ["proxy.go: verifyDateClaims", "jwt.go: Validate"]}
{"id": "C20", "title": "After a JWKS refresh the newest key served for a kid is the one used", "statement": "Upserting a key under a kid makes lookups of that kid return that key.", "quantifier": "every key set, kid and key", "why_tests_cant": "All histories of upserts.", "anchors": ["jwt.go: KeySet.Upsert, KeySet.Find, LoadJwks"]}
{"id": "C21", "title": "Key rotation never forgets or duplicates a kid", "statement": "Through any history of refreshes (successful, failing or partial) a kid once present stays present, lookups of it keep returning a key, and no kid appears twice.", "quantifier": "every sequence of JWKS documents and fetch failures", "why_tests_cant": "All histories.", "anchors": ["jwt.go: KeySet.Upsert, LoadJwks"]}
{"id": "C22", "title": "JWKS refreshes are mutually exclusive and rate limited", "statement": "At any time at most one fetch per jwt configuration is in progress, and after the boot fetch any two fetches start at least ten seconds apart, however many requests with unknown kids arrive.", "quantifier": "every schedule of requests, fetch durations and clock advances", "why_tests_cant": "All schedules and timings; flooding behaviour cannot be enumerated by tests.", "anchors": ["jwt.go: LoadJwks", "proxy.go: triggerKeyRotationCheck"]}
{"id": "C23", "title": "Only keys of the configured algorithm enter the key set", "statement": "Every key loaded from a JWKS was published with exactly the configured algorithm, lands in the key set of that algorithm's type, and EC keys have the curve size the algorithm demands; keys of an HMAC or `none` configuration are never loaded from a JWKS.", "quantifier": "every JWKS document, every algorithm", "why_tests_cant": "All documents.", "anchors": ["jwt.go: LoadJwks, checkECDSABitSize"]}
{"id": "C24", "title": "A JWKS refresh cannot crash the gateway", "statement": "Whatever document the JWKS endpoint serves, the refresh returns (possibly with an error) and the process keeps running.", "quantifier": "every JWKS document", "why_tests_cant": "All documents, including keys whose type contradicts their alg.", "anchors": ["jwt.go: LoadJwks, checkECDSABitSize"]}
{"id": "C25", "title": "A jwt configuration that boots has a known algorithm, sane skew and usable key material", "statement": "If validation accepts a configuration then its algorithm is one of the thirteen supported ones, its skew is a non-negative integer (120 if unset), `none` carries no key, and any other algorithm has at least one verification key of the right type.", "quantifier": "every jwt configuration, every parse result of its key or JWKS", "why_tests_cant": "All configurations.", "anchors": ["jwt.go: Validate, parseKey, LoadJwks"]}
{"id": "C26", "title": "Static keys: only key material of the right kind is accepted", "statement": "A PEM key is accepted for an RSA algorithm only if it is exactly one public-key or certificate block holding an RSA key, for an EC algorithm only if it holds an EC key of the right size, otherwise validation fails without storing a key.", "quantifier": "every PEM parse outcome, every algorithm", "why_tests_cant": "All PEM contents.", "anchors": ["jwt.go: parseKey, checkECDSABitSize"]}
{"id": "C27", "title": "A jwt on a route always protects it", "statement": "Any request whose matching route names a jwt is checked before being answered with anything but an error.", "quantifier": "every configuration and request", "why_tests_cant": "All configurations, including routes served by the built-in about resource.", "anchors": ["server.go: mapPathsToHandler", "proxyhandler.go: proxyHandler", "responses.go: aboutHandler"]}
{"id": "C28", "title": "No upstream request carries a body larger than the configured maximum", "statement": "The body sent with any upstream attempt never exceeds the configured maximum number of bytes.", "quantifier": "every request body, transfer encoding, chunking of the reads, and limit", "why_tests_cant": "All sizes and all read chunkings.", "anchors": ["proxy.go: parseRequestBody, bodyReader"]}
{"id": "C29", "title": "A request body above the limit is answered with 413", "statement": "A request whose body exceeds the configured maximum gets 413 and is not forwarded, whether or not it declares a content length.", "quantifier": "every body size, declared length and chunking", "why_tests_cant": "All sizes and chunkings.", "anchors": ["proxy.go: parseRequestBody", "proxyhandler.go: proxyHandler, validate"]}
{"id": "C30", "title": "A request body within the limit is forwarded byte for byte on every attempt", "statement": "If the body is fully received and within the limits, each upstream attempt carries exactly the bytes the client sent, independent of how they were chunked.", "quantifier": "every body below the limit, every chunking, every attempt", "why_tests_cant": "All bodies and chunkings.", "anchors": ["proxy.go: parseRequestBody, bodyReader", "proxyhandler.go: scaffoldUpstreamRequest"]}
{"id": "C31", "title": "An incompletely received request body is never forwarded as if it were complete", "statement": "If reading the body fails (client disconnect, read timeout) the request is not sent upstream.", "quantifier": "every body, every point of failure", "why_tests_cant": "Every failure point.", "anchors": ["proxy.go: parseRequestBody"]}
{"id": "C32", "title": "Request id continuity", "statement": "Every upstream attempt carries exactly one X-Request-Id, it is the client's value if the client sent a non-empty one and otherwise a generated one, it is the same on all attempts, and the downstream response's X-Request-Id starts with that same value.", "quantifier": "every request, every number of attempts, every upstream response", "why_tests_cant": "All requests, attempts and responses.", "anchors": ["proxy.go: createXRequestID", "proxyhandler.go: scaffoldUpstreamRequest", "server.go: writeStandardResponseHeaders"]}
{"id": "C33", "title": "Only legal HTTP methods are proxied, compared case-insensitively", "statement": "A request is answered 400 without any upstream request exactly when its upper-cased method is not one of GET HEAD OPTIONS TRACE PUT DELETE POST CONNECT (and the body is not over the limit); upstream sees the upper-cased method.", "quantifier": "every method string", "why_tests_cant": "All strings.", "anchors": ["proxy.go: hasLegalHTTPMethod, parseMethod", "proxyhandler.go: validate"]}
{"id": "C34", "title": "Request headers are forwarded unchanged except the fixed exclusion list", "statement": "Each upstream request carries, for each header, the client's values in order, except Date, Content-Length, Transfer-Encoding and Server (any case), and X-Request-Id which is set by the gateway; map iteration order does not matter.", "quantifier": "every header map, every iteration order", "why_tests_cant": "All header maps and iteration orders.", "anchors": ["proxyhandler.go: scaffoldUpstreamRequest, shouldProxyHeader"]}
{"id": "C35", "title": "An upstream 5xx (or above) response is never passed to the client", "statement": "No response status of 500 or above originating from an upstream reaches the client; the client sees 502 or 504 from the gateway after retries.", "quantifier": "every schedule, every sequence of upstream responses", "why_tests_cant": "All histories.", "anchors": ["proxyhandler.go: shouldProxyUpstreamResponse, handle"]}
{"id": "C36", "title": "Upstream 4xx keep their status but leak no upstream body or headers", "statement": "For an upstream status 400..499 the client receives the same status with the gateway's JSON body naming that status, and none of the upstream's headers or body.", "quantifier": "every 4xx upstream response", "why_tests_cant": "All responses.", "anchors": ["proxyhandler.go: processUpstreamResponse, isUpstreamClientError", "server.go: sendStatusCodeAsJSON"]}
{"id": "C37", "title": "Upstream success and redirect responses are proxied with their status and headers", "statement": "For an upstream status below 400 the client receives the same status, and for each header outside the exclusion list and outside those the gateway sets, exactly the upstream's values in order.", "quantifier": "every upstream response, every iteration order", "why_tests_cant": "All responses.", "anchors": ["proxyhandler.go: processUpstreamResponse", "proxy.go: copyUpstreamResponseHeaders, copyUpstreamStatusCodeHeader"]}
{"id": "C38", "title": "The Content-Encoding of a proxied response is truthful", "statement": "Decoding the delivered body according to the delivered Content-Encoding yields the same entity as decoding the upstream body according to the upstream Content-Encoding.", "quantifier": "every upstream body and encoding, every Accept-Encoding", "why_tests_cant": "All bodies and encodings.", "anchors": ["proxy.go: encodeUpstreamResponseBody, contentEncoding, writeContentEncodingHeader", "proxyhandler.go: parseUpstreamResponse"]}
{"id": "C39", "title": "The Content-Encoding of the gateway's own error responses is truthful", "statement": "If an error body is gzip compressed the response says so.", "quantifier": "every error response, every Accept-Encoding", "why_tests_cant": "All statuses and negotiation values.", "anchors": ["server.go: sendStatusCodeAsJSON", "proxy.go: writeContentEncodingHeader"]}
{"id": "C40", "title": "Content-Length of a proxied response equals the number of body bytes delivered", "statement": "For every non-HEAD proxied response the Content-Length header equals the number of body bytes the client receives.", "quantifier": "every method, status, body and encoding", "why_tests_cant": "All combinations.", "anchors": ["proxy.go: setContentLengthHeader, pipeDownstreamResponse"]}
{"id": "C41", "title": "HEAD responses carry the upstream's numeric Content-Length or 0", "statement": "For HEAD the Content-Length is the upstream's value if that parses as a 64 bit integer, otherwise 0; for the statuses 1xx and 204, which have no length, it is 0.", "quantifier": "every upstream Content-Length string", "why_tests_cant": "All strings.", "anchors": ["proxy.go: setContentLengthHeader"]}
{"id": "C42", "title": "The gateway's identity headers are always its own", "statement": "Every response carries exactly one Server header, the gateway's, never the upstream's; HSTS with max-age 31536000 is the first HSTS value iff the server is in TLS mode or the upstream sent one.", "quantifier": "every upstream response, every mode", "why_tests_cant": "All responses.", "anchors": ["server.go: writeStandardResponseHeaders", "proxyhandler.go: shouldProxyHeader"]}
{"id": "C43", "title": "Error bodies are valid JSON that name the response's status", "statement": "The body of every gateway generated response is a JSON object whose Code equals the HTTP status and whose Message is non-empty; parsing the emitted text recovers exactly these values, whatever the version string.", "quantifier": "every status, message, server id and version string", "why_tests_cant": "All strings (escaping).", "anchors": ["responses.go: StatusCodeResponse.AsJSON, withCode", "server.go: sendStatusCodeAsJSON"]}
{"id": "C44", "title": "gzip is only sent to clients that accept it", "statement": "If the response body is gzip encoded by the gateway, the client's Accept-Encoding accepts gzip.", "quantifier": "every Accept-Encoding value", "why_tests_cant": "All header values.", "anchors": ["proxy.go: parseIncoming"]}
{"id": "C45", "title": "At most the configured number of upstream attempts, exactly one for POST and CONNECT", "statement": "A request causes at most max(1, maxAttempts) upstream attempts, and exactly one unless its method is one of GET HEAD OPTIONS TRACE PUT DELETE, under every interleaving of timers, upstream results and goroutines.", "quantifier": "every schedule, every upstream behaviour, every configuration", "why_tests_cant": "All interleavings.", "anchors": ["proxy.go: shouldRetryUpstreamAttempt, nextAttempt", "proxyhandler.go: handle"]}
{"id": "C46", "title": "Each request gets at most one response, and exactly one when the handler finishes normally", "statement": "The handler writes the status line at most once under every schedule, and when it returns without panicking it has written exactly one.", "quantifier": "every schedule", "why_tests_cant": "All interleavings.", "anchors": ["proxyhandler.go: handle, processUpstreamResponse", "server.go: sendStatusCodeAsJSON"]}
{"id": "C47", "title": "No retry is started after the downstream round trip timeout was observed", "statement": "Once the round trip deadline has fired at most the attempt already cleared to start is started, and once the handler has observed it no further attempt is started and the client gets 504.", "quantifier": "every schedule and deadline position", "why_tests_cant": "All interleavings.", "anchors": ["proxy.go: hasDownstreamAborted, shouldRetryUpstreamAttempt", "proxyhandler.go: performUpstreamRequest, parseUpstreamResponse, handle"]}
{"id": "C48", "title": "504 is reported for timeouts and 502 otherwise", "statement": "When no upstream response can be proxied the client receives 504 if the round trip deadline or the last attempt's read deadline had fired when the handler decided, and 502 otherwise.", "quantifier": "every schedule", "why_tests_cant": "All interleavings.", "anchors": ["proxyhandler.go: handle", "proxy.go: hasDownstreamAborted, hasUpstreamAttemptAborted"]}
{"id": "C49", "title": "The handler always terminates", "statement": "If every attempt's read timer eventually fires then from every reachable state the handler finishes after a bounded number of its own steps, whatever the upstreams do (including never answering).", "quantifier": "every schedule", "why_tests_cant": "Liveness over all schedules.", "anchors": ["proxyhandler.go: handle, performUpstreamRequest, parseUpstreamResponse"]}
{"id": "C50", "title": "A proxied response is the response of the attempt it is reported for", "statement": "The status, headers and body the client receives all come from one and the same upstream response, that of the last attempt.", "quantifier": "every schedule", "why_tests_cant": "Needs a specific interleaving of a late goroutine of an abandoned attempt.", "anchors": ["proxyhandler.go: performUpstreamRequest, parseUpstreamResponse"]}
{"id": "C51", "title": "No request handling path dereferences a missing upstream response", "statement": "Under every schedule the handler does not crash on a nil upstream response.", "quantifier": "every schedule", "why_tests_cant": "Needs a specific interleaving.", "anchors": ["proxyhandler.go: performUpstreamRequest, shouldProxyUpstreamResponse"]}
{"id": "C52", "title": "A downstream timeout cancels every upstream attempt", "statement": "When the handler observes the downstream deadline while waiting for an upstream, the context of every attempt made so far is cancelled.", "quantifier": "every schedule, every number of attempts", "why_tests_cant": "All interleavings.", "anchors": ["proxy.go: abortAllUpstreamAttempts", "proxyhandler.go: performUpstreamRequest, parseUpstreamResponse"]}
{"id": "C53", "title": "A response read past its attempt's deadline is not delivered", "statement": "If the handler observed the attempt's read deadline then that attempt's response is not proxied, even if it arrives.", "quantifier": "every schedule", "why_tests_cant": "All interleavings.", "anchors": ["proxyhandler.go: processUpstreamResponse, shouldProxyUpstreamResponse"]}
{"id": "C54", "title": "Completion signals are raised at most once per attempt", "statement": "No completion channel is closed twice.", "quantifier": "every schedule", "why_tests_cant": "All interleavings.", "anchors": ["proxyhandler.go: performUpstreamRequest, parseUpstreamResponse"]}
{"id": "C55", "title": "Compression results do not depend on pool history", "statement": "The compressed (decompressed) output is a function of the input alone, whichever pooled writers (readers) exist and whatever they processed before, and concurrent calls do not mix their data.", "quantifier": "every pool content and history, every input", "why_tests_cant": "All histories.", "anchors": ["gzip.go: Gzip, Gunzip, zipPool, unzipPool"]}
{"id": "C56", "title": "Memory history keeps exactly the most recent 24 samples in order", "statement": "After any number of appends the history holds the last 24 samples of the initial fill followed by the appended ones, in order.", "quantifier": "every number of samples", "why_tests_cant": "All histories.", "anchors": ["stats.go: samples.append, logProcStats"]}
{"id": "C57", "title": "Memory growth is flagged exactly when a sample is at least twice the oldest", "statement": "With complete data, a sample is flagged high iff its resident size is at least twice that of the oldest sample in the history; with incomplete data nothing is flagged.", "quantifier": "every history", "why_tests_cant": "All histories and sizes.", "anchors": ["stats.go: samples.log"]}
{"id": "C58", "title": "Exactly one certificate is reported as earliest expiry, and none expires earlier", "statement": "For a non-empty verified chain exactly one link is marked, and its remaining validity is minimal.", "quantifier": "every chain length and validity, every clock progress during the computation", "why_tests_cant": "All chains.", "anchors": ["tls.go: parseTlsLinks"]}
{"id": "C59", "title": "Serial numbers of any size are rendered as dash separated hex bytes", "statement": "Formatting a certificate serial never fails and yields its hex digits in pairs.", "quantifier": "every serial number", "why_tests_cant": "All integers; the code treats two lengths specially.", "anchors": ["tls.go: formatSerial"]}
{"id": "C60", "title": "A server certificate chain is only accepted with a verified leaf that has a DNS name", "statement": "Start-up in TLS mode proceeds only if the leaf parses, carries at least one DNS name and verifies against the supplied (or system) roots; self-signed CA certificates of the supplied chain are the only roots when there are any.", "quantifier": "every chain, every verification result", "why_tests_cant": "All chains.", "anchors": ["tls.go: checkCertChain, splitCertPools, verifyOptions, isRoot", "server.go: startListening"]}
{"id": "C61", "title": "IPv4 client addresses are logged exactly", "statement": "For every remote address of the form a.b.c.d:port the extracted address is a.b.c.d.", "quantifier": "all 2^32 addresses and all ports", "why_tests_cant": "Too many to enumerate, and the regular expressions overlap.", "anchors": ["iprex.go: extractAddr"]}
{"id": "C62", "title": "IPv6 client addresses are logged in full", "statement": "For every remote address of the form [v6]:port the extracted address is v6.", "quantifier": "all textual IPv6 addresses", "why_tests_cant": "Too many to enumerate.", "anchors": ["iprex.go: extractAddr"]}
{"id": "C63", "title": "The server write deadline leaves room for the timeout response", "statement": "The server's write timeout is strictly larger than the round trip timeout after which the handler answers 504.", "quantifier": "every configured round trip timeout", "why_tests_cant": "All values, including overflow.", "anchors": ["server.go: startListening", "config.go: getDownstreamRoundTripTimeoutDuration"]}
{"id": "C64", "title": "Configuration source precedence", "statement": "An explicit config file wins over the environment, which wins over the default file; a source without routes is refused rather than falling through.", "quantifier": "all combinations of sources and contents", "why_tests_cant": "All contents.", "anchors": ["config.go: load, ok"]}
{"id": "C65", "title": "The about endpoint serves exactly its configured paths", "statement": "A request is answered by the built-in about handler iff its cleaned path is the path of a route whose resource is `about` (or lies under one ending in a slash); everything else goes to the proxy handler.", "quantifier": "every route list and path", "why_tests_cant": "All route sets and paths.", "anchors": ["server.go: mapPathsToHandler", "responses.go: aboutHandler"]}
{"id": "C66", "title": "About responses have truthful encoding and length", "statement": "The about response's Content-Encoding and Content-Length always describe the bytes sent.", "quantifier": "every Accept-Encoding header list, version and id", "why_tests_cant": "All header lists.", "anchors": ["responses.go: aboutHandler"]}
{"id": "C67", "title": "Sampling and logging statistics never crash the server", "statement": "No interleaving of the sampling goroutine and the logging goroutine makes either of them panic, in particular not by indexing past the end of the sample history or of the growth rates.", "quantifier": "all interleavings of the two goroutines and all sample values", "why_tests_cant": "The two goroutines run for days on independent timers; the window is a few instructions wide.", "anchors": ["stats.go: samples.append, samples.log, logProcStats"]}
{"id": "C68", "title": "The daily certificate health check goes on for ever", "statement": "After any check the goroutine sleeps a day and checks again; no certificate makes it stop.", "quantifier": "all verified certificate chains and serial numbers", "why_tests_cant": "All serial numbers; and a day passes between two checks.", "anchors": ["tls.go: tlsHealthCheck, logCertStats, formatSerial"]}
{"id": "C69", "title": "A certificate about to expire, or expired, is reported", "statement": "Every health check of a chain whose shortest lived certificate has less than a month left, or has expired, writes a warning.", "quantifier": "all chains and times", "why_tests_cant": "All times relative to all expiries.", "anchors": ["tls.go: tlsHealthCheck, checkCertChain, logCertStats"]}
{"id": "C70", "title": "A slow request body does not cost the client its answer", "statement": "A request whose body arrives within the read timeout is still given an answer: the connection's write deadline has not passed when the body is complete.", "quantifier": "every configured read and round trip timeout and every arrival time of the body", "why_tests_cant": "All pairs of timeouts; the default values differ by more than the second of grace only for some of them.", "anchors": ["server.go: startListening", "proxy.go: parseRequestBody", "config.go: setDefaultDownstreamParams"]}
{"id": "C71", "title": "The about endpoint does not hide longer routes", "statement": "A request is answered by the about handler only if no proxied route with a longer path matches it.", "quantifier": "every route list and request path", "why_tests_cant": "All route sets and paths; the multiplexer and the router apply different rules.", "anchors": ["server.go: mapPathsToHandler", "routes.go: matchURI"]}
{"id": "C72", "title": "No dot segments reach an upstream", "statement": "A request that is proxied has a path without `.` and `..` segments, so a client cannot climb out of a route's prefix.", "quantifier": "every route list, method and request path", "why_tests_cant": "All paths.", "anchors": ["server.go: mapPathsToHandler", "proxyhandler.go: handleHTTP"]}
{"id": "C73", "title": "Redirections are not followed", "statement": "Each call of the upstream client puts exactly one request on the wire, with the method, URI and body the handler built; a redirection from an upstream never makes the gateway contact another URI.", "quantifier": "every request, execution and upstream behaviour", "why_tests_cant": "All redirection statuses, locations and schedules; a test sees a few.", "anchors": ["httpclient.go: scaffoldHTTPClient (CheckRedirect)", "proxyhandler.go: performUpstreamRequest"]}
{"id": "C74", "title": "Redirections are handed on", "statement": "Every redirection an upstream sends reaches the handler with its status and location.", "quantifier": "every request and upstream response", "why_tests_cant": "All combinations of status and Location, including missing and malformed ones.", "anchors": ["httpclient.go: scaffoldHTTPClient", "proxyhandler.go: performUpstreamRequest"]}
{"id": "C75", "title": "Headers on the wire are the client's", "statement": "On the wire to the upstream, every header that does not belong to the hop has the values the client sent, and no other header is there.", "quantifier": "every request, header name and execution", "why_tests_cant": "All header maps and names; tests check a handful of names.", "anchors": ["proxyhandler.go: scaffoldUpstreamRequest", "httpclient.go: scaffoldHTTPClient"]}
{"id": "C76", "title": "Archives are delivered unchanged", "statement": "The body of an upstream response without a content coding reaches the client unchanged, also if it is itself a gzip file.", "quantifier": "every client and upstream response", "why_tests_cant": "All bodies; the code sniffs the first two bytes.", "anchors": ["proxyhandler.go: parseUpstreamResponse", "proxy.go: encodeUpstreamResponseBody, contentEncoding"]}
{"id": "C77", "title": "Compression between gateway and upstream is invisible", "statement": "If the transport asks the upstream for compression on its own, the client still gets the entity the upstream sent.", "quantifier": "every client, upstream response and decompressor", "why_tests_cant": "Depends on a decompression in net/http, another one in the gateway, and all bodies.", "anchors": ["httpclient.go: scaffoldHTTPClient", "proxy.go: encodeUpstreamResponseBody"]}
{"id": "C78", "title": "Broken bodies are not delivered as complete", "statement": "If the body of an upstream response breaks off or cannot be decoded to its end, the client does not get a part of it as a complete response.", "quantifier": "every execution and point of failure", "why_tests_cant": "All interleavings and all points at which a read can fail.", "anchors": ["proxyhandler.go: parseUpstreamResponse, processUpstreamResponse", "gzip.go: Gunzip"]}
{"id": "C79", "title": "Upstream connections are released", "statement": "When a request is over, also by a panic, every upstream call made for it has been cancelled or its response body closed, and no body is closed twice.", "quantifier": "every request and execution", "why_tests_cant": "Leaks depend on timers firing between header and body, on retries and on late responses; a test sees few schedules.", "anchors": ["proxyhandler.go: handle, performUpstreamRequest", "proxy.go: abortAllUpstreamAttempts"]}
{"id": "C80", "title": "Attempt goroutines never wait for the handler", "statement": "The goroutines of an attempt wait for nothing but the network: outside of the upstream call and the reading of the body they can always go on, also after the request is over.", "quantifier": "every state and attempt", "why_tests_cant": "A goroutine leak shows only in rare schedules and does not fail a test.", "anchors": ["proxyhandler.go: performUpstreamRequest, parseUpstreamResponse"]}
{"id": "C81", "title": "Every answered request is logged once", "statement": "For every request that is answered exactly one line is written, after the response, with the status the client got, as a warning exactly from 400 on, with the request id and for own responses the message of the body.", "quantifier": "every request and execution", "why_tests_cant": "All decisions, outcomes of attempts and schedules.", "anchors": ["proxyhandler.go: logHandledDownstreamRoundtrip", "server.go: sendStatusCodeAsJSON", "proxy.go: contentEncoding, respondWith"]}
{"id": "C82", "title": "The logged coding is the coding sent", "statement": "The content coding in the log line of a response is the one of the body the client got.", "quantifier": "every request and execution", "why_tests_cant": "All combinations of client and upstream coding, statuses and schedules.", "anchors": ["proxyhandler.go: logHandledDownstreamRoundtrip", "proxy.go: contentEncoding"]}
{"id": "C83", "title": "Racing label resolutions neither index out of range nor run forever", "statement": "However many requests sort the same policy at the same time, none of their sorts uses an index outside the policy, and each ends after a number of its own steps that depends on the number of labels only.", "quantifier": "every policy, every number of requests, every interleaving of their memory accesses", "why_tests_cant": "Under a race Less gives answers that fit no order, in combinations only particular schedules produce; quicksort's and heapsort's loops rely on order for their bounds.", "anchors": ["policy.go: resolveLabel (sort.Sort on the shared slice)", "policy.go: Less, Swap"]}
{"id": "C84", "title": "Racing label resolutions only ever see configured labels", "statement": "However many requests sort the same policy at the same time, each position of the policy holds one of its configured label and weight pairs at every moment.", "quantifier": "every policy, every number of requests, every interleaving of their memory accesses", "why_tests_cant": "A statement about every moment of every schedule.", "anchors": ["policy.go: resolveLabel, Swap"]}
{"id": "C85", "title": "Responses of the gateway itself have no say in which label other requests get", "statement": "The dice that choose the labels are those a source of random numbers would hand out if the gateway never gave a response of its own.", "quantifier": "every source of random numbers, every history of label choices and own responses", "why_tests_cant": "A statement about every interleaving of dice and responses in every second; a test run sees one history, and a skewed share in one second looks like chance.", "anchors": ["policy.go:30 resolveLabel (rand.Float64)", "responses.go:149-152 randomHuttese (rand.Seed with the second)"]}
{"id": "C86", "title": "Headers about a connection stay on that connection", "statement": "Headers about a connection (RFC 7230 6.1: Connection, the headers it names, Keep-Alive, Te, Trailer, Transfer-Encoding, Upgrade, proxy authentication) are passed on in neither direction.", "quantifier": "every request, response and execution", "why_tests_cant": "Any header can be named in Connection.", "anchors": ["proxyhandler.go:28 httpHeadersNoRewrite", "proxyhandler.go:284 shouldProxyHeader", "proxy.go:397 copyUpstreamResponseHeaders"]}
{"id": "C87", "title": "A configured policy is used as configured", "statement": "After boot every configured policy is the one used under its name.", "quantifier": "every configuration that boots", "why_tests_cant": "Every name a policy can have.", "anchors": ["config.go: addDefaultPolicy"]}
{"id": "C88", "title": "Every name a route refers to exists", "statement": "A configuration boots only if every policy and resource a route names is configured and the resource has a server.", "quantifier": "every configuration", "why_tests_cant": "All configurations, and what requests to a route with a dangling name come to under every schedule.", "anchors": ["config.go: validateRoutes", "route.go: mapURL"]}
{"id": "C89", "title": "The gateway does not serve in the clear unless told to", "statement": "Unless the configured mode is HTTP (in any case) or none, the gateway serves TLS or does not start.", "quantifier": "every downstream configuration, certificate and key", "why_tests_cant": "Every spelling of the mode.", "anchors": ["server.go:113-125 startListening", "config.go: setDefaultDownstreamParams"]}
{"id": "C90", "title": "What is written in the configuration is what is used, or the gateway does not start", "statement": "If the gateway starts from a document then the document writes down a configuration - known keys in any order and case, values of the right types, empty and zero values possibly left out - and that configuration is the one booted.", "quantifier": "every document", "why_tests_cant": "All documents: every order, case and omission of keys, and every misspelling and misfit.", "anchors": ["config.go:92-96 parse", "config.go:18-24 Config", "connection.go:4-65", "policy.go:9-12 LabelWeight", "route.go:26-33 Route", "jwt.go:48-61 Jwt"]}
{"id": "C91", "title": "The request target reaches the upstream byte for byte", "statement": "The target in the request line sent to the upstream is the target the client sent, with nothing decoded or encoded differently, the path of the matched route replaced by the route's transform; and it is sent to the host and port of the resource.", "quantifier": "every configuration with plain routes and hosts, every target in origin form, every schedule", "why_tests_cant": "All targets: every mixture of encoded and plain bytes, through two parsers and a printer of net/url.", "anchors": ["proxy.go:208-210 parseIncoming", "proxy.go:129-139 resolveUpstreamURI", "proxyhandler.go:117-121 scaffoldUpstreamRequest", "route.go:35-44 matchURI"]}
{"id": "C92", "title": "No request target crashes its handler", "statement": "Whatever target net/http accepts, an upstream request can be made from it: scaffoldUpstreamRequest does not panic and the client gets an answer.", "quantifier": "every accepted target of bytes, every plain configuration, every schedule", "why_tests_cant": "All targets accepted by one parser must be accepted by another after rewriting.", "anchors": ["proxyhandler.go:100-145 scaffoldUpstreamRequest", "proxy.go:129-139 resolveUpstreamURI", "proxy.go:208-210 parseIncoming"]}
{"id": "C93", "title": "Every spelling of a path gets the same route and the same token check", "statement": "Targets that are the same by RFC 3986 section 6.2.2 (encoded unreserved characters, case of hexadecimal digits) are dispatched to the same route, and so ask for the same token.", "quantifier": "every plain configuration, every pair of equivalent targets", "why_tests_cant": "All pairs of equivalent spellings.", "anchors": ["route.go:35-44 matchURI", "proxyhandler.go:52-70 proxyHandler"]}
{"id": "C94", "title": "Targets in absolute form are served like those in origin form", "statement": "A request whose target is in absolute form (RFC 7230 section 5.3.2, to be accepted by every server) is routed like the one with the target in origin form.", "quantifier": "every plain configuration, every target that does not start with a slash, every schedule", "why_tests_cant": "All targets in absolute form, for all configurations.", "anchors": ["route.go:35-44 matchURI", "proxyhandler.go:52-76 proxyHandler"]}
{"id": "C95", "title": "Routes do not tear segments apart", "statement": "A request is dispatched to a route only if its target is the path of the route or below it: the path ends at a segment boundary.", "quantifier": "every plain configuration, every target, every schedule", "why_tests_cant": "All targets that share a prefix with a route.", "anchors": ["route.go:35-44 matchURI", "proxyhandler.go:52-70 proxyHandler", "config.go:125-134 compileRoutePaths"]}
{"id": "C96", "title": "The round trip timeout bounds how long a client waits", "statement": "Once the round trip timeout has passed since the request was parsed, and its body has been read, the handler ends within 31 of its own steps, with one response handed to net/http unless it panics; and so before the write deadline of the connection, one second later, if the steps take less than that.", "quantifier": "every configuration, request and timed execution: every behaviour and every delay of upstreams and of their goroutines", "why_tests_cant": "All interleavings with all delays.", "anchors": ["proxy.go:196-205 parseIncoming", "config.go:260-262 getDownstreamRoundTripTimeoutDuration", "proxyhandler.go:83-99 handle", "proxyhandler.go:174-237", "server.go:84-101"]}
{"id": "C97", "title": "The read timeouts bound how long a client waits", "statement": "The handler ends within the read timeout for every attempt it made and 30 of its own steps for every attempt it may make, whatever the round trip timeout is; a request that must not be repeated within one read timeout and those steps.", "quantifier": "every configuration, request and timed execution", "why_tests_cant": "All interleavings with all delays.", "anchors": ["proxyhandler.go:104-115 scaffoldUpstreamRequest", "proxyhandler.go:83-99 handle", "proxyhandler.go:174-237", "proxy.go:162-189 shouldRetryUpstreamAttempt"]}
{"id": "C98", "title": "Timers have the configured durations", "statement": "The round trip timer and the read timers have the configured number of seconds; a longer timeout never ends a request earlier.", "quantifier": "every configured number of seconds, every timed execution", "why_tests_cant": "The number is any 64 bit integer.", "anchors": ["config.go:260-262 getDownstreamRoundTripTimeoutDuration", "proxy.go:203 parseIncoming", "proxyhandler.go:113 scaffoldUpstreamRequest"]}
{"id": "C99", "title": "Every usable key that a JWKS serves is loaded", "statement": "After a document was fetched, every key in it that has the configured algorithm and the right type is in the key set (its kid has a key); keys for other purposes in the same document do no harm.", "quantifier": "every configuration, every document, every order of keys in it", "why_tests_cant": "All documents, with keys of all kinds in all orders; tests use documents with keys of one algorithm.", "anchors": ["jwt.go:170-255 LoadJwks"]}
{"id": "C100", "title": "A token signed with a key that the JWKS serves is accepted once the document was fetched after it was presented", "statement": "If a token is presented whose key is not in use yet and the key set endpoint serves that key, then the request starts a refresh and, after it, the same token is accepted.", "quantifier": "every configuration, key set, token, document and time", "why_tests_cant": "All ways of rotating keys, all token headers; tests rotate to a new kid only.", "anchors": ["proxy.go:596-632 verifyJwtSignature", "jwt.go:170-255 LoadJwks", "jwt.go: KeySet.Upsert"]}
{"id": "C101", "title": "Keys withdrawn from the JWKS are no longer accepted", "statement": "After a refresh, a token is accepted only if some key in the last document fetched verifies it.", "quantifier": "every history of documents, every token", "why_tests_cant": "All histories of key rotation.", "anchors": ["jwt.go:170-255 LoadJwks", "jwt.go: KeySet.Upsert"]}
{"id": "C102", "title": "A refresh is possible again soon after the last one", "statement": "A request that needs a refresh later than some fixed time after the last fetch started gets one; no endpoint can block refreshes for good.", "quantifier": "every schedule of refreshing goroutines, every duration of every fetch", "why_tests_cant": "All schedules and durations, among them fetches that never return.", "anchors": ["jwt.go:170-255 LoadJwks (jwk.Fetch without timeout, semaphore)", "proxy.go:625"]}
{"id": "C103", "title": "Every TLS connection is strong", "statement": "Every TLS connection of the gateway uses TLS 1.2 or 1.3, an ephemeral key exchange over a NIST curve and authenticated encryption, and nothing that the client did not offer; its version has a name in the log.", "quantifier": "every ClientHello, every kind of certificate key, every machine with or without AES instructions", "why_tests_cant": "All ClientHellos: versions, suites, curves, key shares and their orders.", "anchors": ["server.go:195-209 tlsConfig", "proxy.go:305-317 parseTlsVersion"]}
{"id": "C104", "title": "Every capable TLS client is served", "statement": "A gateway that starts in TLS mode gives every client that can do TLS 1.2 or 1.3 with strong suites and the curve P-256 a connection, whatever kind of key its certificate has.", "quantifier": "every capable ClientHello, every kind of certificate key", "why_tests_cant": "All ClientHellos and kinds of keys.", "anchors": ["server.go:175-212 tlsConfig"]}
{"id": "C105", "title": "The configured order of cipher suites is used", "statement": "Of the cipher suites that both sides support for the version of the connection, the first in the order of the configuration in tlsConfig is used.", "quantifier": "every ClientHello, every kind of certificate key, every machine with or without AES instructions", "why_tests_cant": "All ClientHellos and orders of suites.", "anchors": ["server.go:197-207 tlsConfig (PreferServerCipherSuites)"]}
{"id": "C106", "title": "No upstream status crashes the handler", "statement": "Whatever status an upstream answers with, the handler does not crash on it: the client gets an answer.", "quantifier": "every setup, every schedule, every upstream response", "why_tests_cant": "All schedules of handler, goroutines and timers with any statuses.", "anchors": ["proxyhandler.go:242-275 processUpstreamResponse, shouldProxyUpstreamResponse", "proxy.go:490-492 sendDownstreamStatusCodeHeader (WriteHeader)"]}
{"id": "C107", "title": "The client gets a final status", "statement": "The answer to a request that is forwarded has a final status (200 or above).", "quantifier": "every setup, every schedule, every upstream response", "why_tests_cant": "All schedules of handler, goroutines and timers with any statuses.", "anchors": ["proxyhandler.go:242-275 processUpstreamResponse, shouldProxyUpstreamResponse"]}
{"id": "C108", "title": "A route path matches only at the beginning of the target", "statement": "A route is chosen only for targets at whose beginning its path, as a regular expression, matches.", "quantifier": "every configuration, every route path in the modelled regexp syntax, every target", "why_tests_cant": "All patterns and all targets; a test tries a few of each.", "anchors": ["config.go:125-134 compileRoutePaths", "route.go:35-44 matchURI"]}
{"id": "C109", "title": "A path that is no regular expression stops the boot", "statement": "The gateway does not start with a route path that is not a valid regular expression.", "quantifier": "every configuration, every route path", "why_tests_cant": "All texts that are no regular expression.", "anchors": ["config.go:125-134 compileRoutePaths"]}
{"id": "C110", "title": "A transform applies to every request of its route", "statement": "In every target that a route with a transform is chosen for, the part its path matched is replaced by the transform.", "quantifier": "every configuration, every route path, every target, every upstream URL", "why_tests_cant": "All patterns and all targets; the tests use literal paths.", "anchors": ["proxy.go:129-139 resolveUpstreamURI", "route.go:35-44 matchURI"]}
{"id": "C111", "title": "A request for exactly the path of a route goes to that route", "statement": "A request whose target is the path of a route is dispatched to a route with that path, so that its access checks apply.", "quantifier": "every configuration, every route", "why_tests_cant": "All combinations of routes, with patterns of any length.", "anchors": ["config.go:109-123 validateRoutes (sort by length of the path text)", "proxyhandler.go: route loop", "route.go:35-44 matchURI"]}
{"id": "C112", "title": "The pool of upstream connections is used within its size", "statement": "However many requests there are, at most `poolSize` connections are idle; no connection serves two requests at once, no request gets two connections or one to another upstream, and no connection is made while an idle one to the same upstream is there.", "quantifier": "every configuration, every interleaving of requests, dials, failures and closings", "why_tests_cant": "All interleavings of any number of requests.", "anchors": ["httpclient.go:20-48 scaffoldHTTPClient", "connection.go:43-44 PoolSize", "config.go:234-236 default"]}
{"id": "C113", "title": "The pool size bounds the connections to upstreams", "statement": "There are never more than `poolSize` connections to upstreams.", "quantifier": "every configuration, every interleaving of requests, dials, failures and closings", "why_tests_cant": "All interleavings of any number of requests.", "anchors": ["httpclient.go:20-48 scaffoldHTTPClient", "connection.go:43-44 PoolSize"]}
{"id": "C114", "title": "A request is sent to an upstream at most once per attempt", "statement": "The number of times a request is put on the wire is at most the number of attempts, so once for POST.", "quantifier": "every setup, every schedule, every number of idle connections and every way they break", "why_tests_cant": "All schedules and all ways in which connections break.", "anchors": ["httpclient.go:27-48 the transport", "proxyhandler.go:147-170 httpClient.Do", "proxy.go:336-341 bodyReader"]}
{"id": "C115", "title": "Keep-alive probes give a dead upstream connection up after the idle timeout", "statement": "The number of keep-alive probes of the platform times the configured interval is the idle timeout.", "quantifier": "every idle timeout below 2^22 seconds, every platform, every value of the variable OS", "why_tests_cant": "All timeouts, with rounding of floating point numbers.", "anchors": ["httpclient.go:63-91 getKeepAliveIntervalDuration, getTCPKeepCnt"]}
{"id": "C116", "title": "A configuration that boot accepts is served", "statement": "If the boot pipeline accepts a configuration the gateway listens, provided the TLS material is good in TLS mode.", "quantifier": "every configuration, regexp engine and jwt validation", "why_tests_cant": "All configurations; the condition is an exact characterisation.", "anchors": ["server.go:59-130 BootStrap, startListening", "server.go:132-147 mapPathsToHandler", "config.go:109-123 validateRoutes", "config.go:183-217 setDefaultDownstreamParams"]}
{"id": "C117", "title": "The address logged with a failed TLS handshake is the client's", "statement": "A failed TLS handshake is logged at every log level, with the address of the client.", "quantifier": "every log level, client address, port and reason", "why_tests_cant": "All addresses and all texts around them.", "anchors": ["server.go:37-56 zerologAdapter", "iprex.go:1-58 extractAddr"]}
{"id": "C118", "title": "A crash of a request handler is logged", "statement": "When the handler of a request panics something about it is written to the log.", "quantifier": "every log level, client, panic value and stack", "why_tests_cant": "All settings and messages.", "anchors": ["server.go:37-56 zerologAdapter", "logger.go:43-70 initLogger", "proxyhandler.go:313-344 logHandledDownstreamRoundtrip"]}
{"id": "C119", "title": "A client cannot forge log lines", "statement": "Every event is one line of the log, whatever a client sends; in JSON it is an object with the fields of the event and no other.", "quantifier": "every event, field value and message", "why_tests_cant": "All texts a client may send.", "anchors": ["logger.go:43-70 initLogger", "proxyhandler.go:313-344 logHandledDownstreamRoundtrip", "proxy.go:620-632 triggerKeyRotationCheck"]}
{"id": "C120", "title": "HTTP/2 clients are served over HTTP/2", "statement": "The listener starts with its cipher suites, and every client that offers h2 is served HTTP/2, every other HTTP/1; no connection is refused after the handshake.", "quantifier": "every ClientHello, every list of offered protocols, every key type", "why_tests_cant": "All ClientHellos.", "anchors": ["server.go:95-118 startListening", "server.go:194-209 tlsConfig"]}
{"id": "C121", "title": "The read timeout bounds how long a client may take to send a request", "statement": "A request is complete within readTimeoutSeconds after its headers, or it is given up.", "quantifier": "every execution of a connection, every configuration", "why_tests_cant": "All executions.", "anchors": ["server.go:83-104 startListening", "connection.go:10-40 Downstream"]}
{"id": "C122", "title": "Requests during a key refresh only see entries of the key set", "statement": "A request that goes through a key set while a refresh adds keys to it sees each entry either as it was added or not at all, and nothing beyond the array.", "quantifier": "every interleaving of the loads of a request with the stores of a refresh, every key set, every growth of slices", "why_tests_cant": "All interleavings of memory accesses; the race detector only sees the ones that happen.", "anchors": ["jwt.go:19-41 KeySet", "proxy.go:540-544 validateJwt", "proxy.go:576-618 verifySignature"]}
{"id": "C123", "title": "TLS connections to upstreams are as strong as those to clients", "statement": "A TLS connection to an upstream uses TLS 1.2 or later with one of the suites that the listener demands of clients.", "quantifier": "every answer of an upstream, every configuration", "why_tests_cant": "All answers of all servers.", "anchors": ["httpclient.go:27-39 scaffoldHTTPClient", "server.go:194-209 tlsConfig"]}
{"id": "C124", "title": "An upstream whose certificate was not verified gets no request", "statement": "Requests for an https URL go over TLS to a server whose certificates were verified for the host of the URL, unless tlsInsecureSkipVerify is configured; nothing is sent in the clear unless the URL says http.", "quantifier": "every answer of an upstream, every verifier of certificates, every configuration", "why_tests_cant": "All certificates and all answers of servers.", "anchors": ["httpclient.go:27-39 scaffoldHTTPClient", "proxyhandler.go:146-156 performUpstreamRequest", "connection.go:62-64 TlsInsecureSkipVerify"]}
{"id": "C125", "title": "Verification keys come over an authenticated channel", "statement": "A key that tokens are verified with comes from the configuration or was fetched over TLS.", "quantifier": "every configuration, every document at the URL", "why_tests_cant": "All configurations and all documents.", "anchors": ["jwt.go:113-168 Validate", "jwt.go:170-255 LoadJwks"]}
{"id": "C126", "title": "Verification keys have the size RFC 7518 asks for", "statement": "A key that is loaded has at least 2048 bits for RS and PS algorithms, at least the size of the hash for HS algorithms, and lies on the named curve for ES algorithms.", "quantifier": "every configuration, every key", "why_tests_cant": "All keys.", "anchors": ["jwt.go:113-168 Validate", "jwt.go:257-382 parseKey", "jwt.go:170-255 LoadJwks"]}
{"id": "C127", "title": "A token's key id is read as its issuer wrote it", "statement": "For every JSON object as header, however it is written, the key id is the string of its member kid, the last one if there are several, and empty if there is none or it is not a string. A token that names a key of the key set is verified with that key; one that names an unknown key starts a refresh.", "quantifier": "every JSON text of an object up to the nesting limit of the library, every token with it as header", "why_tests_cant": "All JSON texts: escapes, white space, nesting, order of members.", "anchors": ["proxy.go:680-702 extractKid", "proxy.go:576-618 verifySignature", "proxy.go:620-632 triggerKeyRotationCheck"]}
{"id": "C128", "title": "An upstream receives one well-formed request", "statement": "What the gateway writes to an upstream connection is exactly one HTTP/1.1 request in the grammar of RFC 7230, whatever the client's headers and body contain and whatever follows: with the method and the target of the request, one Host, the header values of the client without surrounding white space, no transfer coding and a body that is delimited by its length. It can be read in no other way.", "quantifier": "every configuration, request, execution, and everything that follows on the connection", "why_tests_cant": "Request splitting and smuggling need one unforeseen combination of bytes; the claim is that none exists.", "anchors": ["proxyhandler.go:105-144 scaffoldUpstreamRequest", "proxyhandler.go:146-156 performUpstreamRequest", "proxy.go:208-210 URI", "proxy.go:129-139 resolveUpstreamURI"]}
{"id": "C129", "title": "A partial response is delivered as the part it names", "statement": "If an upstream answers 206 with a Content-Range, the client receives under that Content-Range exactly the bytes of the representation that it names.", "quantifier": "every configuration, request, upstream response and execution without late writes", "why_tests_cant": "The bytes depend on the request's Accept-Encoding and on the part; parts that happen to begin with gzip's magic bytes are rare.", "anchors": ["proxy.go:407-432 encodeUpstreamResponseBody", "proxy.go:396-405 copyUpstreamResponseHeaders", "proxyhandler.go:240-270 processUpstreamResponse"]}
{"id": "C130", "title": "One strong entity tag stands for one sequence of bytes", "statement": "If two clients receive the same response of an upstream under the same strong ETag, they receive the same bytes.", "quantifier": "every two configurations and requests, every upstream response, all pairs of executions without late writes", "why_tests_cant": "It relates two runs with different request headers; a test checks one.", "anchors": ["proxy.go:407-432 encodeUpstreamResponseBody", "proxy.go:396-405 copyUpstreamResponseHeaders", "proxyhandler.go:240-270 processUpstreamResponse"]}
{"id": "C131", "title": "A cache gives each client the bytes the gateway would", "statement": "If a response may be reused for another request according to its Vary header, that request would get the same bytes and coding from the gateway.", "quantifier": "every two requests, every upstream response, all pairs of executions without late writes", "why_tests_cant": "It relates two runs with different request headers and needs the rules of a cache.", "anchors": ["proxy.go:407-432 encodeUpstreamResponseBody", "proxy.go:434-451 contentEncoding", "proxyhandler.go:240-270 processUpstreamResponse"]}
{"id": "C132", "title": "A response marked no-transform is delivered unchanged", "statement": "A response with Cache-Control: no-transform reaches the client with the bytes the upstream sent.", "quantifier": "every configuration, request, upstream response and execution without late writes", "why_tests_cant": "Whether bytes are changed depends on the request's Accept-Encoding and on the first bytes of the body.", "anchors": ["proxy.go:407-432 encodeUpstreamResponseBody", "proxy.go:396-405 copyUpstreamResponseHeaders", "proxyhandler.go:240-270 processUpstreamResponse"]}
{"id": "C133", "title": "A client receives one well-formed response", "statement": "What the gateway writes to a client's HTTP/1.1 or HTTP/1.0 connection is exactly one response in the grammar of RFC 7230, whatever the upstream's headers and body contain and whatever follows on the connection: with the status, the headers and the complete body that were meant for the client. It can be read in no other way.", "quantifier": "every configuration, request, upstream response, execution, and everything that follows on the connection", "why_tests_cant": "Response splitting and smuggling need one unforeseen combination of bytes; the claim is that none exists.", "anchors": ["proxyhandler.go:240-270 processUpstreamResponse", "proxy.go:396-405 copyUpstreamResponseHeaders", "proxy.go:453-479 setContentLengthHeader", "server.go:163-173 writeStandardResponseHeaders"]}
{"id": "C138", "title": "The log tells every attempt and how it ended", "statement": "The log of a proxied request has one line for the beginning of each attempt, in order, and one for its end that says whether it succeeded; a status in it is that of the response of that attempt; the last attempt is logged as successful exactly if the client gets what it answered.", "quantifier": "every configuration, request, upstream behaviour and schedule of the goroutines", "why_tests_cant": "Lines are written by two goroutines at four places; only all interleavings show that none is missing, doubled or about another attempt.", "anchors": ["proxyhandler.go:146-240 performUpstreamRequest, parseUpstreamResponse", "proxyhandler.go:242-271 processUpstreamResponse", "proxyhandler.go:293-306 scaffoldUpAttemptLog", "proxyhandler.go:345-357 logSuccessfulUpstreamAttempt, logUnsuccessfulUpstreamAttempt", "proxy.go:67-69 Atmpt.print"]}
{"id": "C139", "title": "No secret of a request is logged", "statement": "What is logged about the attempts and the answer to a request does not depend on its credentials: headers such as Authorization and Cookie, the query and the body.", "quantifier": "every configuration, two requests that differ in secrets only, every execution of both", "why_tests_cant": "Non-interference relates two runs for all values of the secrets.", "anchors": ["proxyhandler.go:105-144 scaffoldUpstreamRequest", "proxyhandler.go:293-357 log lines of attempts and of the round trip", "proxy.go:129-139 resolveUpstreamURI"]}
{"id": "C134", "title": "A response has the header that its status requires", "statement": "A client's response with status 206, 401, 405, 407 or 426 has Content-Range, WWW-Authenticate, Allow, Proxy-Authenticate or Upgrade (RFC 7231, 7233, 7235), at least whenever the upstream sent it.", "quantifier": "every configuration, request, upstream response and execution", "why_tests_cant": "The headers of a response depend on which of the two writers made it, for every status and every schedule; tests look at the status.", "anchors": ["proxyhandler.go:242-271 processUpstreamResponse", "proxy.go:397-405 copyUpstreamResponseHeaders", "proxy.go:494-498 respondWith", "responses.go"]}
{"id": "C135", "title": "An upstream learns who the client is and that there is a gateway", "statement": "Each request to an upstream has a Via field for the gateway (RFC 7230 5.7.1), and Forwarded or X-Forwarded-For with the address of the client, and none that the client made up.", "quantifier": "every request, every attempt and every value of these headers", "why_tests_cant": "A claim about every header the client may send and every request on the wire, redirections included.", "anchors": ["proxyhandler.go:105-144 scaffoldUpstreamRequest", "proxyhandler.go:284-291 shouldProxyHeader"]}
{"id": "C136", "title": "Max-Forwards is obeyed", "statement": "An OPTIONS or TRACE request with Max-Forwards 0 is answered by the gateway itself, and one with a larger number goes on with one less (RFC 7231 5.1.2).", "quantifier": "every request with Max-Forwards and every attempt", "why_tests_cant": "Every value and every request on the wire, not one.", "anchors": ["proxyhandler.go:105-144 scaffoldUpstreamRequest"]}
{"id": "C137", "title": "The Date of a response is when its origin made it", "statement": "A client's response has exactly one Date; for a response that is passed on it is the Date that the upstream sent, for an own response the time at which it was made (RFC 7231 7.1.1.2).", "quantifier": "every upstream response, every time up to the year 9999, every execution", "why_tests_cant": "Reading the text back as the instant for all times needs the calendar, not a sample of days.", "anchors": ["proxyhandler.go:284-291 shouldProxyHeader", "proxy.go:397-405 copyUpstreamResponseHeaders"]}
{"id": "C140", "title": "Each server has an id of its own", "statement": "The server id is eight hexadecimal digits made from host and version; two servers that differ in host or version have different ids.", "quantifier": "every host name and version", "why_tests_cant": "Collisions are about all pairs; that they must exist is a counting argument over 2^32+1 hosts.", "anchors": ["logger.go:13-41 initServerID, getHost, getVersion"]}
{"id": "C141", "title": "The log tells what became of a token", "statement": "For each bearer token that is checked the log has one line, which says whether the token was accepted, has its key id, and tells the date claims of a verified token: whether they are there, and the instants in RFC 3339 in UTC and local time and as numbers.", "quantifier": "every token, key set, time, time zone of whole minutes and LOGLEVEL", "why_tests_cant": "Reading the texts back as the instants for all claims needs a proof of the calendar arithmetic; the exceptions (first second of 1970, year 10000) are single values.", "anchors": ["proxy.go:518-574 validateJwt", "proxy.go:576-618 verifySignature", "proxy.go:634-661 logDateClaims"]}
{"id": "C142", "title": "What the certificate report says about time is true", "statement": "For each certificate of the chain the report tells number, serial, names and, in words, the time to its expiry; for the server's certificate also the day of issue, the length of its validity if above 398 days, and when clients will stop to accept it. It says of exactly the first certificate to expire that it is the earliest.", "quantifier": "every chain and clock", "why_tests_cant": "Words for all lengths of time must read back as the length up to the smaller unit; days come from float division and must not be off by one for any length; saturation and signs show only at particular distances.", "anchors": ["tls.go:17-51 PDuration, TlsLink", "tls.go:125-182 logCertStats", "tls.go:184-207 parseTlsLinks"]}
{"id": "C143", "title": "A request without an id gets one of its own", "statement": "A request that brings no X-Request-Id gets XR-, the server's id and a version 4 UUID of RFC 4122 with 122 random bits, in every upstream attempt and in the response; no two requests share their id unless they drew the same bits.", "quantifier": "every request, source of random numbers, schedule and upstream behaviour", "why_tests_cant": "A test sees a handful of ids; that version and variant overwrite no other bit, that the text loses none of the 122, and what happens when the random source fails, needs all sources.", "anchors": ["proxy.go:319-327 createXRequestID", "proxyhandler.go:105-144 scaffoldUpstreamRequest", "server.go:172 standard response headers"]}
{"id": "C144", "title": "What the statistics lines say is true", "statement": "From its first day on the server logs at least daily how long it has been up, in microseconds and in words right to the largest unit, and it logs an increase of memory exactly if the memory in use is at least twice what it was a day before.", "quantifier": "every uptime, time at which the loops run, and history of samples", "why_tests_cant": "Uptimes of days, weeks and years and days of hourly samples are out of reach of tests; the words must be right for every length.", "anchors": ["stats.go:71-81 samples.log", "stats.go:106-147 logProcStats, logUptime"]}
{"id": "C145", "title": "A failed reading of statistics does no harm", "statement": "Whatever reading the process's statistics returns, error or value, the server goes on and the history holds what was read.", "quantifier": "every sequence of readings, successful or not", "why_tests_cant": "The operating system does not fail on demand; tests read a healthy process a few times.", "anchors": ["stats.go:86-103 getSample", "stats.go:114-124 logProcStats", "server.go:156-161 initStats"]}
{"id": "C146", "title": "A client that goes away stops the work for it", "statement": "Once the client has closed its connection no call of an upstream begins for its request, and those under way are cancelled.", "quantifier": "every request, upstream behaviour, schedule, and moment at which the client leaves", "why_tests_cant": "A test disconnects at one moment of one schedule; the claim is about every moment of every interleaving.", "anchors": ["proxy.go:114-127 hasDownstreamAborted", "proxy.go:200-205 parseIncoming", "proxyhandler.go:105-115 scaffoldUpstreamRequest", "proxyhandler.go:174-191 performUpstreamRequest"]}
{"id": "C147", "title": "No secret of a jwt configuration is logged at boot", "statement": "The log lines and errors of validating the jwt configurations do not depend on their secrets: HMAC keys, key material, credentials in the key set URL.", "quantifier": "every configuration, every pair of secrets, every behaviour of the key set server and of the parsers", "why_tests_cant": "It compares two runs for every pair of secrets; a test searches the output of one run for one secret.", "anchors": ["jwt.go:113-167 Validate", "jwt.go:170-252 LoadJwks", "jwt.go:257-382 parseKey", "config.go:61-68 panic", "config.go:243-258 validateJwt"]}
{"id": "C148", "title": "What the log says about keys is true", "statement": "A key is reported as successfully parsed exactly if it is put into use, and boot reports the configurations as parsed exactly if all were accepted.", "quantifier": "every configuration, key and key set", "why_tests_cant": "Key sets are unbounded and mix usable, unusable and known keys; tests look at the keys, not at the lines.", "anchors": ["jwt.go:176-239 LoadJwks", "jwt.go:257-382 parseKey", "config.go:243-258 validateJwt"]}
{"id": "C149", "title": "Redirections lead to the same resource on this server, and following them ends", "statement": "If the gateway answers a request with a redirection, Location is a path on the gateway that names the same resource (segments decoded, dots resolved) with the same query, and a request for it is not redirected again.", "quantifier": "every route table, request target and method", "why_tests_cant": "Targets are unbounded and mix encodings, dots, empty segments and queries; a test follows a few redirections.", "anchors": ["server.go:132-147 mapPathsToHandler", "net/http ServeMux.Handler and Redirect (Go 1.15)"]}
{"id": "C150", "title": "The credentials an upstream sees are those that were verified", "statement": "In every request that reaches an upstream over a route with a jwt, every token in an Authorization header is one that the gateway verified against that jwt.", "quantifier": "every request header, configuration, key set and schedule", "why_tests_cant": "Tests send one well-formed header; the claim is about what lies beyond the part that is checked.", "anchors": ["proxy.go:518-574 validateJwt", "proxyhandler.go:105-144 scaffoldUpstreamRequest"]}
{"id": "C151", "title": "No more of a message body than the configured maximum is held in memory", "statement": "Whatever a message announces and however its body arrives, the gateway keeps at most the configured maximum of it and takes at most one byte beyond.", "quantifier": "every request body, chunking, ending and limit; every response", "why_tests_cant": "Bodies, their pieces and the sizes of reads are unbounded.", "anchors": ["proxy.go:231-282 parseRequestBody", "proxyhandler.go:196-240 parseUpstreamResponse"]}
{"id": "C152", "title": "The body of a request that its head condemns is not taken", "statement": "If a request is refused whatever its body is, no byte of the body is taken from the client.", "quantifier": "every request and configuration", "why_tests_cant": "It is about what is not read, for every reason to refuse; a client that sees the right status notices nothing.", "anchors": ["proxy.go:196-229 parseIncoming", "proxy.go:231-282 parseRequestBody", "proxyhandler.go:33-76 proxyHandler"]}
{"id": "C153", "title": "Every response names the gateway and the request, and over TLS demands TLS", "statement": "Every response on the gateway's connections has Server, X-Request-Id and, in TLS mode, Strict-Transport-Security as set by the gateway.", "quantifier": "every route table, request line, upstream and schedule", "why_tests_cant": "Responses come from four places, two of them outside the repository; tests look at those the repository writes.", "anchors": ["server.go:163-173 writeStandardResponseHeaders", "server.go:132-147 mapPathsToHandler", "responses.go:154-185 aboutHandler"]}
{"id": "C154", "title": "A response says whether its connection ends, and upstreams have no say in it", "statement": "A client's connection ends after a response if and only if the client asked for it (with HTTP/1.0: did not ask for it to be kept), left the gateway with an unread body, the end of the connection is the end of the body, or the gateway shuts down; and the response says so, by the connection option close or, with HTTP/1.0, the absence of keep-alive, if and only if the connection ends (RFC 7230 6.3, 6.6).", "quantifier": "every request, upstream response, state of the connection and schedule", "why_tests_cant": "Tests read one response per connection; the claim relates spellings of an upstream's header to what happens afterwards.", "anchors": ["proxy.go:396-405 copyUpstreamResponseHeaders", "proxyhandler.go:284-291 shouldProxyHeader", "net/http chunkWriter.writeHeader (Go 1.15)"]}
{"id": "C155", "title": "The announced length of a response obeys RFC 7230", "statement": "A response has the version of its request. With status 1xx, 204 or 304 it announces no body; a response to HEAD is not chunked; every other response has either one Content-Length, the length of its body, or is chunked, and only own responses of more than 2048 bytes are; to a client with HTTP/1.0 nothing is chunked and such a body ends with the connection. A 2xx response to CONNECT has no Content-Length.", "quantifier": "every request, upstream response, state of the connection and schedule", "why_tests_cant": "The rules depend on method, status, length and the header of the upstream together.", "anchors": ["proxy.go:453-479 setContentLengthHeader", "server.go:214-238 sendStatusCodeAsJSON", "net/http chunkWriter.writeHeader (Go 1.15)"]}
{"id": "C156", "title": "A start that fails says why in the log", "statement": "When the gateway does not start, the last log line is fatal, is written whatever LOGLEVEL is, and gives a reason that is true of the configuration or the machine; when it starts, no line is fatal.", "quantifier": "every source and text of a configuration, every certificate, key, key set of a JWKS URL and port", "why_tests_cant": "The tests for bad configurations run the parts by themselves and expect a panic; which line is written before depends on what the parts before did.", "anchors": ["server.go:58-81 BootStrap", "server.go:127-130", "config.go:34-68 load, panic", "config.go:109-143", "config.go:243-258 validateJwt"]}
{"id": "C157", "title": "What the log says about the start is true", "statement": "The log of a start gives the source of the configuration, the number of routes and jwt entries, the pool size, the body limit, every about route, and at level info the mode and port on which the gateway listens; a line that says so is written only if it does.", "quantifier": "every source and text of a configuration, every certificate, key and port", "why_tests_cant": "No test reads the log of a start.", "anchors": ["server.go:83-147 startListening, mapPathsToHandler", "config.go:34-59 load", "httpclient.go:48-57"]}
{"id": "C158", "title": "The private key of the gateway is not logged", "statement": "The log lines of a start, and how it ends, depend on the configured private key only through what tls.X509KeyPair makes of it.", "quantifier": "every configuration, every two private keys with which the certificate loads alike", "why_tests_cant": "It compares two runs for all keys.", "anchors": ["server.go:83-130 startListening", "server.go:175-212 tlsConfig", "config.go:34-68 load"]}
{"id": "C159", "title": "Log lines name the server", "statement": "Every line that is logged has a field srvId with the id that the host name and the version determine.", "quantifier": "every environment, configuration and start", "why_tests_cant": "Which lines are written before the id is known depends on the level, the host and the order of the calls.", "anchors": ["logger.go:16-42 initServerID, getHost, getVersion", "logger.go:44-74 initLogger", "server.go:58-60"]}
{"id": "C160", "title": "LOGLEVEL decides which lines are written", "statement": "A line is written if and only if it is at least as severe as the level that LOGLEVEL names, in capitals or not, or INFO if it names none; the line about the level, where it is written, names the level in force.", "quantifier": "every environment, start and line", "why_tests_cant": "The tests set the five usual values and look at the level only.", "anchors": ["logger.go:44-74 initLogger", "ReadMe.Md:72-77"]}
{"id": "C161", "title": "The time zone in the log is the one of its times", "statement": "The zone that the log of a start names is the zone in which the times of log lines are written, and each time stands for the instant of its line.", "quantifier": "every environment, every set of zones known to the machine, every instant from the year 1 to 9999", "why_tests_cant": "The tests compare the variable TZ with itself; the zone of the times is found by package time.", "anchors": ["time.go:9-19 initTime", "ReadMe.Md:79-84"]}
{"id": "C162", "title": "The gateway sends what the document says", "statement": "Whatever a gateway that was started with a configuration document sends upstream, it sends as the document says: there is a route in the document with the longest path that, as a regular expression, matches at the beginning of the target of the request, the target on the wire is the one of the request with the path replaced by the transform, the Host is a server of the route's resource with a label that the policy picked, and if the route names a jwt entry the request carries a token that the keys and dates of that entry grant.", "quantifier": "every configuration document, source of it, start, history of key refreshes, request and execution", "why_tests_cant": "The tests look at loading, boot, matching, rewriting and tokens one at a time with a few documents; the claim ties the text of the document to the bytes on the wire.", "anchors": ["config.go:34-59 load", "config.go:92-181", "route.go:35-44 matchURI", "proxyhandler.go:33-76", "proxy.go:129-139", "jwt.go:113-167 validate", "server.go:59-88 BootStrap"]}
{"id": "C163", "title": "Refusals have a reason in the document", "statement": "An answer that the gateway gives without asking an upstream is 502 or 504 after a failed attempt, or has its reason in the document: 413 if the announced body is longer than the limit, 400 for a method that is not served, 404 if no path in the document matches at the beginning of the target, 401 if the jwt entry of the longest such route does not grant the token, 503 if the resource is not there or none of its servers has the label picked.", "quantifier": "every configuration document, source of it, start, history of key refreshes, request and execution", "why_tests_cant": "That a request is never refused without reason is a statement about all requests and documents; the tests try requests that are refused for the reason they test.", "anchors": ["proxyhandler.go:33-76", "proxy.go:129-139", "proxy.go:231-275 parseRequestBody", "config.go:34-59 load", "config.go:183-217 setDefaultDownstreamParams", "jwt.go:113-167 validate"]}
{"id": "C164", "title": "The command line says which configuration is used", "statement": "A process that starts was given options -c only, in one of their four spellings, and its configuration is the file that the last of them names, whatever other files and the variable J8ACFG_YML hold; without an option it is the variable, and without that the default file. Any other command line ends the process before it starts, with status 0 if it asks for help and 2 otherwise.", "quantifier": "every list of arguments, environment and set of files", "why_tests_cant": "main has no tests; package flag decides by the position and spelling of each argument.", "anchors": ["cmd/j8a/main.go:9-34 main, isFlagPassed", "config.go:34-59 load"]}
{"id": "C165", "title": "One request message in, the same message out", "statement": "If the bytes on a client's connection begin with a well-formed HTTP/1.1 request (RFC 7230; sized or chunked body, extensions and trailers included), then the handler gets that request and the next one begins behind it; each attempt writes bytes that are read, in one way only, as a message with the same method, the same body and the same values of all fields that the gateway or the library has no reason to change. Whatever bytes a client sends, what gets to the handler has canonical names that are tokens, values without control characters, no Host or Transfer-Encoding among them, and a body no longer than announced.", "quantifier": "every stream of bytes, every request made of it, every configuration and execution", "why_tests_cant": "Request smuggling lives in streams that two readers divide differently; there are infinitely many spellings of one message.", "anchors": ["server.go:132-147 mapPathsToHandler", "proxy.go:195-282 parseIncoming, parseRequestBody", "proxyhandler.go:105-156 scaffoldUpstreamRequest"]}
{"id": "C166", "title": "One response message in, the same message out", "statement": "If the bytes from an upstream begin with a well-formed final response (RFC 7230; sized, chunked or ended by the connection, extensions and trailers included), possibly after interim ones, then the gateway receives that response and the next one begins behind it; with a status below 400, the bytes that go to the client are read, in one way only, as a message with the same status, the same entity and the same values of all fields that the gateway or the library has no reason to change. Whatever bytes an upstream sends, what is received has a status of at most three digits that is not interim, canonical names without colons and line ends, no Transfer-Encoding among them, and a body no longer than announced.", "quantifier": "every stream of bytes, every response made of it, every configuration and execution", "why_tests_cant": "Response splitting lives in streams that two readers divide differently; there are infinitely many spellings of one message, and a test has one upstream library that writes them.", "anchors": ["httpclient.go:26-48 scaffoldHTTPClient", "proxyhandler.go:155 performUpstreamRequest", "proxyhandler.go:242-271 processUpstreamResponse", "proxy.go:391-488 response headers and body"]}
{"id": "C167", "title": "Answers on a connection belong to the requests on it, in their order", "statement": "If a client sends several messages on one connection, without waiting for answers or waiting for 100 Continue, then the bytes that it receives are read, in one way only, as a sequence of answers (final responses, possibly after interim ones), at most one per message, in the order of the messages; the i-th answer is what the handler sent for the i-th message, whose method, target and body it got; nothing of one message is taken for another one.", "quantifier": "every stream of bytes, every number of messages, every configuration and execution of each handler", "why_tests_cant": "Desynchronisation shows only in sequences of messages of particular shapes, and the mistake is made by a reader that a test would have to imitate byte by byte.", "anchors": ["server.go:132-147 mapPathsToHandler", "proxyhandler.go:28-60 proxyHandler", "proxyhandler.go:255-262 the response is written", "proxy.go:195-220 body of the request"]}
{"id": "C168", "title": "A refresh of the keys that fails leaves a warning", "statement": "When the keys of a jwt entry are fetched again and that fails (nothing fetched, no key, a key that cannot be used for the configured algorithm), there is a log line of level warn or above that says so; there is none when it succeeds or is skipped. (The caller of a refresh drops its error.)", "quantifier": "every jwt entry, every answer of its jwksUrl, every text of library errors", "why_tests_cant": "A missing line is not seen by a test that looks for the lines that are there, and key sets have endless shapes.", "anchors": ["jwt.go:170-255 LoadJwks", "proxy.go:620-632 triggerKeyRotationCheck"]}
{"id": "C169", "title": "A client decides whether its connection is kept", "statement": "After the response to a message whose body was read, a connection ends if and only if the client asked for that (RFC 7230 6.1, 6.3: the connection option close in any Connection field and spelling, or HTTP/1.0 without keep-alive), and the response says so.", "quantifier": "every message, configuration, upstream response and execution", "why_tests_cant": "It relates spellings and places of options in the bytes of a request to what happens after its response.", "anchors": ["server.go:132-147 mapPathsToHandler", "proxy.go:396-405 copyUpstreamResponseHeaders", "net/http shouldClose, wantsClose, chunkWriter.writeHeader (Go 1.15)"]}
{"id": "C170", "title": "From the document and the client's bytes to the upstream's bytes", "statement": "If a gateway was started with a configuration document, and the bytes on a client's connection begin with an HTTP/1.1 request message, then whatever bytes it writes to an upstream for it are read, by any recipient that follows RFC 7230 and whatever follows them, as exactly one message: with the method in upper case, the same body and fields (but for a fixed list), the target made by the route of the document with the longest matching path, the Host of a server of that route's resource with the label drawn; and if the route names a jwt entry, the client's message presented a token in its Authorization field that a key of the entry signed and whose dates are right.", "quantifier": "every configuration document, start, history of key refreshes, message of a client and bytes around it, and every execution", "why_tests_cant": "It relates texts at both ends, over all configurations and all messages; every stage between could break it.", "anchors": ["config.go:34-96 load", "proxyhandler.go:33-144", "route.go:35-92 matchURI, mapURL", "proxy.go:288-341", "jwt.go", "net/http readRequest, Request.write (Go 1.15)"]}
{"id": "C171", "title": "The gateway sends no credentials of its own", "statement": "The Authorization header that an upstream receives is the one the client sent; if the client sent none, the upstream receives none.", "quantifier": "every configuration, request and execution", "why_tests_cant": "The header is not added by the gateway's code but by its HTTP client, when the URL that was put together from the upstream, the transform and the client's target happens to contain user information; that takes a target and a transform that fit.", "anchors": ["proxyhandler.go:105-144 scaffoldUpstreamRequest","proxy.go:129-146 resolveUpstreamURI","upstream.go:15-17 URL.String", "net/http client.go send, basicAuth (Go 1.15)"]}
{"id": "C172", "title": "A client is told of a switch of protocols only if there is one", "statement": "The gateway does not switch a client's connection to another protocol; so it sends no response with status 101, an Upgrade header and the connection option upgrade.", "quantifier": "every configuration, request, upstream response and connection", "why_tests_cant": "101 is read, copied and written by library code whose rules about Connection depend on the rest of the response and of the connection.", "anchors": ["proxyhandler.go:19-144", "proxy.go:288-341", "net/http server.go isProtocolSwitchResponse, writeHeader, transport.go (Go 1.15)"]}
{"id": "C173", "title": "A request gets the upstream's answer to it, not to another one", "statement": "All clients share the connections to the upstreams. What is handed to a request as its response is made of bytes that the upstream sent after this request was put on the connection, as the answer to it; no byte of the answer to a request of another client, or of one that was given up, is among them.", "quantifier": "every sequence of requests, cancellations, arrivals and reuses on a connection, and every upstream", "why_tests_cant": "It depends on the order of the read loop, the pool and the arrival of bytes, and on what an upstream sends that it was not asked for.", "anchors": ["httpclient.go:26-48", "proxyhandler.go:146-178", "net/http transport.go persistConn (Go 1.15)"]}
{"id": "C174", "title": "Requests handled at the same time do not disturb each other", "statement": "While many requests are handled at the same time, on connections to upstreams that they share, each of them is handled as if it were alone, and each client gets the upstream's answer to its own request.", "quantifier": "every number of requests, every interleaving of their goroutines and timers, of connections and of arriving bytes, and every upstream", "why_tests_cant": "The number of interleavings of many requests, retries and shared connections has no bound; what goes wrong needs a certain order of steps of different requests.", "anchors": ["proxyhandler.go:19-178", "httpclient.go:26-48", "net/http transport.go persistConn (Go 1.15)"]}
{"id": "C175", "title": "No client smuggles a request into a shared connection to an upstream", "statement": "What the gateway writes to a connection to an upstream, for requests of different clients one after the other, is read by the upstream as exactly these requests, one message each and in their order, with their methods, targets and bodies; no bytes that a client sends make it read more, fewer or other messages.", "quantifier": "every number of clients, every bytes that they send, every interleaving of requests, failed writes and reuses of connections", "why_tests_cant": "Smuggling depends on bytes nobody thought of; tests try known ones, on one request at a time.", "anchors": ["proxyhandler.go:146-178", "proxy.go:161-189", "httpclient.go:26-48", "net/http request.go Write, transfer.go (Go 1.15)"]}
{"id": "C176", "title": "Every request comes to its end, whatever the others do", "statement": "While many requests are handled at the same time on shared connections, a request whose handler gets to run and whose read timers fire is finished after a number of steps that depends on the maximum of attempts alone: no upstream, no connection and no other request, however they behave, keep it from its one response.", "quantifier": "every number of requests, every infinite execution of the gateway that is fair to this request, every behaviour of upstreams, connections and the other requests", "why_tests_cant": "It is about executions without end and about all interleavings with any number of other requests; a test stops after finitely many.", "anchors": ["proxyhandler.go:19-178", "httpclient.go:26-48"]}
{"id": "C177", "title": "A client gets the upstream's whole answer to its own request, or an error", "statement": "While many requests share connections to upstreams, a client never gets a part of an answer as if it were a complete response: it gets all of the upstream's answer to its own request, with its status, fields and body, or an error of the gateway.", "quantifier": "every number of requests, every interleaving, every place where a connection breaks, every upstream", "why_tests_cant": "Where a connection breaks, which of many requests it carries then and which bytes have arrived can be combined in unboundedly many ways.", "anchors": ["proxyhandler.go:146-215", "httpclient.go:26-48", "net/http transport.go, transfer.go (Go 1.15)"]}
{"id": "C178", "title": "From the document and the bytes of all clients to the bytes of all upstreams, and back", "statement": "If a gateway is started with a configuration document and any number of clients send it messages, then every message that an upstream reads on a connection is one that the document makes of a message of one of the clients, and a client reads the upstream's answer to its own message.", "quantifier": "every document, every number of clients, every stream of bytes of each of them, every interleaving, every schedule of connections", "why_tests_cant": "It is about all documents, all streams and all ways in which requests of many clients can share and lose connections.", "anchors": ["config.go:34-96 load", "proxyhandler.go:33-215", "route.go:35-92 matchURI, mapURL", "proxy.go:288-341", "jwt.go", "httpclient.go:26-48", "net/http readRequest, Request.write, persistConn (Go 1.15)"]}
{"id": "C179", "title": "A client that is turned away reads a status that the document explains", "statement": "If a gateway was started with a configuration document, the bytes of a client begin with a message, and the answer is sent before any upstream was asked, then the client reads exactly one message, made by the gateway alone, and its status is 502 or 504, or the document gives a reason to refuse this message with it: 413 for a body above the limit, 400 for a method that is not served, 404 if no path matches at the beginning of the target, 401 if the jwt entry of the longest such route does not let the token of the message pass, 503 if the resource has no server with the label drawn.", "quantifier": "every configuration document, start, history of key refreshes, message of a client and bytes around it, connection and execution", "why_tests_cant": "It is about all documents and all streams of bytes; a test compares the status of a few requests.", "anchors": ["proxyhandler.go:33-104", "proxy.go:195-300", "route.go:35-92", "jwt.go", "responses.go", "server.go:214-238", "net/http readRequest, response.Write (Go 1.15)"]}
{"id": "C180", "title": "Every client reads one message, and there is a reason for it", "statement": "If a gateway is started with a configuration document and any number of clients send it messages, then each of them reads exactly one message in answer to its own: the gateway's refusal, sent without asking an upstream, with a status for which the document gives a reason; or the gateway's own 502 or 504; or what an upstream answered, on some connection, to the message that the document makes of the client's message.", "quantifier": "every configuration document, start, number of clients and upstreams, their messages and bytes, connections and interleaving of all handlers", "why_tests_cant": "It says that there is no other outcome, over all documents, messages and interleavings; tests look at a few outcomes.", "anchors": ["proxyhandler.go:33-291", "proxy.go:195-498", "route.go:35-92", "jwt.go", "responses.go", "server.go:163-238", "net/http server and transport (Go 1.15)"]}
{"id": "C181", "title": "What the document refuses is refused", "statement": "If a gateway is started with a configuration document and a client sends it a message that the document refuses, then no upstream is asked for it, and the client reads exactly one message, with the status that belongs to the first reason: 413 if the body is longer than the limit, 400 if the method is not served, 404 if no path selects the target, 401 if the jwt entry of the route meant does not grant the message, 503 if no server of the resource has the label drawn.", "quantifier": "every configuration document, start, history of key refreshes, number of clients and upstreams, their messages and bytes, connections and interleaving of all handlers", "why_tests_cant": "That nothing gets past a document is a claim about all documents and all messages; tests try a few of each.", "anchors": ["proxyhandler.go:33-76", "proxy.go:196-282 parseIncoming, parseRequestBody", "proxy.go:500-507 hasLegalHTTPMethod", "proxy.go:518-618 validateJwt, verifySignature", "route.go:35-92", "jwt.go", "responses.go", "net/http readRequest (Go 1.15)"]}
{"id": "C182", "title": "Anything but a refusal is for those who are admitted", "statement": "If an upstream is asked for a client's message, or the client is answered with a status other than 400, 401, 404, 413 and 503, be it with a result or with the news that the upstreams fail, then the configuration document admits the message: the method is served, the body is not longer than the limit, the jwt entry of the route meant, if there is one, grants the token presented, and the resource has a server, with the label drawn if there is a policy. So the state of the upstreams is hidden from everyone else.", "quantifier": "every configuration document, start, history of key refreshes, number of clients and upstreams, their messages and bytes, and interleaving of all handlers", "why_tests_cant": "That no schedule and no message lets an answer through to a client that is not admitted is a claim about all of them.", "anchors": ["proxyhandler.go:33-76", "proxyhandler.go:78-238", "proxy.go:288-341", "proxy.go:498-618", "route.go:35-92", "responses.go"]}
{"id": "C183", "title": "What the document admits is not refused", "statement": "If a gateway is started with a configuration document and a client sends it a message that the document admits (the method is served, a path selects the target, the body is not longer than the limit, keys that stand in the document or were served at the start grant the token to the route meant, and its resource has a server, with the label drawn if there is a policy), then the message is passed on: the client is not refused, an answer that is given without asking an upstream is 502 or 504, and when the handler has ended there is one answer.", "quantifier": "every configuration document, start, history of key refreshes, number of clients and upstreams, their messages and bytes, and interleaving of all handlers", "why_tests_cant": "That no good message is ever refused, whatever else goes on, is a claim about all documents, messages and schedules.", "anchors": ["proxyhandler.go:33-76", "proxyhandler.go:78-238", "proxy.go:288-341", "proxy.go:498-618", "route.go:35-92", "jwt.go"]}
{"id": "C184", "title": "Nothing that comes in crashes a handler", "statement": "If a gateway is started with a configuration document, then no message of a client and no response of an upstream crashes the handler of a request: not while it decides about the message (routes, token, resource), not while it builds the request for the upstream, and not while it retries, waits and answers.", "quantifier": "every configuration document, start, history of key refreshes, number of clients and upstreams, their messages and bytes, and interleaving of all handlers", "why_tests_cant": "A crash needs one message, response or schedule; that there is none is a claim about all of them.", "anchors": ["proxyhandler.go:33-76", "proxyhandler.go:78-290", "proxy.go:288-341", "proxy.go:398-507", "proxy.go:518-618", "route.go:60-92", "net/http NewRequest (Go 1.15)"]}
{"id": "C185", "title": "Who is admitted is served in the end", "statement": "If a gateway is started with a configuration document and a client sends it a message that the document admits, then, as long as its handler gets to run and its timers fire, there comes a time when its handler has ended and the client reads exactly one message, which is no refusal: it is the answer of an upstream to the message that the document has in the place of the client's, or says with 502 or 504 that upstreams fail.", "quantifier": "every configuration document, start, history of key refreshes, number of clients and upstreams, their messages and bytes, and infinite interleaving of all handlers that is fair to the client", "why_tests_cant": "That an answer always comes, whatever the others do and however long it takes, is a claim about infinite executions.", "anchors": ["proxyhandler.go:33-290", "proxy.go:196-341", "proxy.go:398-618", "route.go:35-92", "responses.go", "jwt.go", "net/http Transport, NewRequest (Go 1.15)"]}
{"id": "C186", "title": "Who is refused is told so in the end", "statement": "If a gateway is started with a configuration document and a client sends it a message that the document refuses, then, as long as its handler gets to run, there comes a time when its handler has ended, no upstream has been asked, and the client reads exactly one message, which has the status that the document gives.", "quantifier": "every configuration document, start, history of key refreshes, number of clients, their messages and bytes, and infinite interleaving of all handlers that is fair to the client", "why_tests_cant": "That a refusal always comes, whatever the others do, is a claim about infinite executions.", "anchors": ["proxyhandler.go:33-290", "proxy.go:196-341", "route.go:35-92", "responses.go", "jwt.go"]}
{"id": "C187", "title": "Everyone is answered in the end", "statement": "If a gateway is started with a configuration document and a client sends it any message, then, as long as its handler gets to run and its timers fire, there comes a time when its handler has ended and the client reads exactly one message: a refusal for a reason that the document gives, and no upstream has been asked; or that upstreams fail; or the answer of an upstream to the message that the document has in the place of the client's.", "quantifier": "every configuration document, start, history of key refreshes, number of clients and upstreams, their messages and bytes, and infinite interleaving of all handlers that is fair to the client", "why_tests_cant": "That an answer always comes, for every message and whatever the others do, is a claim about infinite executions.", "anchors": ["proxyhandler.go:33-290", "proxy.go:196-341", "proxy.go:398-618", "route.go:35-92", "responses.go", "jwt.go", "net/http Transport, NewRequest (Go 1.15)"]}
