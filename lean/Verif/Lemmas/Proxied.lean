import Verif.Lemmas.Header
/-!
# Facts about the proxied response
-/
namespace J8a
open Go

theorem std_server (e : RespEnv) :
    writeStandardResponseHeaders e Hdr.empty "Server".toList = [e.server] := by
  unfold writeStandardResponseHeaders
  cases e.tls
  · simp only [Bool.false_eq_true, if_false]
    rw [Hdr.set, canon_xRequestID, if_neg (by decide), Hdr.set, canon_server, if_pos rfl]
  · simp only [if_true]
    rw [Hdr.set, canon_xRequestID, if_neg (by decide), Hdr.set, canon_sts, if_neg (by decide),
      Hdr.set, canon_server, if_pos rfl]

theorem std_sts (e : RespEnv) : writeStandardResponseHeaders e Hdr.empty
      "Strict-Transport-Security".toList = if e.tls then ["max-age=31536000".toList] else [] := by
  unfold writeStandardResponseHeaders
  cases e.tls
  · simp only [Bool.false_eq_true, if_false]
    rw [Hdr.set, canon_xRequestID, if_neg (by decide), Hdr.set, canon_server, if_neg (by decide)]
    rfl
  · simp only [if_true]
    rw [Hdr.set, canon_xRequestID, if_neg (by decide), Hdr.set, canon_sts, if_pos rfl]

theorem std_xrid (e : RespEnv) :
    writeStandardResponseHeaders e Hdr.empty xRequestID = [e.xrid] := by
  unfold writeStandardResponseHeaders
  rw [Hdr.set, canon_xRequestID, if_pos rfl]

theorem std_other (e : RespEnv) (k : Str) (h1 : k ≠ "Server".toList)
    (h2 : k ≠ "Strict-Transport-Security".toList) (h3 : k ≠ xRequestID) :
    writeStandardResponseHeaders e Hdr.empty k = [] := by
  unfold writeStandardResponseHeaders
  cases e.tls
  · simp only [Bool.false_eq_true, if_false]
    rw [Hdr.set, canon_xRequestID, if_neg h3, Hdr.set, canon_server, if_neg h1]
    rfl
  · simp only [if_true]
    rw [Hdr.set, canon_xRequestID, if_neg h3, Hdr.set, canon_sts, if_neg h2, Hdr.set, canon_server,
      if_neg h1]
    rfl

/-- The header before length and encoding are set. -/
def baseHdr (e : RespEnv) (r : UpResp) : Hdr :=
  copyHeaders r.header (writeStandardResponseHeaders e Hdr.empty)

/-- The body of the response. -/
def sentBody (e : RespEnv) (r : UpResp) : Bytes :=
  encodeUpstreamResponseBody e (hasGzipMagic r.body) (some r.body)

theorem proxied_body (e : RespEnv) (r : UpResp) : (proxiedResponse e r).body = sentBody e r := rfl

theorem proxied_status (e : RespEnv) (r : UpResp) : (proxiedResponse e r).status = r.status := rfl

theorem set_ne {h : Hdr} {k v k' : Str} (hne : k' ≠ canon k) : h.set k v k' = h k' := by
  unfold Hdr.set; rw [if_neg hne]

theorem set_same {h : Hdr} {k v k' : Str} (he : k' = canon k) : h.set k v k' = [v] := by
  unfold Hdr.set; rw [if_pos he]

/-- The value given to Content-Length. -/
def lengthValue (e : RespEnv) (h : Hdr) (status : Int) (body : Bytes) (up : Entries) : Str :=
  if lengthIsZero e h status then "0".toList
  else if e.method = "HEAD".toList then
    if 0 < (up.get "Content-Length".toList).length ∧ (atoi (up.get "Content-Length".toList)).isSome
    then up.get "Content-Length".toList else "0".toList
  else natToDec body.length

theorem setContentLengthHeader_eq (e : RespEnv) (h : Hdr) (status : Int) (body : Bytes)
    (up : Entries) : setContentLengthHeader e h status body up =
      h.set "Content-Length".toList (lengthValue e h status body up) := by
  unfold setContentLengthHeader lengthValue
  dsimp only
  split
  · rfl
  · split
    · split <;> rfl
    · rfl

/-- Headers other than the two computed ones. -/
theorem proxied_header (e : RespEnv) (r : UpResp) (k : Str) (h1 : k ≠ "Content-Length".toList)
    (h2 : k ≠ "Content-Encoding".toList) : (proxiedResponse e r).header k =
      writeStandardResponseHeaders e Hdr.empty k ++
        if shouldProxyHeader k then r.header.under k else [] := by
  rw [← copyHeaders_under]
  unfold proxiedResponse
  dsimp only
  rw [setContentLengthHeader_eq]
  split
  · rw [set_ne (by rw [canon_ce]; exact h2), set_ne (by rw [canon_cl]; exact h1)]
  · rw [set_ne (by rw [canon_cl]; exact h1)]

theorem proxied_length (e : RespEnv) (r : UpResp) :
    (proxiedResponse e r).header "Content-Length".toList =
      [lengthValue e (baseHdr e r) r.status (sentBody e r) r.header] := by
  unfold proxiedResponse
  dsimp only
  rw [setContentLengthHeader_eq]
  split
  · rw [set_ne (by rw [canon_ce]; decide), set_same canon_cl.symm]
    rfl
  · rw [set_same canon_cl.symm]
    rfl

theorem proxied_encoding (e : RespEnv) (r : UpResp) :
    (proxiedResponse e r).header "Content-Encoding".toList =
      if 0 < (sentBody e r).length then [contentEncoding e (hasGzipMagic r.body) r.header]
      else r.header.under "Content-Encoding".toList := by
  unfold proxiedResponse
  dsimp only
  rw [setContentLengthHeader_eq,
    show encodeUpstreamResponseBody e (hasGzipMagic r.body) (some r.body) = sentBody e r from rfl]
  by_cases hb : 0 < (sentBody e r).length
  · rw [if_pos hb, if_pos hb, set_same canon_ce.symm]
  · rw [if_neg hb, if_neg hb, set_ne (by rw [canon_cl]; decide), copyHeaders_under,
      std_other _ _ (by decide) (by decide) (by decide), if_pos (by decide), List.nil_append]

/-- The length is zero without a look at the upstream for these statuses and for CONNECT; the
Transfer-Encoding header is never there. -/
theorem lengthIsZero_of_noTE (e : RespEnv) (h : Hdr) (status : Int)
    (ht : h "Transfer-Encoding".toList = []) : lengthIsZero e h status = true ↔
      status = 204 ∨ (100 ≤ status ∧ status < 200) ∨ e.method = "CONNECT".toList := by
  have : h.get "Transfer-Encoding".toList = [] := by
    unfold Hdr.get
    rw [canon_te, ht]
    rfl
  unfold lengthIsZero
  rw [this]
  simp [or_assoc]

theorem baseHdr_te (e : RespEnv) (r : UpResp) : baseHdr e r "Transfer-Encoding".toList = [] := by
  unfold baseHdr
  rw [copyHeaders_under, shouldProxyHeader_te, std_other _ _ (by decide) (by decide) (by decide)]
  rfl

end J8a
