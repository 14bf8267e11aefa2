import Verif.Model.Client
import Verif.Model.Target
/-!
# What the client adds of its own
-/
namespace J8a
open Go

theorem credited_same (q : UpReq) :
    (credited q).method = q.method ∧ (credited q).uri = q.uri ∧ (credited q).body = q.body := by
  unfold credited
  split
  · split <;> exact ⟨rfl, rfl, rfl⟩
  · exact ⟨rfl, rfl, rfl⟩

theorem credited_header (q : UpReq) {k : Str} (hk : k ≠ "Authorization".toList) :
    (credited q).header k = q.header k := by
  unfold credited
  split
  · split
    · show q.header.set "Authorization".toList _ k = _
      unfold Hdr.set
      rw [if_neg]
      rw [show canon "Authorization".toList = "Authorization".toList by decide]
      exact hk
    · rfl
  · rfl

theorem credited_none {q : UpReq} (h : (Url.parse q.uri).bind Url.user = none) : credited q = q := by
  unfold credited
  rw [h]

theorem credited_own {q : UpReq} (h : q.header.get "Authorization".toList ≠ []) : credited q = q := by
  unfold credited
  split
  · rw [if_neg h]
  · rfl

theorem credited_some {q : UpReq} {name password : Str} (h : (Url.parse q.uri).bind Url.user = some (name, password))
    (h0 : q.header.get "Authorization".toList = []) :
    (credited q).header "Authorization".toList = ["Basic ".toList ++ basicAuth name password] := by
  unfold credited
  rw [h]
  simp only
  rw [if_pos h0]
  simp only [Hdr.set]
  rw [if_pos (by decide)]

theorem addsGzip_credited (q : UpReq) : addsGzip (credited q) = addsGzip q := by
  unfold addsGzip Hdr.get
  rw [show canon "Accept-Encoding".toList = "Accept-Encoding".toList by decide,
    show canon "Range".toList = "Range".toList by decide, credited_header q (by decide), credited_header q (by decide),
    (credited_same q).1]

theorem wireLength_credited (q : UpReq) : wireLength (credited q) = wireLength q := by
  unfold wireLength
  rw [(credited_same q).1, (credited_same q).2.2]

theorem wireHost_credited (q : UpReq) : wireHost (credited q) = wireHost q := by
  unfold wireHost
  rw [(credited_same q).2.1]

theorem sentHost_credited (q : UpReq) : sentHost (credited q) = sentHost q := by
  unfold sentHost
  rw [wireHost_credited]

theorem wireTarget_credited (q : UpReq) : wireTarget (credited q) = wireTarget q := by
  unfold wireTarget
  rw [(credited_same q).2.1, (credited_same q).1, sentHost_credited]

end J8a
