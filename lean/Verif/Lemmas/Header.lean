import Verif.Lemmas.Request
import Verif.Lemmas.Char
import Verif.Model.Response
/-!
# Header names and copied headers
-/
namespace J8a
open Go

theorem toLower_canonGo (b : Bool) (k : Str) : toLower (canonGo b k) = toLower k := by
  induction k generalizing b with
  | nil => rfl
  | cons c cs ih =>
    have hc : (if b then c.toUpper else c.toLower).toLower = c.toLower := by
      cases b
      · exact toLower_toLower c
      · exact toLower_toUpper c
    have := ih (c == '-')
    unfold toLower at this ⊢
    rw [canonGo, List.map_cons, List.map_cons, this, hc]

theorem toLower_canon (k : Str) : toLower (canon k) = toLower k := by
  unfold canon
  split
  · exact toLower_canonGo true k
  · rfl

theorem shouldProxyHeader_canon (k : Str) : shouldProxyHeader (canon k) = shouldProxyHeader k := by
  unfold shouldProxyHeader equalFold
  rw [toLower_canon]

/-- What a header gets from a source whose names need not be canonical. -/
def Entries.under (src : Entries) (k : Str) : List Str :=
  (src.filter fun kv => canon kv.1 == k).flatMap Prod.snd

theorem copyHeaders_under (src : Entries) (dst : Hdr) (k : Str) :
    copyHeaders src dst k = dst k ++ if shouldProxyHeader k then src.under k else [] := by
  rw [copyHeaders_eq]
  congr 1
  unfold Entries.under
  by_cases hp : shouldProxyHeader k = true
  · rw [if_pos hp]
    congr 1
    apply List.filter_congr
    intro kv _
    by_cases h : canon kv.1 = k
    · have : shouldProxyHeader kv.1 = true := by rw [← shouldProxyHeader_canon, h, hp]
      simp [this]
    · simp [h]
  · rw [if_neg hp]
    rw [List.filter_eq_nil_iff.2]
    · rfl
    · intro kv _
      by_cases h : canon kv.1 = k
      · have : ¬ shouldProxyHeader kv.1 = true := by rw [← shouldProxyHeader_canon, h]; exact hp
        simp [this]
      · simp [h]

theorem Entries.under_wf {src : Entries} (hw : src.WF) (k : Str) : src.under k = src.values k := by
  have h := lookup_eq_filter src hw.nodup k true
  simp only [Bool.true_and, if_true] at h
  rw [← h]
  unfold Entries.under
  congr 1
  apply List.filter_congr
  intro kv hkv
  rw [hw.canonical kv hkv]

/-- The names the gateway never copies, in canonical form. -/
theorem shouldProxyHeader_server : shouldProxyHeader "Server".toList = false := by decide
theorem shouldProxyHeader_te : shouldProxyHeader "Transfer-Encoding".toList = false := by decide
theorem shouldProxyHeader_cl : shouldProxyHeader "Content-Length".toList = false := by decide

theorem canon_xRequestID : canon xRequestID = xRequestID := by decide
theorem canon_server : canon "Server".toList = "Server".toList := by decide
theorem canon_cl : canon "Content-Length".toList = "Content-Length".toList := by decide
theorem canon_ce : canon "Content-Encoding".toList = "Content-Encoding".toList := by decide
theorem canon_ct : canon "Content-Type".toList = "Content-Type".toList := by decide
theorem canon_te : canon "Transfer-Encoding".toList = "Transfer-Encoding".toList := by decide
theorem canon_sts : canon "Strict-Transport-Security".toList = "Strict-Transport-Security".toList := by
  decide

end J8a
