import Verif.Model.ServerId
import Verif.Lemmas.Num
import Verif.Props.RespWire
import Verif.Props.Caching
/-!
# C140: each server has an id of its own

logger.go:13: "ServerID is a unique identifier made up as md5 of hostname and version." It is in the header Server of
each response, in each line of the log and in the ids that requests get.
-/
namespace J8a
open Go

variable {K : Type}

/-- C140, part: the id has eight hexadecimal digits, whatever the host and the version are called. -/
theorem C140_form_partial (host version : Str) :
    (serverId host version).length = 8 ∧ ∀ c ∈ serverId host version, c ∈ "0123456789abcdef".toList := by
  unfold serverId
  refine ⟨?_, fun c hc => hexEncode_digits _ c (List.mem_of_mem_take hc)⟩
  rw [List.length_take, hexEncode_length, md5_length]
  rfl

/-- C140, part: so it may stand in a header and in a request id. -/
theorem C140_text_partial (host version : Str) : FieldText (serverId host version) := by
  intro c hc
  have h : ∀ c ∈ "0123456789abcdef".toList, 0x20 ≤ c.toNat ∧ c.toNat ≠ 0x7f := by decide
  exact .inr (h c ((C140_form_partial host version).2 c hc))

/-- C140, part: the variables HOSTNAME and VERSION decide; the host's own name and the built in version stand in for them
if they are not set or empty. -/
theorem C140_source_partial (hostnameVar osHostname versionVar : Str) :
    (hostnameVar ≠ [] → getHost hostnameVar osHostname = hostnameVar) ∧ getHost [] osHostname = osHostname ∧
    (versionVar ≠ [] → getVersion versionVar = versionVar) ∧ getVersion [] = "v0.7.2".toList := by
  refine ⟨fun h => ?_, rfl, fun h => ?_, rfl⟩
  · exact if_neg fun h0 => h (List.length_eq_zero_iff.1 h0)
  · exact if_pos (List.length_pos_iff.2 h)

/-- C140 fails for all hosts and versions that make the same text when joined. -/
theorem C140_violated_always (h1 v1 h2 v2 : Str) (h : h1 ++ v1 = h2 ++ v2) : serverId h1 v1 = serverId h2 v2 := by
  unfold serverId
  rw [h]

/-- C140 fails: host `gw1` with version `1.2` and host `gw` with version `11.2` have the same id. -/
theorem C140_violated : ("gw1".toList, "1.2".toList) ≠ ("gw".toList, "11.2".toList) ∧
    serverId "gw1".toList "1.2".toList = serverId "gw".toList "11.2".toList ∧
    serverId "gw1".toList "1.2".toList = "e7fecb43".toList := by
  decide +kernel

/-- The first word of the digest. -/
def idWord (host version : Str) : UInt32 :=
  ((md5Blocks ((md5Pad (strBytes (host ++ version))).length / 64) (leWords (md5Pad (strBytes (host ++ version))))).foldl
    md5Block {}).a

theorem serverId_word (host version : Str) : serverId host version = hexEncode (leBytes32 (idWord host version)) := rfl

/-- There are no more than `n` different numbers below `n`. -/
theorem pigeonhole : ∀ (n : Nat) (f : Nat → Nat), (∀ i, i ≤ n → f i < n) → ∃ i j, i < j ∧ j ≤ n ∧ f i = f j := by
  intro n
  induction n with
  | zero => intro f h; exact absurd (h 0 (Nat.le_refl 0)) (Nat.not_lt_zero _)
  | succ n ih =>
    intro f h
    by_cases hx : ∃ i, i ≤ n ∧ f i = f (n + 1)
    · obtain ⟨i, hi, he⟩ := hx
      exact ⟨i, n + 1, by omega, Nat.le_refl _, he⟩
    · -- the value n is taken by `f (n + 1)` where it stood
      obtain ⟨i, j, h1, h2, h3⟩ := ih (fun i => if f i = n then f (n + 1) else f i) (by
        intro i hi
        have h1 := h i (by omega)
        have h2 := h (n + 1) (Nat.le_refl _)
        have h3 : f i ≠ f (n + 1) := fun he => hx ⟨i, hi, he⟩
        show (if f i = n then f (n + 1) else f i) < n
        split <;> omega)
      refine ⟨i, j, h1, by omega, ?_⟩
      have hi : f i ≠ f (n + 1) := fun he => hx ⟨i, by omega, he⟩
      have hj : f j ≠ f (n + 1) := fun he => hx ⟨j, h2, he⟩
      split at h3 <;> split at h3
      · rename_i a b; rw [a, b]
      · exact absurd h3.symm hj
      · exact absurd h3 hi
      · exact h3

/-- C140 fails for each version on its own, too: among the hosts called `0` to `4294967296` there are two with the same
id. -/
theorem C140_violated_hosts (version : Str) : ∃ i j, i < j ∧ j ≤ 2 ^ 32 ∧ natToDec i ≠ natToDec j ∧
    serverId (natToDec i) version = serverId (natToDec j) version := by
  obtain ⟨i, j, h1, h2, h3⟩ := pigeonhole (2 ^ 32) (fun i => (idWord (natToDec i) version).toNat)
    (fun i _ => UInt32.toNat_lt _)
  refine ⟨i, j, h1, h2, fun he => ?_, ?_⟩
  · have := natToDec_eq he
    omega
  · rw [serverId_word, serverId_word, UInt32.toNat_inj.1 h3]

end J8a
