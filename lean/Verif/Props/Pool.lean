import Verif.Lemmas.Pool
/-!
# Pooled compression: C55
-/
namespace J8a
variable {C D O : Type}

/-- **C55**, `Gzip`: whatever calls have run or are running, in whatever order their steps were taken,
and whichever pooled writers they were given: the result of a call is the compressed form of its own
input, as a new writer would make it. -/
theorem C55_gzip_result (F : Flate C) (hF : F.Forgets) (crc : UInt32 → Bytes → UInt32)
    (as : List PoolAction) (i : Nat) (c : Call) (r : Bytes)
    (hc : (poolRun (zipper F crc) (poolInit (zipper F crc)) as).call i = some c)
    (hr : c.result = some r) : r = gzipBytes F crc c.input := by
  have hok := (poolInv_run _ as (poolInv_init _)).ok i c hc
  unfold CallOk at hok
  cases hp : c.pc <;> rw [hp] at hok <;> simp only [hr] at hok
  · exact nomatch hok.2
  · exact nomatch hok.2
  · exact nomatch hok.2.1
  · exact nomatch hok.1
  · exact nomatch hok.1
  all_goals
    obtain ⟨h1, o, h2⟩ := hok
    rw [Option.some.inj h1, h2]
    exact zipper_output F hF crc o c.input

/-- **C55**, `Gunzip`: the result is the data of the well-formed members of the call's own input, as a
new reader would find them. -/
theorem C55_gunzip_result (I : Inflate D) (hI : I.Forgets) (hdr : Bytes → Option Bytes)
    (trailer : Bytes → Bytes → Option Bytes) (as : List PoolAction) (i : Nat) (c : Call) (r : Bytes)
    (hc : (poolRun (unzipper I hdr trailer) (poolInit (unzipper I hdr trailer)) as).call i = some c)
    (hr : c.result = some r) : r = gunzipBytes I hdr trailer (c.input.length + 1) c.input := by
  have hok := (poolInv_run _ as (poolInv_init _)).ok i c hc
  unfold CallOk at hok
  cases hp : c.pc <;> rw [hp] at hok <;> simp only [hr] at hok
  · exact nomatch hok.2
  · exact nomatch hok.2
  · exact nomatch hok.2.1
  · exact nomatch hok.1
  · exact nomatch hok.1
  all_goals
    obtain ⟨h1, o, h2⟩ := hok
    rw [Option.some.inj h1, h2]
    exact unzipper_output I hI hdr trailer o c.input

/-- **C55**: two histories, one input, one result. -/
theorem C55_history_independent (F : Flate C) (hF : F.Forgets) (crc : UInt32 → Bytes → UInt32)
    (as bs : List PoolAction) (i j : Nat) (c d : Call) (r r' : Bytes)
    (hc : (poolRun (zipper F crc) (poolInit (zipper F crc)) as).call i = some c)
    (hd : (poolRun (zipper F crc) (poolInit (zipper F crc)) bs).call j = some d)
    (hin : c.input = d.input) (hr : c.result = some r) (hr' : d.result = some r') : r = r' := by
  rw [C55_gzip_result F hF crc as i c r hc hr, C55_gzip_result F hF crc bs j d r' hd hr', hin]

/-- **C55**: two calls in progress never hold the same object, for any kind of object. -/
theorem C55_no_sharing (P : Pooled O) (as : List PoolAction) (i j : Nat) (c d : Call)
    (hc : (poolRun P (poolInit P) as).call i = some c)
    (hd : (poolRun P (poolInit P) as).call j = some d)
    (hch : c.pc ≠ .start ∧ c.pc ≠ .returned) (hdh : d.pc ≠ .start ∧ d.pc ≠ .returned)
    (hobj : c.obj = d.obj) : i = j :=
  (poolInv_run P as (poolInv_init P)).apart i j c d hc hd hch hdh hobj

/-- A call keeps the input it was started with, whatever happens afterwards. -/
theorem C55_input_kept (P : Pooled O) (as : List PoolAction) : ∀ (s : PoolState O) (i : Nat) (c : Call),
    s.call i = some c → ∃ c', (poolRun P s as).call i = some c' ∧ c'.input = c.input := by
  induction as with
  | nil => intro s i c hc; exact ⟨c, hc, rfl⟩
  | cons a as ih =>
    intro s i c hc
    obtain ⟨c', h1, h2⟩ := poolStep_input P s a i c hc
    obtain ⟨c'', h3, h4⟩ := ih _ i c' h1
    exact ⟨c'', h3, h4.trans h2⟩

/-- The compressed form always starts with the magic bytes of gzip.go:11. -/
theorem C55_magic_bytes (F : Flate C) (crc : UInt32 → Bytes → UInt32) (x : Bytes) :
    (gzipBytes F crc x).take 2 = [0x1f, 0x8b] := by
  simp [gzipBytes, gzHeader]

/-! ## Satisfiability: a compressor that stores, with leftovers from earlier use -/

/-- A compressor that keeps everything it was given until it is closed. -/
def storing : Flate Bytes where
  new := []
  reset _ := []
  write c x := (c ++ x, [])
  close c := (c, c)

theorem storing_forgets : storing.Forgets := fun _ _ => rfl

def crc0 : UInt32 → Bytes → UInt32 := fun a x => x.foldl (fun n b => n + b.toUInt32) a

/-- Call 0 returns its writer; calls 1 and 2 run interleaved, one of them with the used writer. -/
def demoHistory : List PoolAction :=
  [.start 0 [1, 2], .getNew 0, .go 0, .go 0, .go 0, .go 0, .go 0,
   .start 1 [9], .start 2 [7, 7], .getPooled 1 0, .getNew 2, .go 2, .go 1, .go 1, .go 2, .go 2, .go 1,
   .go 1, .go 2]

example : ((poolRun (zipper storing crc0) (poolInit (zipper storing crc0)) demoHistory).call 1).bind
    (·.result) = some (gzipBytes storing crc0 [9]) := by decide +kernel

example : ((poolRun (zipper storing crc0) (poolInit (zipper storing crc0)) demoHistory).call 2).bind
    (·.result) = some (gzHeader ++ [7, 7] ++ [14, 0, 0, 0] ++ [2, 0, 0, 0]) := by decide +kernel

/-- A decompressor that copies up to a terminating zero, and stays spoilt unless reset. -/
def copying : Inflate Bool where
  new := false
  reset _ := false
  read d x := (true, if d then [] else x.takeWhile (· ≠ 0),
    if x.contains 0 then some ((x.dropWhile (· ≠ 0)).drop 1) else none)

theorem copying_forgets : copying.Forgets := fun _ _ => rfl

def demoHdr : Bytes → Option Bytes
  | 31 :: r => some r
  | _ => none

example : ((poolRun (unzipper copying demoHdr fun _ r => some r)
    (poolInit (unzipper copying demoHdr fun _ r => some r))
    [.start 0 [31, 5, 6, 0, 31, 8, 0], .getNew 0, .go 0, .go 0, .go 0, .go 0, .go 0,
     .start 1 [31, 4, 0], .getPooled 1 0, .go 1, .go 1, .go 1, .go 1]).call 1).bind (·.result) =
    some [4] := by decide +kernel

example : ((poolRun (unzipper copying demoHdr fun _ r => some r)
    (poolInit (unzipper copying demoHdr fun _ r => some r))
    [.start 0 [31, 5, 6, 0, 31, 8, 0], .getNew 0, .go 0, .go 0, .go 0, .go 0, .go 0]).call 0).bind
    (·.result) = some [5, 6, 8] := by decide +kernel

end J8a
