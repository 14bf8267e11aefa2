import Verif.Model.Pool
/-! # What the documentation of `Reset` promises -/
namespace J8a

/-- `flate.Writer.Reset`: "equivalent to the result of NewWriter". -/
def Flate.Forgets {C : Type} (F : Flate C) : Prop :=
  ∀ c x, (F.write (F.reset c) x).2 ++ (F.close (F.write (F.reset c) x).1).2 =
    (F.write F.new x).2 ++ (F.close (F.write F.new x).1).2

/-- `flate.Resetter.Reset`: as if new. -/
def Inflate.Forgets {D : Type} (I : Inflate D) : Prop :=
  ∀ d x, (I.read (I.reset d) x).2 = (I.read I.new x).2

/-- The compressed form of `x`: header, deflated data, checksum, length. -/
def gzipBytes {C : Type} (F : Flate C) (crc : UInt32 → Bytes → UInt32) (x : Bytes) : Bytes :=
  gzHeader ++ ((F.write F.new x).2 ++ (F.close (F.write F.new x).1).2) ++
    le32 (crc 0 x).toNat ++ le32 x.length

/-- The data of the well-formed members at the start of `x`, up to `n` of them. -/
def gunzipBytes {D : Type} (I : Inflate D) (hdr : Bytes → Option Bytes)
    (trailer : Bytes → Bytes → Option Bytes) : Nat → Bytes → Bytes
  | 0, _ => []
  | n + 1, x =>
    match hdr x with
    | none => []
    | some r =>
      (I.read I.new r).2.1 ++
        match (I.read I.new r).2.2.bind (trailer (I.read I.new r).2.1) with
        | none => []
        | some r' => gunzipBytes I hdr trailer n r'

end J8a
