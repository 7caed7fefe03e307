import Verif.Spec.Reading
/-!
# Specification: scans over a band of coefficients (T.81 G.1.2, G.2)

The first scans of the progressive mode: a band `ss..se` of the coefficients, with point transform `al`, and
end-of-band runs, which say that so many blocks have no further coefficients in the band. Reading them from arbitrary
bits, and the encoder of the standard. Nothing here refers to the decoder.
-/

namespace Jpeg.Spec

deriving instance DecidableEq for BlockData

/-- `n` coefficients of a band (figures G.3 to G.6 read backwards); with them the number of following blocks
without coefficients in the band. Runs past the last coefficient end the band (see `AcBits`). -/
def readBand (c : Code) : Nat → List Bool → Reading (List Int × Nat)
  | 0, bits => .value ([], 0) bits
  | n + 1, bits =>
    (c.read bits).bind fun rs bits =>
    if rs % 16 = 0 then
      if rs / 16 = 15 then
        if n + 1 ≤ 16 then .value (List.replicate (n + 1) 0, 0) bits
        else (readBand c (n + 1 - 16) bits).bind fun l bits => .value (List.replicate 16 0 ++ l.1, l.2) bits
      else if bits.length < rs / 16 then .short
      else .value (List.replicate (n + 1) 0, 2 ^ (rs / 16) + natOfBits (bits.take (rs / 16)) - 1)
        (bits.drop (rs / 16))
    else
      (receiveExtend (rs % 16) bits).bind fun v bits =>
      if n + 1 ≤ rs / 16 then .value (List.replicate (n + 1) 0, 0) bits
      else (readBand c (n - rs / 16) bits).bind fun l bits =>
        .value (List.replicate (rs / 16) 0 ++ v :: l.1, l.2) bits

/-- The first AC coefficient of the band. -/
def bandStart (ss : Nat) : Nat := max ss 1

/-- The number of AC coefficients of the band. -/
def bandLength (ss se : Nat) : Nat := se + 1 - bandStart ss

/-- One block of such a scan: the DC value, if it is in the band, and the AC coefficients of the band. `p` is the DC
value before it, `run` the number of blocks (from this one on) without AC coefficients. With the run for the blocks
behind it. -/
def readBandBlock (cd ca : Code) (ss se : Nat) (p : Int) (run : Nat) (bits : List Bool) :
    Reading (BlockData × Nat) :=
  (if ss = 0 then (readDc cd bits).bind fun diff bits => .value (wrap16 (p + diff)) bits
   else .value p bits).bind fun dc bits =>
  if bandLength ss se = 0 then .value (⟨dc, []⟩, run) bits
  else if 0 < run then .value (⟨dc, List.replicate (bandLength ss se) 0⟩, run - 1) bits
  else (readBand ca (bandLength ss se) bits).bind fun l bits => .value (⟨dc, l.1⟩, l.2) bits

/-- `n` blocks. -/
def readBandBlocks (cd ca : Code) (ss se : Nat) : Nat → Int → Nat → List Bool → Reading (List BlockData × Int × Nat)
  | 0, p, run, bits => .value ([], p, run) bits
  | n + 1, p, run, bits =>
    (readBandBlock cd ca ss se p run bits).bind fun b bits =>
    (readBandBlocks cd ca ss se n b.1.dc b.2 bits).bind fun bs bits =>
    .value (b.1 :: bs.1, bs.2) bits

/-- `block` holds, in natural order and after undoing the point transform, the coefficients of a band, and zeros
outside of it. -/
def BandIs (ss se al : Nat) (b : BlockData) (block : List Int) : Prop :=
  block.length = 64 ∧
  block[0]? = some (if ss = 0 then wrap16 (b.dc * 2 ^ al) else 0) ∧
  ∀ k, 1 ≤ k → k < 64 → block[zigzag k]? =
    if ss ≤ k ∧ k ≤ se then (b.zz[k - bandStart ss]?).map fun v => wrap16 (v * 2 ^ al) else some 0

/-! ## The encoder of the standard for AC bands (G.1.2.2) -/

/-- Figure G.4, Encode_EOBRUN. -/
def encodeRun (c : Code) (run : Nat) : Option (List Bool) :=
  if run = 0 then some []
  else (c.find (16 * run.log2)).map (· ++ bitsN run.log2 (run - 2 ^ run.log2))

/-- Figures G.3, G.5 and G.6 without the end-of-band runs: the coefficients up to the last one that is not zero, and
whether zeros follow it. -/
def encodeCoefs (c : Code) : Nat → List Int → Option (List Bool × Bool)
  | run, [] => some ([], decide (0 < run))
  | run, v :: rest =>
    if v = 0 then encodeCoefs c (run + 1) rest
    else if category v ≤ 15 then
      (if run < 16 then some [] else c.find 0xF0).bind fun z =>
      (c.find (16 * (run % 16) + category v)).bind fun b =>
      (encodeCoefs c 0 rest).bind fun bs =>
      some ((List.replicate (run / 16) z).flatten ++ b ++ additional v ++ bs.1, bs.2)
    else none

/-- Figure G.3 for the blocks of a scan; `run` is EOBRUN. -/
def encodeBands (c : Code) : Nat → List (List Int) → Option (List Bool)
  | run, [] => encodeRun c run
  | run, b :: bs =>
    if ∀ x ∈ b, x = 0 then
      if run + 1 = 0x7FFF then
        (encodeRun c (run + 1)).bind fun x => (encodeBands c 0 bs).bind fun y => some (x ++ y)
      else encodeBands c (run + 1) bs
    else
      (encodeRun c run).bind fun x =>
      (encodeCoefs c 0 b).bind fun y =>
      (encodeBands c (if y.2 then 1 else 0) bs).bind fun z => some (x ++ y.1 ++ z)

end Jpeg.Spec
