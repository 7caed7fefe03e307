import Verif.Spec.Local
/-!
# Specification: flipped and mirrored pictures

Turning a picture upside down or left to right without decoding it, as tools for lossless transformation do: the
MCUs change places, and the coefficients of odd vertical (horizontal) frequency change sign.
-/

namespace Jpeg.Spec

/-- A block upside down. -/
def flipBlock (b : BlockData) : BlockData :=
  ⟨b.dc, b.zz.mapIdx fun n v => if zigzag (n + 1) / 8 % 2 = 1 then -v else v⟩

/-- A block left to right. -/
def mirrorBlock (b : BlockData) : BlockData :=
  ⟨b.dc, b.zz.mapIdx fun n v => if zigzag (n + 1) % 8 % 2 = 1 then -v else v⟩

/-- `f'` is the picture of `f` upside down: no vertical subsampling, all lines of the last MCUs belong to the
picture. -/
structure Flipped (f f' : BaselineFile) (H : Nat) : Prop where
  scales : SameScales f f'
  x : f.x = f'.x
  y : f.y = f'.y
  whole : f.y % 8 = 0
  mcus : ∀ R C, R < f.y / 8 → C < ceilDiv f.x (8 * H) →
    f'.mcuAt H R C = (f.mcuAt H (f.y / 8 - 1 - R) C).map fun m => m.map fun blocks => blocks.map flipBlock

/-- `f'` is the picture of `f` left to right: no subsampling, all columns of the last MCUs belong to the picture. -/
structure Mirrored (f f' : BaselineFile) : Prop where
  scales : SameScales f f'
  x : f.x = f'.x
  y : f.y = f'.y
  whole : f.x % 8 = 0
  mcus : ∀ R C, R < ceilDiv f.y 8 → C < f.x / 8 →
    f'.mcuAt 1 R C = (f.mcuAt 1 R (f.x / 8 - 1 - C)).map fun m => m.map fun blocks => blocks.map mirrorBlock

/-- Block `j` of component `i` in the MCU of row `R` and column `C`. -/
def BaselineFile.mcuBlock (f : BaselineFile) (H R C i j : Nat) : Option BlockData :=
  (f.mcuAt H R C).bind fun m => m[i]?.bind fun blocks => blocks[j]?

/-- `f'` is the picture of `f` upside down, with any subsampling: the blocks of an MCU change places as well. -/
structure FlippedTall (f f' : BaselineFile) (H V : Nat) : Prop where
  scales : SameScales f f'
  x : f.x = f'.x
  y : f.y = f'.y
  whole : f.y % (8 * V) = 0
  mcus : ∀ R C, R < f.y / (8 * V) → C < ceilDiv f.x (8 * H) → ∀ (i : Nat) (c : FileComponent), f.comps[i]? = some c →
    ∀ r k, r < c.v → k < c.h →
      f'.mcuBlock H R C i (r * c.h + k) = (f.mcuBlock H (f.y / (8 * V) - 1 - R) C i ((c.v - 1 - r) * c.h + k)).map flipBlock

/-- `f'` is the picture of `f` left to right, with any subsampling. -/
structure MirroredWide (f f' : BaselineFile) (H V : Nat) : Prop where
  scales : SameScales f f'
  x : f.x = f'.x
  y : f.y = f'.y
  whole : f.x % (8 * H) = 0
  mcus : ∀ R C, R < ceilDiv f.y (8 * V) → C < f.x / (8 * H) → ∀ (i : Nat) (c : FileComponent), f.comps[i]? = some c →
    ∀ r k, r < c.v → k < c.h →
      f'.mcuBlock H R C i (r * c.h + k) = (f.mcuBlock H R (f.x / (8 * H) - 1 - C) i (r * c.h + (c.h - 1 - k))).map mirrorBlock

end Jpeg.Spec
