import Verif.Spec.Flip
/-!
# Specification: transposed and turned pictures

Exchanging rows and columns of a picture, or turning it by a quarter, without decoding it, as tools for lossless
transformation do: the MCUs change places, and so do the coefficients of every block and the entries of the
quantisation tables.
-/

namespace Jpeg.Spec

/-- The place in zig-zag order of the cell across the diagonal. -/
def across (n : Nat) : Nat := ((List.range 64).map zigzag).idxOf (8 * (zigzag n % 8) + zigzag n / 8)

/-- A block with rows and columns exchanged. -/
def transposeBlock (b : BlockData) : BlockData :=
  ⟨b.dc, (List.range 63).map fun n => b.zz.getD (across (n + 1) - 1) 0⟩

/-- A quantisation table with rows and columns exchanged. -/
def transposeTable (q : List Nat) : List Nat := (List.range 64).map fun n => q.getD (across n) 0

/-- The same sampling factors, the tables with rows and columns exchanged. -/
def AcrossScales (f f' : BaselineFile) : Prop :=
  List.Forall₂ (fun c c' => c.h = c'.h ∧ c.v = c'.v ∧ f'.quantOf c' = (f.quantOf c).map transposeTable) f.comps f'.comps

/-- `f'` is the picture of `f`, which has no subsampling, with rows and columns exchanged. -/
structure Transposed (f f' : BaselineFile) : Prop where
  scales : AcrossScales f f'
  x : f'.x = f.y
  y : f'.y = f.x
  mcus : ∀ R C, R < ceilDiv f.x 8 → C < ceilDiv f.y 8 →
    f'.mcuAt 1 R C = (f.mcuAt 1 C R).map fun m => m.map fun blocks => blocks.map transposeBlock

/-- `f'` is the picture of `f`, which has no subsampling, turned clockwise by a quarter; all lines of the last MCUs
belong to the picture. -/
structure Turned (f f' : BaselineFile) : Prop where
  scales : AcrossScales f f'
  x : f'.x = f.y
  y : f'.y = f.x
  whole : f.y % 8 = 0
  mcus : ∀ R C, R < ceilDiv f.x 8 → C < f.y / 8 →
    f'.mcuAt 1 R C = (f.mcuAt 1 (f.y / 8 - 1 - C) R).map fun m => m.map fun blocks =>
      blocks.map fun b => transposeBlock (flipBlock b)

end Jpeg.Spec
