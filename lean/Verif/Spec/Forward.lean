import Verif.Spec.Exact
/-!
# Specification: an encoder, from the pixels to the quantised coefficients

BT.601, the forward DCT of T.81 (A.3.3), quantisation to nearest.
-/

namespace Jpeg.Spec

open Real Finset

/-- T.81 A.3.3: the coefficient in row `v`, column `u` of the block with the (level shifted) sample `s y x` in
row `y`, column `x`. -/
noncomputable def realFdct (s : Nat → Nat → ℝ) (v u : Nat) : ℝ :=
  1 / 4 * dctScale u * dctScale v * ∑ x ∈ range 8, ∑ y ∈ range 8, s y x *
    cos ((2 * x + 1) * u * π / 16) * cos ((2 * y + 1) * v * π / 16)

/-- The entry of a quantisation table (in zig-zag order) for the coefficient in row `k`, column `i`. -/
def tableEntry (q : List Nat) (k i : Nat) : Nat := q.getD (((List.range 64).map zigzag).idxOf (8 * k + i)) 0

/-- Euclidean length of a quantisation table. -/
noncomputable def tableNorm (q : List Nat) : ℝ := √(∑ j ∈ range 8, ∑ k ∈ range 8, (tableEntry q k j : ℝ) ^ 2)

/-- Luma, blue and red difference of BT.601 (JFIF). -/
noncomputable def lumaOf (r g b : ℝ) : ℝ := 299 / 1000 * r + 587 / 1000 * g + 114 / 1000 * b
@[inherit_doc lumaOf]
noncomputable def cbOf (r g b : ℝ) : ℝ := 128 + (b - lumaOf r g b) / (1772 / 1000)
@[inherit_doc lumaOf]
noncomputable def crOf (r g b : ℝ) : ℝ := 128 + (r - lumaOf r g b) / (1402 / 1000)

/-- A file of full resolution (all sampling factors 1) made by an encoder: component `i` has the sample
`s i Y X` in row `Y`, column `X`, also where blocks reach beyond the picture; the coefficients are those of the
forward DCT of the level shifted samples, divided by the table entries and rounded to nearest. -/
structure EncodedFrom (f : BaselineFile) (s : Nat → Nat → Nat → ℝ) : Prop where
  range : ∀ i Y X, 0 ≤ s i Y X ∧ s i Y X ≤ 255
  blocks : ∀ (i : Nat) (c : FileComponent) (q : List Nat), f.comps[i]? = some c → f.quantOf c = some q →
    ∀ row col b, row < ceilDiv f.y 8 → col < ceilDiv f.x 8 → f.blockAt 1 i c (8 * row) (8 * col) = some b →
      ∀ k j, k < 8 → j < 8 →
        |(dequantised q b k j : ℝ) - realFdct (fun y x => s i (8 * row + y) (8 * col + x) - 128) k j| ≤
          (tableEntry q k j : ℝ) / 2

end Jpeg.Spec
