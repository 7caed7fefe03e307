import Verif.Spec.Baseline
import Verif.Spec.IdctReal
/-!
# Specification: the picture of a file in exact arithmetic

Inverse DCT, upsampling and colour conversion over the reals, without rounding anywhere.
-/

namespace Jpeg.Spec

open Finset

/-- Limiting to the range of a sample. -/
noncomputable def limitReal (v : ℝ) : ℝ := max 0 (min v 255)

/-- Weighted mean `3:1`. -/
noncomputable def triReal (near far : ℝ) : ℝ := (3 * near + far) / 4

/-- `doubleLine` without rounding. -/
noncomputable def doubleLineReal (w : Nat) (f : Nat → ℝ) (x : Nat) : ℝ :=
  if x = 0 then f 0
  else if x = 2 * w - 1 then f (w - 1)
  else if x % 2 = 0 then triReal (f (x / 2)) (f (x / 2 - 1))
  else triReal (f (x / 2)) (f (x / 2 + 1))

/-- `doubleRows` without rounding. -/
noncomputable def doubleRowsReal (h : Nat) (f : Nat → Nat → ℝ) (row x : Nat) : ℝ :=
  triReal (f (row / 2) x) (f (farRow h row) x)

/-- Both directions: the weights are `9:3:3:1`. -/
noncomputable def doubleBothReal (w h : Nat) (f : Nat → Nat → ℝ) (row x : Nat) : ℝ :=
  doubleLineReal w (doubleRowsReal h f row) x

/-- The upsampled component, see `upsampled`. -/
noncomputable def upsampledReal (x0 y0 hmax vmax ch cv w h : Nat) (f : Nat → Nat → ℝ) (row x : Nat) : ℝ :=
  if (ch = hmax ∨ x0 = 1) ∧ (cv = vmax ∨ y0 = 1) then f row x
  else if 2 * ch = hmax ∧ (cv = vmax ∨ y0 = 1) then doubleLineReal w (f row) x
  else if (ch = hmax ∨ x0 = 1) ∧ 2 * cv = vmax then doubleRowsReal h f row x
  else if 2 * ch = hmax ∧ 2 * cv = vmax then doubleBothReal w h f row x
  else f (row / (vmax / cv)) (x / (hmax / ch))

namespace BaselineFile

variable (f : BaselineFile)

/-- Sample in row `Y`, column `X` of component `i` (A.3.3, level shift, limited). -/
noncomputable def exactSample (H i Y X : Nat) : ℝ :=
  match f.comps[i]? with
  | none => 0
  | some c =>
    match f.blockAt H i c Y X, f.quantOf c with
    | some b, some q => limitReal (128 + realIdct (fun k j => (dequantised q b k j : ℝ)) (Y % 8) (X % 8))
    | _, _ => 0

/-- Component `i` upsampled, in row `row`, column `col` of the picture. -/
noncomputable def exactUpsampled (H V i row col : Nat) : ℝ :=
  match f.comps[i]? with
  | none => 0
  | some c => upsampledReal f.x f.y H V c.h c.v (ceilDiv (f.x * c.h) H) (ceilDiv (f.y * c.v) V)
      (f.exactSample H i) row col

/-- The three channels of BT.601, from upsampled components. -/
noncomputable def exactRed (H V row col : Nat) : ℝ :=
  limitReal (f.exactUpsampled H V 0 row col + 1402 / 1000 * (f.exactUpsampled H V 2 row col - 128))
@[inherit_doc exactRed]
noncomputable def exactGreen (H V row col : Nat) : ℝ :=
  limitReal (f.exactUpsampled H V 0 row col - 34414 / 100000 * (f.exactUpsampled H V 1 row col - 128) -
    71414 / 100000 * (f.exactUpsampled H V 2 row col - 128))
@[inherit_doc exactRed]
noncomputable def exactBlue (H V row col : Nat) : ℝ :=
  limitReal (f.exactUpsampled H V 0 row col + 1772 / 1000 * (f.exactUpsampled H V 1 row col - 128))

/-- What rounding in the upsampling adds to the error of component `i`: nothing without subsampling. -/
noncomputable def upError (H V i : Nat) : ℝ :=
  match f.comps[i]? with
  | none => 0
  | some c => if c.h = H ∧ c.v = V then 0 else 1 / 2

/-- The coefficients of a block add up to at most `S` in magnitude (dequantised, `S` at most `2^16`), and no
exact value before limiting is more than 256 below or 512 above the sample range, up to the error `e`. -/
def Moderate (S e : ℝ) : Prop :=
  S ≤ 2 ^ 16 ∧
  ∀ (i : Nat) (c : FileComponent) (q : List Nat), f.comps[i]? = some c → f.quantOf c = some q →
    ∀ m ∈ f.intervals.flatten, ∀ blocks, m[i]? = some blocks → ∀ b ∈ blocks,
      ∑ j ∈ range 8, ∑ k ∈ range 8, |(dequantised q b k j : ℝ)| ≤ S ∧
      ∀ k j, k < 8 → j < 8 →
        -256 + e ≤ 128 + realIdct (fun k j => (dequantised q b k j : ℝ)) k j ∧
        128 + realIdct (fun k j => (dequantised q b k j : ℝ)) k j ≤ 767 - e

end BaselineFile

end Jpeg.Spec
