import Verif.Spec.Requantised
/-!
# Specification: pictures added and negatives

The inverse transform is linear: a picture whose (dequantised) coefficients are the sums of those of two pictures is the
sum of the two, as differences from 128; with all signs changed it is the negative.
-/

namespace Jpeg.Spec

/-- Same size and sampling factors. -/
structure SameShape (f f' : BaselineFile) : Prop where
  x : f.x = f'.x
  y : f.y = f'.y
  factors : List.Forall₂ (fun c c' => c.h = c'.h ∧ c.v = c'.v) f.comps f'.comps

/-- The coefficients of `s` are the sums of those of `f` and `g`. -/
structure Added (f g s : BaselineFile) : Prop where
  left : SameShape f s
  right : SameShape g s
  sums : ∀ n i j k l a b, k < 8 → l < 8 → f.coefficient n i j k l = some a → g.coefficient n i j k l = some b →
    s.coefficient n i j k l = some (a + b)

/-- The coefficients of `g` are those of `f` with the other sign. -/
structure Negated (f g : BaselineFile) : Prop where
  shape : SameShape f g
  signs : ∀ n i j k l a, k < 8 → l < 8 → f.coefficient n i j k l = some a → g.coefficient n i j k l = some (-a)

/-- No value of a component leaves the range of a sample (and the coefficients are at most `2^16` in magnitude). -/
def BaselineFile.Unclipped (f : BaselineFile) : Prop :=
  ∀ (i : Nat) (c : FileComponent) (q : List Nat), f.comps[i]? = some c → f.quantOf c = some q →
    ∀ m ∈ f.intervals.flatten, ∀ blocks, m[i]? = some blocks → ∀ b ∈ blocks,
      (∀ k j, k < 8 → j < 8 → -2 ^ 16 ≤ dequantised q b k j ∧ dequantised q b k j ≤ 2 ^ 16) ∧
      ∀ k j, k < 8 → j < 8 → 0 ≤ idctSample (dequantised q b) k j ∧ idctSample (dequantised q b) k j ≤ 255

/-- `v` is the sum of `a` and `b`, as differences from 128, limited to 0..255, up to `e`; if neither `a` nor `b` has
been limited itself. -/
def SumOf (e : Int) (a b v : UInt8) : Prop :=
  0 < a.toNat → a.toNat < 255 → 0 < b.toNat → b.toNat < 255 →
    max 0 (min ((a.toNat : Int) + b.toNat - 128) 255) - e ≤ v.toNat ∧
      (v.toNat : Int) ≤ max 0 (min ((a.toNat : Int) + b.toNat - 128) 255) + e

/-- `b` is as far below 128 as `a` is above, up to `e`; if neither has been limited. -/
def NegativeOf (e : Int) (a b : UInt8) : Prop :=
  0 < a.toNat → a.toNat < 255 → 0 < b.toNat → b.toNat < 255 →
    256 - e ≤ (a.toNat : Int) + b.toNat ∧ (a.toNat : Int) + b.toNat ≤ 256 + e

end Jpeg.Spec
