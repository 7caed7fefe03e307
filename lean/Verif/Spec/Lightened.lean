import Verif.Spec.Local
/-!
# Specification: change of brightness without decoding

Adding `8 k` to the dequantised DC coefficient of a block adds `k` to each of its samples. So tools can make a picture
lighter or darker (or a CMYK picture lighter or darker in one ink) by changing DC coefficients only.
-/

namespace Jpeg.Spec

/-- A block with the DC coefficient changed so that, multiplied by the table entry, it is larger by `8 k`. -/
def LighterBlock (q : List Nat) (k : Int) (b b' : BlockData) : Prop :=
  b'.dc * (q.getD 0 0 : Nat) = b.dc * (q.getD 0 0 : Nat) + 8 * k ∧ b'.zz = b.zz

/-- `f'` is the picture of `f` with component `n` lighter by `k`; all other components are the same. -/
structure Lightened (f f' : BaselineFile) (n : Nat) (k : Int) : Prop where
  x : f.x = f'.x
  y : f.y = f'.y
  scales : SameScales f f'
  mcus : List.Forall₂ (fun m m' => (∀ i, i ≠ n → m'[i]? = m[i]?) ∧
    ∃ c q blocks blocks', f.comps[n]? = some c ∧ f.quantOf c = some q ∧ m[n]? = some blocks ∧ m'[n]? = some blocks' ∧
      List.Forall₂ (LighterBlock q k) blocks blocks') f.intervals.flatten f'.intervals.flatten

/-- `v'` is `v`, which has been limited to 0..255, plus `k`, limited likewise. -/
def Raised (k : Int) (v v' : UInt8) : Prop :=
  (0 < v.toNat → v.toNat < 255 → (v'.toNat : Int) = max 0 (min (v.toNat + k) 255)) ∧
  (v.toNat = 0 → (v'.toNat : Int) ≤ max 0 k) ∧ (v.toNat = 255 → 255 + min 0 k ≤ (v'.toNat : Int))

end Jpeg.Spec
