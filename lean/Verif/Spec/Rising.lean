import Verif.Spec.Baseline
/-!
# Specification: rows and columns of samples in order, and straight ramps
-/

namespace Jpeg.Spec

/-- In `h` rows of `w` samples no sample is smaller than the one to its left. -/
def RowsRise (w h : Nat) (f : Nat → Nat → Nat) : Prop := ∀ r i, r < h → i + 1 < w → f r i ≤ f r (i + 1)

/-- In `h` rows of `w` samples no sample is larger than the one to its left. -/
def RowsFall (w h : Nat) (f : Nat → Nat → Nat) : Prop := ∀ r i, r < h → i + 1 < w → f r (i + 1) ≤ f r i

/-- In `w` columns of `h` samples no sample is smaller than the one above it. -/
def ColumnsRise (w h : Nat) (f : Nat → Nat → Nat) : Prop := ∀ r i, r + 1 < h → i < w → f r i ≤ f (r + 1) i

/-- In `w` columns of `h` samples no sample is larger than the one above it. -/
def ColumnsFall (w h : Nat) (f : Nat → Nat → Nat) : Prop := ∀ r i, r + 1 < h → i < w → f (r + 1) i ≤ f r i

/-- `h` rows of `w` samples that change by `4 k` from column to column and by `4 m` from row to row. -/
def Ramp (w h : Nat) (f : Nat → Nat → Nat) (a k m : Int) : Prop :=
  ∀ r i, r < h → i < w → (f r i : Int) = a + 4 * k * i + 4 * m * r

/-- The samples of component `i` rise (do not get smaller) from left to right. -/
def BaselineFile.Rises (f : BaselineFile) (H V i : Nat) : Prop :=
  ∀ c, f.comps[i]? = some c →
    RowsRise (ceilDiv (f.x * c.h) H) (ceilDiv (f.y * c.v) V) fun Y X => (f.sample H i Y X).toNat

/-- The samples of component `i` fall (do not get larger) from left to right. -/
def BaselineFile.Falls (f : BaselineFile) (H V i : Nat) : Prop :=
  ∀ c, f.comps[i]? = some c →
    RowsFall (ceilDiv (f.x * c.h) H) (ceilDiv (f.y * c.v) V) fun Y X => (f.sample H i Y X).toNat

/-- The samples of component `i` rise (do not get smaller) from top to bottom. -/
def BaselineFile.RisesDown (f : BaselineFile) (H V i : Nat) : Prop :=
  ∀ c, f.comps[i]? = some c →
    ColumnsRise (ceilDiv (f.x * c.h) H) (ceilDiv (f.y * c.v) V) fun Y X => (f.sample H i Y X).toNat

/-- The samples of component `i` fall (do not get larger) from top to bottom. -/
def BaselineFile.FallsDown (f : BaselineFile) (H V i : Nat) : Prop :=
  ∀ c, f.comps[i]? = some c →
    ColumnsFall (ceilDiv (f.x * c.h) H) (ceilDiv (f.y * c.v) V) fun Y X => (f.sample H i Y X).toNat

end Jpeg.Spec
