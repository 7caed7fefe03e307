import Verif.Model.Basic
/-!
# Zigzag order and quantisation tables (`src/lib.rs`)
-/

namespace Jpeg

/-- lib.rs:442-446 `UNZIGZAG`. -/
def UNZIGZAG : List Nat := [
    0, 1, 8, 16, 9, 2, 3, 10, 17, 24, 32, 25, 18, 11, 4, 5, 12, 19, 26, 33, 40, 48, 41, 34, 27, 20,
    13, 6, 7, 14, 21, 28, 35, 42, 49, 56, 57, 50, 43, 36, 29, 22, 15, 23, 30, 37, 44, 51, 58, 59,
    52, 45, 38, 31, 39, 46, 53, 60, 61, 54, 47, 55, 62, 63]

/-- lib.rs:448-453 `unzigzag`: `out[UNZIGZAG[index]] = value`. The bounds checked table access
panics for `index ≥ 64`; the unchecked write is the failure `unchecked` when out of bounds. -/
def unzigzag {α : Type} (out : List α) (index : Nat) (value : α) : Except Fail (List α) :=
  match UNZIGZAG[index]? with
  | none => .error (.panic .index)
  | some p => if p < out.length then .ok (out.set p value) else .error (.panic .unchecked)

/-- lib.rs:461-463, the loop `for j in 0..64` of `QuantizationTable::new`; `j` counts up,
`fuel` is the number of rounds left. -/
def quantGo (table : List Nat) : Nat → Nat → List Nat → Except Fail (List Nat)
  | 0, _, out => .ok out
  | fuel + 1, j, out =>
    match table[j]? with
    | none => .error (.panic .index)
    | some v =>
      match unzigzag out j v with
      | .error f => .error f
      | .ok out => quantGo table fuel (j + 1) out

/-- lib.rs:458-466 `QuantizationTable::new`. `table` is `dqt.table`, 64 entries in file order. -/
def quantizationTable (table : List Nat) : Except Fail (List Nat) :=
  quantGo table 64 0 (List.replicate 64 0)

end Jpeg
