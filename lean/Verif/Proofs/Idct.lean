import Verif.Model.Idct
import Verif.Spec.Idct
import Mathlib.Data.BitVec
import Mathlib.Tactic.Ring
import Mathlib.Tactic.NormNum
import Mathlib.Tactic.IntervalCases
/-!
# Inverse DCT
-/

namespace Jpeg
open Spec

theorem shl12 (x : W32) : x <<< 12 = x * ((4096 : Int) : W32) := by
  rw [BitVec.shiftLeft_eq_mul_twoPow]; rfl

theorem castToInt (x : W32) : ((x.toInt : Int) : W32) = x := BitVec.ofInt_toInt

theorem constants : C0_541 = ((2217 : Int) : W32) ∧ Cm1_847 = ((-7567 : Int) : W32) ∧
    C0_765 = ((3135 : Int) : W32) ∧ C1_175 = ((4816 : Int) : W32) ∧ C0_298 = ((1223 : Int) : W32) ∧
    C2_053 = ((8410 : Int) : W32) ∧ C3_072 = ((12586 : Int) : W32) ∧ C1_501 = ((6149 : Int) : W32) ∧
    Cm0_899 = ((-3685 : Int) : W32) ∧ Cm2_562 = ((-10497 : Int) : W32) ∧
    Cm1_961 = ((-8034 : Int) : W32) ∧ Cm0_390 = ((-1597 : Int) : W32) := by
  refine ⟨?_, ?_, ?_, ?_, ?_, ?_, ?_, ?_, ?_, ?_, ?_, ?_⟩ <;> rfl

/-- The eight outputs of a kernel, in order. -/
def kernelOut (k : Kernel) : List W32 :=
  [k.x0 + k.t3, k.x1 + k.t2, k.x2 + k.t1, k.x3 + k.t0, k.x3 - k.t0, k.x2 - k.t1, k.x1 - k.t2,
    k.x0 - k.t3]

theorem kernel_linear (s0 s1 s2 s3 s4 s5 s6 s7 x : Int) :
    kernelOut (kernel (s0 : W32) (s1 : W32) (s2 : W32) (s3 : W32) (s4 : W32) (s5 : W32) (s6 : W32)
      (s7 : W32) (x : W32)) =
      idctMatrix.map fun row => ((dot row [s0, s1, s2, s3, s4, s5, s6, s7] + x : Int) : W32) := by
  obtain ⟨h1, h2, h3, h4, h5, h6, h7, h8, h9, h10, h11, h12⟩ := constants
  simp only [kernelOut, kernel, idctMatrix, List.map_cons, List.map_nil, dot, List.zipWith_cons_cons,
    List.zipWith_nil_left, List.sum_cons, List.sum_nil, stbiFsh, shl12, h1, h2, h3, h4, h5, h6, h7,
    h8, h9, h10, h11, h12, ← Int.cast_add, ← Int.cast_mul, ← Int.cast_sub]
  refine List.cons_eq_cons.2 ⟨?_, List.cons_eq_cons.2 ⟨?_, List.cons_eq_cons.2 ⟨?_,
    List.cons_eq_cons.2 ⟨?_, List.cons_eq_cons.2 ⟨?_, List.cons_eq_cons.2 ⟨?_,
    List.cons_eq_cons.2 ⟨?_, List.cons_eq_cons.2 ⟨?_, rfl⟩⟩⟩⟩⟩⟩⟩⟩ <;> (congr 1; ring)

/-! ## Bit vectors and integers -/

theorem toInt_cast {z : Int} (h1 : -2 ^ 31 ≤ z) (h2 : z < 2 ^ 31) : ((z : Int) : W32).toInt = z := by
  show (BitVec.ofInt 32 z).toInt = z
  rw [BitVec.toInt_ofInt, Int.bmod_eq_of_le (by norm_num; omega) (by norm_num; omega)]

theorem sar_cast {z : Int} (h1 : -2 ^ 31 ≤ z) (h2 : z < 2 ^ 31) (n : Nat) :
    ((z : Int) : W32).sshiftRight n = ((z / 2 ^ n : Int) : W32) := by
  apply BitVec.eq_of_toInt_eq
  have hp : (0 : Int) < 2 ^ n := Int.pow_pos (by omega)
  have h3 : -2 ^ 31 ≤ z / 2 ^ n := by
    rw [Int.le_ediv_iff_mul_le hp]
    have : (-2 ^ 31 : Int) * 2 ^ n ≤ -2 ^ 31 * 1 := by
      have : (1 : Int) ≤ 2 ^ n := hp
      omega
    omega
  have h4 : z / 2 ^ n < 2 ^ 31 := by
    rcases Int.lt_or_le z 0 with h | h
    · have := Int.ediv_neg_of_neg_of_pos h hp; omega
    · have := Int.ediv_le_self (2 ^ n) h; omega
  rw [BitVec.toInt_sshiftRight, toInt_cast h1 h2, toInt_cast h3 h4, Int.shiftRight_eq_div_pow]
  norm_cast

theorem cast_add_mod (z : Int) : (((z : Int) : W32).toNat : Int) = z % 2 ^ 32 := by
  show ((BitVec.ofInt 32 z).toNat : Int) = _
  rw [BitVec.toNat_ofInt]
  omega

/-! ## Clamping -/

theorem clampTable (i : Nat) (h : i < 1024) :
    CLAMP_TABLE[i]? = some (saturate ((i : Int) - 256)) := by
  have : CLAMP_TABLE = (List.range 1024).map fun i : Nat => saturate ((i : Int) - 256) := by
    decide +kernel
  rw [this, List.getElem?_map, List.getElem?_range h, Option.map_some]

theorem clampIndex_eq (x : W32) : clampIndex x = ((x.toInt + 256) % 1024).toNat := by
  unfold clampIndex
  have h1 : ((x + 256#32) &&& 0x3FF#32).toNat = (x.toNat + 256) % 1024 := by
    rw [BitVec.toNat_and, BitVec.toNat_add]
    show ((x.toNat + 256) % 2 ^ 32) &&& 1023 = _
    rw [show (1023 : Nat) = 2 ^ 10 - 1 by norm_num, Nat.and_two_pow_sub_one_eq_mod]
    omega
  have h2 : x.toInt % 2 ^ 32 = x.toNat := by
    have := x.isLt
    rw [BitVec.toInt_eq_toNat_cond]
    split <;> omega
  rw [h1]
  omega

/-- The clamp function on all inputs: the value is reduced to `-256..767` modulo 1024 first. -/
theorem stbiClamp_eq (x : W32) :
    stbiClamp x = saturate ((x.toInt + 256) % 1024 - 256) := by
  unfold stbiClamp
  rw [clampIndex_eq, clampTable _ (by omega), Option.getD_some]
  congr 1
  omega

/-! ## The intermediate array -/

theorem writeColumn_length (temp : List (Option W32)) (i : Nat) (l : List W32) :
    ∀ j, (writeColumn temp i j l).length = temp.length := by
  induction l with
  | nil => intro j; rfl
  | cons x l ih => intro j; rw [writeColumn, List.length_set, ih]

theorem writeColumn_get (temp : List (Option W32)) (i : Nat) (hi : i < 8) (l : List W32) :
    ∀ j, temp.length = 64 → j + l.length ≤ 8 → ∀ p, p < 64 →
    (writeColumn temp i j l)[p]? =
      if p % 8 = i ∧ j ≤ p / 8 ∧ p / 8 < j + l.length then some (l[p / 8 - j]?) else temp[p]? := by
  induction l with
  | nil =>
    intro j _ _ p _
    rw [writeColumn, if_neg (by simp only [List.length_nil]; omega)]
  | cons x l ih =>
    intro j ht hj p hp
    rw [List.length_cons] at hj
    rw [writeColumn, List.getElem?_set]
    by_cases he : i + 8 * j = p
    · rw [if_pos he, if_pos (by rw [writeColumn_length, ht]; omega),
        if_pos (by simp only [List.length_cons]; omega), show p / 8 - j = 0 by omega]
      rfl
    · rw [if_neg he, ih (j + 1) ht (by omega) p hp]
      by_cases hc : p % 8 = i ∧ j + 1 ≤ p / 8 ∧ p / 8 < j + 1 + l.length
      · rw [if_pos hc, if_pos (by simp only [List.length_cons]; omega),
          show p / 8 - j = p / 8 - (j + 1) + 1 by omega, List.getElem?_cons_succ]
      · rw [if_neg hc, if_neg (by simp only [List.length_cons]; omega)]

theorem idctColumn_length (c : List Int) (q : List Nat) (i : Nat) :
    (idctColumn c q i).length = 8 := by
  unfold idctColumn
  split <;> rfl

theorem idctColumns_length (c : List Int) (q : List Nat) (n : Nat) :
    (idctColumns c q n).length = 64 := by
  induction n with
  | zero => rfl
  | succ n ih => rw [idctColumns, writeColumn_length, ih]

theorem idctColumns_get (c : List Int) (q : List Nat) (n : Nat) (hn : n ≤ 8) (p : Nat) (hp : p < 64) :
    (idctColumns c q n)[p]? =
      some (if p % 8 < n then (idctColumn c q (p % 8))[p / 8]? else none) := by
  induction n with
  | zero =>
    rw [idctColumns, List.getElem?_replicate, if_pos hp, if_neg (by omega)]
  | succ n ih =>
    rw [idctColumns, writeColumn_get _ _ (by omega) _ _ (idctColumns_length c q n)
      (by rw [idctColumn_length]) p hp, idctColumn_length, ih (by omega)]
    by_cases h : p % 8 = n
    · rw [if_pos (by omega), if_pos (by omega), h]; rfl
    · rw [if_neg (by omega)]
      by_cases h2 : p % 8 < n
      · rw [if_pos h2, if_pos (by omega)]
      · rw [if_neg h2, if_neg (by omega)]

theorem assumeInit_map (l : List W32) : assumeInit (l.map some) = .ok l := by
  induction l with
  | nil => rfl
  | cons x l ih => rw [List.map_cons, assumeInit, ih]

/-- The intermediate values, row by row. -/
def idctTemp (c : List Int) (q : List Nat) (p : Nat) : W32 :=
  ((idctColumn c q (p % 8))[p / 8]?).getD 0

theorem idct8x8_temp (c : List Int) (q : List Nat) :
    idct8x8 c q = .ok (idctRows ((List.range 64).map (idctTemp c q))) := by
  have : idctColumns c q 8 = ((List.range 64).map (idctTemp c q)).map some := by
    apply List.ext_getElem?
    intro p
    by_cases hp : p < 64
    · rw [idctColumns_get c q 8 (le_refl _) p hp, if_pos (by omega), List.map_map,
        List.getElem?_map, List.getElem?_range hp, Option.map_some]
      simp only [Function.comp, idctTemp]
      rw [List.getElem?_eq_getElem (by rw [idctColumn_length]; omega)]
      rfl
    · rw [List.getElem?_eq_none (by rw [idctColumns_length]; omega),
        List.getElem?_eq_none (by simp; omega)]
  unfold idct8x8
  rw [this, assumeInit_map]

theorem idctRows_range (f : Nat → W32) :
    idctRows ((List.range 64).map f) = (List.range 8).map fun r =>
      idctRow (f (8 * r)) (f (8 * r + 1)) (f (8 * r + 2)) (f (8 * r + 3)) (f (8 * r + 4))
        (f (8 * r + 5)) (f (8 * r + 6)) (f (8 * r + 7)) := by
  rfl

/-! ## The two passes over the integers -/

/-- Dequantised coefficient in row `k`, column `i`. -/
def coefAt (c : List Int) (q : List Nat) (k i : Nat) : Int := coef c (i + 8 * k) * quant q (i + 8 * k)

theorem dot_bound {row : List Int} (hrow : row ∈ idctMatrix) {B s0 s1 s2 s3 s4 s5 s6 s7 : Int}
    (h0 : -B ≤ s0 ∧ s0 ≤ B) (h1 : -B ≤ s1 ∧ s1 ≤ B) (h2 : -B ≤ s2 ∧ s2 ≤ B) (h3 : -B ≤ s3 ∧ s3 ≤ B)
    (h4 : -B ≤ s4 ∧ s4 ≤ B) (h5 : -B ≤ s5 ∧ s5 ≤ B) (h6 : -B ≤ s6 ∧ s6 ≤ B)
    (h7 : -B ≤ s7 ∧ s7 ≤ B) :
    -(30610 * B) ≤ dot row [s0, s1, s2, s3, s4, s5, s6, s7] ∧
      dot row [s0, s1, s2, s3, s4, s5, s6, s7] ≤ 30610 * B := by
  simp only [idctMatrix, List.mem_cons, List.not_mem_nil, or_false] at hrow
  rcases hrow with rfl | rfl | rfl | rfl | rfl | rfl | rfl | rfl <;>
    simp only [dot, List.zipWith_cons_cons, List.zipWith_nil_left, List.sum_cons, List.sum_nil] <;>
    constructor <;> omega

theorem idctMatrixRow_mem {j : Nat} (h : j < 8) : idctMatrixRow j ∈ idctMatrix := by
  interval_cases j <;> simp [idctMatrixRow, idctMatrix]

/-- One column through the kernel, no bounds. -/
def idctColumnKernel (F : Nat → Nat → Int) (i : Nat) : List W32 :=
  (List.range 8).map fun j =>
    ((dot (idctMatrixRow j) ((List.range 8).map fun k => F k i) + 512 : Int) : W32).sshiftRight 10

theorem dequant_cast (c : Int) (q : Nat) : dequant c q = ((c * q : Int) : W32) := rfl

theorem idctColumn_eq (c : List Int) (q : List Nat) (i : Nat) :
    idctColumn c q i =
      if coef c (i + 8) = 0 ∧ coef c (i + 16) = 0 ∧ coef c (i + 24) = 0 ∧ coef c (i + 32) = 0 ∧
        coef c (i + 40) = 0 ∧ coef c (i + 48) = 0 ∧ coef c (i + 56) = 0 then
        List.replicate 8 ((4 * coefAt c q 0 i : Int) : W32)
      else idctColumnKernel (coefAt c q) i := by
  unfold idctColumn
  split
  · have : dequant (coef c i) (quant q i) <<< 2 = ((4 * coefAt c q 0 i : Int) : W32) := by
      rw [BitVec.shiftLeft_eq_mul_twoPow, dequant_cast]
      show _ * ((4 : Int) : W32) = _
      rw [← Int.cast_mul]
      congr 1
      unfold coefAt
      rw [Int.mul_comm]
      rfl
    simp only [this]
    rfl
  · have := kernel_linear (coefAt c q 0 i) (coefAt c q 1 i) (coefAt c q 2 i) (coefAt c q 3 i)
      (coefAt c q 4 i) (coefAt c q 5 i) (coefAt c q 6 i) (coefAt c q 7 i) 512
    have h := congrArg (List.map fun x : W32 => x.sshiftRight 10) this
    exact h

theorem idctColumnKernel_exact {F : Nat → Nat → Int} {i : Nat}
    (hF : ∀ k, k < 8 → -2 ^ 16 ≤ F k i ∧ F k i ≤ 2 ^ 16) :
    idctColumnKernel F i = (List.range 8).map fun j => ((idctPass1 F j i : Int) : W32) := by
  unfold idctColumnKernel
  apply List.map_congr_left
  intro j hj
  rw [List.mem_range] at hj
  have hb := dot_bound (idctMatrixRow_mem hj) (hF 0 (by omega)) (hF 1 (by omega)) (hF 2 (by omega))
    (hF 3 (by omega)) (hF 4 (by omega)) (hF 5 (by omega)) (hF 6 (by omega)) (hF 7 (by omega))
  unfold idctPass1
  rw [show (List.range 8).map (fun k => F k i) =
    [F 0 i, F 1 i, F 2 i, F 3 i, F 4 i, F 5 i, F 6 i, F 7 i] from rfl]
  rw [sar_cast (by omega) (by omega)]
  rfl

theorem idctPass1_bound {F : Nat → Nat → Int} {i j : Nat} (hj : j < 8)
    (hF : ∀ k, k < 8 → -2 ^ 11 ≤ F k i ∧ F k i ≤ 2 ^ 11) :
    -61221 ≤ idctPass1 F j i ∧ idctPass1 F j i ≤ 61221 := by
  have hb := dot_bound (idctMatrixRow_mem hj) (hF 0 (by omega)) (hF 1 (by omega)) (hF 2 (by omega))
    (hF 3 (by omega)) (hF 4 (by omega)) (hF 5 (by omega)) (hF 6 (by omega)) (hF 7 (by omega))
  unfold idctPass1
  rw [show (List.range 8).map (fun k => F k i) =
    [F 0 i, F 1 i, F 2 i, F 3 i, F 4 i, F 5 i, F 6 i, F 7 i] from rfl]
  omega

theorem idctPass1_dc {F : Nat → Nat → Int} {i j : Nat} (hj : j < 8)
    (hF : ∀ k, 1 ≤ k → k < 8 → F k i = 0) : idctPass1 F j i = 4 * F 0 i := by
  unfold idctPass1
  rw [show (List.range 8).map (fun k => F k i) =
    [F 0 i, F 1 i, F 2 i, F 3 i, F 4 i, F 5 i, F 6 i, F 7 i] from rfl]
  rw [hF 1 (by omega) (by omega), hF 2 (by omega) (by omega), hF 3 (by omega) (by omega),
    hF 4 (by omega) (by omega), hF 5 (by omega) (by omega), hF 6 (by omega) (by omega),
    hF 7 (by omega) (by omega)]
  interval_cases j <;>
    simp only [idctMatrixRow, idctMatrix, List.getD_eq_getElem?_getD, List.getElem?_cons_zero,
      List.getElem?_cons_succ, Option.getD_some, dot, List.zipWith_cons_cons, List.zipWith_nil_left,
      List.sum_cons, List.sum_nil] <;> omega

/-- The condition of the column shortcut in terms of the dequantised values. -/
theorem coefAt_zero {c : List Int} {q : List Nat} {i : Nat}
    (h : coef c (i + 8) = 0 ∧ coef c (i + 16) = 0 ∧ coef c (i + 24) = 0 ∧ coef c (i + 32) = 0 ∧
        coef c (i + 40) = 0 ∧ coef c (i + 48) = 0 ∧ coef c (i + 56) = 0) (k : Nat) (h1 : 1 ≤ k)
    (h8 : k < 8) : coefAt c q k i = 0 := by
  obtain ⟨e1, e2, e3, e4, e5, e6, e7⟩ := h
  unfold coefAt
  interval_cases k <;> simp only [Nat.mul_one, Nat.reduceMul, e1, e2, e3, e4, e5, e6, e7, Int.zero_mul]

/-- A column without wrapping: either only its first coefficient is present or all are moderate. -/
def ColumnOk (c : List Int) (q : List Nat) (i : Nat) : Prop :=
  (∀ k, 1 ≤ k → k < 8 → coef c (i + 8 * k) = 0) ∨
    ∀ k, k < 8 → -2 ^ 16 ≤ coefAt c q k i ∧ coefAt c q k i ≤ 2 ^ 16

theorem idctColumn_exact {c : List Int} {q : List Nat} {i : Nat} (hF : ColumnOk c q i) :
    idctColumn c q i = (List.range 8).map fun j => ((idctPass1 (coefAt c q) j i : Int) : W32) := by
  rw [idctColumn_eq]
  split
  · rename_i h
    rw [show List.replicate 8 ((4 * coefAt c q 0 i : Int) : W32) =
      (List.range 8).map fun _ => ((4 * coefAt c q 0 i : Int) : W32) from rfl]
    apply List.map_congr_left
    intro j hj
    rw [List.mem_range] at hj
    rw [idctPass1_dc hj fun k h1 h2 => coefAt_zero h k h1 h2]
  · rename_i h
    rcases hF with hF | hF
    · exact absurd ⟨hF 1 (by omega) (by omega), hF 2 (by omega) (by omega), hF 3 (by omega) (by omega),
        hF 4 (by omega) (by omega), hF 5 (by omega) (by omega), hF 6 (by omega) (by omega),
        hF 7 (by omega) (by omega)⟩ h
    · exact idctColumnKernel_exact hF

/-- One row through the kernel, no bounds. -/
def idctRowKernel (t : List Int) : List UInt8 :=
  (List.range 8).map fun x => stbiClamp
    (((dot (idctMatrixRow x) t + 16842752 : Int) : W32).sshiftRight 17)

theorem X_SCALE_cast : X_SCALE = ((16842752 : Int) : W32) := by rfl

/-- The row shortcut never makes a difference. -/
theorem idctRow_eq (s0 s1 s2 s3 s4 s5 s6 s7 : Int) :
    idctRow (s0 : W32) (s1 : W32) (s2 : W32) (s3 : W32) (s4 : W32) (s5 : W32) (s6 : W32) (s7 : W32) =
      idctRowKernel [s0, s1, s2, s3, s4, s5, s6, s7] := by
  have hk := kernel_linear s0 s1 s2 s3 s4 s5 s6 s7 16842752
  have h := congrArg (List.map fun x : W32 => stbiClamp (x.sshiftRight 17)) hk
  have hk2 : idctRow (s0 : W32) (s1 : W32) (s2 : W32) (s3 : W32) (s4 : W32) (s5 : W32) (s6 : W32)
      (s7 : W32) = (kernelOut (kernel (s0 : W32) (s1 : W32) (s2 : W32) (s3 : W32) (s4 : W32)
        (s5 : W32) (s6 : W32) (s7 : W32) ((16842752 : Int) : W32))).map
          fun x : W32 => stbiClamp (x.sshiftRight 17) := by
    unfold idctRow
    split
    · rename_i hz
      obtain ⟨e1, e2, e3, e4, e5, e6, e7⟩ := hz
      rw [e1, e2, e3, e4, e5, e6, e7, X_SCALE_cast]
      generalize ((s0 : Int) : W32) = v
      generalize ((16842752 : Int) : W32) = x
      have hz : ∀ y : W32, 0#32 * y = 0#32 := fun y => by simp
      simp [kernelOut, kernel, stbiFsh]
    · rw [X_SCALE_cast]; rfl
  rw [hk2]
  exact h

/-- Arithmetic shift by 17 of a wrapped value, modulo 1024: wrapping does not show. -/
theorem sar17_mod (z : Int) : (((z : Int) : W32).sshiftRight 17).toInt % 1024 = z / 131072 % 1024 := by
  rw [BitVec.toInt_sshiftRight, Int.shiftRight_eq_div_pow]
  have h : ((z : Int) : W32).toInt = z.bmod (2 ^ 32) := BitVec.toInt_ofInt ..
  have h2 := Int.bmod_def z (2 ^ 32)
  rw [h, h2]
  norm_num
  split <;> omega

theorem idctRowKernel_exact (t : Nat → Int) :
    idctRowKernel ((List.range 8).map t) = (List.range 8).map fun x =>
      saturate (((dot (idctMatrixRow x) ((List.range 8).map t) + 65536) / 131072 + 128 + 256) % 1024
        - 256) := by
  unfold idctRowKernel
  apply List.map_congr_left
  intro x hx
  generalize dot (idctMatrixRow x) _ = d
  rw [stbiClamp_eq]
  have := sar17_mod (d + 16842752)
  congr 2
  omega

/-- The whole transform. -/
theorem idct8x8_exact {c : List Int} {q : List Nat} (hF : ∀ i, i < 8 → ColumnOk c q i) :
    idct8x8 c q = .ok ((List.range 8).map fun r => (List.range 8).map fun x =>
      saturate ((idctSample (coefAt c q) r x + 256) % 1024 - 256)) := by
  rw [idct8x8_temp, idctRows_range]
  congr 1
  apply List.map_congr_left
  intro r hr
  rw [List.mem_range] at hr
  have ht : ∀ i, i < 8 → idctTemp c q (8 * r + i) = ((idctPass1 (coefAt c q) r i : Int) : W32) := by
    intro i hi
    unfold idctTemp
    rw [show (8 * r + i) % 8 = i by omega, show (8 * r + i) / 8 = r by omega,
      idctColumn_exact (hF i hi), List.getElem?_map, List.getElem?_range hr]
    rfl
  rw [show 8 * r = 8 * r + 0 from rfl, ht 0 (by omega), ht 1 (by omega), ht 2 (by omega),
    ht 3 (by omega), ht 4 (by omega), ht 5 (by omega), ht 6 (by omega), ht 7 (by omega), idctRow_eq]
  exact idctRowKernel_exact fun k => idctPass1 (coefAt c q) r k

theorem idctSample_dc {F : Nat → Nat → Int} {r x : Nat} (hr : r < 8) (hx : x < 8)
    (hF : ∀ k i, k < 8 → i < 8 → (k, i) ≠ (0, 0) → F k i = 0) :
    idctSample F r x = (F 0 0 + 4) / 8 + 128 := by
  have h0 : idctPass1 F r 0 = 4 * F 0 0 :=
    idctPass1_dc hr fun k h1 h2 => hF k 0 h2 (by omega) (by simp; omega)
  have hi : ∀ i, 1 ≤ i → i < 8 → idctPass1 F r i = 0 := by
    intro i h1 h2
    rw [idctPass1_dc hr fun k h1' h2' => hF k i h2' h2 (by simp; omega),
      hF 0 i (by omega) h2 (by simp; omega)]
    rfl
  unfold idctSample
  rw [show (List.range 8).map (fun k => idctPass1 F r k) = [idctPass1 F r 0, idctPass1 F r 1,
    idctPass1 F r 2, idctPass1 F r 3, idctPass1 F r 4, idctPass1 F r 5, idctPass1 F r 6,
    idctPass1 F r 7] from rfl]
  rw [h0, hi 1 (by omega) (by omega), hi 2 (by omega) (by omega), hi 3 (by omega) (by omega),
    hi 4 (by omega) (by omega), hi 5 (by omega) (by omega), hi 6 (by omega) (by omega),
    hi 7 (by omega) (by omega)]
  interval_cases x <;>
    simp only [idctMatrixRow, idctMatrix, List.getD_eq_getElem?_getD, List.getElem?_cons_zero,
      List.getElem?_cons_succ, Option.getD_some, dot, List.zipWith_cons_cons, List.zipWith_nil_left,
      List.sum_cons, List.sum_nil] <;> omega

end Jpeg
