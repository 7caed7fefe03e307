import Verif.Proofs.Idct
import Verif.Spec.IdctReal
import Mathlib.Analysis.Real.Sqrt
import Mathlib.Analysis.SpecialFunctions.Trigonometric.Bounds
import Mathlib.Tactic.LinearCombination
import Mathlib.Tactic.NormNum
import Mathlib.Tactic.Positivity
import Mathlib.Tactic.FieldSimp
import Mathlib.Algebra.Order.BigOperators.Ring.Finset
import Mathlib.Algebra.BigOperators.Field
/-!
# Accuracy of the fixed point transform
-/

namespace Jpeg
open Spec Real Finset

/-- `cos (m π / 16)`. -/
noncomputable def cos16 (m : Nat) : ℝ := cos (m * π / 16)

theorem cos16_add (m : Nat) : cos16 (m + 16) = -cos16 m := by
  unfold cos16
  rw [show ((m + 16 : Nat) : ℝ) * π / 16 = m * π / 16 + π by push_cast; ring, cos_add_pi]

theorem cos16_sub (m n : Nat) (h : m + n = 16) : cos16 n = -cos16 m := by
  unfold cos16
  have : (n : ℝ) = 16 - m := by
    have : ((m + n : Nat) : ℝ) = 16 := by rw [h]; norm_num
    push_cast at this
    linarith
  rw [this, show (16 - (m : ℝ)) * π / 16 = π - m * π / 16 by ring, cos_pi_sub]

theorem cos16_sq (m : Nat) : cos16 m * cos16 m = (1 + cos16 (2 * m)) / 2 := by
  unfold cos16
  have := Real.cos_sq (m * π / 16)
  rw [show ((2 * m : Nat) : ℝ) * π / 16 = 2 * (m * π / 16) by push_cast; ring]
  rw [pow_two] at this
  rw [this]
  ring

theorem cos16_pos {m : Nat} (h : m < 8) : 0 < cos16 m := by
  apply cos_pos_of_mem_Ioo
  have : (m : ℝ) ≤ 7 := by exact_mod_cast Nat.le_of_lt_succ h
  have hp := pi_pos
  have h0 : (0 : ℝ) ≤ m := by positivity
  constructor
  · have : 0 ≤ (m : ℝ) * π / 16 := by positivity
    linarith
  · nlinarith

theorem sqrt2_bounds : (1.414213 : ℝ) < √2 ∧ √2 < 1.414214 := by
  constructor
  · rw [Real.lt_sqrt (by norm_num)]; norm_num
  · rw [Real.sqrt_lt' (by norm_num)]; norm_num

theorem sq_bounds {x lo hi : ℝ} (hx : 0 < x) (hlo : 0 ≤ lo) (hhi : 0 ≤ hi) (h1 : lo * lo < x * x)
    (h2 : x * x < hi * hi) : lo < x ∧ x < hi := by
  constructor
  · by_contra h
    push Not at h
    nlinarith
  · by_contra h
    push Not at h
    nlinarith

theorem cos16_four : cos16 4 = √2 / 2 := by
  unfold cos16
  rw [show ((4 : Nat) : ℝ) * π / 16 = π / 4 by push_cast; ring, cos_pi_div_four]

theorem cos16_zero : cos16 0 = 1 := by simp [cos16]

theorem cos16_bounds :
    (0.98078 < cos16 1 ∧ cos16 1 < 0.98079) ∧ (0.92387 < cos16 2 ∧ cos16 2 < 0.92389) ∧
    (0.83146 < cos16 3 ∧ cos16 3 < 0.83148) ∧ (0.55556 < cos16 5 ∧ cos16 5 < 0.55558) ∧
    (0.38267 < cos16 6 ∧ cos16 6 < 0.38269) ∧ (0.19508 < cos16 7 ∧ cos16 7 < 0.19510) := by
  obtain ⟨ha, hb⟩ := sqrt2_bounds
  have h4 := cos16_four
  have q2 := cos16_sq 2
  have q6 := cos16_sq 6
  have h12 : cos16 (2 * 6) = -cos16 4 := cos16_sub 4 12 rfl
  have b2 : (0.923879 : ℝ) < cos16 2 ∧ cos16 2 < 0.923880 :=
    sq_bounds (cos16_pos (by omega)) (by norm_num) (by norm_num)
      (by rw [q2]; norm_num; rw [h4]; linarith) (by rw [q2]; norm_num; rw [h4]; linarith)
  have b6 : (0.382682 : ℝ) < cos16 6 ∧ cos16 6 < 0.382685 :=
    sq_bounds (cos16_pos (by omega)) (by norm_num) (by norm_num)
      (by rw [q6, h12, h4]; norm_num; linarith) (by rw [q6, h12, h4]; norm_num; linarith)
  have q1 := cos16_sq 1
  have q3 := cos16_sq 3
  have q5 := cos16_sq 5
  have q7 := cos16_sq 7
  have h10 : cos16 (2 * 5) = -cos16 6 := cos16_sub 6 10 rfl
  have h14 : cos16 (2 * 7) = -cos16 2 := cos16_sub 2 14 rfl
  norm_num at q1 q3
  refine ⟨?_, ⟨by linarith, by linarith⟩, ?_, ?_, ⟨by linarith, by linarith⟩, ?_⟩
  · exact sq_bounds (cos16_pos (by omega)) (by norm_num) (by norm_num)
      (by rw [q1]; norm_num; linarith) (by rw [q1]; norm_num; linarith)
  · exact sq_bounds (cos16_pos (by omega)) (by norm_num) (by norm_num)
      (by rw [q3]; norm_num; linarith) (by rw [q3]; norm_num; linarith)
  · exact sq_bounds (cos16_pos (by omega)) (by norm_num) (by norm_num)
      (by rw [q5, h10]; norm_num; linarith) (by rw [q5, h10]; norm_num; linarith)
  · exact sq_bounds (cos16_pos (by omega)) (by norm_num) (by norm_num)
      (by rw [q7, h14]; norm_num; linarith) (by rw [q7, h14]; norm_num; linarith)

/-- The exact matrix entry. -/
noncomputable def realEntry (j k : Nat) : ℝ := 4096 * √2 * dctScale k * cos16 ((2 * j + 1) * k)

/-- The integer matrix entry. -/
def entry (j k : Nat) : Int := (idctMatrixRow j).getD k 0

/-- Bounds of `1000 * 4096 * sqrt 2 * cos (m π / 16)`, `m ≤ 8`. -/
def cosTable : List (Int × Int) := [(5792600, 5792700), (5681200, 5681400), (5351600, 5351800),
  (4816200, 4816500), (4096000, 4096000), (3218000, 3218400), (2216500, 2216900), (1130000, 1130200),
  (0, 0)]

theorem cosTable_ok {m : Nat} (hm : m ≤ 8) : ((cosTable.getD m (0, 0)).1 : ℝ) ≤ 1000 * (4096 * √2 * cos16 m) ∧
    1000 * (4096 * √2 * cos16 m) ≤ ((cosTable.getD m (0, 0)).2 : ℝ) := by
  obtain ⟨ha, hb⟩ := sqrt2_bounds
  obtain ⟨⟨a1, b1⟩, ⟨a2, b2⟩, ⟨a3, b3⟩, ⟨a5, b5⟩, ⟨a6, b6⟩, ⟨a7, b7⟩⟩ := cos16_bounds
  have hs : √2 * √2 = 2 := Real.mul_self_sqrt (by norm_num)
  have k4 : 4096 * √2 * cos16 4 = 4096 := by rw [cos16_four]; linear_combination 2048 * hs
  have k8 : cos16 8 = 0 := by
    have := cos16_sub 8 8 rfl
    linarith
  have key : ∀ (c lo hi u v : ℝ), lo < c → c < hi → 0 < lo → u ≤ 4096000 * 1.414213 * lo →
      4096000 * 1.414214 * hi ≤ v → u ≤ 1000 * (4096 * √2 * c) ∧ 1000 * (4096 * √2 * c) ≤ v := by
    intro c lo hi u v h1 h2 h3 h5 h6
    have e1 : 1.414213 * lo ≤ √2 * c := mul_le_mul ha.le h1.le h3.le (by positivity)
    have e2 : √2 * c ≤ 1.414214 * hi := mul_le_mul hb.le h2.le (h3.trans h1).le (by norm_num)
    constructor <;> linarith
  interval_cases m <;> simp only [cosTable, List.getD_eq_getElem?_getD, List.getElem?_cons_zero,
    List.getElem?_cons_succ, Option.getD_some] <;> push_cast
  · rw [cos16_zero]; constructor <;> linarith
  · exact key _ _ _ _ _ a1 b1 (by norm_num) (by norm_num) (by norm_num)
  · exact key _ _ _ _ _ a2 b2 (by norm_num) (by norm_num) (by norm_num)
  · exact key _ _ _ _ _ a3 b3 (by norm_num) (by norm_num) (by norm_num)
  · rw [k4]; norm_num
  · exact key _ _ _ _ _ a5 b5 (by norm_num) (by norm_num) (by norm_num)
  · exact key _ _ _ _ _ a6 b6 (by norm_num) (by norm_num) (by norm_num)
  · exact key _ _ _ _ _ a7 b7 (by norm_num) (by norm_num) (by norm_num)
  · rw [k8]; norm_num

/-- Bounds for any multiple of `π / 16`, by symmetry. -/
def cosBounds (m : Nat) : Int × Int :=
  let neg := fun p : Int × Int => (-p.2, -p.1)
  let half := fun m => if m ≤ 8 then cosTable.getD m (0, 0) else neg (cosTable.getD (16 - m) (0, 0))
  if m % 32 < 16 then half (m % 16) else neg (half (m % 16))

theorem cosBounds_ok (m : Nat) : ((cosBounds m).1 : ℝ) ≤ 1000 * (4096 * √2 * cos16 m) ∧
    1000 * (4096 * √2 * cos16 m) ≤ ((cosBounds m).2 : ℝ) := by
  have hmul : ∀ q r, cos16 (r + 16 * q) = if q % 2 = 0 then cos16 r else -cos16 r := by
    intro q r
    induction q with
    | zero => simp
    | succ q ih =>
      rw [show r + 16 * (q + 1) = r + 16 * q + 16 by ring, cos16_add, ih]
      by_cases h : q % 2 = 0
      · rw [if_pos h, if_neg (by omega)]
      · rw [if_neg h, if_pos (by omega), neg_neg]
  have hh : ∀ r, r < 16 →
      (((if r ≤ 8 then cosTable.getD r (0, 0) else
        (-(cosTable.getD (16 - r) (0, 0)).2, -(cosTable.getD (16 - r) (0, 0)).1)).1 : Int) : ℝ) ≤
          1000 * (4096 * √2 * cos16 r) ∧ 1000 * (4096 * √2 * cos16 r) ≤
      (((if r ≤ 8 then cosTable.getD r (0, 0) else
        (-(cosTable.getD (16 - r) (0, 0)).2, -(cosTable.getD (16 - r) (0, 0)).1)).2 : Int) : ℝ) := by
    intro r hr
    by_cases h : r ≤ 8
    · rw [if_pos h]; exact cosTable_ok h
    · rw [if_neg h, cos16_sub (16 - r) r (by omega)]
      have := cosTable_ok (m := 16 - r) (by omega)
      push_cast
      constructor <;> linarith
  have hm := hmul (m / 16) (m % 16)
  rw [show m % 16 + 16 * (m / 16) = m by omega] at hm
  have hb := hh (m % 16) (by omega)
  unfold cosBounds
  by_cases h : m % 32 < 16
  · rw [if_pos h]
    rw [hm, if_pos (by omega)]
    exact hb
  · rw [if_neg h]
    rw [hm, if_neg (by omega)]
    constructor
    · have := hb.2
      push_cast at this ⊢
      linarith
    · have := hb.1
      push_cast at this ⊢
      linarith

theorem entry_table : ∀ j, j < 8 → ∀ k, k < 8 → k ≠ 0 →
    1000 * entry j k - 2000 ≤ (cosBounds ((2 * j + 1) * k)).1 ∧
      (cosBounds ((2 * j + 1) * k)).2 ≤ 1000 * entry j k + 2000 := by decide +kernel

theorem entry_zero : ∀ j, j < 8 → entry j 0 = 4096 := by decide

theorem entry_error {j k : Nat} (hj : j < 8) (hk : k < 8) :
    |(entry j k : ℝ) - realEntry j k| ≤ 2 := by
  unfold realEntry dctScale
  by_cases h : k = 0
  · subst h
    have : √2 ≠ 0 := by positivity
    rw [if_pos rfl, Nat.mul_zero, cos16_zero, entry_zero j hj, mul_one,
      show 4096 * √2 * (1 / √2) = 4096 by field_simp]
    norm_num
  · rw [if_neg h, mul_one]
    obtain ⟨h1, h2⟩ := entry_table j hj k hk h
    obtain ⟨h3, h4⟩ := cosBounds_ok ((2 * j + 1) * k)
    have h1' : (1000 * (entry j k : ℝ) - 2000) ≤ (cosBounds ((2 * j + 1) * k)).1 := by exact_mod_cast h1
    have h2' : ((cosBounds ((2 * j + 1) * k)).2 : ℝ) ≤ 1000 * (entry j k : ℝ) + 2000 := by
      exact_mod_cast h2
    rw [abs_le]
    constructor <;> linarith

/-! ## The passes -/

theorem dot_sum {j : Nat} (hj : j < 8) (f : Nat → Int) :
    dot (idctMatrixRow j) ((List.range 8).map f) = ∑ k ∈ range 8, entry j k * f k := by
  interval_cases j <;> simp [Finset.sum_range_succ, dot, entry, idctMatrixRow, idctMatrix, List.range_succ] <;> ring

theorem floor_error (d : Int) {n : Int} (hn : 0 < n) :
    |(((d + n) / (2 * n) : Int) : ℝ) - d / (2 * n)| ≤ 1 / 2 := by
  have h1 := Int.mul_ediv_add_emod (d + n) (2 * n)
  have h2 := Int.emod_nonneg (d + n) (show 2 * n ≠ 0 by omega)
  have h3 := Int.emod_lt_of_pos (d + n) (show 0 < 2 * n by omega)
  generalize (d + n) / (2 * n) = f at *
  generalize (d + n) % (2 * n) = r at *
  have hnr : (0 : ℝ) < n := by exact_mod_cast hn
  have e : (d : ℝ) = 2 * n * f + r - n := by
    have : d = 2 * n * f + r - n := by omega
    rw [this]; push_cast; ring
  have hr0 : (0 : ℝ) ≤ r := by exact_mod_cast h2
  have hr1 : (r : ℝ) ≤ 2 * n := by exact_mod_cast h3.le
  rw [e, show (f : ℝ) - (2 * n * f + r - n) / (2 * n) = (n - r) / (2 * n) by field_simp; ring]
  rw [abs_le]
  constructor
  · rw [le_div_iff₀ (by positivity)]; linarith
  · rw [div_le_iff₀ (by positivity)]; linarith

theorem realEntry_abs (j k : Nat) : |realEntry j k| ≤ 5793 := by
  unfold realEntry
  have h1 : |cos16 ((2 * j + 1) * k)| ≤ 1 := abs_cos_le_one _
  have h2 : |dctScale k| ≤ 1 := by
    unfold dctScale
    split
    · rw [abs_of_pos (by positivity), div_le_one (by positivity)]
      linarith [sqrt2_bounds.1]
    · simp
  rw [abs_mul, abs_mul, abs_of_pos (by positivity : (0 : ℝ) < 4096 * √2)]
  have h3 : |dctScale k| * |cos16 ((2 * j + 1) * k)| ≤ 1 := by
    nlinarith [abs_nonneg (dctScale k), abs_nonneg (cos16 ((2 * j + 1) * k))]
  have h4 := sqrt2_bounds.2
  have : 4096 * √2 * |dctScale k| * |cos16 ((2 * j + 1) * k)| =
      4096 * √2 * (|dctScale k| * |cos16 ((2 * j + 1) * k)|) := by ring
  rw [this]
  calc 4096 * √2 * (|dctScale k| * |cos16 ((2 * j + 1) * k)|) ≤ 4096 * √2 * 1 := by
        apply mul_le_mul_of_nonneg_left h3 (by positivity)
    _ ≤ 5793 := by linarith

/-- Exact first pass. -/
noncomputable def realPass1 (F : Nat → Nat → Int) (r i : Nat) : ℝ :=
  (∑ k ∈ range 8, realEntry r k * F k i) / 1024

/-- Sum of magnitudes of column `i`. -/
noncomputable def colNorm (F : Nat → Nat → Int) (i : Nat) : ℝ := ∑ k ∈ range 8, |(F k i : ℝ)|

theorem colNorm_nonneg (F : Nat → Nat → Int) (i : Nat) : 0 ≤ colNorm F i :=
  Finset.sum_nonneg fun _ _ => abs_nonneg _

theorem pass1_error (F : Nat → Nat → Int) {r : Nat} (hr : r < 8) (i : Nat) :
    |(idctPass1 F r i : ℝ) - realPass1 F r i| ≤ 1 / 2 + colNorm F i / 512 := by
  unfold idctPass1
  rw [dot_sum hr fun k => F k i]
  generalize hd : ∑ k ∈ range 8, entry r k * F k i = d
  have h1 := floor_error d (n := 512) (by norm_num)
  norm_num at h1
  have h2 : |(d : ℝ) - ∑ k ∈ range 8, realEntry r k * F k i| ≤ 2 * colNorm F i := by
    rw [← hd]
    push_cast
    rw [← Finset.sum_sub_distrib, colNorm, Finset.mul_sum]
    refine (Finset.abs_sum_le_sum_abs _ _).trans (Finset.sum_le_sum ?_)
    intro k hk
    rw [← sub_mul, abs_mul]
    exact mul_le_mul_of_nonneg_right (entry_error hr (Finset.mem_range.1 hk)) (abs_nonneg _)
  unfold realPass1
  generalize ∑ k ∈ range 8, realEntry r k * (F k i : ℝ) = t at *
  rw [abs_le] at *
  constructor <;> linarith [h1.1, h1.2, h2.1, h2.2]

theorem realPass1_abs (F : Nat → Nat → Int) (r i : Nat) :
    |realPass1 F r i| ≤ 5793 / 1024 * colNorm F i := by
  unfold realPass1
  rw [abs_div, abs_of_pos (by norm_num : (0 : ℝ) < 1024), div_le_iff₀ (by norm_num)]
  rw [show 5793 / 1024 * colNorm F i * 1024 = 5793 * colNorm F i by ring, colNorm, Finset.mul_sum]
  refine (Finset.abs_sum_le_sum_abs _ _).trans (Finset.sum_le_sum ?_)
  intro k _
  rw [abs_mul]
  exact mul_le_mul_of_nonneg_right (realEntry_abs r k) (abs_nonneg _)

theorem entry_sum : ∀ x, x < 8 → (List.range 8).foldl (fun s k => s + |entry x k|) 0 ≤ 30610 := by
  decide +kernel

theorem entry_le : ∀ x, x < 8 → ∀ k, k < 8 → |entry x k| ≤ 5683 := by decide +kernel

theorem realIdct_passes (F : Nat → Nat → Int) (r x : Nat) :
    realIdct (fun k i => (F k i : ℝ)) r x = (∑ i ∈ range 8, realEntry x i * realPass1 F r i) / 131072 := by
  unfold realIdct realPass1
  have hs : √2 * √2 = 2 := Real.mul_self_sqrt (by norm_num)
  rw [Finset.sum_div, Finset.mul_sum]
  apply Finset.sum_congr rfl
  intro i _
  rw [Finset.sum_div, Finset.mul_sum, Finset.mul_sum, Finset.sum_div]
  apply Finset.sum_congr rfl
  intro k _
  unfold realEntry cos16
  push_cast
  linear_combination (-(1 / 8) * dctScale i * dctScale k * (F k i : ℝ) *
    cos ((2 * x + 1) * i * π / 16) * cos ((2 * r + 1) * k * π / 16)) * hs

/-- Sum of the magnitudes of all coefficients. -/
noncomputable def blockNorm (F : Nat → Nat → Int) : ℝ := ∑ i ∈ range 8, colNorm F i

/-- The second pass, whatever the first one yields, provided it is accurate. -/
theorem pass2_error (F : Nat → Nat → Int) {r x : Nat} (hx : x < 8) (P : Nat → Int)
    (hP : ∀ i, i < 8 → |(P i : ℝ) - realPass1 F r i| ≤ 1 / 2 + colNorm F i / 512) :
    |((((∑ i ∈ range 8, entry x i * P i) + 65536) / 131072 + 128 : Int) : ℝ) -
      (128 + realIdct (fun k i => (F k i : ℝ)) r x)| ≤ 5 / 8 + blockNorm F / 5000 := by
  rw [realIdct_passes]
  generalize hd : ∑ i ∈ range 8, entry x i * P i = d
  have h1 := floor_error d (n := 65536) (by norm_num)
  norm_num at h1
  have h2 : |(d : ℝ) - ∑ i ∈ range 8, realEntry x i * realPass1 F r i| ≤
      15305 + 22.5 * blockNorm F := by
    rw [← hd]
    push_cast
    rw [← Finset.sum_sub_distrib]
    refine (Finset.abs_sum_le_sum_abs _ _).trans ?_
    have hterm : ∀ i ∈ range 8, |(entry x i : ℝ) * (P i : ℝ) - realEntry x i * realPass1 F r i|
        ≤ |(entry x i : ℝ)| * (1 / 2) + 22.5 * colNorm F i := by
      intro i hi
      have hi := Finset.mem_range.1 hi
      rw [show (entry x i : ℝ) * (P i : ℝ) - realEntry x i * realPass1 F r i =
        (entry x i : ℝ) * ((P i : ℝ) - realPass1 F r i) +
          ((entry x i : ℝ) - realEntry x i) * realPass1 F r i by ring]
      refine (abs_add_le _ _).trans ?_
      rw [abs_mul, abs_mul]
      have e1 := hP i hi
      have e2 := entry_error hx hi
      have e3 := realPass1_abs F r i
      have e4 : |(entry x i : ℝ)| ≤ 5683 := by exact_mod_cast entry_le x hx i hi
      have e5 := colNorm_nonneg F i
      have m1 : |(entry x i : ℝ)| * |(P i : ℝ) - realPass1 F r i| ≤
          |(entry x i : ℝ)| * (1 / 2 + colNorm F i / 512) :=
        mul_le_mul_of_nonneg_left e1 (abs_nonneg _)
      have m2 : |(entry x i : ℝ) - realEntry x i| * |realPass1 F r i| ≤ 2 * (5793 / 1024 * colNorm F i) :=
        mul_le_mul e2 e3 (abs_nonneg _) (by norm_num)
      have m3 : |(entry x i : ℝ)| * colNorm F i ≤ 5683 * colNorm F i := mul_le_mul_of_nonneg_right e4 e5
      nlinarith
    refine (Finset.sum_le_sum hterm).trans ?_
    rw [Finset.sum_add_distrib, ← Finset.mul_sum, ← Finset.sum_mul]
    have hsum : ∑ i ∈ range 8, |(entry x i : ℝ)| ≤ 30610 := by
      have h := entry_sum x hx
      have e : (List.range 8).foldl (fun s k => s + |entry x k|) 0 = ∑ i ∈ range 8, |entry x i| := by
        simp [Finset.sum_range_succ, List.range_succ]
      rw [e] at h
      exact_mod_cast h
    unfold blockNorm
    linarith
  generalize ∑ i ∈ range 8, realEntry x i * realPass1 F r i = t at *
  have hn : 0 ≤ blockNorm F := Finset.sum_nonneg fun i _ => colNorm_nonneg F i
  push_cast
  rw [abs_le] at *
  constructor <;> linarith [h1.1, h1.2, h2.1, h2.2]

theorem idctSample_error (F : Nat → Nat → Int) {r x : Nat} (hr : r < 8) (hx : x < 8) :
    |(idctSample F r x : ℝ) - (128 + realIdct (fun k i => (F k i : ℝ)) r x)| ≤
      5 / 8 + blockNorm F / 5000 := by
  unfold idctSample
  rw [dot_sum hx fun i => idctPass1 F r i]
  exact pass2_error F hx _ fun i _ => pass1_error F hr i

end Jpeg
