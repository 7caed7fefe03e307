import Verif.Spec.Forward
import Mathlib.Algebra.Order.BigOperators.Ring.Finset
import Mathlib.LinearAlgebra.Matrix.NonsingularInverse
/-!
# The inverse DCT inverts the forward DCT
-/

namespace Jpeg
open Spec Real Finset

theorem cos_sum (θ : ℝ) (h : sin (θ / 2) ≠ 0) :
    ∑ u ∈ range 8, cos (u * θ) = 1 / 2 + sin (15 * (θ / 2)) / (2 * sin (θ / 2)) := by
  have step : ∀ u : ℝ, 2 * sin (θ / 2) * cos (u * θ) = sin ((2 * u + 1) * (θ / 2)) - sin ((2 * u - 1) * (θ / 2)) := by
    intro u
    rw [show (2 * u + 1) * (θ / 2) = u * θ + θ / 2 by ring, show (2 * u - 1) * (θ / 2) = u * θ - θ / 2 by ring,
      sin_add, sin_sub]
    ring
  have key : 2 * sin (θ / 2) * ∑ u ∈ range 8, cos (u * θ) = sin (15 * (θ / 2)) + sin (θ / 2) := by
    rw [Finset.mul_sum]
    simp only [step, Finset.sum_range_succ, Finset.sum_range_zero]
    push_cast
    norm_num
    ring
  have h2 : 2 * sin (θ / 2) ≠ 0 := mul_ne_zero two_ne_zero h
  apply mul_left_cancel₀ h2
  rw [key, mul_add, mul_div_cancel₀ _ h2]
  ring

theorem cos_sum_int (k : ℤ) (h : sin (k * π / 16) ≠ 0) :
    ∑ u ∈ range 8, cos (u * (k * π / 8)) = (1 - (-1) ^ k) / 2 := by
  have e : (k * π / 8 : ℝ) / 2 = k * π / 16 := by ring
  rw [cos_sum _ (by rw [e]; exact h), e, show 15 * (k * π / 16 : ℝ) = k * π - k * π / 16 by ring, sin_sub,
    sin_int_mul_pi, cos_int_mul_pi]
  field_simp
  ring

theorem sin_ne {k : ℤ} (h0 : k ≠ 0) (h1 : -16 < k) (h2 : k < 16) : sin (k * π / 16) ≠ 0 := by
  have hp := pi_pos
  have a1 : ((-16 : ℤ) : ℝ) < k := by exact_mod_cast h1
  have a2 : (k : ℝ) < ((16 : ℤ) : ℝ) := by exact_mod_cast h2
  push_cast at a1 a2
  rcases lt_or_gt_of_ne h0 with h | h
  · have a3 : (k : ℝ) < 0 := by exact_mod_cast h
    apply ne_of_lt
    apply sin_neg_of_neg_of_neg_pi_lt
    · apply div_neg_of_neg_of_pos _ (by norm_num)
      exact mul_neg_of_neg_of_pos a3 hp
    · rw [lt_div_iff₀ (by norm_num)]
      nlinarith
  · have a3 : (0 : ℝ) < k := by exact_mod_cast h
    apply ne_of_gt
    apply sin_pos_of_pos_of_lt_pi
    · positivity
    · rw [div_lt_iff₀ (by norm_num)]
      nlinarith

/-- Rows of the transform are orthogonal. -/
theorem dct_orthogonal {x y : Nat} (hx : x < 8) (hy : y < 8) :
    ∑ u ∈ range 8, dctScale u ^ 2 * (cos ((2 * x + 1) * u * π / 16) * cos ((2 * y + 1) * u * π / 16)) =
      if x = y then 4 else 0 := by
  have hscale : dctScale 0 ^ 2 = 1 / 2 := by
    unfold dctScale
    rw [if_pos rfl, div_pow, Real.sq_sqrt (by norm_num)]
    norm_num
  have hone : ∀ u, u ≠ 0 → dctScale u ^ 2 = 1 := by
    intro u hu
    unfold dctScale
    rw [if_neg hu]; norm_num
  have e1 : ∑ u ∈ range 8, dctScale u ^ 2 * (cos ((2 * x + 1) * u * π / 16) * cos ((2 * y + 1) * u * π / 16)) =
      -1 / 2 + ∑ u ∈ range 8, cos ((2 * x + 1) * u * π / 16) * cos ((2 * y + 1) * u * π / 16) := by
    rw [Finset.sum_range_succ', Finset.sum_range_succ' (fun u : Nat => cos ((2 * x + 1) * u * π / 16) * _), hscale]
    have : ∑ u ∈ range 7, dctScale (u + 1) ^ 2 * (cos ((2 * x + 1) * ((u + 1 : Nat) : ℝ) * π / 16) *
        cos ((2 * y + 1) * ((u + 1 : Nat) : ℝ) * π / 16)) =
        ∑ u ∈ range 7, (cos ((2 * x + 1) * ((u + 1 : Nat) : ℝ) * π / 16) *
        cos ((2 * y + 1) * ((u + 1 : Nat) : ℝ) * π / 16)) := by
      refine Finset.sum_congr rfl fun u _ => ?_
      rw [hone (u + 1) (by omega), one_mul]
    rw [this]
    simp
    ring
  have e2 : ∀ u : Nat, cos ((2 * x + 1) * u * π / 16) * cos ((2 * y + 1) * u * π / 16) =
      (cos (u * (((x : ℤ) + y + 1 : ℤ) * π / 8)) + cos (u * (((x : ℤ) - y : ℤ) * π / 8))) / 2 := by
    intro u
    have := cos_add_cos (u * (((x : ℤ) + y + 1 : ℤ) * π / 8)) (u * (((x : ℤ) - y : ℤ) * π / 8))
    rw [this]
    push_cast
    rw [show ((u : ℝ) * (((x : ℝ) + y + 1) * π / 8) + u * ((x - y) * π / 8)) / 2 = (2 * x + 1) * u * π / 16 by ring,
      show ((u : ℝ) * (((x : ℝ) + y + 1) * π / 8) - u * ((x - y) * π / 8)) / 2 = (2 * y + 1) * u * π / 16 by ring]
    ring
  rw [e1]
  simp only [e2]
  simp only [div_eq_mul_inv _ (2 : ℝ)]
  rw [← Finset.sum_mul, Finset.sum_add_distrib,
    cos_sum_int _ (sin_ne (k := (x : ℤ) + y + 1) (by omega) (by omega) (by omega))]
  by_cases h : x = y
  · subst h
    rw [if_pos rfl, show ((x : ℤ) + x + 1) = 2 * x + 1 by ring, Odd.neg_one_zpow ⟨x, rfl⟩]
    simp
    norm_num
  · rw [if_neg h, cos_sum_int _ (sin_ne (k := (x : ℤ) - y) (by omega) (by omega) (by omega))]
    rcases Int.even_or_odd ((x : ℤ) - y) with he | ho
    · have ho' : Odd ((x : ℤ) + y + 1) := by
        obtain ⟨t, ht⟩ := he
        exact ⟨y + t, by omega⟩
      rw [he.neg_one_zpow, ho'.neg_one_zpow]
      norm_num
    · have he' : Even ((x : ℤ) + y + 1) := by
        obtain ⟨t, ht⟩ := ho
        exact ⟨y + t + 1, by omega⟩
      rw [he'.neg_one_zpow, ho.neg_one_zpow]
      norm_num

/-- Basis value. -/
noncomputable def basis (u x : Nat) : ℝ := 1 / 2 * (dctScale u * cos ((2 * x + 1) * u * π / 16))

theorem basis_orthogonal {x y : Nat} (hx : x < 8) (hy : y < 8) :
    ∑ u ∈ range 8, basis u x * basis u y = if x = y then 1 else 0 := by
  have := dct_orthogonal hx hy
  have e : ∀ u, basis u x * basis u y =
      1 / 4 * (dctScale u ^ 2 * (cos ((2 * x + 1) * u * π / 16) * cos ((2 * y + 1) * u * π / 16))) := by
    intro u; unfold basis; ring
  simp only [e]
  rw [← Finset.mul_sum, this]
  split <;> norm_num

theorem realIdct_basis (F : Nat → Nat → ℝ) (y x : Nat) :
    realIdct F y x = ∑ u ∈ range 8, ∑ v ∈ range 8, F v u * (basis u x * basis v y) := by
  unfold realIdct basis
  rw [Finset.mul_sum]
  refine Finset.sum_congr rfl fun u _ => ?_
  rw [Finset.mul_sum]
  refine Finset.sum_congr rfl fun v _ => ?_
  ring

theorem realFdct_basis (s : Nat → Nat → ℝ) (v u : Nat) :
    realFdct s v u = ∑ x ∈ range 8, ∑ y ∈ range 8, s y x * (basis u x * basis v y) := by
  unfold realFdct basis
  rw [Finset.mul_sum]
  refine Finset.sum_congr rfl fun x _ => ?_
  rw [Finset.mul_sum]
  refine Finset.sum_congr rfl fun y _ => ?_
  ring

/-- The inverse DCT of T.81 inverts its forward DCT. -/
theorem realIdct_fdct (s : Nat → Nat → ℝ) {y x : Nat} (hy : y < 8) (hx : x < 8) :
    realIdct (realFdct s) y x = s y x := by
  rw [realIdct_basis]
  simp only [realFdct_basis]
  have e : ∀ u v, (∑ x' ∈ range 8, ∑ y' ∈ range 8, s y' x' * (basis u x' * basis v y')) * (basis u x * basis v y) =
      ∑ x' ∈ range 8, ∑ y' ∈ range 8, s y' x' * ((basis u x' * basis u x) * (basis v y' * basis v y)) := by
    intro u v
    rw [Finset.sum_mul]
    refine Finset.sum_congr rfl fun x' _ => ?_
    rw [Finset.sum_mul]
    refine Finset.sum_congr rfl fun y' _ => ?_
    ring
  simp only [e]
  have swap : ∑ u ∈ range 8, ∑ v ∈ range 8, ∑ x' ∈ range 8, ∑ y' ∈ range 8,
      s y' x' * ((basis u x' * basis u x) * (basis v y' * basis v y)) =
      ∑ x' ∈ range 8, ∑ y' ∈ range 8, s y' x' *
        ((∑ u ∈ range 8, basis u x' * basis u x) * (∑ v ∈ range 8, basis v y' * basis v y)) := by
    calc _ = ∑ u ∈ range 8, ∑ x' ∈ range 8, ∑ v ∈ range 8, ∑ y' ∈ range 8,
          s y' x' * ((basis u x' * basis u x) * (basis v y' * basis v y)) :=
            Finset.sum_congr rfl fun u _ => Finset.sum_comm
      _ = ∑ x' ∈ range 8, ∑ u ∈ range 8, ∑ v ∈ range 8, ∑ y' ∈ range 8,
          s y' x' * ((basis u x' * basis u x) * (basis v y' * basis v y)) := Finset.sum_comm
      _ = ∑ x' ∈ range 8, ∑ u ∈ range 8, ∑ y' ∈ range 8, ∑ v ∈ range 8,
          s y' x' * ((basis u x' * basis u x) * (basis v y' * basis v y)) :=
            Finset.sum_congr rfl fun x' _ => Finset.sum_congr rfl fun u _ => Finset.sum_comm
      _ = ∑ x' ∈ range 8, ∑ y' ∈ range 8, ∑ u ∈ range 8, ∑ v ∈ range 8,
          s y' x' * ((basis u x' * basis u x) * (basis v y' * basis v y)) :=
            Finset.sum_congr rfl fun x' _ => Finset.sum_comm
      _ = _ := by
        refine Finset.sum_congr rfl fun x' _ => Finset.sum_congr rfl fun y' _ => ?_
        rw [Finset.sum_mul_sum, Finset.mul_sum]
        refine Finset.sum_congr rfl fun u _ => ?_
        rw [Finset.mul_sum]
  rw [swap, Finset.sum_eq_single_of_mem x (Finset.mem_range.2 hx),
    Finset.sum_eq_single_of_mem y (Finset.mem_range.2 hy)]
  · rw [basis_orthogonal hx hx, basis_orthogonal hy hy, if_pos rfl, if_pos rfl]
    ring
  · intro y' hy' hne
    rw [basis_orthogonal (Finset.mem_range.1 hy') hy, if_neg hne]
    ring
  · intro x' hx' hne
    apply Finset.sum_eq_zero
    intro y' _
    rw [basis_orthogonal (Finset.mem_range.1 hx') hx, if_neg hne]
    ring

theorem realIdct_sub (F G : Nat → Nat → ℝ) (y x : Nat) :
    realIdct F y x - realIdct G y x = realIdct (fun v u => F v u - G v u) y x := by
  simp only [realIdct_basis]
  rw [← Finset.sum_sub_distrib]
  refine Finset.sum_congr rfl fun u _ => ?_
  rw [← Finset.sum_sub_distrib]
  refine Finset.sum_congr rfl fun v _ => ?_
  ring

/-- A sample is at most the Euclidean length of the block of coefficients. -/
theorem realIdct_sq (F : Nat → Nat → ℝ) {y x : Nat} (hy : y < 8) (hx : x < 8) :
    realIdct F y x ^ 2 ≤ ∑ j ∈ range 8, ∑ k ∈ range 8, F k j ^ 2 := by
  rw [realIdct_basis, ← Finset.sum_product', ← Finset.sum_product']
  refine (Finset.sum_mul_sq_le_sq_mul_sq _ _ _).trans ?_
  have : ∑ p ∈ range 8 ×ˢ range 8, (basis p.1 x * basis p.2 y) ^ 2 = 1 := by
    rw [Finset.sum_product (f := fun p : ℕ × ℕ => (basis p.1 x * basis p.2 y) ^ 2)]
    have e : ∀ u v, (basis u x * basis v y) ^ 2 = (basis u x * basis u x) * (basis v y * basis v y) := by
      intro u v; ring
    simp only [e]
    rw [← Finset.sum_mul_sum, basis_orthogonal hx hx, basis_orthogonal hy hy]
    simp
  rw [this, mul_one]

/-- Parseval. -/
theorem realFdct_sq (s : Nat → Nat → ℝ) :
    ∑ u ∈ range 8, ∑ v ∈ range 8, realFdct s v u ^ 2 = ∑ x ∈ range 8, ∑ y ∈ range 8, s y x ^ 2 := by
  have e : ∀ u v, realFdct s v u ^ 2 =
      ∑ x ∈ range 8, ∑ y ∈ range 8, s y x * (realFdct s v u * (basis u x * basis v y)) := by
    intro u v
    rw [pow_two]
    nth_rewrite 1 [realFdct_basis]
    rw [Finset.sum_mul]
    refine Finset.sum_congr rfl fun x _ => ?_
    rw [Finset.sum_mul]
    refine Finset.sum_congr rfl fun y _ => ?_
    ring
  simp only [e]
  calc _ = ∑ u ∈ range 8, ∑ x ∈ range 8, ∑ v ∈ range 8, ∑ y ∈ range 8,
        s y x * (realFdct s v u * (basis u x * basis v y)) := Finset.sum_congr rfl fun u _ => Finset.sum_comm
    _ = ∑ x ∈ range 8, ∑ u ∈ range 8, ∑ v ∈ range 8, ∑ y ∈ range 8,
        s y x * (realFdct s v u * (basis u x * basis v y)) := Finset.sum_comm
    _ = ∑ x ∈ range 8, ∑ u ∈ range 8, ∑ y ∈ range 8, ∑ v ∈ range 8,
        s y x * (realFdct s v u * (basis u x * basis v y)) :=
          Finset.sum_congr rfl fun x _ => Finset.sum_congr rfl fun u _ => Finset.sum_comm
    _ = ∑ x ∈ range 8, ∑ y ∈ range 8, ∑ u ∈ range 8, ∑ v ∈ range 8,
        s y x * (realFdct s v u * (basis u x * basis v y)) := Finset.sum_congr rfl fun x _ => Finset.sum_comm
    _ = _ := by
      refine Finset.sum_congr rfl fun x hx => Finset.sum_congr rfl fun y hy => ?_
      have := realIdct_fdct s (Finset.mem_range.1 hy) (Finset.mem_range.1 hx)
      rw [pow_two]
      nth_rewrite 3 [← this]
      rw [realIdct_basis, Finset.mul_sum]
      refine Finset.sum_congr rfl fun u _ => ?_
      rw [Finset.mul_sum]

/-- Sum of magnitudes against Euclidean length. -/
theorem sum_abs_le (F : Nat → Nat → ℝ) :
    ∑ j ∈ range 8, ∑ k ∈ range 8, |F k j| ≤ 8 * √(∑ j ∈ range 8, ∑ k ∈ range 8, F k j ^ 2) := by
  have h : (∑ j ∈ range 8, ∑ k ∈ range 8, |F k j|) ^ 2 ≤ 64 * ∑ j ∈ range 8, ∑ k ∈ range 8, F k j ^ 2 := by
    rw [← Finset.sum_product' (f := fun j k => |F k j|), ← Finset.sum_product' (f := fun j k => F k j ^ 2)]
    have := Finset.sum_mul_sq_le_sq_mul_sq (range 8 ×ˢ range 8) (fun _ => (1 : ℝ)) (fun p => |F p.2 p.1|)
    simpa using this
  rw [show (8 : ℝ) * √(∑ j ∈ range 8, ∑ k ∈ range 8, F k j ^ 2) = √(64 * ∑ j ∈ range 8, ∑ k ∈ range 8, F k j ^ 2) by
    rw [Real.sqrt_mul (by norm_num), show (64 : ℝ) = 8 ^ 2 by norm_num, Real.sqrt_sq (by norm_num)]]
  exact Real.le_sqrt_of_sq_le h

/-- The columns of the transform are orthogonal too. -/
theorem basis_columns {u v : Nat} (hu : u < 8) (hv : v < 8) :
    ∑ x ∈ range 8, basis u x * basis v x = if u = v then 1 else 0 := by
  let M : Matrix (Fin 8) (Fin 8) ℝ := Matrix.of fun u x => basis u x
  let N : Matrix (Fin 8) (Fin 8) ℝ := Matrix.of fun x u => basis u x
  have h : N * M = 1 := by
    ext x y
    rw [Matrix.mul_apply, Matrix.one_apply]
    have := basis_orthogonal x.2 y.2
    rw [Finset.sum_range] at this
    simpa [M, N, Fin.ext_iff] using this
  have h1 : M * N = 1 := mul_eq_one_comm.1 h
  have h' := congrFun (congrFun h1 ⟨u, hu⟩) ⟨v, hv⟩
  rw [Matrix.mul_apply, Matrix.one_apply] at h'
  rw [Finset.sum_range]
  simpa [M, N, Fin.ext_iff] using h'

/-- The forward DCT inverts the inverse DCT. -/
theorem realFdct_idct (F : Nat → Nat → ℝ) {v u : Nat} (hv : v < 8) (hu : u < 8) :
    realFdct (realIdct F) v u = F v u := by
  rw [realFdct_basis]
  simp only [realIdct_basis]
  have e : ∀ x y, (∑ u' ∈ range 8, ∑ v' ∈ range 8, F v' u' * (basis u' x * basis v' y)) * (basis u x * basis v y) =
      ∑ u' ∈ range 8, ∑ v' ∈ range 8, F v' u' * ((basis u' x * basis u x) * (basis v' y * basis v y)) := by
    intro x y
    rw [Finset.sum_mul]
    refine Finset.sum_congr rfl fun x' _ => ?_
    rw [Finset.sum_mul]
    refine Finset.sum_congr rfl fun y' _ => ?_
    ring
  simp only [e]
  have swap : ∑ x ∈ range 8, ∑ y ∈ range 8, ∑ u' ∈ range 8, ∑ v' ∈ range 8,
      F v' u' * ((basis u' x * basis u x) * (basis v' y * basis v y)) =
      ∑ u' ∈ range 8, ∑ v' ∈ range 8, F v' u' *
        ((∑ x ∈ range 8, basis u' x * basis u x) * (∑ y ∈ range 8, basis v' y * basis v y)) := by
    calc _ = ∑ x ∈ range 8, ∑ u' ∈ range 8, ∑ y ∈ range 8, ∑ v' ∈ range 8,
          F v' u' * ((basis u' x * basis u x) * (basis v' y * basis v y)) :=
            Finset.sum_congr rfl fun u _ => Finset.sum_comm
      _ = ∑ u' ∈ range 8, ∑ x ∈ range 8, ∑ y ∈ range 8, ∑ v' ∈ range 8,
          F v' u' * ((basis u' x * basis u x) * (basis v' y * basis v y)) := Finset.sum_comm
      _ = ∑ u' ∈ range 8, ∑ x ∈ range 8, ∑ v' ∈ range 8, ∑ y ∈ range 8,
          F v' u' * ((basis u' x * basis u x) * (basis v' y * basis v y)) :=
            Finset.sum_congr rfl fun x' _ => Finset.sum_congr rfl fun u _ => Finset.sum_comm
      _ = ∑ u' ∈ range 8, ∑ v' ∈ range 8, ∑ x ∈ range 8, ∑ y ∈ range 8,
          F v' u' * ((basis u' x * basis u x) * (basis v' y * basis v y)) :=
            Finset.sum_congr rfl fun x' _ => Finset.sum_comm
      _ = _ := by
        refine Finset.sum_congr rfl fun x' _ => Finset.sum_congr rfl fun y' _ => ?_
        rw [Finset.sum_mul_sum, Finset.mul_sum]
        refine Finset.sum_congr rfl fun u _ => ?_
        rw [Finset.mul_sum]
  rw [swap, Finset.sum_eq_single_of_mem u (Finset.mem_range.2 hu),
    Finset.sum_eq_single_of_mem v (Finset.mem_range.2 hv)]
  · rw [basis_columns hu hu, basis_columns hv hv, if_pos rfl, if_pos rfl]
    ring
  · intro y' hy' hne
    rw [basis_columns (Finset.mem_range.1 hy') hv, if_neg hne]
    ring
  · intro x' hx' hne
    apply Finset.sum_eq_zero
    intro y' _
    rw [basis_columns (Finset.mem_range.1 hx') hu, if_neg hne]
    ring

end Jpeg
