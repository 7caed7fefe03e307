import Verif.Proofs.IdctReal
import Verif.Props.Idct
/-!
# C51: the decoder's transform approximates the inverse DCT of T.81
-/

namespace Jpeg
open Spec Real Finset

/-- Clamping of a real number to the sample range. -/
noncomputable def clampReal (v : ℝ) : ℝ := max 0 (min v 255)

theorem clampReal_lip (a b : ℝ) : |clampReal a - clampReal b| ≤ |a - b| := by
  unfold clampReal
  rw [max_comm 0, max_comm 0]
  refine (abs_max_sub_max_le_abs _ _ _).trans ((abs_min_sub_min_le_max a 255 b 255).trans ?_)
  simp

theorem saturate_real (v : Int) : ((saturate v).toNat : ℝ) = clampReal v := by
  unfold saturate clampReal
  split
  · rename_i h
    have : (v : ℝ) < 0 := by exact_mod_cast h
    rw [min_eq_left (by linarith), max_eq_left this.le]
    simp
  · rename_i h
    split
    · rename_i h2
      have : (255 : ℝ) < v := by exact_mod_cast h2
      rw [min_eq_right this.le, show (255 : UInt8).toNat = 255 from rfl]
      norm_num
    · rename_i h2
      have h0 : (0 : ℝ) ≤ v := by exact_mod_cast Int.not_lt.1 h
      have h1 : (v : ℝ) ≤ 255 := by exact_mod_cast Int.not_lt.1 h2
      rw [min_eq_left h1, max_eq_right h0]
      have : (UInt8.ofNat v.toNat).toNat = v.toNat := by
        simp only [UInt8.toNat_ofNat']
        omega
      rw [this]
      have h3 : ((v.toNat : Int) : ℝ) = v := by rw [Int.toNat_of_nonneg (Int.not_lt.1 h)]
      exact_mod_cast h3

/-- The constants of the transform with the decimal literals of the source: value, sign, numerator, denominator
(idct.rs:379-381, 415-425). -/
def transformConstants : List (W32 × Bool × Nat × Nat) :=
  [(C0_541, false, 5411961, 10 ^ 7), (Cm1_847, true, 1847759065, 10 ^ 9), (C0_765, false, 765366865, 10 ^ 9),
    (C1_175, false, 1175875602, 10 ^ 9), (C0_298, false, 298631336, 10 ^ 9), (C2_053, false, 2053119869, 10 ^ 9),
    (C3_072, false, 3072711026, 10 ^ 9), (C1_501, false, 1501321110, 10 ^ 9), (Cm0_899, true, 899976223, 10 ^ 9),
    (Cm2_562, true, 2562915447, 10 ^ 9), (Cm1_961, true, 1961570560, 10 ^ 9), (Cm0_390, true, 390180644, 10 ^ 9)]

/-- **C51** (the constants). Each constant is what the single precision arithmetic of `stbi_f2f` makes of its literal:
for a positive literal `x` the integer nearest to `4096 x`; for a negative one an integer larger than `4096 x` by 1/2 to
3/2, since the cast cuts off towards zero. -/
theorem C51_constants : ∀ c ∈ transformConstants, c.1 = stbiF2f c.2.1 c.2.2.1 c.2.2.2 ∧
    (c.2.1 = false → 2 * |c.1.toInt * c.2.2.2 - 4096 * c.2.2.1| ≤ c.2.2.2) ∧
    (c.2.1 = true → (c.2.2.2 : Int) ≤ 2 * (c.1.toInt * c.2.2.2 + 4096 * c.2.2.1) ∧
      2 * (c.1.toInt * c.2.2.2 + 4096 * c.2.2.1) ≤ 3 * c.2.2.2) := by
  decide +kernel

/-- **C51** (exact part). The fixed point value of a sample differs from the real inverse DCT of T.81
A.3.3 by at most 5/8 plus 1/5000 of the sum of the coefficient magnitudes, for all coefficients. -/
theorem C51_fixed_point_error (F : Nat → Nat → Int) (r x : Nat) (hr : r < 8) (hx : x < 8) :
    |(idctSample F r x : ℝ) - (128 + realIdct (fun k i => (F k i : ℝ)) r x)| ≤
      5 / 8 + (∑ i ∈ range 8, ∑ k ∈ range 8, |(F k i : ℝ)|) / 5000 :=
  idctSample_error F hr hx

/-- **C51.** For every block whose dequantised coefficients are at most 2^16 in magnitude and whose
exact samples stay in the window of the clamp table, each decoded sample differs from the exactly
transformed, level shifted and clamped one by at most 5/8 plus 1/5000 of the sum of the coefficient
magnitudes. -/
theorem C51_sample_error (c : List Int) (q : List Nat)
    (h : ∀ i, i < 64 → -2 ^ 16 ≤ coef c i * quant q i ∧ coef c i * quant q i ≤ 2 ^ 16)
    (F : Nat → Nat → Int) (hF : F = fun k i => coef c (i + 8 * k) * quant q (i + 8 * k))
    (e : ℝ) (he : e = 5 / 8 + (∑ i ∈ range 8, ∑ k ∈ range 8, |(F k i : ℝ)|) / 5000)
    (hw : ∀ r x, r < 8 → x < 8 → -256 + e ≤ 128 + realIdct (fun k i => (F k i : ℝ)) r x ∧
      128 + realIdct (fun k i => (F k i : ℝ)) r x ≤ 767 - e) :
    ∃ rows, idct8x8 c q = .ok rows ∧ ∀ r x, r < 8 → x < 8 → ∃ row v, rows[r]? = some row ∧
      row[x]? = some v ∧
      |(v.toNat : ℝ) - clampReal (128 + realIdct (fun k i => (F k i : ℝ)) r x)| ≤ e := by
  have herr : ∀ r x, r < 8 → x < 8 →
      |(idctSample F r x : ℝ) - (128 + realIdct (fun k i => (F k i : ℝ)) r x)| ≤ e := by
    intro r x hr hx
    rw [he]
    exact C51_fixed_point_error F r x hr hx
  have hs := C24_saturated c q h (by
    intro r x hr hx
    have h1 := herr r x hr hx
    have h2 := hw r x hr hx
    rw [abs_le] at h1
    subst hF
    constructor
    · have : ((-256 : Int) : ℝ) ≤ (idctSample (fun k i => coef c (i + 8 * k) * ↑(quant q (i + 8 * k))) r x : ℝ) := by
        push_cast; linarith [h1.1, h2.1]
      exact_mod_cast this
    · have : (idctSample (fun k i => coef c (i + 8 * k) * ↑(quant q (i + 8 * k))) r x : ℝ) ≤ ((767 : Int) : ℝ) := by
        push_cast; linarith [h1.2, h2.2]
      exact_mod_cast this)
  refine ⟨_, hs, ?_⟩
  intro r x hr hx
  refine ⟨_, _, by rw [List.getElem?_map, List.getElem?_range hr]; rfl,
    by rw [List.getElem?_map, List.getElem?_range hx]; rfl, ?_⟩
  rw [saturate_real]
  refine (clampReal_lip _ _).trans ?_
  have := herr r x hr hx
  rw [hF] at this ⊢
  exact this

/-- The hypotheses are met by every block with only a DC coefficient of moderate size; here 296. -/
example (F : Nat → Nat → Int)
    (hF : F = fun k i => coef (37 :: List.replicate 63 0) (i + 8 * k) * quant (List.replicate 64 8) (i + 8 * k)) :
    (∑ i ∈ range 8, ∑ k ∈ range 8, |(F k i : ℝ)|) = 296 ∧
    ∀ r x, realIdct (fun k i => (F k i : ℝ)) r x = 37 := by
  have h0 : F 0 0 = 296 := by rw [hF]; decide
  have hz : ∀ i, i < 8 → ∀ k, k < 8 → (k, i) ≠ (0, 0) → F k i = 0 := by
    rw [hF]
    decide
  have hs : √2 * √2 = 2 := Real.mul_self_sqrt (by norm_num)
  have hs0 : √2 ≠ 0 := by positivity
  constructor
  · rw [Finset.sum_eq_single_of_mem 0 (by simp), Finset.sum_eq_single_of_mem 0 (by simp), h0]
    · norm_num
    · intro k hk hk0
      rw [hz 0 (by omega) k (Finset.mem_range.1 hk) (by simp; omega)]
      simp
    · intro i hi hi0
      apply Finset.sum_eq_zero
      intro k hk
      rw [hz i (Finset.mem_range.1 hi) k (Finset.mem_range.1 hk) (by simp; omega)]
      simp
  · intro r x
    unfold realIdct
    dsimp only
    rw [Finset.sum_eq_single_of_mem 0 (by simp), Finset.sum_eq_single_of_mem 0 (by simp), h0]
    · simp [dctScale]
      field_simp
      linear_combination (-148) * hs
    · intro k hk hk0
      rw [hz 0 (by omega) k (Finset.mem_range.1 hk) (by simp; omega)]
      simp
    · intro i hi hi0
      apply Finset.sum_eq_zero
      intro k hk
      rw [hz i (Finset.mem_range.1 hi) k (Finset.mem_range.1 hk) (by simp; omega)]
      simp

end Jpeg
