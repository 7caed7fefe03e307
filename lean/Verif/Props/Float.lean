import Verif.Spec.Float
import Verif.Model.Upsample
import Verif.Model.Color
import Verif.Model.Idct
import Mathlib.Tactic.Linarith
import Mathlib.Tactic.NormNum
import Mathlib.Tactic.Positivity
import Mathlib.Tactic.FieldSimp
import Mathlib.Data.Int.Log
import Mathlib.Algebra.Order.Round
/-!
# C76: rounding does not matter in the upsampler, the colour tables and the constants of the transform
-/

namespace Jpeg
open Spec

theorem Spec.Rounding.quarter {p : Nat} {rnd : ℚ → ℚ} (h : Rounding p rnd) (hp : 20 ≤ p) {m : ℤ} (hm : |m| ≤ 2 ^ 20) :
    rnd ((m : ℚ) / 4) = (m : ℚ) / 4 := by
  have := h.exact m 2 (hm.trans (by exact_mod_cast Nat.pow_le_pow_right (by omega) hp)) (by omega)
  norm_num at this
  exact this

theorem floor_quarter (m : ℤ) : ⌊(m : ℚ) / 4⌋ = m / 4 := by
  have := Rat.floor_intCast_div_natCast m 4
  exact_mod_cast this

/-- **C76** (rows). In `f32`, or in any arithmetic of 20 bits or more, the rows a picture of at most 65535 lines is
interpolated from are those of the model, which computes with integers. -/
theorem C76_rows (p : Nat) (rnd : ℚ → ℚ) (h : Rounding p rnd) (hp : 20 ≤ p) (row height : Nat) (hr : row ≤ 65535)
    (h1 : 1 ≤ height) (h2 : height ≤ 65535) :
    nearFar row height = .ok (truncNat (rowNear rnd row), truncNat (rowFar rnd row height)) := by
  have key : ∀ (m : ℤ) (x : ℚ), x = (m : ℚ) / 4 → |m| ≤ 2 ^ 20 → rnd x = (m : ℚ) / 4 := by
    rintro m x rfl hm
    exact h.quarter hp hm
  have habs : ∀ m : ℤ, -(2 ^ 20) ≤ m → m ≤ 2 ^ 20 → |m| ≤ 2 ^ 20 := fun m a b => abs_le.2 ⟨a, b⟩
  have e0 : rnd (row : ℚ) = ((4 * row : ℤ) : ℚ) / 4 := key _ _ (by push_cast; ring) (habs _ (by omega) (by omega))
  have e1 : rowNear rnd row = ((2 * row : ℤ) : ℚ) / 4 := by
    unfold rowNear
    rw [e0]
    exact key _ _ (by push_cast; ring) (habs _ (by omega) (by omega))
  have hfl : truncInt (rowNear rnd row) = (2 * row : ℤ) / 4 := by
    unfold truncInt
    rw [e1, if_pos (by positivity), floor_quarter]
  have e2 : fractQ rnd (rowNear rnd row) = (((2 * row : ℤ) % 4 : ℤ) : ℚ) / 4 := by
    unfold fractQ
    rw [hfl]
    refine key _ _ ?_ (habs _ (by omega) (by omega))
    rw [e1]
    have := Int.emod_add_mul_ediv (2 * (row : ℤ)) 4
    have h' : ((2 * row : ℤ) : ℚ) = (((2 * row : ℤ) % 4 : ℤ) : ℚ) + 4 * (((2 * row : ℤ) / 4 : ℤ) : ℚ) := by
      exact_mod_cast this.symm
    rw [h']
    ring
  have e3 : rnd (fractQ rnd (rowNear rnd row) * 3) = (((2 * row : ℤ) % 4 * 3 : ℤ) : ℚ) / 4 := by
    rw [e2]
    exact key _ _ (by push_cast; ring) (habs _ (by omega) (by omega))
  have e4 : rnd (rowNear rnd row + rnd (fractQ rnd (rowNear rnd row) * 3)) =
      ((2 * row + (2 * row : ℤ) % 4 * 3 : ℤ) : ℚ) / 4 := by
    rw [e3, e1]
    exact key _ _ (by push_cast; ring) (habs _ (by omega) (by omega))
  have e5 : rnd (rnd (rowNear rnd row + rnd (fractQ rnd (rowNear rnd row) * 3)) - 1 / 4) =
      ((2 * row + (2 * row : ℤ) % 4 * 3 - 1 : ℤ) : ℚ) / 4 := by
    rw [e4]
    exact key _ _ (by push_cast; ring) (habs _ (by omega) (by omega))
  have e6 : rnd ((height - 1 : Nat) : ℚ) = ((4 * ((height : ℤ) - 1) : ℤ) : ℚ) / 4 :=
    key _ _ (by push_cast [h1]; ring) (habs _ (by omega) (by omega))
  have e7 : rowFar rnd row height =
      ((min (2 * row + (2 * row : ℤ) % 4 * 3 - 1) (4 * ((height : ℤ) - 1)) : ℤ) : ℚ) / 4 := by
    unfold rowFar
    simp only
    rw [e5, e6]
    rcases le_total (2 * row + (2 * row : ℤ) % 4 * 3 - 1) (4 * ((height : ℤ) - 1)) with hle | hle
    · rw [min_eq_left hle, min_eq_left]
      exact div_le_div_of_nonneg_right (by exact_mod_cast hle) (by norm_num)
    · rw [min_eq_right hle, min_eq_right]
      exact div_le_div_of_nonneg_right (by exact_mod_cast hle) (by norm_num)
  unfold nearFar
  rw [if_neg (by omega)]
  unfold truncNat
  rw [e7, e1, floor_quarter, floor_quarter]
  simp only [Except.ok.injEq, Prod.mk.injEq]
  constructor
  · rw [Int.tdiv_eq_ediv_of_nonneg (by omega)]
  · generalize min (2 * (row : ℤ) + (2 * row : ℤ) % 4 * 3 - 1) (4 * ((height : ℤ) - 1)) = z
    by_cases hz : 0 ≤ z
    · rw [Int.tdiv_eq_ediv_of_nonneg hz]
    · have a : z.tdiv 4 = -((-z) / 4) := by
        rw [← Int.tdiv_eq_ediv_of_nonneg (by omega), Int.neg_tdiv, neg_neg]
      omega

/-- **C76** (colour constants). The four constants of the colour tables, computed in `f64`, or in any arithmetic of 40 bits
or more, are those of the model. -/
theorem C76_constants (p : Nat) (rnd : ℚ → ℚ) (h : Rounding p rnd) (hp : 40 ≤ p) :
    fix rnd (1402 / 1000) = FIX_1_402 ∧ fix rnd (1772 / 1000) = FIX_1_772 ∧ fix rnd (71414 / 100000) = FIX_0_71414 ∧
    fix rnd (34414 / 100000) = FIX_0_34414 := by
  have hp' : (1 : ℚ) / 2 ^ p ≤ 1 / 2 ^ 40 :=
    one_div_le_one_div_of_le (by positivity) (by exact_mod_cast Nat.pow_le_pow_right (by omega) hp)
  have step : ∀ x a b : ℚ, 1 / 4 ≤ a → b ≤ 200000 → a ≤ x → x ≤ b → a - 1 / 2 ^ 22 ≤ rnd x ∧ rnd x ≤ b + 1 / 2 ^ 22 := by
    intro x a b ha hb h1 h2
    have hx : |x| = x := abs_of_nonneg (by linarith)
    have := h.near x (by rw [hx]; norm_num; linarith) (by rw [hx]; norm_num; linarith)
    rw [hx, div_eq_mul_one_div] at this
    have h3 : x * (1 / 2 ^ p) ≤ x * (1 / 2 ^ 40) := mul_le_mul_of_nonneg_left hp' (by linarith)
    have h4 : x * (1 / 2 ^ 40) ≤ 1 / 2 ^ 22 := by norm_num; linarith
    obtain ⟨h5, h6⟩ := abs_le.1 (this.trans (h3.trans h4))
    constructor <;> linarith
  have main : ∀ (x : ℚ) (n : ℤ), 1 / 3 ≤ x → x ≤ 2 → (n : ℚ) ≤ x * 65536 + 1 / 2 - 1 / 40 →
      x * 65536 + 1 / 2 + 1 / 40 < n + 1 → fix rnd x = n := by
    intro x n h1 h2 h3 h4
    obtain ⟨a1, a2⟩ := step x x x (by linarith) (by linarith) le_rfl le_rfl
    obtain ⟨b1, b2⟩ := step (rnd x * 65536) ((x - 1 / 2 ^ 22) * 65536) ((x + 1 / 2 ^ 22) * 65536)
      (by norm_num; linarith) (by norm_num; linarith) (by linarith) (by linarith)
    obtain ⟨c1, c2⟩ := step (rnd (rnd x * 65536) + 1 / 2) _ _
      (by norm_num at b1; norm_num; linarith) (by norm_num at b2; norm_num; linarith)
      (le_refl (rnd (rnd x * 65536) + 1 / 2)) (le_refl _)
    norm_num at a1 a2 b1 b2 c1 c2
    unfold fix truncInt
    rw [if_pos (by linarith)]
    rw [Int.floor_eq_iff]
    constructor <;> linarith
  refine ⟨main _ _ ?_ ?_ ?_ ?_, main _ _ ?_ ?_ ?_ ?_, main _ _ ?_ ?_ ?_ ?_, main _ _ ?_ ?_ ?_ ?_⟩ <;>
    norm_num [FIX_1_402, FIX_1_772, FIX_0_71414, FIX_0_34414]

/-- **C76** (constants of the transform). The twelve constants of the inverse transform, computed in `f32`, or in any
arithmetic of 22 bits or more, are those of the model. -/
theorem C76_transform_constants (p : Nat) (rnd : ℚ → ℚ) (h : Rounding p rnd) (hp : 22 ≤ p) :
    f2f rnd 0.5411961 = C0_541.toInt ∧ f2f rnd (-1.847759065) = Cm1_847.toInt ∧ f2f rnd 0.765366865 = C0_765.toInt ∧
    f2f rnd 1.175875602 = C1_175.toInt ∧ f2f rnd 0.298631336 = C0_298.toInt ∧ f2f rnd 2.053119869 = C2_053.toInt ∧
    f2f rnd 3.072711026 = C3_072.toInt ∧ f2f rnd 1.501321110 = C1_501.toInt ∧ f2f rnd (-0.899976223) = Cm0_899.toInt ∧
    f2f rnd (-2.562915447) = Cm2_562.toInt ∧ f2f rnd (-1.961570560) = Cm1_961.toInt ∧
    f2f rnd (-0.390180644) = Cm0_390.toInt := by
  have hp' : (1 : ℚ) / 2 ^ p ≤ 1 / 2 ^ 22 :=
    one_div_le_one_div_of_le (by positivity) (by exact_mod_cast Nat.pow_le_pow_right (by omega) hp)
  have step : ∀ x c : ℚ, 1 / 4 ≤ |x| → |x| ≤ c → c ≤ 20000 → |rnd x - x| ≤ c / 2 ^ 22 := by
    intro x c h1 h2 h3
    refine (h.near x (by norm_num; linarith) (by norm_num; linarith)).trans ?_
    rw [div_eq_mul_one_div, div_eq_mul_one_div c]
    exact mul_le_mul h2 hp' (by positivity) (by linarith [abs_nonneg x])
  have main : ∀ x : ℚ, 1 / 4 ≤ |x| → |x| ≤ 4 → |rnd (rnd (rnd x * 4096) + 1 / 2) - (x * 4096 + 1 / 2)| ≤ 3 / 200 := by
    intro x h1 h2
    have a := step x 4 h1 h2 (by norm_num)
    have ha1 : |rnd x| ≤ |x| + 4 / 2 ^ 22 := by
      calc |rnd x| = |x + (rnd x - x)| := by ring_nf
        _ ≤ |x| + |rnd x - x| := abs_add_le _ _
        _ ≤ _ := by linarith
    have ha2 : |x| - 4 / 2 ^ 22 ≤ |rnd x| := by
      calc |x| - 4 / 2 ^ 22 ≤ |x| - |x - rnd x| := by rw [abs_sub_comm]; linarith
        _ ≤ |x - (x - rnd x)| := abs_sub_abs_le_abs_sub _ _
        _ = |rnd x| := by ring_nf
    have hm : |rnd x * 4096| = |rnd x| * 4096 := by rw [abs_mul]; norm_num
    norm_num at ha1 ha2
    have b := step (rnd x * 4096) 16400 (by rw [hm]; linarith) (by rw [hm]; linarith) (by norm_num)
    have hb1 : |rnd (rnd x * 4096)| ≤ |rnd x * 4096| + 1 := by
      calc |rnd (rnd x * 4096)| = |rnd x * 4096 + (rnd (rnd x * 4096) - rnd x * 4096)| := by ring_nf
        _ ≤ |rnd x * 4096| + |rnd (rnd x * 4096) - rnd x * 4096| := abs_add_le _ _
        _ ≤ _ := by norm_num at b; linarith
    have hb2 : |rnd x * 4096| - 1 ≤ |rnd (rnd x * 4096)| := by
      calc |rnd x * 4096| - 1 ≤ |rnd x * 4096| - |rnd x * 4096 - rnd (rnd x * 4096)| := by
            rw [abs_sub_comm (rnd x * 4096)]; norm_num at b; linarith
        _ ≤ |rnd x * 4096 - (rnd x * 4096 - rnd (rnd x * 4096))| := abs_sub_abs_le_abs_sub _ _
        _ = |rnd (rnd x * 4096)| := by ring_nf
    rw [hm] at hb1 hb2
    have hc1 : |rnd (rnd x * 4096) + 1 / 2| ≤ |rnd (rnd x * 4096)| + 1 / 2 := by
      calc _ ≤ |rnd (rnd x * 4096)| + |(1 / 2 : ℚ)| := abs_add_le _ _
        _ = _ := by norm_num
    have hc2 : |rnd (rnd x * 4096)| - 1 / 2 ≤ |rnd (rnd x * 4096) + 1 / 2| := by
      calc |rnd (rnd x * 4096)| - 1 / 2 = |rnd (rnd x * 4096)| - |(-(1 / 2) : ℚ)| := by norm_num
        _ ≤ |rnd (rnd x * 4096) - -(1 / 2)| := abs_sub_abs_le_abs_sub _ _
        _ = _ := by ring_nf
    have c := step (rnd (rnd x * 4096) + 1 / 2) 16400 (by linarith) (by linarith) (by norm_num)
    rw [abs_le] at a b c ⊢
    norm_num at a b c ⊢
    constructor <;> linarith [a.1, a.2, b.1, b.2, c.1, c.2]
  have pos : ∀ (x : ℚ) (n : ℤ), 1 / 4 ≤ x → x ≤ 4 → (n : ℚ) ≤ x * 4096 + 1 / 2 - 3 / 200 →
      x * 4096 + 1 / 2 + 3 / 200 < n + 1 → f2f rnd x = n := by
    intro x n h1 h2 h3 h4
    have := abs_le.1 (main x (by rw [abs_of_nonneg (by linarith)]; exact h1) (by rw [abs_of_nonneg (by linarith)]; exact h2))
    unfold f2f truncInt
    rw [if_pos (by linarith [this.1]), Int.floor_eq_iff]
    constructor <;> linarith [this.1, this.2]
  have neg : ∀ (x : ℚ) (n : ℤ), x ≤ -1 / 4 → -4 ≤ x → (n : ℚ) - 1 < x * 4096 + 1 / 2 - 3 / 200 →
      x * 4096 + 1 / 2 + 3 / 200 ≤ n → f2f rnd x = n := by
    intro x n h1 h2 h3 h4
    have := abs_le.1 (main x (by rw [abs_of_nonpos (by linarith)]; linarith) (by rw [abs_of_nonpos (by linarith)]; linarith))
    unfold f2f truncInt
    rw [if_neg (by linarith [this.2]), Int.ceil_eq_iff]
    constructor <;> linarith [this.1, this.2]
  have e : C0_541.toInt = 2217 ∧ Cm1_847.toInt = -7567 ∧ C0_765.toInt = 3135 ∧ C1_175.toInt = 4816 ∧ C0_298.toInt = 1223 ∧
      C2_053.toInt = 8410 ∧ C3_072.toInt = 12586 ∧ C1_501.toInt = 6149 ∧ Cm0_899.toInt = -3685 ∧ Cm2_562.toInt = -10497 ∧
      Cm1_961.toInt = -8034 ∧ Cm0_390.toInt = -1597 := by decide
  obtain ⟨e1, e2, e3, e4, e5, e6, e7, e8, e9, e10, e11, e12⟩ := e
  rw [e1, e2, e3, e4, e5, e6, e7, e8, e9, e10, e11, e12]
  refine ⟨pos _ _ ?_ ?_ ?_ ?_, neg _ _ ?_ ?_ ?_ ?_, pos _ _ ?_ ?_ ?_ ?_, pos _ _ ?_ ?_ ?_ ?_, pos _ _ ?_ ?_ ?_ ?_,
    pos _ _ ?_ ?_ ?_ ?_, pos _ _ ?_ ?_ ?_ ?_, pos _ _ ?_ ?_ ?_ ?_, neg _ _ ?_ ?_ ?_ ?_, neg _ _ ?_ ?_ ?_ ?_,
    neg _ _ ?_ ?_ ?_ ?_, neg _ _ ?_ ?_ ?_ ?_⟩ <;> norm_num

/-! ## A case: round to nearest -/

/-- Round to nearest with `p` significant bits. -/
def roundTo (p : Nat) (x : ℚ) : ℚ :=
  round (x * 2 ^ ((p : ℤ) - 1 - Int.log 2 |x|)) * 2 ^ (Int.log 2 |x| - ((p : ℤ) - 1))

theorem roundTo_rounding (p : Nat) (hp : 1 ≤ p) : Rounding p (roundTo p) := by
  have hz : ∀ (x : ℚ) (e : ℤ), x * 2 ^ ((p : ℤ) - 1 - e) * 2 ^ (e - ((p : ℤ) - 1)) = x := by
    intro x e
    rw [mul_assoc, ← zpow_add₀ (by norm_num), show (p : ℤ) - 1 - e + (e - ((p : ℤ) - 1)) = 0 by ring, zpow_zero, mul_one]
  constructor
  · intro m k hm _
    by_cases h0 : m = 0
    · subst h0; simp [roundTo]
    have hpos : (0 : ℚ) < |(m : ℚ) / 2 ^ k| := abs_pos.2 (by positivity)
    have h1 : ((2 : Nat) : ℚ) ^ Int.log 2 |(m : ℚ) / 2 ^ k| ≤ |(m : ℚ) / 2 ^ k| :=
      Int.zpow_log_le_self (by norm_num) hpos
    rw [Nat.cast_ofNat] at h1
    unfold roundTo
    generalize Int.log 2 |(m : ℚ) / 2 ^ k| = e at h1
    have habs : |(m : ℚ) / 2 ^ k| = |(m : ℚ)| / 2 ^ k := by rw [abs_div, abs_of_pos (by positivity : (0 : ℚ) < 2 ^ k)]
    have hm' : |(m : ℚ)| ≤ 2 ^ p := by exact_mod_cast hm
    have hek : e + k ≤ p := by
      have h2 : (2 : ℚ) ^ (e + k) ≤ 2 ^ (p : ℤ) := by
        rw [zpow_add₀ (by norm_num), zpow_natCast, zpow_natCast]
        rw [habs, le_div_iff₀ (by positivity)] at h1
        exact h1.trans hm'
      exact (zpow_le_zpow_iff_right₀ (by norm_num)).1 h2
    have hint : ∃ n : ℤ, (m : ℚ) / 2 ^ k * 2 ^ ((p : ℤ) - 1 - e) = n := by
      have hrw : (m : ℚ) / 2 ^ k * 2 ^ ((p : ℤ) - 1 - e) = m * 2 ^ ((p : ℤ) - 1 - e - k) := by
        rw [zpow_sub₀ (by norm_num) _ (k : ℤ), zpow_natCast]
        field_simp
      by_cases hlt : e + k ≤ p - 1
      · refine ⟨m * 2 ^ ((p : ℤ) - 1 - e - k).toNat, ?_⟩
        rw [hrw]
        push_cast
        rw [← zpow_natCast, Int.toNat_of_nonneg (by omega)]
      · have heq : e + k = p := by omega
        have hge : (2 : ℚ) ^ p ≤ |(m : ℚ)| := by
          rw [habs, le_div_iff₀ (by positivity), ← zpow_natCast, ← zpow_add₀ (by norm_num), heq, zpow_natCast] at h1
          exact h1
        have hmeq : |(m : ℚ)| = 2 ^ p := le_antisymm hm' hge
        have hpp : (2 : ℚ) ^ p = 2 * 2 ^ (p - 1) := by
          rw [← pow_succ', Nat.sub_add_cancel hp]
        rw [hrw, show (p : ℤ) - 1 - e - k = -1 by omega]
        rcases abs_choice (m : ℚ) with h3 | h3 <;> rw [h3] at hmeq
        · exact ⟨2 ^ (p - 1), by rw [hmeq, hpp]; push_cast; rw [zpow_neg_one]; ring⟩
        · refine ⟨-2 ^ (p - 1), ?_⟩
          rw [show (m : ℚ) = -2 ^ p by linarith, hpp]; push_cast; rw [zpow_neg_one]; ring
    obtain ⟨n, hn⟩ := hint
    rw [hn, round_intCast, ← hn, hz]
  · intro x hx _
    have hpos : 0 < |x| := lt_of_lt_of_le (by positivity) hx
    unfold roundTo
    have h1 : ((2 : Nat) : ℚ) ^ Int.log 2 |x| ≤ |x| := Int.zpow_log_le_self (by norm_num) hpos
    rw [Nat.cast_ofNat] at h1
    generalize Int.log 2 |x| = e at h1 ⊢
    have h2 := abs_sub_round (x * 2 ^ ((p : ℤ) - 1 - e))
    have h3 : (round (x * 2 ^ ((p : ℤ) - 1 - e)) : ℚ) * 2 ^ (e - ((p : ℤ) - 1)) - x =
        -((x * 2 ^ ((p : ℤ) - 1 - e) - round (x * 2 ^ ((p : ℤ) - 1 - e))) * 2 ^ (e - ((p : ℤ) - 1))) := by
      rw [sub_mul, hz]; ring
    rw [h3, abs_neg, abs_mul, abs_of_pos (zpow_pos (by norm_num) (e - ((p : ℤ) - 1)) : (0 : ℚ) < 2 ^ (e - ((p : ℤ) - 1)))]
    have h4 : (2 : ℚ) ^ (e - ((p : ℤ) - 1)) = 2 * (2 ^ e / 2 ^ p) := by
      rw [show e - ((p : ℤ) - 1) = 1 + (e - p) by ring, zpow_add₀ (by norm_num), zpow_sub₀ (by norm_num), zpow_one, zpow_natCast]
    rw [h4]
    have h5 : (2 : ℚ) ^ e / 2 ^ p ≤ |x| / 2 ^ p := div_le_div_of_nonneg_right h1 (by positivity)
    have h6 : (0 : ℚ) < 2 ^ e / 2 ^ p := div_pos (zpow_pos (by norm_num) e) (by positivity)
    nlinarith [abs_nonneg (x * 2 ^ ((p : ℤ) - 1 - e) - round (x * 2 ^ ((p : ℤ) - 1 - e)))]

/-- The last line but one of the tallest picture with a component of half its lines. -/
example : nearFar 65534 32768 = .ok (32767, 32766) ∧
    nearFar 65534 32768 = .ok (truncNat (rowNear (roundTo 24) 65534), truncNat (rowFar (roundTo 24) 65534 32768)) :=
  ⟨by decide, C76_rows 24 _ (roundTo_rounding 24 (by omega)) (by omega) 65534 32768 (by omega) (by omega) (by omega)⟩

example : fix (roundTo 53) (1402 / 1000) = 91881 :=
  (C76_constants 53 _ (roundTo_rounding 53 (by omega)) (by omega)).1

example : f2f (roundTo 24) (-1.847759065) = -7567 :=
  (C76_transform_constants 24 _ (roundTo_rounding 24 (by omega)) (by omega)).2.1

end Jpeg
