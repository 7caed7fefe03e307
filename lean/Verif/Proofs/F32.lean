import Verif.Model.Frame
import Mathlib.Tactic.NormNum
import Mathlib.Tactic.Ring
import Mathlib.Tactic.IntervalCases
import Mathlib.Tactic.Linarith
import Mathlib.Algebra.Order.Ring.Nat
/-!
# The f32 computations of the frame geometry
-/

namespace Jpeg
namespace F32

theorem scale_spec (n d : Nat) : ∀ fuel k, k ≤ scale n d fuel k ∧
    (scale n d fuel k = k + fuel ∨ d * 2 ^ 23 ≤ n * 2 ^ scale n d fuel k) ∧
    (k < scale n d fuel k → n * 2 ^ (scale n d fuel k - 1) < d * 2 ^ 23) := by
  intro fuel
  induction fuel with
  | zero => intro k; simp [scale]
  | succ fuel ih =>
    intro k
    unfold scale
    split
    · rename_i h
      exact ⟨le_refl _, Or.inr h, fun h => absurd h (lt_irrefl _)⟩
    · rename_i h
      obtain ⟨h1, h2, h3⟩ := ih (k + 1)
      refine ⟨by omega, ?_, ?_⟩
      · rcases h2 with h2 | h2
        · exact Or.inl (by omega)
        · exact Or.inr h2
      · intro _
        by_cases he : k + 1 < scale n d fuel (k + 1)
        · exact h3 he
        · have : scale n d fuel (k + 1) = k + 1 := by omega
          rw [this, Nat.add_sub_cancel]; omega

theorem rnd_eq {n d : Nat} (hn : 0 < n) : (rnd n d).k = scale n d 64 0 ∧
    (rnd n d).m = if d < 2 * (n * 2 ^ scale n d 64 0 % d) ∨
      (2 * (n * 2 ^ scale n d 64 0 % d) = d ∧ n * 2 ^ scale n d 64 0 / d % 2 = 1)
      then n * 2 ^ scale n d 64 0 / d + 1 else n * 2 ^ scale n d 64 0 / d := by
  have hn : n ≠ 0 := by omega
  by_cases hc : d < 2 * (n * 2 ^ scale n d 64 0 % d) ∨
      (2 * (n * 2 ^ scale n d 64 0 % d) = d ∧ n * 2 ^ scale n d 64 0 / d % 2 = 1)
  · simp only [rnd, if_neg hn, if_pos hc, and_self]
  · simp only [rnd, if_neg hn, if_neg hc, and_self]

theorem roundDiv (N : Nat) {d : Nat} (hd : 0 < d) :
    2 * ((if d < 2 * (N % d) ∨ (2 * (N % d) = d ∧ N / d % 2 = 1) then N / d + 1 else N / d) * d) ≤
      2 * N + d ∧
    2 * N ≤
      2 * ((if d < 2 * (N % d) ∨ (2 * (N % d) = d ∧ N / d % 2 = 1) then N / d + 1 else N / d) * d) +
        d := by
  have hdm := Nat.div_add_mod N d
  have hml := Nat.mod_lt N hd
  rw [Nat.mul_comm d] at hdm
  split
  · rename_i h
    constructor <;> rw [Nat.add_mul, Nat.one_mul] <;> omega
  · rename_i h
    constructor <;> omega

/-- Rounding is to nearest, with at least eight fractional bits for numbers below `2^16`, and at most
24 significant bits. -/
theorem rnd_spec {n d : Nat} (hn : 0 < n) (hd : 0 < d) (hlt : n < 2 ^ 16 * d) :
    8 ≤ (rnd n d).k ∧
    2 * ((rnd n d).m * d) ≤ 2 * (n * 2 ^ (rnd n d).k) + d ∧
    2 * (n * 2 ^ (rnd n d).k) ≤ 2 * ((rnd n d).m * d) + d ∧
    n * 2 ^ (rnd n d).k < d * 2 ^ 24 := by
  obtain ⟨_, h2, h3⟩ := scale_spec n d 64 0
  obtain ⟨hk, hm⟩ := rnd_eq (d := d) hn
  rw [hk, hm]
  generalize scale n d 64 0 = k at h2 h3
  have hk8 : 8 ≤ k := by
    rcases h2 with h2 | h2
    · omega
    · by_contra hc
      have : 2 ^ k ≤ 2 ^ 7 := Nat.pow_le_pow_right (by omega) (by omega)
      have h4 : n * 2 ^ k ≤ n * 2 ^ 7 := Nat.mul_le_mul_left _ this
      omega
  have h4 : n * 2 ^ k < d * 2 ^ 24 := by
    have := h3 (by omega)
    have h5 : 2 ^ k = 2 ^ (k - 1) * 2 := by rw [← Nat.pow_succ]; congr 1; omega
    rw [h5, ← Nat.mul_assoc]; omega
  exact ⟨hk8, (roundDiv _ hd).1, (roundDiv _ hd).2, h4⟩

theorem rnd_zero (d : Nat) : rnd 0 d = ⟨0, 0⟩ := rfl

theorem ceilU16_zero : ceilU16 ⟨0, 0⟩ = 0 := rfl

/-- The ceiling from two-sided bounds. -/
theorem ceilU16_eq {a : F32} {N : Nat} (hN : N < 2 ^ 16) (hhi : a.m ≤ N * 2 ^ a.k)
    (hlo : 0 < N → (N - 1) * 2 ^ a.k < a.m) : ceilU16 a = N := by
  unfold ceilU16
  have hp : 0 < 2 ^ a.k := Nat.two_pow_pos _
  have : (a.m + 2 ^ a.k - 1) / 2 ^ a.k = N := by
    rcases Nat.eq_zero_or_pos N with h0 | h0
    · subst h0
      rw [Nat.div_eq_of_lt]; omega
    · have hlo := hlo h0
      apply Nat.div_eq_of_lt_le
      · obtain ⟨M, rfl⟩ : ∃ M, N = M + 1 := ⟨N - 1, by omega⟩
        rw [Nat.add_sub_cancel] at hlo
        rw [Nat.succ_mul]; omega
      · rw [Nat.succ_mul]; omega
  rw [this]; omega

theorem mul_eight {h : Nat} (h1 : 1 ≤ h) (h4 : h ≤ 4) :
    ((ofNat h).mul (ofNat 8)).m = 8 * h * 2 ^ ((ofNat h).mul (ofNat 8)).k := by
  interval_cases h <;> decide

/-- `(W / (h * 8.0)).ceil() as u16`. -/
theorem mcu_ceil {W h : Nat} (hW : W < 2 ^ 16) (h1 : 1 ≤ h) (h4 : h ≤ 4) :
    ((ofNat W).div ((ofNat h).mul (ofNat 8))).ceilU16 = (W + (8 * h - 1)) / (8 * h) := by
  have he := mul_eight h1 h4
  generalize (ofNat h).mul (ofNat 8) = b at he
  unfold div
  simp only [ofNat, he, Nat.pow_zero, Nat.mul_one]
  rcases Nat.eq_zero_or_pos W with h0 | h0
  · subst h0
    rw [Nat.zero_mul, rnd_zero, ceilU16_zero, Nat.div_eq_of_lt]; omega
  · have hp : 0 < 2 ^ b.k := Nat.two_pow_pos _
    have hlt : W * 2 ^ b.k < 2 ^ 16 * (8 * h * 2 ^ b.k) := by
      rw [← Nat.mul_assoc]
      apply Nat.mul_lt_mul_of_pos_right _ hp
      omega
    obtain ⟨k8, hu, hl, _⟩ := rnd_spec (Nat.mul_pos h0 hp) (Nat.mul_pos (by omega) hp) hlt
    generalize rnd (W * 2 ^ b.k) (8 * h * 2 ^ b.k) = a at *
    -- cancel the common power of two
    have hu' : 2 * (a.m * (8 * h)) ≤ 2 * (W * 2 ^ a.k) + 8 * h := by
      apply Nat.le_of_mul_le_mul_right _ hp
      calc 2 * (a.m * (8 * h)) * 2 ^ b.k = 2 * (a.m * (8 * h * 2 ^ b.k)) := by ring
        _ ≤ _ := hu
        _ = _ := by ring
    have hl' : 2 * (W * 2 ^ a.k) ≤ 2 * (a.m * (8 * h)) + 8 * h := by
      apply Nat.le_of_mul_le_mul_right _ hp
      calc 2 * (W * 2 ^ a.k) * 2 ^ b.k = 2 * (W * 2 ^ b.k * 2 ^ a.k) := by ring
        _ ≤ _ := hl
        _ = _ := by ring
    have hk : 2 ^ 8 ≤ 2 ^ a.k := Nat.pow_le_pow_right (by omega) k8
    have hH : 0 < 8 * h := by omega
    have hdm := Nat.div_add_mod (W + (8 * h - 1)) (8 * h)
    have hml := Nat.mod_lt (W + (8 * h - 1)) hH
    have hNlt : (W + (8 * h - 1)) / (8 * h) < 2 ^ 16 := by
      rw [Nat.div_lt_iff_lt_mul hH]; omega
    generalize (W + (8 * h - 1)) / (8 * h) = N at *
    have hN0 : 0 < N := by
      rcases Nat.eq_zero_or_pos N with h | h
      · subst h; omega
      · exact h
    apply ceilU16_eq hNlt
    · have h5 : W ≤ 8 * h * N := by omega
      have h6 : W * 2 ^ a.k ≤ 8 * h * N * 2 ^ a.k := Nat.mul_le_mul_right _ h5
      by_contra hc
      have h7 : N * 2 ^ a.k + 1 ≤ a.m := by omega
      have h8 : (N * 2 ^ a.k + 1) * (8 * h) ≤ a.m * (8 * h) := Nat.mul_le_mul_right _ h7
      have h9 : (N * 2 ^ a.k + 1) * (8 * h) = 8 * h * N * 2 ^ a.k + 8 * h := by ring
      omega
    · intro _
      obtain ⟨M, rfl⟩ : ∃ M, N = M + 1 := ⟨N - 1, by omega⟩
      rw [Nat.add_sub_cancel]
      have h5 : 8 * h * M + 1 ≤ W := by rw [Nat.mul_succ] at hdm; omega
      have h6 : (8 * h * M + 1) * 2 ^ a.k ≤ W * 2 ^ a.k := Nat.mul_le_mul_right _ h5
      by_contra hc
      have h7 : a.m ≤ M * 2 ^ a.k := by omega
      have h8 : a.m * (8 * h) ≤ M * 2 ^ a.k * (8 * h) := Nat.mul_le_mul_right _ h7
      have h9 : (8 * h * M + 1) * 2 ^ a.k = M * 2 ^ a.k * (8 * h) + 2 ^ a.k := by ring
      omega

/-- The ratios of sampling factors. -/
theorem ratio {h H : Nat} (h1 : 1 ≤ h) (hH : h ≤ H) (h4 : H ≤ 4) :
    ((ofNat h).div (ofNat H)).m * H = h * 2 ^ ((ofNat h).div (ofNat H)).k ∨
    H = 3 ∧ ((ofNat h).div (ofNat H)).m * 3 = h * 2 ^ ((ofNat h).div (ofNat H)).k + 1 ∧
      h * 2 ^ ((ofNat h).div (ofNat H)).k = 2 ^ 25 := by
  interval_cases H <;> interval_cases h <;> decide

/-- `(W * (h / H)).ceil() as u16`. -/
theorem size_ceil {W h H : Nat} (hW : W < 2 ^ 16) (h1 : 1 ≤ h) (hH : h ≤ H) (h4 : H ≤ 4) :
    ((ofNat W).mul ((ofNat h).div (ofNat H))).ceilU16 = (W * h + (H - 1)) / H := by
  have hr := ratio h1 hH h4
  have hHpos : 0 < H := by omega
  generalize (ofNat h).div (ofNat H) = b at hr
  unfold mul
  simp only [ofNat, Nat.zero_add]
  rcases Nat.eq_zero_or_pos W with h0 | h0
  · subst h0
    rw [Nat.zero_mul, rnd_zero, ceilU16_zero, Nat.zero_mul, Nat.div_eq_of_lt]; omega
  · have hp : 0 < 2 ^ b.k := Nat.two_pow_pos _
    have hWh : W * h ≤ W * H := Nat.mul_le_mul_left _ hH
    have hbm : 0 < b.m ∧ b.m ≤ 2 ^ b.k := by
      rcases hr with hr | ⟨rfl, hr, hr2⟩
      · constructor
        · rcases Nat.eq_zero_or_pos b.m with h' | h'
          · rw [h', Nat.zero_mul] at hr
            have : 0 < h * 2 ^ b.k := Nat.mul_pos h1 hp
            omega
          · exact h'
        · apply Nat.le_of_mul_le_mul_right _ hHpos
          rw [hr, Nat.mul_comm (2 ^ b.k)]
          exact Nat.mul_le_mul_right _ hH
      · constructor
        · omega
        · have : h = 1 ∨ h = 2 ∨ h = 3 := by omega
          rcases this with rfl | rfl | rfl <;> omega
    have hlt : W * b.m < 2 ^ 16 * 2 ^ b.k := by
      calc W * b.m ≤ W * 2 ^ b.k := Nat.mul_le_mul_left _ hbm.2
        _ < _ := Nat.mul_lt_mul_of_pos_right hW hp
    obtain ⟨k8, hu, hl, hsig⟩ := rnd_spec (Nat.mul_pos h0 hbm.1) hp hlt
    generalize rnd (W * b.m) (2 ^ b.k) = a at *
    have hk : 2 ^ 8 ≤ 2 ^ a.k := Nat.pow_le_pow_right (by omega) k8
    have hdm := Nat.div_add_mod (W * h + (H - 1)) H
    have hml := Nat.mod_lt (W * h + (H - 1)) hHpos
    have hNlt : (W * h + (H - 1)) / H < 2 ^ 16 := by
      rw [Nat.div_lt_iff_lt_mul hHpos]
      have : W * H ≤ 65535 * H := Nat.mul_le_mul_right _ (by omega)
      omega
    generalize (W * h + (H - 1)) / H = N at *
    have hWh0 : 0 < W * h := Nat.mul_pos h0 h1
    have hN0 : 0 < N := by
      rcases Nat.eq_zero_or_pos N with h | h
      · subst h; omega
      · exact h
    obtain ⟨M, rfl⟩ : ∃ M, N = M + 1 := ⟨N - 1, by omega⟩
    have hup : W * h ≤ H * (M + 1) := by omega
    have hdn : H * M + 1 ≤ W * h := by rw [Nat.mul_succ] at hdm; omega
    rcases hr with hr | ⟨rfl, hr, hr2⟩
    · -- the ratio is exact
      have hu' : 2 * (a.m * H) ≤ 2 * (W * h * 2 ^ a.k) + H := by
        apply Nat.le_of_mul_le_mul_right _ hp
        calc 2 * (a.m * H) * 2 ^ b.k = 2 * (a.m * 2 ^ b.k) * H := by ring
          _ ≤ (2 * (W * b.m * 2 ^ a.k) + 2 ^ b.k) * H := Nat.mul_le_mul_right _ hu
          _ = 2 * (W * (b.m * H) * 2 ^ a.k) + 2 ^ b.k * H := by ring
          _ = _ := by rw [hr]; ring
      have hl' : 2 * (W * h * 2 ^ a.k) ≤ 2 * (a.m * H) + H := by
        apply Nat.le_of_mul_le_mul_right _ hp
        calc 2 * (W * h * 2 ^ a.k) * 2 ^ b.k = 2 * (W * (h * 2 ^ b.k) * 2 ^ a.k) := by ring
          _ = 2 * (W * b.m * 2 ^ a.k) * H := by rw [← hr]; ring
          _ ≤ (2 * (a.m * 2 ^ b.k) + 2 ^ b.k) * H := Nat.mul_le_mul_right _ hl
          _ = _ := by ring
      apply ceilU16_eq hNlt
      · have h6 : W * h * 2 ^ a.k ≤ H * (M + 1) * 2 ^ a.k := Nat.mul_le_mul_right _ hup
        by_contra hc
        have h7 : (M + 1) * 2 ^ a.k + 1 ≤ a.m := by omega
        have h8 : ((M + 1) * 2 ^ a.k + 1) * H ≤ a.m * H := Nat.mul_le_mul_right _ h7
        have h9 : ((M + 1) * 2 ^ a.k + 1) * H = H * (M + 1) * 2 ^ a.k + H := by ring
        omega
      · intro _
        rw [Nat.add_sub_cancel]
        have h6 : (H * M + 1) * 2 ^ a.k ≤ W * h * 2 ^ a.k := Nat.mul_le_mul_right _ hdn
        by_contra hc
        have h7 : a.m ≤ M * 2 ^ a.k := by omega
        have h8 : a.m * H ≤ M * 2 ^ a.k * H := Nat.mul_le_mul_right _ h7
        have h9 : (H * M + 1) * 2 ^ a.k = M * 2 ^ a.k * H + 2 ^ a.k := by ring
        omega
    · -- thirds: `b.m / 2^b.k = h/3 * (1 + 2^-25)`
      -- everything multiplied by `3 * h`
      have hA : b.m * 3 * h = h * (2 ^ 25 + 1) := by rw [hr, hr2]; ring
      have hB : h * 2 ^ b.k = 2 ^ 25 := hr2
      have hu' : 2 * (a.m * 3) * 2 ^ 25 ≤ 2 * (W * h * 2 ^ a.k) * (2 ^ 25 + 1) + 3 * 2 ^ 25 := by
        calc 2 * (a.m * 3) * 2 ^ 25 = 2 * (a.m * 2 ^ b.k) * (3 * h) := by rw [← hB]; ring
          _ ≤ (2 * (W * b.m * 2 ^ a.k) + 2 ^ b.k) * (3 * h) := Nat.mul_le_mul_right _ hu
          _ = 2 * (W * 2 ^ a.k) * (b.m * 3 * h) + 3 * (h * 2 ^ b.k) := by ring
          _ = _ := by rw [hA, hB]; ring
      have hl' : 2 * (W * h * 2 ^ a.k) * (2 ^ 25 + 1) ≤ 2 * (a.m * 3) * 2 ^ 25 + 3 * 2 ^ 25 := by
        calc 2 * (W * h * 2 ^ a.k) * (2 ^ 25 + 1) = 2 * (W * 2 ^ a.k) * (b.m * 3 * h) := by
              rw [hA]; ring
          _ = 2 * (W * b.m * 2 ^ a.k) * (3 * h) := by ring
          _ ≤ (2 * (a.m * 2 ^ b.k) + 2 ^ b.k) * (3 * h) := Nat.mul_le_mul_right _ hl
          _ = 2 * (a.m * 3) * (h * 2 ^ b.k) + 3 * (h * 2 ^ b.k) := by ring
          _ = _ := by rw [hB]
      have hsig' : W * h * 2 ^ a.k * (2 ^ 25 + 1) < 3 * 2 ^ 25 * 2 ^ 24 := by
        calc W * h * 2 ^ a.k * (2 ^ 25 + 1) = W * 2 ^ a.k * (b.m * 3 * h) := by rw [hA]; ring
          _ = W * b.m * 2 ^ a.k * (3 * h) := by ring
          _ < 2 ^ b.k * 2 ^ 24 * (3 * h) := Nat.mul_lt_mul_of_pos_right hsig (by omega)
          _ = 3 * (h * 2 ^ b.k) * 2 ^ 24 := by ring
          _ = _ := by rw [hB]
      apply ceilU16_eq hNlt
      · have h6 : W * h * 2 ^ a.k ≤ 3 * (M + 1) * 2 ^ a.k := Nat.mul_le_mul_right _ hup
        by_contra hc
        have h7 : (M + 1) * 2 ^ a.k + 1 ≤ a.m := by omega
        generalize W * h * 2 ^ a.k = V at *
        have h9 : 3 * (M + 1) * 2 ^ a.k = 3 * ((M + 1) * 2 ^ a.k) := by ring
        rw [h9] at h6
        generalize (M + 1) * 2 ^ a.k = P at *
        omega
      · intro _
        rw [Nat.add_sub_cancel]
        have h6 : (3 * M + 1) * 2 ^ a.k ≤ W * h * 2 ^ a.k := Nat.mul_le_mul_right _ hdn
        by_contra hc
        have h7 : a.m ≤ M * 2 ^ a.k := by omega
        generalize W * h * 2 ^ a.k = V at *
        have h9 : (3 * M + 1) * 2 ^ a.k = 3 * (M * 2 ^ a.k) + 2 ^ a.k := by ring
        rw [h9] at h6
        generalize M * 2 ^ a.k = P at *
        generalize 2 ^ a.k = Q at *
        omega

end F32
end Jpeg
