import Verif.Props.Upsample
/-!
# Rows in order, upsampled (lemmas of C99)
-/

namespace Jpeg
open Spec

theorem doubleLine_rising {W w x : Nat} (hw : w = (W + 1) / 2) (hx : x + 1 < W) {f : Nat → Nat}
    (hf : ∀ i, i + 1 < w → f i ≤ f (i + 1)) : doubleLine w f x ≤ doubleLine w f (x + 1) := by
  unfold doubleLine tri
  rcases Nat.mod_two_eq_zero_or_one x with h | h
  · obtain ⟨k, rfl⟩ : ∃ k, x = 2 * k := ⟨x / 2, by omega⟩
    rw [show (2 * k + 1) / 2 = k by omega, show 2 * k / 2 = k by omega, show (2 * k + 1) % 2 = 1 by omega, h]
    have h1 := hf k
    have h2 := hf (k - 1)
    have h3 : 1 ≤ k → k - 1 + 1 = k := by omega
    by_cases hk : k = 0
    · subst hk
      simp only [Nat.mul_zero, if_true, Nat.zero_add, Nat.one_ne_zero, if_false]
      by_cases hq : 1 = 2 * w - 1
      · rw [if_pos hq, show w - 1 = 0 by omega]
      · rw [if_neg hq]
        have := h1 (by omega)
        simp only [Nat.zero_add] at this
        omega
    · rw [h3 (by omega)] at h2
      rw [if_neg (show ¬ 2 * k = 0 by omega), if_neg (show ¬ 2 * k = 2 * w - 1 by omega), if_pos (show 0 = 0 from rfl),
        if_neg (show ¬ 2 * k + 1 = 0 by omega), if_neg (show ¬ 1 = 0 by decide)]
      have := h2 (by omega)
      split
      · rename_i hq
        rw [show w - 1 = k by omega]
        omega
      · have := h1 (by omega)
        omega
  · obtain ⟨k, rfl⟩ : ∃ k, x = 2 * k + 1 := ⟨x / 2, by omega⟩
    have h1 := hf k (by omega)
    rw [show (2 * k + 1 + 1) / 2 = k + 1 by omega, show (2 * k + 1) / 2 = k by omega, h,
      show (2 * k + 1 + 1) % 2 = 0 by omega, if_neg (show ¬ 2 * k + 1 = 0 by omega),
      if_neg (show ¬ 2 * k + 1 + 1 = 0 by omega), if_neg (show ¬ 2 * k + 1 = 2 * w - 1 by omega),
      if_neg (show ¬ 2 * k + 1 + 1 = 2 * w - 1 by omega), if_neg (show ¬ 1 = 0 by decide), if_pos (show 0 = 0 from rfl),
      Nat.add_sub_cancel]
    omega

theorem doubleLine_falling {W w x : Nat} (hw : w = (W + 1) / 2) (hx : x + 1 < W) {f : Nat → Nat}
    (hf : ∀ i, i + 1 < w → f (i + 1) ≤ f i) : doubleLine w f (x + 1) ≤ doubleLine w f x := by
  unfold doubleLine tri
  rcases Nat.mod_two_eq_zero_or_one x with h | h
  · obtain ⟨k, rfl⟩ : ∃ k, x = 2 * k := ⟨x / 2, by omega⟩
    rw [show (2 * k + 1) / 2 = k by omega, show 2 * k / 2 = k by omega, show (2 * k + 1) % 2 = 1 by omega, h]
    have h1 := hf k
    have h2 := hf (k - 1)
    have h3 : 1 ≤ k → k - 1 + 1 = k := by omega
    by_cases hk : k = 0
    · subst hk
      simp only [Nat.mul_zero, if_true, Nat.zero_add, Nat.one_ne_zero, if_false]
      by_cases hq : 1 = 2 * w - 1
      · rw [if_pos hq, show w - 1 = 0 by omega]
      · rw [if_neg hq]
        have := h1 (by omega)
        simp only [Nat.zero_add] at this
        omega
    · rw [h3 (by omega)] at h2
      rw [if_neg (show ¬ 2 * k = 0 by omega), if_neg (show ¬ 2 * k = 2 * w - 1 by omega), if_pos (show 0 = 0 from rfl),
        if_neg (show ¬ 2 * k + 1 = 0 by omega), if_neg (show ¬ 1 = 0 by decide)]
      have := h2 (by omega)
      split
      · rename_i hq
        rw [show w - 1 = k by omega]
        omega
      · have := h1 (by omega)
        omega
  · obtain ⟨k, rfl⟩ : ∃ k, x = 2 * k + 1 := ⟨x / 2, by omega⟩
    have h1 := hf k (by omega)
    rw [show (2 * k + 1 + 1) / 2 = k + 1 by omega, show (2 * k + 1) / 2 = k by omega, h,
      show (2 * k + 1 + 1) % 2 = 0 by omega, if_neg (show ¬ 2 * k + 1 = 0 by omega),
      if_neg (show ¬ 2 * k + 1 + 1 = 0 by omega), if_neg (show ¬ 2 * k + 1 = 2 * w - 1 by omega),
      if_neg (show ¬ 2 * k + 1 + 1 = 2 * w - 1 by omega), if_neg (show ¬ 1 = 0 by decide), if_pos (show 0 = 0 from rfl),
      Nat.add_sub_cancel]
    omega

theorem doubleBoth_rising {W w x : Nat} (hw : w = (W + 1) / 2) (hx : x + 1 < W) {t : Nat → Nat}
    (hf : ∀ i, i + 1 < w → t i ≤ t (i + 1)) : (let x := x
      if x = 0 then (t 0 + 2) / 4
      else if x = 2 * w - 1 then (t (w - 1) + 2) / 4
      else if x % 2 = 0 then (3 * t (x / 2) + t (x / 2 - 1) + 8) / 16
      else (3 * t (x / 2) + t (x / 2 + 1) + 8) / 16) ≤ (let x := (x + 1)
      if x = 0 then (t 0 + 2) / 4
      else if x = 2 * w - 1 then (t (w - 1) + 2) / 4
      else if x % 2 = 0 then (3 * t (x / 2) + t (x / 2 - 1) + 8) / 16
      else (3 * t (x / 2) + t (x / 2 + 1) + 8) / 16) := by
  simp only
  rcases Nat.mod_two_eq_zero_or_one x with h | h
  · obtain ⟨k, rfl⟩ : ∃ k, x = 2 * k := ⟨x / 2, by omega⟩
    rw [show (2 * k + 1) / 2 = k by omega, show 2 * k / 2 = k by omega, show (2 * k + 1) % 2 = 1 by omega, h]
    have h1 := hf k
    have h2 := hf (k - 1)
    have h3 : 1 ≤ k → k - 1 + 1 = k := by omega
    by_cases hk : k = 0
    · subst hk
      simp only [Nat.mul_zero, if_true, Nat.zero_add, Nat.one_ne_zero, if_false]
      by_cases hq : 1 = 2 * w - 1
      · rw [if_pos hq, show w - 1 = 0 by omega]
      · rw [if_neg hq]
        have := h1 (by omega)
        simp only [Nat.zero_add] at this
        omega
    · rw [h3 (by omega)] at h2
      rw [if_neg (show ¬ 2 * k = 0 by omega), if_neg (show ¬ 2 * k = 2 * w - 1 by omega), if_pos (show 0 = 0 from rfl),
        if_neg (show ¬ 2 * k + 1 = 0 by omega), if_neg (show ¬ 1 = 0 by decide)]
      have := h2 (by omega)
      split
      · rename_i hq
        rw [show w - 1 = k by omega]
        omega
      · have := h1 (by omega)
        omega
  · obtain ⟨k, rfl⟩ : ∃ k, x = 2 * k + 1 := ⟨x / 2, by omega⟩
    have h1 := hf k (by omega)
    rw [show (2 * k + 1 + 1) / 2 = k + 1 by omega, show (2 * k + 1) / 2 = k by omega, h,
      show (2 * k + 1 + 1) % 2 = 0 by omega, if_neg (show ¬ 2 * k + 1 = 0 by omega),
      if_neg (show ¬ 2 * k + 1 + 1 = 0 by omega), if_neg (show ¬ 2 * k + 1 = 2 * w - 1 by omega),
      if_neg (show ¬ 2 * k + 1 + 1 = 2 * w - 1 by omega), if_neg (show ¬ 1 = 0 by decide), if_pos (show 0 = 0 from rfl),
      Nat.add_sub_cancel]
    omega

theorem doubleBoth_falling {W w x : Nat} (hw : w = (W + 1) / 2) (hx : x + 1 < W) {t : Nat → Nat}
    (hf : ∀ i, i + 1 < w → t (i + 1) ≤ t i) : (let x := (x + 1)
      if x = 0 then (t 0 + 2) / 4
      else if x = 2 * w - 1 then (t (w - 1) + 2) / 4
      else if x % 2 = 0 then (3 * t (x / 2) + t (x / 2 - 1) + 8) / 16
      else (3 * t (x / 2) + t (x / 2 + 1) + 8) / 16) ≤ (let x := x
      if x = 0 then (t 0 + 2) / 4
      else if x = 2 * w - 1 then (t (w - 1) + 2) / 4
      else if x % 2 = 0 then (3 * t (x / 2) + t (x / 2 - 1) + 8) / 16
      else (3 * t (x / 2) + t (x / 2 + 1) + 8) / 16) := by
  simp only
  rcases Nat.mod_two_eq_zero_or_one x with h | h
  · obtain ⟨k, rfl⟩ : ∃ k, x = 2 * k := ⟨x / 2, by omega⟩
    rw [show (2 * k + 1) / 2 = k by omega, show 2 * k / 2 = k by omega, show (2 * k + 1) % 2 = 1 by omega, h]
    have h1 := hf k
    have h2 := hf (k - 1)
    have h3 : 1 ≤ k → k - 1 + 1 = k := by omega
    by_cases hk : k = 0
    · subst hk
      simp only [Nat.mul_zero, if_true, Nat.zero_add, Nat.one_ne_zero, if_false]
      by_cases hq : 1 = 2 * w - 1
      · rw [if_pos hq, show w - 1 = 0 by omega]
      · rw [if_neg hq]
        have := h1 (by omega)
        simp only [Nat.zero_add] at this
        omega
    · rw [h3 (by omega)] at h2
      rw [if_neg (show ¬ 2 * k = 0 by omega), if_neg (show ¬ 2 * k = 2 * w - 1 by omega), if_pos (show 0 = 0 from rfl),
        if_neg (show ¬ 2 * k + 1 = 0 by omega), if_neg (show ¬ 1 = 0 by decide)]
      have := h2 (by omega)
      split
      · rename_i hq
        rw [show w - 1 = k by omega]
        omega
      · have := h1 (by omega)
        omega
  · obtain ⟨k, rfl⟩ : ∃ k, x = 2 * k + 1 := ⟨x / 2, by omega⟩
    have h1 := hf k (by omega)
    rw [show (2 * k + 1 + 1) / 2 = k + 1 by omega, show (2 * k + 1) / 2 = k by omega, h,
      show (2 * k + 1 + 1) % 2 = 0 by omega, if_neg (show ¬ 2 * k + 1 = 0 by omega),
      if_neg (show ¬ 2 * k + 1 + 1 = 0 by omega), if_neg (show ¬ 2 * k + 1 = 2 * w - 1 by omega),
      if_neg (show ¬ 2 * k + 1 + 1 = 2 * w - 1 by omega), if_neg (show ¬ 1 = 0 by decide), if_pos (show 0 = 0 from rfl),
      Nat.add_sub_cancel]
    omega

/-- Rows whose samples do not decrease from left to right, upsampled. -/
theorem upsampled_rising {W Ht H V : Nat} {c : Component} (g : ComponentGeometry W Ht H V c)
    (hH : c.h ≤ H) (hV : c.v ≤ V) (hW : 1 ≤ W) {row : Nat} (hrow : row < Ht) {u : Upsample}
    (hu : chooseUpsampler (c.h, c.v) (H, V) ⟨W, Ht⟩ = .ok u) {x : Nat} (hx : x + 1 < W)
    (f : Nat → Nat → Nat) (hf : ∀ r i, r < c.size.height → i + 1 < c.size.width → f r i ≤ f r (i + 1)) :
    upsampled W Ht H V c.h c.v c.size.width c.size.height f row x ≤
      upsampled W Ht H V c.h c.v c.size.width c.size.height f row (x + 1) := by
  have F := Facts.of g hH hV hW (by omega)
  obtain ⟨f1, f2, f3, f4⟩ := g.factors
  have hh1 : 1 ≤ c.size.height := by
    rw [g.size]; exact ceilDiv_pos (Nat.mul_pos (by omega) (by omega)) (by omega)
  have col1 : (c.h = H ∨ W = 1) → x + 1 < c.size.width := by
    rintro (h | h)
    · rw [F.fullW h]; omega
    · omega
  have row1 : (c.v = V ∨ Ht = 1) → row < c.size.height := by
    rintro (h | h)
    · rw [F.fullH h]; omega
    · omega
  have col2 : 2 * c.h = H → c.size.width = (W + 1) / 2 := fun h => F.halfW h
  have row2 : 2 * c.v = V → row / 2 < c.size.height ∧ farRow c.size.height row < c.size.height := by
    intro h
    have := F.halfH h
    unfold farRow
    constructor
    · omega
    · split <;> omega
  unfold upsampled
  split
  · rename_i h
    exact hf _ _ (row1 h.2) (col1 h.1)
  · split
    · rename_i h
      exact doubleLine_rising (col2 h.1) hx (fun i hi => hf row i (row1 h.2) hi)
    · split
      · rename_i h
        have h1 := hf _ _ (row2 h.2).1 (col1 h.1)
        have h2 := hf _ _ (row2 h.2).2 (col1 h.1)
        unfold doubleRows tri
        omega
      · split
        · rename_i h
          unfold doubleBoth
          refine doubleBoth_rising (t := fun i => 3 * f (row / 2) i + f (farRow c.size.height row) i) (col2 h.1) hx
            (fun i hi => ?_)
          have h1 := hf _ _ (row2 h.2).1 hi
          have h2 := hf _ _ (row2 h.2).2 hi
          omega
        · rename_i n1 n2 n3 n4
          have hgen : H % c.h = 0 ∧ V % c.v = 0 := by
            rcases chooseUpsampler_cases hu with ⟨_, h⟩ | ⟨_, _, h⟩ | ⟨_, _, _, h⟩ | ⟨_, _, _, _, h⟩ |
              ⟨_, _, _, _, _, h⟩ <;> omega
          have hs0 : 0 < H / c.h := Nat.div_pos hH (by omega)
          have vs0 : 0 < V / c.v := Nat.div_pos hV (by omega)
          have hxw : (x + 1) / (H / c.h) < c.size.width := by
            rw [F.divW hgen.1, Nat.div_lt_iff_lt_mul hs0]
            have := ceilDiv_le_mul (a := W) (b := H / c.h) hs0
            omega
          have hrv : row / (V / c.v) < c.size.height := by
            rw [F.divH hgen.2, Nat.div_lt_iff_lt_mul vs0]
            have := ceilDiv_le_mul (a := Ht) (b := V / c.v) vs0
            omega
          unfold nearest
          rw [Nat.succ_div] at hxw ⊢
          split at hxw
          · rename_i hd
            rw [if_pos hd]
            exact hf _ _ hrv hxw
          · rename_i hd
            rw [if_neg hd]
            exact Nat.le_refl _

/-- Rows whose samples do not increase from left to right, upsampled. -/
theorem upsampled_falling {W Ht H V : Nat} {c : Component} (g : ComponentGeometry W Ht H V c)
    (hH : c.h ≤ H) (hV : c.v ≤ V) (hW : 1 ≤ W) {row : Nat} (hrow : row < Ht) {u : Upsample}
    (hu : chooseUpsampler (c.h, c.v) (H, V) ⟨W, Ht⟩ = .ok u) {x : Nat} (hx : x + 1 < W)
    (f : Nat → Nat → Nat) (hf : ∀ r i, r < c.size.height → i + 1 < c.size.width → f r (i + 1) ≤ f r i) :
    upsampled W Ht H V c.h c.v c.size.width c.size.height f row (x + 1) ≤
      upsampled W Ht H V c.h c.v c.size.width c.size.height f row x := by
  have F := Facts.of g hH hV hW (by omega)
  obtain ⟨f1, f2, f3, f4⟩ := g.factors
  have hh1 : 1 ≤ c.size.height := by
    rw [g.size]; exact ceilDiv_pos (Nat.mul_pos (by omega) (by omega)) (by omega)
  have col1 : (c.h = H ∨ W = 1) → x + 1 < c.size.width := by
    rintro (h | h)
    · rw [F.fullW h]; omega
    · omega
  have row1 : (c.v = V ∨ Ht = 1) → row < c.size.height := by
    rintro (h | h)
    · rw [F.fullH h]; omega
    · omega
  have col2 : 2 * c.h = H → c.size.width = (W + 1) / 2 := fun h => F.halfW h
  have row2 : 2 * c.v = V → row / 2 < c.size.height ∧ farRow c.size.height row < c.size.height := by
    intro h
    have := F.halfH h
    unfold farRow
    constructor
    · omega
    · split <;> omega
  unfold upsampled
  split
  · rename_i h
    exact hf _ _ (row1 h.2) (col1 h.1)
  · split
    · rename_i h
      exact doubleLine_falling (col2 h.1) hx (fun i hi => hf row i (row1 h.2) hi)
    · split
      · rename_i h
        have h1 := hf _ _ (row2 h.2).1 (col1 h.1)
        have h2 := hf _ _ (row2 h.2).2 (col1 h.1)
        unfold doubleRows tri
        omega
      · split
        · rename_i h
          unfold doubleBoth
          refine doubleBoth_falling (t := fun i => 3 * f (row / 2) i + f (farRow c.size.height row) i) (col2 h.1) hx
            (fun i hi => ?_)
          have h1 := hf _ _ (row2 h.2).1 hi
          have h2 := hf _ _ (row2 h.2).2 hi
          omega
        · rename_i n1 n2 n3 n4
          have hgen : H % c.h = 0 ∧ V % c.v = 0 := by
            rcases chooseUpsampler_cases hu with ⟨_, h⟩ | ⟨_, _, h⟩ | ⟨_, _, _, h⟩ | ⟨_, _, _, _, h⟩ |
              ⟨_, _, _, _, _, h⟩ <;> omega
          have hs0 : 0 < H / c.h := Nat.div_pos hH (by omega)
          have vs0 : 0 < V / c.v := Nat.div_pos hV (by omega)
          have hxw : (x + 1) / (H / c.h) < c.size.width := by
            rw [F.divW hgen.1, Nat.div_lt_iff_lt_mul hs0]
            have := ceilDiv_le_mul (a := W) (b := H / c.h) hs0
            omega
          have hrv : row / (V / c.v) < c.size.height := by
            rw [F.divH hgen.2, Nat.div_lt_iff_lt_mul vs0]
            have := ceilDiv_le_mul (a := Ht) (b := V / c.v) vs0
            omega
          unfold nearest
          rw [Nat.succ_div] at hxw ⊢
          split at hxw
          · rename_i hd
            rw [if_pos hd]
            exact hf _ _ hrv hxw
          · rename_i hd
            rw [if_neg hd]
            exact Nat.le_refl _

end Jpeg
