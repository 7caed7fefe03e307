import Verif.Props.Upsample
/-!
# Columns in order, upsampled (lemmas of C99)
-/

namespace Jpeg
open Spec

/-- Columns whose samples do not decrease downwards, upsampled. -/
theorem upsampled_increasing_down {W Ht H V : Nat} {c : Component} (g : ComponentGeometry W Ht H V c)
    (hH : c.h ≤ H) (hV : c.v ≤ V) (hW : 1 ≤ W) {row row' : Nat} (hle : row ≤ row') (hrow : row' < Ht) {u : Upsample}
    (hu : chooseUpsampler (c.h, c.v) (H, V) ⟨W, Ht⟩ = .ok u) {x : Nat} (hx : x < W)
    (f : Nat → Nat → Nat) (hf : ∀ r i, r + 1 < c.size.height → i < c.size.width → f r i ≤ f (r + 1) i) :
    upsampled W Ht H V c.h c.v c.size.width c.size.height f row x ≤
      upsampled W Ht H V c.h c.v c.size.width c.size.height f row' x := by
  have F := Facts.of g hH hV hW (by omega)
  obtain ⟨f1, f2, f3, f4⟩ := g.factors
  have hh1 : 1 ≤ c.size.height := by
    rw [g.size]; exact ceilDiv_pos (Nat.mul_pos (by omega) (by omega)) (by omega)
  have hw1 : 1 ≤ c.size.width := by
    rw [g.size]; exact ceilDiv_pos (Nat.mul_pos (by omega) (by omega)) (by omega)
  have mono : ∀ i, i < c.size.width → ∀ r r', r ≤ r' → r' < c.size.height → f r i ≤ f r' i := by
    intro i hi r r' h
    induction h with
    | refl => exact fun _ => Nat.le_refl _
    | step h ih =>
      intro h'
      have h1 := ih (Nat.lt_of_succ_lt h')
      have h2 := hf _ i h' hi
      exact Nat.le_trans h1 h2
  have col1 : (c.h = H ∨ W = 1) → x < c.size.width := by
    rintro (h | h)
    · rw [F.fullW h]; omega
    · omega
  have row1 : (c.v = V ∨ Ht = 1) → row' < c.size.height := by
    rintro (h | h)
    · rw [F.fullH h]; omega
    · omega
  have col2 : 2 * c.h = H → c.size.width = (W + 1) / 2 := fun h => F.halfW h
  have key : 2 * c.v = V → ∀ i, i < c.size.width →
      3 * f (row / 2) i + f (farRow c.size.height row) i ≤ 3 * f (row' / 2) i + f (farRow c.size.height row') i := by
    intro h i hi
    have hht := F.halfH h
    have m := mono i hi
    by_cases same : row / 2 = row' / 2
    · have h1 : farRow c.size.height row ≤ farRow c.size.height row' := by
        unfold farRow
        rw [same]
        rcases Nat.mod_two_eq_zero_or_one row with p | p <;> rcases Nat.mod_two_eq_zero_or_one row' with q | q
        · rw [if_pos p, if_pos q]
        · rw [if_pos p, if_neg (by omega)]
          have : row' / 2 < c.size.height := by omega
          omega
        · omega
        · rw [if_neg (by omega), if_neg (by omega)]
      have h2 : farRow c.size.height row' < c.size.height := by unfold farRow; split <;> omega
      have := m _ _ h1 h2
      rw [same]
      omega
    · have h1 : row / 2 + 1 ≤ row' / 2 := by omega
      have h2 : row' / 2 < c.size.height := by omega
      have a1 : farRow c.size.height row ≤ row / 2 + 1 := by unfold farRow; split <;> omega
      have a2 : row' / 2 - 1 ≤ farRow c.size.height row' := by unfold farRow; split <;> omega
      have a3 : farRow c.size.height row' < c.size.height := by unfold farRow; split <;> omega
      have k1 := m _ _ a1 (by omega)
      have k2 := m _ _ h1 h2
      have k3 := m _ _ a2 a3
      have k4 := m (row / 2) (row' / 2 - 1) (by omega) (by omega)
      have k5 := m (row / 2) (row' / 2) (by omega) h2
      omega
  unfold upsampled
  split
  · rename_i h
    exact mono _ (col1 h.1) _ _ hle (row1 h.2)
  · split
    · rename_i h
      have hw := col2 h.1
      have m : ∀ i, i < c.size.width → f row i ≤ f row' i := fun i hi => mono i hi _ _ hle (row1 h.2)
      unfold doubleLine tri
      split
      · exact m _ (by omega)
      · split
        · exact m _ (by omega)
        · split
          · have h1 := m (x / 2) (by omega)
            have h2 := m (x / 2 - 1) (by omega)
            omega
          · have h1 := m (x / 2) (by omega)
            have h2 := m (x / 2 + 1) (by omega)
            omega
    · split
      · rename_i h
        have := key h.2 x (col1 h.1)
        unfold doubleRows tri
        omega
      · split
        · rename_i h
          have hw := col2 h.1
          have m := key h.2
          unfold doubleBoth
          simp only
          split
          · have := m 0 (by omega)
            omega
          · split
            · have := m (c.size.width - 1) (by omega)
              omega
            · split
              · have h1 := m (x / 2) (by omega)
                have h2 := m (x / 2 - 1) (by omega)
                omega
              · have h1 := m (x / 2) (by omega)
                have h2 := m (x / 2 + 1) (by omega)
                omega
        · rename_i n1 n2 n3 n4
          have hgen : H % c.h = 0 ∧ V % c.v = 0 := by
            rcases chooseUpsampler_cases hu with ⟨_, h⟩ | ⟨_, _, h⟩ | ⟨_, _, _, h⟩ | ⟨_, _, _, _, h⟩ |
              ⟨_, _, _, _, _, h⟩ <;> omega
          have hs0 : 0 < H / c.h := Nat.div_pos hH (by omega)
          have vs0 : 0 < V / c.v := Nat.div_pos hV (by omega)
          have hxw : x / (H / c.h) < c.size.width := by
            rw [F.divW hgen.1, Nat.div_lt_iff_lt_mul hs0]
            have := ceilDiv_le_mul (a := W) (b := H / c.h) hs0
            omega
          have hrv : row' / (V / c.v) < c.size.height := by
            rw [F.divH hgen.2, Nat.div_lt_iff_lt_mul vs0]
            have := ceilDiv_le_mul (a := Ht) (b := V / c.v) vs0
            omega
          unfold nearest
          exact mono _ hxw _ _ (Nat.div_le_div_right hle) hrv

/-- Columns whose samples do not increase downwards, upsampled. -/
theorem upsampled_decreasing_down {W Ht H V : Nat} {c : Component} (g : ComponentGeometry W Ht H V c)
    (hH : c.h ≤ H) (hV : c.v ≤ V) (hW : 1 ≤ W) {row row' : Nat} (hle : row ≤ row') (hrow : row' < Ht) {u : Upsample}
    (hu : chooseUpsampler (c.h, c.v) (H, V) ⟨W, Ht⟩ = .ok u) {x : Nat} (hx : x < W)
    (f : Nat → Nat → Nat) (hf : ∀ r i, r + 1 < c.size.height → i < c.size.width → f (r + 1) i ≤ f r i) :
    upsampled W Ht H V c.h c.v c.size.width c.size.height f row' x ≤
      upsampled W Ht H V c.h c.v c.size.width c.size.height f row x := by
  have F := Facts.of g hH hV hW (by omega)
  obtain ⟨f1, f2, f3, f4⟩ := g.factors
  have hh1 : 1 ≤ c.size.height := by
    rw [g.size]; exact ceilDiv_pos (Nat.mul_pos (by omega) (by omega)) (by omega)
  have hw1 : 1 ≤ c.size.width := by
    rw [g.size]; exact ceilDiv_pos (Nat.mul_pos (by omega) (by omega)) (by omega)
  have mono : ∀ i, i < c.size.width → ∀ r r', r ≤ r' → r' < c.size.height → f r' i ≤ f r i := by
    intro i hi r r' h
    induction h with
    | refl => exact fun _ => Nat.le_refl _
    | step h ih =>
      intro h'
      have h1 := ih (Nat.lt_of_succ_lt h')
      have h2 := hf _ i h' hi
      exact Nat.le_trans h2 h1
  have col1 : (c.h = H ∨ W = 1) → x < c.size.width := by
    rintro (h | h)
    · rw [F.fullW h]; omega
    · omega
  have row1 : (c.v = V ∨ Ht = 1) → row' < c.size.height := by
    rintro (h | h)
    · rw [F.fullH h]; omega
    · omega
  have col2 : 2 * c.h = H → c.size.width = (W + 1) / 2 := fun h => F.halfW h
  have key : 2 * c.v = V → ∀ i, i < c.size.width →
      3 * f (row' / 2) i + f (farRow c.size.height row') i ≤ 3 * f (row / 2) i + f (farRow c.size.height row) i := by
    intro h i hi
    have hht := F.halfH h
    have m := mono i hi
    by_cases same : row / 2 = row' / 2
    · have h1 : farRow c.size.height row ≤ farRow c.size.height row' := by
        unfold farRow
        rw [same]
        rcases Nat.mod_two_eq_zero_or_one row with p | p <;> rcases Nat.mod_two_eq_zero_or_one row' with q | q
        · rw [if_pos p, if_pos q]
        · rw [if_pos p, if_neg (by omega)]
          have : row' / 2 < c.size.height := by omega
          omega
        · omega
        · rw [if_neg (by omega), if_neg (by omega)]
      have h2 : farRow c.size.height row' < c.size.height := by unfold farRow; split <;> omega
      have := m _ _ h1 h2
      rw [same]
      omega
    · have h1 : row / 2 + 1 ≤ row' / 2 := by omega
      have h2 : row' / 2 < c.size.height := by omega
      have a1 : farRow c.size.height row ≤ row / 2 + 1 := by unfold farRow; split <;> omega
      have a2 : row' / 2 - 1 ≤ farRow c.size.height row' := by unfold farRow; split <;> omega
      have a3 : farRow c.size.height row' < c.size.height := by unfold farRow; split <;> omega
      have k1 := m _ _ a1 (by omega)
      have k2 := m _ _ h1 h2
      have k3 := m _ _ a2 a3
      have k4 := m (row / 2) (row' / 2 - 1) (by omega) (by omega)
      have k5 := m (row / 2) (row' / 2) (by omega) h2
      omega
  unfold upsampled
  split
  · rename_i h
    exact mono _ (col1 h.1) _ _ hle (row1 h.2)
  · split
    · rename_i h
      have hw := col2 h.1
      have m : ∀ i, i < c.size.width → f row' i ≤ f row i := fun i hi => mono i hi _ _ hle (row1 h.2)
      unfold doubleLine tri
      split
      · exact m _ (by omega)
      · split
        · exact m _ (by omega)
        · split
          · have h1 := m (x / 2) (by omega)
            have h2 := m (x / 2 - 1) (by omega)
            omega
          · have h1 := m (x / 2) (by omega)
            have h2 := m (x / 2 + 1) (by omega)
            omega
    · split
      · rename_i h
        have := key h.2 x (col1 h.1)
        unfold doubleRows tri
        omega
      · split
        · rename_i h
          have hw := col2 h.1
          have m := key h.2
          unfold doubleBoth
          simp only
          split
          · have := m 0 (by omega)
            omega
          · split
            · have := m (c.size.width - 1) (by omega)
              omega
            · split
              · have h1 := m (x / 2) (by omega)
                have h2 := m (x / 2 - 1) (by omega)
                omega
              · have h1 := m (x / 2) (by omega)
                have h2 := m (x / 2 + 1) (by omega)
                omega
        · rename_i n1 n2 n3 n4
          have hgen : H % c.h = 0 ∧ V % c.v = 0 := by
            rcases chooseUpsampler_cases hu with ⟨_, h⟩ | ⟨_, _, h⟩ | ⟨_, _, _, h⟩ | ⟨_, _, _, _, h⟩ |
              ⟨_, _, _, _, _, h⟩ <;> omega
          have hs0 : 0 < H / c.h := Nat.div_pos hH (by omega)
          have vs0 : 0 < V / c.v := Nat.div_pos hV (by omega)
          have hxw : x / (H / c.h) < c.size.width := by
            rw [F.divW hgen.1, Nat.div_lt_iff_lt_mul hs0]
            have := ceilDiv_le_mul (a := W) (b := H / c.h) hs0
            omega
          have hrv : row' / (V / c.v) < c.size.height := by
            rw [F.divH hgen.2, Nat.div_lt_iff_lt_mul vs0]
            have := ceilDiv_le_mul (a := Ht) (b := V / c.v) vs0
            omega
          unfold nearest
          exact mono _ hxw _ _ (Nat.div_le_div_right hle) hrv

end Jpeg
