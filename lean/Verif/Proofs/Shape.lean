import Verif.Props.Upsample
/-!
# The three shapes of an upsampled sample

A sample of an upsampled component is a sample of the component, or two of them with weights 3:1, or four with weights
9:3:3:1; which ones does not depend on the samples.
-/

namespace Jpeg
open Spec

theorem upsampled_shape {W Ht H V : Nat} {c : Component} (g : ComponentGeometry W Ht H V c)
    (hH : c.h ≤ H) (hV : c.v ≤ V) (hW : 1 ≤ W) {row : Nat} (hrow : row < Ht) {u : Upsample}
    (hu : chooseUpsampler (c.h, c.v) (H, V) ⟨W, Ht⟩ = .ok u) {x : Nat} (hx : x < W) :
    (∃ r i, (r < c.size.height ∧ i < c.size.width) ∧
      ∀ f, upsampled W Ht H V c.h c.v c.size.width c.size.height f row x = f r i) ∨
    ¬ (c.h = H ∧ c.v = V) ∧
    ((∃ r i r' i', (r < c.size.height ∧ i < c.size.width) ∧ (r' < c.size.height ∧ i' < c.size.width) ∧
      ∀ f, upsampled W Ht H V c.h c.v c.size.width c.size.height f row x = (3 * f r i + f r' i' + 2) / 4) ∨
    ∃ r r' i i', r < c.size.height ∧ r' < c.size.height ∧ i < c.size.width ∧ i' < c.size.width ∧
      ∀ f, upsampled W Ht H V c.h c.v c.size.width c.size.height f row x =
        (3 * (3 * f r i + f r' i) + (3 * f r i' + f r' i') + 8) / 16) := by
  have F := Facts.of g hH hV hW (by omega)
  obtain ⟨f1, f2, f3, f4⟩ := g.factors
  have hw1 : 1 ≤ c.size.width := by
    rw [g.size]; exact ceilDiv_pos (Nat.mul_pos (by omega) (by omega)) (by omega)
  have hh1 : 1 ≤ c.size.height := by
    rw [g.size]; exact ceilDiv_pos (Nat.mul_pos (by omega) (by omega)) (by omega)
  have col1 : (c.h = H ∨ W = 1) → x < c.size.width := by
    rintro (h | h)
    · rw [F.fullW h]; omega
    · omega
  have row1 : (c.v = V ∨ Ht = 1) → row < c.size.height := by
    rintro (h | h)
    · rw [F.fullH h]; omega
    · omega
  have col2 : 2 * c.h = H → c.size.width = (W + 1) / 2 := fun h => F.halfW h
  have row2 : 2 * c.v = V → row / 2 < c.size.height ∧ farRow c.size.height row < c.size.height := by
    intro h
    have := F.halfH h
    unfold farRow
    constructor
    · omega
    · split <;> omega
  unfold upsampled
  split
  · rename_i h
    exact .inl ⟨_, _, ⟨row1 h.2, col1 h.1⟩, fun f => rfl⟩
  · split
    · rename_i h
      have hw := col2 h.1
      have hr := row1 h.2
      unfold doubleLine tri
      split
      · exact .inl ⟨_, _, ⟨hr, by omega⟩, fun f => rfl⟩
      · split
        · exact .inl ⟨_, _, ⟨hr, by omega⟩, fun f => rfl⟩
        · refine .inr ⟨by omega, .inl ?_⟩
          split
          · exact ⟨_, _, _, _, ⟨hr, by omega⟩, ⟨hr, by omega⟩, fun f => rfl⟩
          · exact ⟨_, _, _, _, ⟨hr, by omega⟩, ⟨hr, by omega⟩, fun f => rfl⟩
    · split
      · rename_i h
        exact .inr ⟨by omega, .inl ⟨_, _, _, _, ⟨(row2 h.2).1, col1 h.1⟩, ⟨(row2 h.2).2, col1 h.1⟩, fun f => rfl⟩⟩
      · split
        · rename_i h
          have hw := col2 h.1
          obtain ⟨r1, r2⟩ := row2 h.2
          refine .inr ⟨by omega, ?_⟩
          unfold doubleBoth
          simp only
          split
          · exact .inl ⟨_, _, _, _, ⟨r1, by omega⟩, ⟨r2, by omega⟩, fun f => rfl⟩
          · split
            · exact .inl ⟨_, _, _, _, ⟨r1, by omega⟩, ⟨r2, by omega⟩, fun f => rfl⟩
            · refine .inr ?_
              split
              · exact ⟨_, _, _, _, r1, r2, by omega, by omega, fun f => rfl⟩
              · exact ⟨_, _, _, _, r1, r2, by omega, by omega, fun f => rfl⟩
        · rename_i n1 n2 n3 n4
          have hgen : H % c.h = 0 ∧ V % c.v = 0 := by
            rcases chooseUpsampler_cases hu with ⟨_, h⟩ | ⟨_, _, h⟩ | ⟨_, _, _, h⟩ | ⟨_, _, _, _, h⟩ |
              ⟨_, _, _, _, _, h⟩ <;> omega
          have hs0 : 0 < H / c.h := Nat.div_pos hH (by omega)
          have vs0 : 0 < V / c.v := Nat.div_pos hV (by omega)
          have hxw : x / (H / c.h) < c.size.width := by
            rw [F.divW hgen.1, Nat.div_lt_iff_lt_mul hs0]
            have := ceilDiv_le_mul (a := W) (b := H / c.h) hs0
            omega
          have hrv : row / (V / c.v) < c.size.height := by
            rw [F.divH hgen.2, Nat.div_lt_iff_lt_mul vs0]
            have := ceilDiv_le_mul (a := Ht) (b := V / c.v) vs0
            omega
          exact .inl ⟨_, _, ⟨hrv, hxw⟩, fun f => rfl⟩

/-- Samples that are sums of two others (as differences from 128) up to 1, upsampled: up to 2; up to 1 if the component
is not subsampled. -/
theorem upsampled_added {W Ht H V : Nat} {c : Component} (g : ComponentGeometry W Ht H V c)
    (hH : c.h ≤ H) (hV : c.v ≤ V) (hW : 1 ≤ W) {row : Nat} (hrow : row < Ht) {u : Upsample}
    (hu : chooseUpsampler (c.h, c.v) (H, V) ⟨W, Ht⟩ = .ok u) {x : Nat} (hx : x < W) (p q s : Nat → Nat → Nat)
    (h : ∀ r i, r < c.size.height → i < c.size.width →
      p r i + q r i ≤ s r i + 129 ∧ s r i + 127 ≤ p r i + q r i) :
    let U := fun f => upsampled W Ht H V c.h c.v c.size.width c.size.height f row x
    (U p + U q ≤ U s + 130 ∧ U s + 126 ≤ U p + U q) ∧
    (c.h = H ∧ c.v = V → U p + U q ≤ U s + 129 ∧ U s + 127 ≤ U p + U q) := by
  intro U
  rcases upsampled_shape g hH hV hW hrow hu hx with ⟨r, i, ⟨h1, h2⟩, e⟩ | ⟨n, ⟨r, i, r', i', ⟨h1, h2⟩, ⟨h3, h4⟩, e⟩ |
    ⟨r, r', i, i', h1, h2, h3, h4, e⟩⟩
  · have := h r i h1 h2
    simp only [U, e]
    omega
  · have := h r i h1 h2
    have := h r' i' h3 h4
    simp only [U, e]
    refine ⟨by omega, fun h => absurd h n⟩
  · have := h r i h1 h3
    have := h r' i h2 h3
    have := h r i' h1 h4
    have := h r' i' h2 h4
    simp only [U, e]
    refine ⟨by omega, fun h => absurd h n⟩

end Jpeg
