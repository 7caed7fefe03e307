import Verif.Proofs.Upsample
import Verif.Proofs.Tiling
import Verif.Proofs.Color
import Verif.Props.Geometry
import Verif.Model.Decode
/-!
# Upsampling the rows of a frame
-/

namespace Jpeg
open Spec

/-- What matters about the line buffer from one row to the next: the nearest neighbour upsampler does
not write the columns of the last incomplete group, they stay zero. -/
def BufOk (u : Upsample) (W : Nat) (buf : List UInt8) : Prop :=
  match u with
  | .generic hs _ => ∀ x, W / hs * hs ≤ x → buf.getD x 0 = 0
  | _ => True

/-- The value of column `x` of a row. -/
def rowValue (u : Upsample) (W : Nat) (c : Component) (plane : List UInt8) (row x : Nat) : Nat :=
  match u with
  | .h1v1 => sampleOf plane c.lineStride row x
  | .h2v1 => doubleLine c.size.width (sampleOf plane c.lineStride row) x
  | .h1v2 => doubleRows c.size.height (sampleOf plane c.lineStride) row x
  | .h2v2 => doubleBoth c.size.width c.size.height (sampleOf plane c.lineStride) row x
  | .generic hs vs => if x < W / hs * hs then nearest hs vs (sampleOf plane c.lineStride) row x else 0

theorem ceilDiv_mul_right {a b k : Nat} (hk : 0 < k) : ceilDiv (a * k) (b * k) = ceilDiv a b := by
  unfold ceilDiv
  rcases Nat.eq_zero_or_pos b with rfl | hb
  · simp
  · have : a * k + (b * k - 1) = (a + (b - 1)) * k + (k - 1) := by
      have : 1 ≤ b * k := Nat.mul_pos hb hk
      obtain ⟨b, rfl⟩ := Nat.exists_eq_add_of_lt hb
      rw [show 0 + b + 1 - 1 = b by omega, Nat.add_mul a b k, show (0 + b + 1) * k = b * k + k by ring]
      omega
    rw [this, Nat.mul_comm b k, ← Nat.div_div_eq_div_mul, Nat.add_div hk,
      Nat.mul_div_cancel _ hk, Nat.div_eq_of_lt (by omega : k - 1 < k), Nat.mul_mod_left,
      Nat.mod_eq_of_lt (by omega : k - 1 < k), if_neg (by omega)]
    rfl

theorem ceilDiv_one_of {a b : Nat} (h1 : 1 ≤ a) (h2 : a ≤ b) : ceilDiv a b = 1 := by
  unfold ceilDiv
  apply Nat.div_eq_of_lt_le <;> omega

theorem ceilDiv_pos {a b : Nat} (h1 : 1 ≤ a) (h2 : 1 ≤ b) : 1 ≤ ceilDiv a b := by
  unfold ceilDiv
  rw [Nat.le_div_iff_mul_le (by omega)]
  omega

theorem ceilDiv_two (a : Nat) : ceilDiv a 2 = (a + 1) / 2 := rfl

/-- Size facts of a component, collected. -/
structure Facts (W Ht H V : Nat) (c : Component) : Prop where
  stride : c.lineStride = c.blockSize.width * 8
  plane : planeSize c = 8 * c.blockSize.height * c.lineStride
  w_le : c.size.width ≤ c.lineStride
  h_le : c.size.height ≤ 8 * c.blockSize.height
  stride8 : 8 ≤ c.lineStride
  rows8 : 8 ≤ 8 * c.blockSize.height
  fullW : c.h = H → c.size.width = W
  fullH : c.v = V → c.size.height = Ht
  halfW : 2 * c.h = H → c.size.width = (W + 1) / 2
  halfH : 2 * c.v = V → c.size.height = (Ht + 1) / 2
  divW : H % c.h = 0 → c.size.width = ceilDiv W (H / c.h)
  divH : V % c.v = 0 → c.size.height = ceilDiv Ht (V / c.v)
  wide : 2 * c.h = H → W ≤ 8 * c.h → W ≤ c.lineStride
  narrow : 2 * c.h = H → 8 * c.h < W → c.lineStride < W
  whole : c.v = V → Ht = 8 * c.blockSize.height → Ht % (8 * V) = 0
  whole' : c.v = V → Ht % (8 * V) = 0 → Ht = 8 * c.blockSize.height

theorem Facts.of {W Ht H V : Nat} {c : Component} (g : ComponentGeometry W Ht H V c) (hH : c.h ≤ H)
    (hV : c.v ≤ V) (hW : 1 ≤ W) (hHt : 1 ≤ Ht) : Facts W Ht H V c := by
  obtain ⟨f1, f2, f3, f4⟩ := g.factors
  have cov : ∀ {X h H : Nat}, 1 ≤ H → ceilDiv (X * h) H ≤ 8 * (ceilDiv X (8 * H) * h) := by
    intro X h H h1
    rw [ceilDiv_le_iff (by omega)]
    have := ceilDiv_le_mul (a := X) (b := 8 * H) (by omega)
    calc X * h ≤ ceilDiv X (8 * H) * (8 * H) * h := Nat.mul_le_mul_right _ this
      _ = _ := by ring
  have hp1 := ceilDiv_pos hW (show 1 ≤ 8 * H by omega)
  have hp2 := ceilDiv_pos hHt (show 1 ≤ 8 * V by omega)
  have hstr := g.lineStride
  have hbl := g.blocks
  have hdiv : ∀ {X a A : Nat}, 1 ≤ a → A % a = 0 → ceilDiv (X * a) A = ceilDiv X (A / a) := by
    intro X a A h1 h2
    obtain ⟨k, rfl⟩ := Nat.dvd_of_mod_eq_zero h2
    rw [Nat.mul_div_cancel_left _ (by omega), Nat.mul_comm a k, ceilDiv_mul_right (by omega)]
  refine ⟨?_, ?_, ?_, ?_, ?_, ?_, ?_, ?_, ?_, ?_, ?_, ?_, ?_, ?_, ?_, ?_⟩
  · rw [hbl, hstr]; ring
  · unfold planeSize Dim.area BLOCK_SIZE; rw [hbl, hstr]; ring
  · rw [g.size, hstr]; exact cov (by omega)
  · rw [g.size, hbl]; exact cov (by omega)
  · rw [hstr]
    have := Nat.mul_le_mul hp1 f1
    omega
  · rw [hbl]
    have := Nat.mul_le_mul hp2 f3
    simp only
    omega
  · intro h
    rw [g.size]
    simp only
    rw [hdiv (by omega) (by rw [h]; exact Nat.mod_self _), h, Nat.div_self (by omega)]
    unfold ceilDiv; omega
  · intro h
    rw [g.size]
    simp only
    rw [hdiv (by omega) (by rw [h]; exact Nat.mod_self _), h, Nat.div_self (by omega)]
    unfold ceilDiv; omega
  · intro h
    rw [g.size]
    simp only
    rw [hdiv (by omega) (by rw [← h]; exact Nat.mul_mod_left _ _), ← h,
      Nat.mul_div_cancel _ (by omega), ceilDiv_two]
  · intro h
    rw [g.size]
    simp only
    rw [hdiv (by omega) (by rw [← h]; exact Nat.mul_mod_left _ _), ← h,
      Nat.mul_div_cancel _ (by omega), ceilDiv_two]
  · intro h; rw [g.size]; exact hdiv (by omega) h
  · intro h; rw [g.size]; exact hdiv (by omega) h
  · intro h hle
    rw [hstr]
    have := Nat.mul_le_mul_right c.h hp1
    omega
  · intro h hlt
    rw [hstr]
    have e : ceilDiv W (8 * H) * (8 * H) < W + 8 * H := by
      unfold ceilDiv
      have := Nat.div_mul_le_self (W + (8 * H - 1)) (8 * H)
      omega
    rcases Nat.lt_or_ge (ceilDiv W (8 * H)) 2 with hc | hc
    · have : ceilDiv W (8 * H) = 1 := by omega
      rw [this]; omega
    · have e2 : ceilDiv W (8 * H) * (8 * H) = 2 * (8 * (ceilDiv W (8 * H) * c.h)) := by
        rw [← h]; ring
      have := Nat.mul_le_mul_right (8 * H) hc
      omega
  · intro h e
    rw [hbl, h] at e
    simp only at e
    rw [e, show 8 * (ceilDiv Ht (8 * V) * V) = ceilDiv Ht (8 * V) * (8 * V) by ring]
    exact Nat.mul_mod_left _ _
  · intro h e
    rw [hbl, h]
    simp only
    obtain ⟨k, hk⟩ := Nat.dvd_of_mod_eq_zero e
    have : ceilDiv Ht (8 * V) = k := by
      rw [hk]; unfold ceilDiv
      rw [Nat.mul_add_div (by omega), Nat.div_eq_of_lt (by omega), Nat.add_zero]
    rw [this, hk]; ring

theorem toNat_eq_ofNat {a : UInt8} {n : Nat} (h : a.toNat = n) : a = UInt8.ofNat n := by
  rw [← h]; simp

/-- Which upsampler is chosen. -/
theorem chooseUpsampler_cases {h v H V W Ht : Nat} {u : Upsample}
    (hu : chooseUpsampler (h, v) (H, V) ⟨W, Ht⟩ = .ok u) :
    (u = .h1v1 ∧ (h = H ∨ W = 1) ∧ (v = V ∨ Ht = 1)) ∨
    (u = .h2v1 ∧ ¬ ((h = H ∨ W = 1) ∧ (v = V ∨ Ht = 1)) ∧ h * 2 = H ∧ (v = V ∨ Ht = 1)) ∨
    (u = .h1v2 ∧ ¬ ((h = H ∨ W = 1) ∧ (v = V ∨ Ht = 1)) ∧ ¬ (h * 2 = H ∧ (v = V ∨ Ht = 1)) ∧
      (h = H ∨ W = 1) ∧ v * 2 = V) ∨
    (u = .h2v2 ∧ ¬ ((h = H ∨ W = 1) ∧ (v = V ∨ Ht = 1)) ∧ ¬ (h * 2 = H ∧ (v = V ∨ Ht = 1)) ∧
      ¬ ((h = H ∨ W = 1) ∧ v * 2 = V) ∧ h * 2 = H ∧ v * 2 = V) ∨
    (u = .generic (H / h) (V / v) ∧ ¬ ((h = H ∨ W = 1) ∧ (v = V ∨ Ht = 1)) ∧
      ¬ (h * 2 = H ∧ (v = V ∨ Ht = 1)) ∧
      ¬ ((h = H ∨ W = 1) ∧ v * 2 = V) ∧ ¬ (h * 2 = H ∧ v * 2 = V) ∧ H % h = 0 ∧ V % v = 0) := by
  unfold chooseUpsampler at hu
  simp only at hu
  split at hu
  · rename_i h1; injection hu with hu; exact Or.inl ⟨hu.symm, h1⟩
  · rename_i h1
    split at hu
    · rename_i h2; injection hu with hu; exact Or.inr (Or.inl ⟨hu.symm, h1, h2⟩)
    · rename_i h2
      split at hu
      · rename_i h3; injection hu with hu; exact Or.inr (Or.inr (Or.inl ⟨hu.symm, h1, h2, h3⟩))
      · rename_i h3
        split at hu
        · rename_i h4; injection hu with hu
          exact Or.inr (Or.inr (Or.inr (Or.inl ⟨hu.symm, h1, h2, h3, h4⟩)))
        · rename_i h4
          split at hu
          · simp at hu
          · rename_i h5; injection hu with hu
            exact Or.inr (Or.inr (Or.inr (Or.inr ⟨hu.symm, h1, h2, h3, h4, by omega, by omega⟩)))

/-- The 2x1 upsampler stays inside its buffers at this row. -/
def RowFits (u : Upsample) (W : Nat) (c : Component) (row : Nat) : Prop :=
  u = .h2v1 → W % 2 = 0 ∧ (row + 1 = 8 * c.blockSize.height → W ≤ 8 * c.h)

/-- Columns the chosen upsampler fills. -/
def Covered (u : Upsample) (W x : Nat) : Prop :=
  match u with
  | .generic hs _ => x < W / hs * hs
  | _ => x < W

theorem rowValue_spec {W Ht H V : Nat} {c : Component} {u : Upsample} {row x : Nat} {plane : List UInt8}
    (hu : chooseUpsampler (c.h, c.v) (H, V) ⟨W, Ht⟩ = .ok u) (hx : Covered u W x) :
    rowValue u W c plane row x = upsampled W Ht H V c.h c.v c.size.width c.size.height
      (sampleOf plane c.lineStride) row x := by
  unfold upsampled
  rcases chooseUpsampler_cases hu with ⟨rfl, h1⟩ | ⟨rfl, h1, h2⟩ | ⟨rfl, h1, h2, h3⟩ |
    ⟨rfl, h1, h2, h3, h4⟩ | ⟨rfl, h1, h2, h3, h4, h5⟩
  · rw [if_pos h1]; rfl
  · rw [if_neg h1, if_pos (by omega)]; rfl
  · rw [if_neg h1, if_neg (by omega), if_pos (by omega)]; rfl
  · rw [if_neg h1, if_neg (by omega), if_neg (by omega), if_pos (by omega)]; rfl
  · rw [if_neg h1, if_neg (by omega), if_neg (by omega), if_neg (by omega)]
    exact if_pos hx

theorem componentRow_ok' {W Ht H V : Nat} {c : Component} (g : ComponentGeometry W Ht H V c) (hH : c.h ≤ H)
    (hV : c.v ≤ V) (hW : 1 ≤ W) {row : Nat} (hrow : row < Ht) {u : Upsample}
    (hu : chooseUpsampler (c.h, c.v) (H, V) ⟨W, Ht⟩ = .ok u) {plane buf : List UInt8}
    (hlen : plane.length = planeSize c) (hfit : RowFits u W c row) :
    ∃ line buf', u.upsampleRow plane c.size (c.blockSize.width * 8) row W buf = .ok (line, buf') ∧
      W ≤ line.length ∧
      (∀ x, Covered u W x → line.getD x 0 = UInt8.ofNat (rowValue u W c plane row x)) ∧
      (BufOk u W buf → BufOk u W buf' ∧
        ∀ x, x < W → line.getD x 0 = UInt8.ofNat (rowValue u W c plane row x)) := by
  have F := Facts.of g hH hV hW (by omega)
  have hst := F.stride
  have hpl := F.plane
  have hwl := F.w_le
  have hhl := F.h_le
  have hs8 := F.stride8
  have hr8 := F.rows8
  rw [hpl] at hlen
  obtain ⟨f1, f2, f3, f4⟩ := g.factors
  -- rows below the plane's height
  have hrowR : (c.v = V ∨ Ht = 1) → row < 8 * c.blockSize.height := by
    rintro (h | h)
    · have := F.fullH h; omega
    · omega
  have inPlane : ∀ r n, r < 8 * c.blockSize.height → n ≤ c.lineStride →
      r * c.lineStride + n ≤ plane.length := by
    intro r n h1 h2
    rw [hlen]
    calc r * c.lineStride + n ≤ (r + 1) * c.lineStride := by rw [Nat.succ_mul]; omega
      _ ≤ _ := Nat.mul_le_mul_right _ h1
  have hWs : (c.h = H ∨ W = 1) → W ≤ c.lineStride := by
    rintro (h | h)
    · have := F.fullW h; omega
    · omega
  rw [← hst]
  rcases chooseUpsampler_cases hu with ⟨rfl, h1, h2⟩ | ⟨rfl, h1, h2, h3⟩ | ⟨rfl, h1, h2, h3, h4⟩ |
    ⟨rfl, h1, h2, h3, h4, h5⟩ | ⟨rfl, h1, h2, h3, h4, h5, h6⟩
  · obtain ⟨line, e, hl, hv⟩ := upH1V1_ok (inPlane row W (hrowR h2) (hWs h1))
    refine ⟨line, buf, ?_, by omega, fun x hx => toNat_eq_ofNat (hv x hx),
      fun _ => ⟨trivial, fun x hx => toNat_eq_ofNat (hv x hx)⟩⟩
    simp only [Upsample.upsampleRow, e, bind, Except.bind, pure, Except.pure]
  · obtain ⟨he, hlast⟩ := hfit rfl
    have hw := F.halfW (by omega)
    have hw2 : 2 * c.size.width = W := by omega
    have hb : row * c.lineStride + 2 * c.size.width ≤ plane.length := by
      rw [hw2]
      by_cases hl : row + 1 = 8 * c.blockSize.height
      · exact inPlane row W (hrowR h3) (F.wide (by omega) (hlast hl))
      · have := hrowR h3
        rw [hlen]
        calc row * c.lineStride + W ≤ (row + 2) * c.lineStride := by rw [Nat.add_mul]; omega
          _ ≤ _ := Nat.mul_le_mul_right _ (by omega)
    obtain ⟨line, e, hl, hv⟩ := upH2V1_ok (buf := buf) (by omega) hb
    rw [hw2] at e hl hv
    refine ⟨line, line, ?_, by omega, fun x hx => toNat_eq_ofNat (hv x hx),
      fun _ => ⟨trivial, fun x hx => toNat_eq_ofNat (hv x hx)⟩⟩
    simp only [Upsample.upsampleRow, e, bind, Except.bind, pure, Except.pure]
  · have hh := F.halfH (by omega)
    have hsh : 1 ≤ c.size.height := by omega
    obtain ⟨line, e, hl, hv⟩ := upH1V2_ok (input := plane) (buf := buf) (size := c.size)
      (stride := c.lineStride) (row := row) (outW := W) hsh (by omega) (inPlane _ _ (by omega) (hWs h3))
    refine ⟨line, line, ?_, by omega, fun x hx => toNat_eq_ofNat (hv x hx),
      fun _ => ⟨trivial, fun x hx => toNat_eq_ofNat (hv x hx)⟩⟩
    simp only [Upsample.upsampleRow, e, bind, Except.bind, pure, Except.pure]
  · have hh := F.halfH (by omega)
    have hw := F.halfW (by omega)
    have hsh : 1 ≤ c.size.height := by omega
    obtain ⟨line, e, hl, hv⟩ := upH2V2_ok (input := plane) (buf := buf) (size := c.size)
      (stride := c.lineStride) (row := row) (by omega) hsh (by omega) (inPlane _ _ (by omega) hwl)
    refine ⟨line, line, ?_, by omega,
      fun x hx => toNat_eq_ofNat (hv x (by simp only [Covered] at hx; omega)),
      fun _ => ⟨trivial, fun x hx => toNat_eq_ofNat (hv x (by omega))⟩⟩
    simp only [Upsample.upsampleRow, e, bind, Except.bind, pure, Except.pure]
  · have hw := F.divW h5
    have hh := F.divH h6
    have hs0 : 0 < H / c.h := Nat.div_pos hH (by omega)
    have vs0 : 0 < V / c.v := Nat.div_pos hV (by omega)
    have hle : W / (H / c.h) ≤ c.size.width := by
      rw [hw]; unfold ceilDiv; exact Nat.div_le_div_right (by omega)
    have hrv : row / (V / c.v) < c.size.height := by
      rw [hh]
      have := ceilDiv_le_mul (a := Ht) (b := V / c.v) vs0
      rw [Nat.div_lt_iff_lt_mul vs0]
      omega
    obtain ⟨line, e, hl, hv, hz⟩ := upGeneric_ok (input := plane) (buf := buf) (size := c.size)
      (stride := c.lineStride) (row := row) (outW := W) (vs := V / c.v) hs0 hle
      (inPlane _ _ (by omega) hwl)
    refine ⟨line, line, ?_, by omega, ?_, ?_⟩
    · simp only [Upsample.upsampleRow, e, bind, Except.bind, pure, Except.pure]
    · intro x hx
      unfold rowValue
      simp only
      rw [if_pos (show x < W / (H / c.h) * (H / c.h) from hx)]
      exact toNat_eq_ofNat (hv x hx)
    · intro hbuf
      refine ⟨?_, ?_⟩
      · intro x hx
        by_cases hxW : x < W
        · rw [hz x hx hxW]; exact hbuf x hx
        · rw [List.getD_eq_getElem?_getD, List.getElem?_eq_none (by omega)]; rfl
      · intro x hx
        unfold rowValue
        simp only
        by_cases hxc : x < W / (H / c.h) * (H / c.h)
        · rw [if_pos hxc]; exact toNat_eq_ofNat (hv x hxc)
        · rw [if_neg hxc, hz x (by omega) hx, hbuf x (by omega)]; rfl

theorem componentRow_ok {W Ht H V : Nat} {c : Component} (g : ComponentGeometry W Ht H V c) (hH : c.h ≤ H)
    (hV : c.v ≤ V) (hW : 1 ≤ W) {row : Nat} (hrow : row < Ht) {u : Upsample}
    (hu : chooseUpsampler (c.h, c.v) (H, V) ⟨W, Ht⟩ = .ok u) {plane buf : List UInt8}
    (hlen : plane.length = planeSize c) (hfit : RowFits u W c row) (hbuf : BufOk u W buf) :
    ∃ line buf', u.upsampleRow plane c.size (c.blockSize.width * 8) row W buf = .ok (line, buf') ∧
      BufOk u W buf' ∧ W ≤ line.length ∧
      ∀ x, x < W → line.getD x 0 = UInt8.ofNat (rowValue u W c plane row x) := by
  obtain ⟨line, buf', e, h1, _, h2⟩ := componentRow_ok' g hH hV hW hrow hu hlen hfit
  obtain ⟨h3, h4⟩ := h2 hbuf
  exact ⟨line, buf', e, h3, h1, h4⟩

/-- Where the 2x1 upsampler does not fit it panics. -/
theorem componentRow_panics {W Ht H V : Nat} {c : Component} (g : ComponentGeometry W Ht H V c)
    (hH : c.h ≤ H) (hV : c.v ≤ V) (hW : 1 ≤ W) {row : Nat} (hrow : row < Ht) {u : Upsample}
    (hu : chooseUpsampler (c.h, c.v) (H, V) ⟨W, Ht⟩ = .ok u) {plane buf : List UInt8}
    (hlen : plane.length = planeSize c) (hfit : ¬ RowFits u W c row) :
    u.upsampleRow plane c.size (c.blockSize.width * 8) row W buf = .error (.panic .index) := by
  have F := Facts.of g hH hV hW (by omega)
  obtain ⟨f1, f2, f3, f4⟩ := g.factors
  have hu' : u = .h2v1 := by
    by_contra h
    exact hfit fun h' => absurd h' h
  subst hu'
  have hh2 : c.h * 2 = H := by
    rcases chooseUpsampler_cases hu with ⟨h, _⟩ | ⟨_, _, h, _⟩ | ⟨h, _⟩ | ⟨h, _⟩ | ⟨h, _⟩ <;>
      first | exact absurd h (by simp) | exact h
  have hcases : plane.length < row * c.lineStride + W ∨
      (W + 1 = 2 * c.size.width ∧ row * c.lineStride + W ≤ plane.length) := by
    by_cases hsl : plane.length < row * c.lineStride + W
    · exact Or.inl hsl
    · refine Or.inr ⟨?_, by omega⟩
      have hw := F.halfW (by omega)
      by_contra hodd
      apply hfit
      intro _
      refine ⟨by omega, ?_⟩
      intro hl
      by_contra hn
      have hnar := F.narrow (by omega) (by omega)
      apply hsl
      rw [hlen, F.plane, ← hl, Nat.succ_mul]
      omega
  have e : upH2V1 plane c.size c.lineStride row W buf = .error (.panic .index) := by
    rcases hcases with h | ⟨h1, h2⟩
    · exact upH2V1_short h
    · exact upH2V1_odd h1 h2 hW
  rw [← F.stride]
  simp only [Upsample.upsampleRow, e, bind, Except.bind]

end Jpeg
