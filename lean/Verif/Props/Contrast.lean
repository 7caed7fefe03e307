import Verif.Spec.Contrast
import Verif.Props.Added
import Verif.Props.Blocks
import Mathlib.Tactic.Linarith
/-!
# C104: change of contrast
-/

namespace Jpeg
open Spec Sample

/-- Errors of the two sides. -/
theorem error_scaled {t d d' M : ℚ} (h : |d| ≤ M) (h' : |d'| ≤ M) : |d' - t * d| ≤ M * (1 + |t|) := by
  have h1 : |t * d| ≤ |t| * M := by
    rw [abs_mul]
    exact mul_le_mul_of_nonneg_left h (abs_nonneg t)
  have h2 := abs_sub d' (t * d)
  nlinarith

theorem dot_scaled {t : ℚ} {x : Nat} (hx : x < 8) {M : ℚ} (a0 a1 a2 a3 a4 a5 a6 a7 b0 b1 b2 b3 b4 b5 b6 b7 : Int)
    (h0 : |(b0 : ℚ) - t * a0| ≤ M) (h1 : |(b1 : ℚ) - t * a1| ≤ M) (h2 : |(b2 : ℚ) - t * a2| ≤ M)
    (h3 : |(b3 : ℚ) - t * a3| ≤ M) (h4 : |(b4 : ℚ) - t * a4| ≤ M) (h5 : |(b5 : ℚ) - t * a5| ≤ M)
    (h6 : |(b6 : ℚ) - t * a6| ≤ M) (h7 : |(b7 : ℚ) - t * a7| ≤ M) :
    |((dot (idctMatrixRow x) [b0, b1, b2, b3, b4, b5, b6, b7] : Int) : ℚ) -
      t * (dot (idctMatrixRow x) [a0, a1, a2, a3, a4, a5, a6, a7] : Int)| ≤ 30610 * M := by
  rw [abs_le] at h0 h1 h2 h3 h4 h5 h6 h7 ⊢
  obtain ⟨l0, u0⟩ := h0
  obtain ⟨l1, u1⟩ := h1
  obtain ⟨l2, u2⟩ := h2
  obtain ⟨l3, u3⟩ := h3
  obtain ⟨l4, u4⟩ := h4
  obtain ⟨l5, u5⟩ := h5
  obtain ⟨l6, u6⟩ := h6
  obtain ⟨l7, u7⟩ := h7
  rcases (by omega : x = 0 ∨ x = 1 ∨ x = 2 ∨ x = 3 ∨ x = 4 ∨ x = 5 ∨ x = 6 ∨ x = 7) with
    rfl | rfl | rfl | rfl | rfl | rfl | rfl | rfl <;>
  simp only [dot, idctMatrixRow, idctMatrix, List.getD_cons_zero, List.getD_cons_succ, List.zipWith_cons_cons,
    List.zipWith_nil_left, List.sum_cons, List.sum_nil] <;> push_cast <;> constructor <;> linarith

/-- **C104** (the inverse DCT). With all coefficients multiplied by `t`, the differences of the samples from 128 are
multiplied by `t`, up to 5/8 for either sample; for all integers. -/
theorem C104_idct (t : ℚ) (F G : Nat → Nat → Int) (h : ∀ k i, k < 8 → i < 8 → (G k i : ℚ) = t * F k i) (r x : Nat)
    (hr : r < 8) (hx : x < 8) :
    |(idctSample G r x : ℚ) - (128 + t * (idctSample F r x - 128))| ≤ 5 / 8 * (1 + |t|) := by
  have floor : ∀ (a m : Int), 0 < m → (m = 512 ∨ m = 65536) →
      |((2 * m * ((a + m) / (2 * m)) : Int) : ℚ) - a| ≤ m := by
    intro a m hm hc
    have : -m ≤ 2 * m * ((a + m) / (2 * m)) - a ∧ 2 * m * ((a + m) / (2 * m)) - a ≤ m := by
      rcases hc with rfl | rfl <;> omega
    rw [abs_le]
    exact_mod_cast this
  have key : ∀ i, i < 8 → |(idctPass1 G r i : ℚ) - t * idctPass1 F r i| ≤ 1 / 2 * (1 + |t|) := by
    intro i hi
    have e := dot_scaled (t := t) hr (M := 0) (F 0 i) (F 1 i) (F 2 i) (F 3 i) (F 4 i) (F 5 i) (F 6 i) (F 7 i)
      (G 0 i) (G 1 i) (G 2 i) (G 3 i) (G 4 i) (G 5 i) (G 6 i) (G 7 i)
      (by rw [h 0 i (by decide) hi, sub_self, abs_zero]) (by rw [h 1 i (by decide) hi, sub_self, abs_zero])
      (by rw [h 2 i (by decide) hi, sub_self, abs_zero]) (by rw [h 3 i (by decide) hi, sub_self, abs_zero])
      (by rw [h 4 i (by decide) hi, sub_self, abs_zero]) (by rw [h 5 i (by decide) hi, sub_self, abs_zero])
      (by rw [h 6 i (by decide) hi, sub_self, abs_zero]) (by rw [h 7 i (by decide) hi, sub_self, abs_zero])
    unfold idctPass1
    rw [range8, range8]
    generalize dot (idctMatrixRow r) [F 0 i, F 1 i, F 2 i, F 3 i, F 4 i, F 5 i, F 6 i, F 7 i] = A at e
    generalize dot (idctMatrixRow r) [G 0 i, G 1 i, G 2 i, G 3 i, G 4 i, G 5 i, G 6 i, G 7 i] = B at e
    have e' := error_scaled (t := t) (floor A 512 (by decide) (.inl rfl)) (floor B 512 (by decide) (.inl rfl))
    norm_num at e e'
    generalize (((A + 512) / 1024 : Int) : ℚ) = P at e'
    generalize (((B + 512) / 1024 : Int) : ℚ) = Q at e'
    rw [abs_le] at e' ⊢
    constructor <;> linarith
  have e := dot_scaled hx _ _ _ _ _ _ _ _ _ _ _ _ _ _ _ _ (key 0 (by decide)) (key 1 (by decide)) (key 2 (by decide))
    (key 3 (by decide)) (key 4 (by decide)) (key 5 (by decide)) (key 6 (by decide)) (key 7 (by decide))
  unfold idctSample
  rw [range8, range8]
  generalize dot (idctMatrixRow x) [idctPass1 F r 0, idctPass1 F r 1, idctPass1 F r 2, idctPass1 F r 3, idctPass1 F r 4,
    idctPass1 F r 5, idctPass1 F r 6, idctPass1 F r 7] = A at e
  generalize dot (idctMatrixRow x) [idctPass1 G r 0, idctPass1 G r 1, idctPass1 G r 2, idctPass1 G r 3, idctPass1 G r 4,
    idctPass1 G r 5, idctPass1 G r 6, idctPass1 G r 7] = B at e
  have e' := error_scaled (t := t) (floor A 65536 (by decide) (.inr rfl)) (floor B 65536 (by decide) (.inr rfl))
  push_cast at e' ⊢
  norm_num at e'
  generalize (((A + 65536) / 131072 : Int) : ℚ) = P at e' ⊢
  generalize (((B + 65536) / 131072 : Int) : ℚ) = Q at e' ⊢
  have hn := abs_nonneg t
  rw [abs_le] at e e' ⊢
  constructor <;> linarith

/-- A case of `C104_idct`: a factor 3/2. -/
example : let F : Nat → Nat → Int := fun k i => if (k, i) = (0, 1) then 50 else if (k, i) = (2, 0) then -36 else 0
    let G : Nat → Nat → Int := fun k i => if (k, i) = (0, 1) then 75 else if (k, i) = (2, 0) then -54 else 0
    (∀ k < 8, ∀ i < 8, (G k i : ℚ) = 3 / 2 * F k i) ∧ idctSample F 0 0 = 131 ∧ idctSample G 0 0 = 132 ∧
      idctSample F 3 0 = 143 ∧ idctSample G 3 0 = 150 := by
  refine ⟨?_, by decide +kernel⟩
  have h : ∀ k < 8, ∀ i < 8, 2 * (if (k, i) = (0, 1) then (75 : Int) else if (k, i) = (2, 0) then -54 else 0) =
      3 * (if (k, i) = (0, 1) then 50 else if (k, i) = (2, 0) then -36 else 0) := by decide
  intro k hk i hi
  have := h k hk i hi
  have : ((2 * (if (k, i) = (0, 1) then (75 : Int) else if (k, i) = (2, 0) then -54 else 0) : Int) : ℚ) =
    ((3 * (if (k, i) = (0, 1) then 50 else if (k, i) = (2, 0) then -36 else 0) : Int) : ℚ) := by rw [this]
  rw [Int.cast_mul, Int.cast_mul] at this
  push_cast at this ⊢
  linarith

/-- Samples scaled up to `e`, upsampled: up to 1/2 more. -/
theorem upsampled_scaled {W Ht H V : Nat} {c : Component} (g : ComponentGeometry W Ht H V c)
    (hH : c.h ≤ H) (hV : c.v ≤ V) (hW : 1 ≤ W) {row : Nat} (hrow : row < Ht) {u : Upsample}
    (hu : chooseUpsampler (c.h, c.v) (H, V) ⟨W, Ht⟩ = .ok u) {x : Nat} (hx : x < W) (p q : Nat → Nat → Nat) {t e : ℚ}
    (h : ∀ r i, r < c.size.height → i < c.size.width → |(q r i : ℚ) - (128 + t * (p r i - 128))| ≤ e * (1 + |t|)) :
    let U := fun f => upsampled W Ht H V c.h c.v c.size.width c.size.height f row x
    |(U q : ℚ) - (128 + t * (U p - 128))| ≤ (e + 1 / 2) * (1 + |t|) ∧
    (c.h = H ∧ c.v = V → |(U q : ℚ) - (128 + t * (U p - 128))| ≤ e * (1 + |t|)) := by
  intro U
  have hn := abs_nonneg t
  have floor : ∀ (a m : Nat), (m = 2 ∨ m = 8) → |((2 * m * ((a + m) / (2 * m)) : Nat) : ℚ) - a| ≤ m := by
    intro a m hc
    have : (-m : Int) ≤ ((2 * m * ((a + m) / (2 * m)) : Nat) : Int) - a ∧
        ((2 * m * ((a + m) / (2 * m)) : Nat) : Int) - a ≤ m := by
      rcases hc with rfl | rfl <;> omega
    rw [abs_le]
    exact_mod_cast this
  rcases upsampled_shape g hH hV hW hrow hu hx with ⟨r, i, ⟨h1, h2⟩, e⟩ | ⟨n, ⟨r, i, r', i', ⟨h1, h2⟩, ⟨h3, h4⟩, e⟩ |
    ⟨r, r', i, i', h1, h2, h3, h4, e⟩⟩
  · have := h r i h1 h2
    simp only [U, e]
    exact ⟨by linarith, fun _ => this⟩
  · have a1 := h r i h1 h2
    have a2 := h r' i' h3 h4
    simp only [U, e]
    refine ⟨?_, fun h => absurd h n⟩
    have b := error_scaled (t := t) (floor (3 * p r i + p r' i') 2 (.inl rfl)) (floor (3 * q r i + q r' i') 2 (.inl rfl))
    norm_num at b
    generalize (((3 * p r i + p r' i' + 2) / 4 : Nat) : ℚ) = P at b ⊢
    generalize (((3 * q r i + q r' i' + 2) / 4 : Nat) : ℚ) = Q at b ⊢
    rw [abs_le] at a1 a2 b ⊢
    constructor <;> linarith
  · have a1 := h r i h1 h3
    have a2 := h r' i h2 h3
    have a3 := h r i' h1 h4
    have a4 := h r' i' h2 h4
    simp only [U, e]
    refine ⟨?_, fun h => absurd h n⟩
    have b := error_scaled (t := t) (floor (3 * (3 * p r i + p r' i) + (3 * p r i' + p r' i')) 8 (.inr rfl))
      (floor (3 * (3 * q r i + q r' i) + (3 * q r i' + q r' i')) 8 (.inr rfl))
    norm_num at b
    generalize (((3 * (3 * p r i + p r' i) + (3 * p r i' + p r' i') + 8) / 16 : Nat) : ℚ) = P at b ⊢
    generalize (((3 * (3 * q r i + q r' i) + (3 * q r i' + q r' i') + 8) / 16 : Nat) : ℚ) = Q at b ⊢
    rw [abs_le] at a1 a2 a3 a4 b ⊢
    constructor <;> linarith

section

variable {f g : BaselineFile} {H V : Nat} {t : Nat → ℚ}

theorem sample_scaled {r₁ r₂ : Nat} {k₁ k₂ : List (Code × Code)} (hf : f.Laid r₁ H V k₁) (hg : g.Laid r₂ H V k₂)
    (uf : f.Unclipped) (ug : g.Unclipped) (ha : Scaled t f g) {i : Nat}
    {c : FileComponent} (hc : g.comps[i]? = some c) {Y X : Nat} (hY : Y < 8 * (ceilDiv g.y (8 * V) * c.v))
    (hX : X < 8 * (ceilDiv g.x (8 * H) * c.h)) :
    |((g.sample H i Y X).toNat : ℚ) - (128 + t i * ((f.sample H i Y X).toNat - 128))| ≤ 5 / 8 * (1 + |t i|) := by
  obtain ⟨c₁, hc₁, hh₁, hv₁⟩ := shape_comp ha.shape hc
  obtain ⟨F, a1, a2⟩ := sample_coefficients hf uf hc₁ (Y := Y) (X := X) (by rw [ha.shape.y, hv₁]; exact hY)
    (by rw [ha.shape.x, hh₁]; exact hX)
  obtain ⟨G, b1, b2⟩ := sample_coefficients hg ug hc hY hX
  rw [ha.shape.x, hh₁, hv₁] at a1
  have := C104_idct (t i) F G (fun k l hk hl => by
    obtain ⟨b, e, e'⟩ := ha.products _ _ _ _ _ _ hk hl (a1 k l)
    rw [← e', Option.some.inj (e.symm.trans (b1 k l))])
    (Y % 8) (X % 8) (Nat.mod_lt _ (by decide)) (Nat.mod_lt _ (by decide))
  rw [← a2, ← b2] at this
  push_cast at this
  exact this

theorem upsampledSample_scaled {r₁ r₂ : Nat} {k₁ k₂ : List (Code × Code)} (hf : f.Laid r₁ H V k₁) (hg : g.Laid r₂ H V k₂)
    (hr : g.Renderable H V) (uf : f.Unclipped) (ug : g.Unclipped)
    (ha : Scaled t f g) {i row x : Nat} (hi : i < g.comps.length) (hrow : row < g.y) (hx : x < g.x) :
    let p := (UInt8.ofNat (f.upsampledSample H V i row x)).toNat
    let q := (UInt8.ofNat (g.upsampledSample H V i row x)).toNat
    |(q : ℚ) - (128 + t i * (p - 128))| ≤ 9 / 8 * (1 + |t i|) ∧
      ((∀ c ∈ g.comps, c.h = H ∧ c.v = V) → |(q : ℚ) - (128 + t i * (p - 128))| ≤ 5 / 8 * (1 + |t i|)) := by
  have hc := List.getElem?_eq_getElem hi
  generalize g.comps[i] = c at hc
  have hcm := List.mem_of_getElem? hc
  obtain ⟨c₁, hc₁, hh₁, hv₁⟩ := shape_comp ha.shape hc
  have gm := fileComponent_geometry hg hcm
  obtain ⟨f1, f2, f3, f4⟩ := hg.factors c hcm
  have hH := hg.hmax.1 c hcm
  have hV := hg.vmax.1 c hcm
  simp only at hH hV
  obtain ⟨m1, m2, -⟩ := hr c hcm
  obtain ⟨a, ha'⟩ := Nat.dvd_of_mod_eq_zero m1
  obtain ⟨b, hb'⟩ := Nat.dvd_of_mod_eq_zero m2
  have ha0 : a ≠ 0 := by rintro rfl; omega
  have hb0 : b ≠ 0 := by rintro rfl; omega
  obtain ⟨u, hu⟩ := (C30_integer_ratio c.h c.v a b g.x g.y f1 f3 (by omega) (by omega)).1
  rw [← ha', ← hb'] at hu
  have F := Facts.of gm hH hV hg.x.1 (by omega)
  have key := upsampled_scaled gm hH hV hg.x.1 hrow hu hx (fun r k => (f.sample H i r k).toNat)
    (fun r k => (g.sample H i r k).toNat) (t := t i) (e := 5 / 8) (fun r k h1 h2 => by
      have e1 := F.w_le
      have e2 := F.h_le
      have e3 : (fileComponent g H V c).lineStride = 8 * (ceilDiv g.x (8 * H) * c.h) := gm.lineStride
      have e4 : (fileComponent g H V c).blockSize.height = ceilDiv g.y (8 * V) * c.v := by rw [gm.blocks]; rfl
      exact sample_scaled hf hg uf ug ha hc (by omega) (by omega))
  simp only [upsampledSample_byte]
  unfold BaselineFile.upsampledSample
  simp only [hc, hc₁, ha.shape.x, ha.shape.y, hh₁, hv₁]
  refine ⟨?_, fun h => key.2 (h c hcm)⟩
  have := key.1
  norm_num at this ⊢
  exact this

end

/-- The limits of a channel. -/
theorem contrastOf_saturate {t e : ℚ} {u v : Int} (h : |(v : ℚ) - (128 + t * (u - 128))| ≤ e * (1 + |t|)) :
    ContrastOf t e (saturate u) (saturate v) := by
  have hu := saturate_toNat u
  have hv := saturate_toNat v
  generalize saturate u = a at hu ⊢
  generalize saturate v = b at hv ⊢
  intro h1 h2
  have eu : (a.toNat : Int) = u := by omega
  have eu' : (a.toNat : ℚ) = u := by rw [← eu, Int.cast_natCast]
  have ev : (b.toNat : ℚ) = max 0 (min (v : ℚ) 255) := by
    rw [← Int.cast_natCast, hv]
    push_cast
    rfl
  rw [eu', ev]
  refine le_trans ?_ h
  generalize 128 + t * ((u : ℚ) - 128) = w
  have k1 := abs_max_sub_max_le_abs (min (v : ℚ) 255) (min w 255) 0
  have k2 := abs_min_sub_min_le_max (v : ℚ) 255 w 255
  rw [sub_self, abs_zero, max_eq_left (abs_nonneg _)] at k2
  rw [max_comm 0 (min (v : ℚ) 255), max_comm 0 (min w 255)]
  exact k1.trans k2

/-- **C104** (a block). What the transform of the code gives for the coefficients times `t`. -/
theorem C104_block (t : ℚ) (c c' : List Int) (q q' : List Nat) (h : Tame c q) (h' : Tame c' q') (s s' : Nat → Nat → UInt8)
    (hs : Gives c q s) (hs' : Gives c' q' s')
    (he : ∀ i, i < 64 → ((coef c' i * quant q' i : Int) : ℚ) = t * (coef c i * quant q i : Int)) (r x : Nat) (hr : r < 8)
    (hx : x < 8) : ContrastOf t (5 / 8) (s r x) (s' r x) := by
  rw [h.gives.1 hs r x hr hx, h'.gives.1 hs' r x hr hx]
  exact contrastOf_saturate (C104_idct t (coefAt c q) (coefAt c' q') (fun k i hk hi => he _ (by omega)) r x hr hx)

/-- A case of `C104_block`: the factor -1. -/
example : ∃ s s', Gives (toneBlock 30 20 (-15)) (List.replicate 64 2) s ∧
    Gives (toneBlock (-30) (-20) 15) (List.replicate 64 2) s' ∧ s 0 0 ≠ s 0 7 ∧
    ∀ r x, r < 8 → x < 8 → ContrastOf (-1) (5 / 8) (s r x) (s' r x) := by
  obtain ⟨t, s, g, l, hd⟩ := toneBlock_tame (t := (30, 20, -15)) (by decide)
  obtain ⟨t', s', g', l', -⟩ := toneBlock_tame (t := (-30, -20, 15)) (by decide)
  have hi : ∀ i, i < 64 → coef (toneBlock (-30) (-20) 15) i * quant (List.replicate 64 2) i =
      -(coef (toneBlock 30 20 (-15)) i * quant (List.replicate 64 2) i) := by decide +kernel
  refine ⟨s, s', g, g', (hd rfl).1, fun r x hr hx => C104_block (-1) _ _ _ _ t t' s s' g g' (fun i h => ?_) r x hr hx⟩
  simp only [hi i h]
  push_cast
  ring

/-- Colours of scaled components. -/
theorem color_scaled {y b r y' b' r' : UInt8} {t e : ℚ} (hy : |(y'.toNat : ℚ) - (128 + t * (y.toNat - 128))| ≤ e * (1 + |t|))
    (hb : |(b'.toNat : ℚ) - (128 + t * (b.toNat - 128))| ≤ e * (1 + |t|))
    (hr : |(r'.toNat : ℚ) - (128 + t * (r.toNat - 128))| ≤ e * (1 + |t|)) {E : ℚ}
    (hE : e = 5 / 8 ∧ E = 9 / 4 ∨ e = 9 / 8 ∧ E = 29 / 8) :
    ContrastOf t E (saturate (redSum y b r)) (saturate (redSum y' b' r')) ∧
    ContrastOf t E (saturate (greenSum y b r)) (saturate (greenSum y' b' r')) ∧
    ContrastOf t E (saturate (blueSum y b r)) (saturate (blueSum y' b' r')) := by
  have hn := abs_nonneg t
  have floor : ∀ a : Int, |((65536 * ((a + 32768) / 65536) : Int) : ℚ) - a| ≤ 32768 := by
    intro a
    have : -32768 ≤ 65536 * ((a + 32768) / 65536) - a ∧ 65536 * ((a + 32768) / 65536) - a ≤ 32768 := by omega
    rw [abs_le]
    exact_mod_cast this
  have two : ∀ a a' : Int, _ := fun a a' => error_scaled (t := t) (floor a) (floor a')
  refine ⟨contrastOf_saturate ?_, contrastOf_saturate ?_, contrastOf_saturate ?_⟩
  · have h := two (91881 * ((r.toNat : Int) - 128)) (91881 * ((r'.toNat : Int) - 128))
    unfold redSum
    push_cast at h ⊢
    generalize (((91881 * ((r.toNat : Int) - 128) + 32768) / 65536 : Int) : ℚ) = P at h ⊢
    generalize (((91881 * ((r'.toNat : Int) - 128) + 32768) / 65536 : Int) : ℚ) = Q at h ⊢
    rw [abs_le] at h hy hr ⊢
    rcases hE with ⟨rfl, rfl⟩ | ⟨rfl, rfl⟩ <;> constructor <;> linarith
  · have h := two (-22554 * ((b.toNat : Int) - 128) + -46802 * ((r.toNat : Int) - 128))
      (-22554 * ((b'.toNat : Int) - 128) + -46802 * ((r'.toNat : Int) - 128))
    unfold greenSum
    rw [show ∀ m n : Int, m + 32768 + n = m + n + 32768 by intros; omega,
      show ∀ m n : Int, m + 32768 + n = m + n + 32768 by intros; omega]
    push_cast at h ⊢
    generalize (((-22554 * ((b.toNat : Int) - 128) + -46802 * ((r.toNat : Int) - 128) + 32768) / 65536 : Int) : ℚ) = P at h ⊢
    generalize (((-22554 * ((b'.toNat : Int) - 128) + -46802 * ((r'.toNat : Int) - 128) + 32768) / 65536 : Int) : ℚ) = Q at h ⊢
    rw [abs_le] at h hy hb hr ⊢
    rcases hE with ⟨rfl, rfl⟩ | ⟨rfl, rfl⟩ <;> constructor <;> linarith
  · have h := two (116130 * ((b.toNat : Int) - 128)) (116130 * ((b'.toNat : Int) - 128))
    unfold blueSum
    push_cast at h ⊢
    generalize (((116130 * ((b.toNat : Int) - 128) + 32768) / 65536 : Int) : ℚ) = P at h ⊢
    generalize (((116130 * ((b'.toNat : Int) - 128) + 32768) / 65536 : Int) : ℚ) = Q at h ⊢
    rw [abs_le] at h hy hb ⊢
    rcases hE with ⟨rfl, rfl⟩ | ⟨rfl, rfl⟩ <;> constructor <;> linarith

/-- **C104** (how to do it). Multiplying the entries of the quantisation tables multiplies the coefficients. -/
theorem C104_tables (t : Nat → ℚ) (f g : BaselineFile) (h : TablesScaled t f g) : Scaled t f g := by
  refine ⟨h.shape, ?_⟩
  intro n i j k l a hk hl ha
  rw [coefficient_eq] at ha
  rcases forall₂_get h.shape.factors i with ⟨h1, -⟩ | ⟨c, c', h1, h2, -⟩
  · rw [h1] at ha
    cases ha
  · rw [h1, Option.bind_some] at ha
    cases hq : f.quantOf c with
    | none => rw [hq] at ha; cases ha
    | some q =>
      obtain ⟨q', e1, e2⟩ := h.tables i c c' q h1 h2 hq
      rw [hq, Option.bind_some] at ha
      obtain ⟨b, hb, rfl⟩ := Option.map_eq_some_iff.1 ha
      refine ⟨dequantised q' b k l, ?_, ?_⟩
      · rw [coefficient_eq, h2, Option.bind_some, e1, Option.bind_some, h.mcus, hb]
        rfl
      · unfold dequantised
        simp only [Int.cast_mul, Int.cast_natCast, e2]
        ring

/-- **C104** (three components). A picture whose coefficients are `t` times those of another has `t` times its contrast:
every channel of every pixel is `128 + t * (a - 128)`, limited to 0..255, up to 29/8 for it and for `a`, if `a` has not
been limited; up to 9/4 without subsampling. The files may be written in any way, with any tables, and decoded by any
decoders. -/
theorem C104_image (cfg : Cfg) (t : ℚ) (f g : BaselineFile) (H V : Nat) (ha : Scaled (fun _ => t) f g)
    (k₁ k₂ : List (Code × Code)) (d₁ d₂ : Decoder) (hd₁ : UsedDecoder d₁) (hd₂ : UsedDecoder d₂)
    (hh₁ : Holds cfg d₁ f.earlier) (hh₂ : Holds cfg d₂ g.earlier) (h3 : g.comps.length = 3)
    (hct₁ : f.transform d₁.transform ≠ some 0) (hct₂ : g.transform d₂.transform ≠ some 0)
    (hv₁ : f.Valid (f.interval d₁.restartInterval) H V k₁)
    (hv₂ : g.Valid (g.interval d₂.restartInterval) H V k₂)
    (hr : g.Renderable H V) (uf : f.Unclipped) (ug : g.Unclipped) :
    ∃ p q e₁ e₂, d₁.decode cfg f.bytes = .ok p e₁ ∧ d₂.decode cfg g.bytes = .ok q e₂ ∧
      q.length = g.x * g.y * 3 ∧ ∀ y x j, y < g.y → x < g.x → j < 3 → ∃ a b,
        p[3 * g.x * y + (3 * x + j)]? = some a ∧ q[3 * g.x * y + (3 * x + j)]? = some b ∧ ContrastOf t (29 / 8) a b ∧
        ((∀ c ∈ g.comps, c.h = H ∧ c.v = V) → ContrastOf t (9 / 4) a b) := by
  have l₁ : f.comps.length = 3 := by rw [ha.shape.factors.length_eq, h3]
  have hr₁ := SameShape.renderable ha.shape hr
  obtain ⟨p, e₁, a1, -⟩ := C45_decodes cfg f H V k₁ d₁ hd₁ hh₁ l₁ hct₁ hv₁ hr₁
  obtain ⟨q, e₂, b1, b2⟩ := C45_decodes cfg g H V k₂ d₂ hd₂ hh₂ h3 hct₂ hv₂ hr
  refine ⟨p, q, e₁, e₂, a1, b1, b2, ?_⟩
  intro y x j hy hx hj
  have hrow : (if cfg.rayon then y / V else y / V * V) < g.y := by
    have := Nat.div_le_self y V
    have := Nat.div_mul_le_self y V
    split <;> omega
  obtain ⟨r₁, g₁, b₁, w₁, p0, p1, p2⟩ := C45_pixels_partial cfg f H V k₁ d₁ hd₁ hh₁ l₁ hct₁ hv₁ hr₁ uf.inRange p e₁ a1 y x
    (by rw [ha.shape.y]; exact hy) (by rw [ha.shape.x]; exact hx)
  obtain ⟨r₂, g₂, b₂, w₂, q0, q1, q2⟩ := C45_pixels_partial cfg g H V k₂ d₂ hd₂ hh₂ h3 hct₂ hv₂ hr ug.inRange q e₂ b1 y x hy hx
  rw [ha.shape.x] at p0 p1 p2
  have up : ∀ i, i < 3 → _ := fun i hi =>
    upsampledSample_scaled hv₁.toLaid hv₂.toLaid hr uf ug ha (i := i) (by omega) hrow hx
  rw [ycbcrToRgb_eq] at w₁ w₂
  simp only [Except.ok.injEq, Prod.mk.injEq] at w₁ w₂
  obtain ⟨rfl, rfl, rfl⟩ := w₁
  obtain ⟨rfl, rfl, rfl⟩ := w₂
  have u0 := up 0 (by decide)
  have u1 := up 1 (by decide)
  have u2 := up 2 (by decide)
  have wide := color_scaled u0.1 u1.1 u2.1 (E := 29 / 8) (.inr ⟨rfl, rfl⟩)
  have full := fun h => color_scaled (u0.2 h) (u1.2 h) (u2.2 h) (E := 9 / 4) (.inl ⟨rfl, rfl⟩)
  rcases (by omega : j = 0 ∨ j = 1 ∨ j = 2) with rfl | rfl | rfl
  · exact ⟨_, _, p0, q0, wide.1, fun h => (full h).1⟩
  · exact ⟨_, _, p1, q1, wide.2.1, fun h => (full h).2.1⟩
  · exact ⟨_, _, p2, q2, wide.2.2, fun h => (full h).2.2⟩

/-- **C104** (CMYK). The bytes are 255 minus the samples: byte `j` of a pixel is `127 + t j * (a - 127)`, up to 9/8 for
it and for `a`; up to 5/8 without subsampling. The inks may have different factors. -/
theorem C104_cmyk (cfg : Cfg) (t : Nat → ℚ) (f g : BaselineFile) (H V : Nat) (ha : Scaled t f g)
    (k₁ k₂ : List (Code × Code)) (d₁ d₂ : Decoder) (hd₁ : UsedDecoder d₁) (hd₂ : UsedDecoder d₂)
    (hh₁ : Holds cfg d₁ f.earlier) (hh₂ : Holds cfg d₂ g.earlier) (h4 : g.comps.length = 4)
    (hct₁ : f.transform d₁.transform = some 0) (hct₂ : g.transform d₂.transform = some 0)
    (hv₁ : f.Valid (f.interval d₁.restartInterval) H V k₁)
    (hv₂ : g.Valid (g.interval d₂.restartInterval) H V k₂)
    (hr : g.Renderable H V) (uf : f.Unclipped) (ug : g.Unclipped) :
    ∃ p q e₁ e₂, d₁.decode cfg f.bytes = .ok p e₁ ∧ d₂.decode cfg g.bytes = .ok q e₂ ∧
      q.length = g.x * g.y * 4 ∧ ∀ y x j, y < g.y → x < g.x → j < 4 → ∃ a b,
        p[4 * g.x * y + (4 * x + j)]? = some a ∧ q[4 * g.x * y + (4 * x + j)]? = some b ∧
        |(b.toNat : ℚ) - (127 + t j * (a.toNat - 127))| ≤ 9 / 8 * (1 + |t j|) ∧
        ((∀ c ∈ g.comps, c.h = H ∧ c.v = V) → |(b.toNat : ℚ) - (127 + t j * (a.toNat - 127))| ≤ 5 / 8 * (1 + |t j|)) := by
  have l₁ : f.comps.length = 4 := by rw [ha.shape.factors.length_eq, h4]
  have hr₁ := SameShape.renderable ha.shape hr
  obtain ⟨p, e₁, a1, -⟩ := C54_decodes cfg f H V k₁ d₁ hd₁ hh₁ l₁ hct₁ hv₁ hr₁
  obtain ⟨q, e₂, b1, b2⟩ := C54_decodes cfg g H V k₂ d₂ hd₂ hh₂ h4 hct₂ hv₂ hr
  refine ⟨p, q, e₁, e₂, a1, b1, b2, ?_⟩
  intro y x j hy hx hj
  have hrow : (if cfg.rayon then y / V else y / V * V) < g.y := by
    have := Nat.div_le_self y V
    have := Nat.div_mul_le_self y V
    split <;> omega
  have p0 := C54_pixels_partial cfg f H V k₁ d₁ hd₁ hh₁ l₁ hct₁ hv₁ hr₁ uf.inRange p e₁ a1 y x j
    (by rw [ha.shape.y]; exact hy) (by rw [ha.shape.x]; exact hx) hj
  have q0 := C54_pixels_partial cfg g H V k₂ d₂ hd₂ hh₂ h4 hct₂ hv₂ hr ug.inRange q e₂ b1 y x j hy hx hj
  rw [ha.shape.x] at p0
  have up := upsampledSample_scaled hv₁.toLaid hv₂.toLaid hr uf ug ha (i := j) (by omega) hrow hx
  refine ⟨_, _, p0, q0, ?_⟩
  have inv : ∀ v : UInt8, ((255 - v).toNat : ℚ) = 255 - v.toNat := by
    intro v
    have := v.toNat_lt
    rw [UInt8.toNat_sub_of_le _ _ (by rw [UInt8.le_iff_toNat_le]; show v.toNat ≤ 255; omega), show (255 : UInt8).toNat = 255 from rfl,
      Nat.cast_sub (by omega)]
    rfl
  have turn : ∀ (a b : UInt8) (e : ℚ), |(b.toNat : ℚ) - (128 + t j * (a.toNat - 128))| ≤ e →
      |(255 - b.toNat : ℚ) - (127 + t j * (255 - a.toNat - 127))| ≤ e := by
    intro a b e h
    rw [← abs_neg]
    convert h using 2
    ring
  rw [inv, inv]
  exact ⟨turn _ _ _ up.1, fun h => turn _ _ _ (up.2 h)⟩

theorem codedFile_scaled {q q' : List Nat} {comps : List FileComponent} {x y : Nat} {mcus : List Mcu} {d d' : List UInt8}
    (hz : ∀ c ∈ comps, c.tq = 0) {t : ℚ} (h : ∀ n, ((q'.getD n 0 : Nat) : ℚ) = t * (q.getD n 0 : Nat)) :
    TablesScaled (fun _ => t) (codedFile q comps x y mcus d) (codedFile q' comps x y mcus d') := by
  refine ⟨⟨rfl, rfl, List.forall₂_same.2 fun _ _ => ⟨rfl, rfl⟩⟩, rfl, ?_⟩
  intro i c c' q₀ hc hc' hq
  obtain rfl : c = c' := Option.some.inj (hc.symm.trans hc')
  have hcz := hz c (List.mem_of_getElem? hc)
  rw [codedFile_quantOf _ _ _ _ _ _ _ hcz] at hq
  cases hq
  exact ⟨q', codedFile_quantOf _ _ _ _ _ _ _ hcz, h⟩

/-- A case of `C104_image`: 7 by 5 pixels; with threes in place of twos in the table, half as much contrast again. -/
example : ∃ f g : BaselineFile, TablesScaled (fun _ => 3 / 2) f g ∧ ∀ cfg, ∃ p q : List UInt8, decode cfg f.bytes = .ok p ∧
    decode cfg g.bytes = .ok q ∧ q.length = 7 * 5 * 3 ∧ ∀ y x j, y < 5 → x < 7 → j < 3 → ∃ a b,
      p[21 * y + (3 * x + j)]? = some a ∧ q[21 * y + (3 * x + j)]? = some b ∧ ContrastOf (3 / 2) (9 / 4) a b := by
  have hv : ∀ (q : List Nat), GoodTable q → _ := fun q h1 =>
    codedFile_valid (q := q) (comps := fullComps) (x := 7) (y := 5) (H := 1) (V := 1) (mcus := [addendMcu]) h1
      ⟨by decide, by decide, by decide, by decide, by decide, ⟨by decide, by decide⟩, ⟨by decide, by decide⟩, by decide,
        by decide, by decide, by decide, by decide⟩ (by decide)
  obtain ⟨d₁, v₁⟩ := hv (List.replicate 64 2) ⟨by decide, by decide⟩
  obtain ⟨d₂, v₂⟩ := hv (List.replicate 64 3) ⟨by decide, by decide⟩
  have ha : TablesScaled (fun _ => 3 / 2) (codedFile (List.replicate 64 2) fullComps 7 5 [addendMcu] d₁)
      (codedFile (List.replicate 64 3) fullComps 7 5 [addendMcu] d₂) := by
    refine codedFile_scaled (by decide) fun n => ?_
    rw [List.getD_eq_getElem?_getD, List.getD_eq_getElem?_getD, List.getElem?_replicate, List.getElem?_replicate]
    split <;> norm_num
  refine ⟨_, _, ha, fun cfg => ?_⟩
  obtain ⟨p, q, e₁, e₂, h1, h2, h3, h4⟩ := C104_image cfg (3 / 2) _ _ 1 1 (C104_tables _ _ _ ha) _ _ Decoder.default
    Decoder.default .new .new (.nothing _) (.nothing _) rfl (by show (none : Option Nat) ≠ some 0; decide)
    (by show (none : Option Nat) ≠ some 0; decide) v₁ v₂ (renderable_one v₂.toLaid.ones)
    (codedFile_unclipped (by decide) (by decide +kernel)) (codedFile_unclipped (by decide) (by decide +kernel))
  refine ⟨p, q, by unfold decode; rw [h1], by unfold decode; rw [h2], h3, ?_⟩
  intro y x j hy hx hj
  obtain ⟨a, b, w1, w2, -, w3⟩ := h4 y x j hy hx hj
  exact ⟨a, b, w1, w2, w3 v₂.toLaid.ones⟩

/-- A case of `C104_cmyk`: half the contrast. -/
example : ∃ f g : BaselineFile, TablesScaled (fun _ => 1 / 2) f g ∧ ∀ cfg, ∃ p q : List UInt8, decode cfg f.bytes = .ok p ∧
    decode cfg g.bytes = .ok q ∧ q.length = 256 ∧ ∀ i, i < 256 → ∃ a b, p[i]? = some a ∧ q[i]? = some b ∧
      |(b.toNat : ℚ) - (127 + 1 / 2 * (a.toNat - 127))| ≤ 15 / 16 := by
  have hv : ∀ (q : List Nat), GoodTable q → _ := fun q h1 =>
    codedFile_valid (q := q) (comps := inkComps) (x := 8) (y := 8) (H := 1) (V := 1) (mcus := [inkMcu 1]) h1
      ⟨by decide, by decide, by decide, by decide, by decide, ⟨by decide, by decide⟩, ⟨by decide, by decide⟩, by decide,
        by decide, by decide, by decide, by decide⟩ (by decide)
  obtain ⟨d₁, v₁⟩ := hv (List.replicate 64 8) ⟨by decide, by decide⟩
  obtain ⟨d₂, v₂⟩ := hv (List.replicate 64 4) ⟨by decide, by decide⟩
  have ha : TablesScaled (fun _ => 1 / 2) (codedFile (List.replicate 64 8) inkComps 8 8 [inkMcu 1] d₁)
      (codedFile (List.replicate 64 4) inkComps 8 8 [inkMcu 1] d₂) := by
    refine codedFile_scaled (by decide) fun n => ?_
    rw [List.getD_eq_getElem?_getD, List.getD_eq_getElem?_getD, List.getElem?_replicate, List.getElem?_replicate]
    split <;> norm_num
  have ha : TablesScaled (fun _ => 1 / 2) (withAdobe 0 (codedFile (List.replicate 64 8) inkComps 8 8 [inkMcu 1] d₁))
      (withAdobe 0 (codedFile (List.replicate 64 4) inkComps 8 8 [inkMcu 1] d₂)) := by
    refine ⟨⟨ha.shape.x, ha.shape.y, ha.shape.factors⟩, ha.mcus, ?_⟩
    simp only [withAdobe_quantOf]
    exact ha.tables
  refine ⟨_, _, ha, fun cfg => ?_⟩
  have v₁ := withAdobe_valid (t := 0) (by decide) v₁
  have v₂ := withAdobe_valid (t := 0) (by decide) v₂
  obtain ⟨p, q, e₁, e₂, h1, h2, h3, h4⟩ := C104_cmyk cfg (fun _ => 1 / 2) _ _ 1 1 (C104_tables _ _ _ ha) _ _ Decoder.default
    Decoder.default .new .new (.nothing _) (.nothing _) rfl rfl rfl v₁ v₂ (renderable_one v₂.toLaid.ones)
    (codedFile_unclipped (data := d₁) (x := 8) (y := 8) (comps := inkComps) (mcus := [inkMcu 1]) (by decide) (by decide +kernel))
    (codedFile_unclipped (data := d₂) (x := 8) (y := 8) (comps := inkComps) (mcus := [inkMcu 1]) (by decide) (by decide +kernel))
  refine ⟨p, q, by unfold decode; rw [h1], by unfold decode; rw [h2], ?_, ?_⟩
  · change q.length = 8 * 8 * 4 at h3
    omega
  intro i hi
  have e : 4 * 8 * (i / 32) + (4 * (i % 32 / 4) + i % 4) = i := by omega
  obtain ⟨a, b, g1, g2, -, g3⟩ := h4 (i / 32) (i % 32 / 4) (i % 4) (by show i / 32 < 8; omega) (by show i % 32 / 4 < 8; omega) (by omega)
  change p[4 * 8 * (i / 32) + (4 * (i % 32 / 4) + i % 4)]? = some a at g1
  change q[4 * 8 * (i / 32) + (4 * (i % 32 / 4) + i % 4)]? = some b at g2
  rw [e] at g1 g2
  refine ⟨a, b, g1, g2, (g3 v₂.toLaid.ones).trans ?_⟩
  norm_num [abs_of_pos]

end Jpeg
