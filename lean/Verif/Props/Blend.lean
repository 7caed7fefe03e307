import Verif.Spec.Blend
import Verif.Props.Contrast
import Verif.Props.Energy
/-!
# C111: pictures blended without decoding
-/

namespace Jpeg
open Spec Sample Finset

/-- Errors of the three sides. -/
theorem error_blended {s t d d' d'' M : ℚ} (h : |d| ≤ M) (h' : |d'| ≤ M) (h'' : |d''| ≤ M) :
    |d'' - s * d - t * d'| ≤ M * (1 + |s| + |t|) := by
  have h1 : |s * d| ≤ |s| * M := by
    rw [abs_mul]
    exact mul_le_mul_of_nonneg_left h (abs_nonneg s)
  have h2 : |t * d'| ≤ |t| * M := by
    rw [abs_mul]
    exact mul_le_mul_of_nonneg_left h' (abs_nonneg t)
  have h3 := abs_sub (d'' - s * d) (t * d')
  have h4 := abs_sub d'' (s * d)
  nlinarith

/-- **C111** (the inverse DCT). The samples of `s * F + t * G`, as differences from 128, up to 5/8 for each of the three; for
all integers. -/
theorem C111_idct (s t : ℚ) (F G B : Nat → Nat → Int) (h : ∀ k i, k < 8 → i < 8 → (B k i : ℚ) = s * F k i + t * G k i)
    (r x : Nat) (hr : r < 8) (hx : x < 8) :
    |(idctSample B r x : ℚ) - (128 + s * (idctSample F r x - 128) + t * (idctSample G r x - 128))| ≤ 5 / 8 * (1 + |s| + |t|) := by
  have floor : ∀ (a m : Int), 0 < m → (m = 512 ∨ m = 65536) →
      |((2 * m * ((a + m) / (2 * m)) : Int) : ℚ) - a| ≤ m := by
    intro a m hm hc
    have : -m ≤ 2 * m * ((a + m) / (2 * m)) - a ∧ 2 * m * ((a + m) / (2 * m)) - a ≤ m := by
      rcases hc with rfl | rfl <;> omega
    rw [abs_le]
    exact_mod_cast this
  have hK : 0 ≤ 1 + |s| + |t| := by positivity
  have key : ∀ i, i < 8 → |(idctPass1 B r i : ℚ) - s * idctPass1 F r i - t * idctPass1 G r i| ≤ 1 / 2 * (1 + |s| + |t|) := by
    intro i hi
    unfold idctPass1
    rw [dot_sum hr, dot_sum hr, dot_sum hr]
    have e : ((∑ k ∈ range 8, entry r k * B k i : Int) : ℚ) = s * (∑ k ∈ range 8, entry r k * F k i : Int) +
        t * (∑ k ∈ range 8, entry r k * G k i : Int) := by
      push_cast
      rw [Finset.mul_sum, Finset.mul_sum, ← Finset.sum_add_distrib]
      refine Finset.sum_congr rfl fun k hk => ?_
      rw [h k i (Finset.mem_range.1 hk) hi]
      ring
    generalize ∑ k ∈ range 8, entry r k * F k i = A at e ⊢
    generalize ∑ k ∈ range 8, entry r k * G k i = A' at e ⊢
    generalize ∑ k ∈ range 8, entry r k * B k i = C at e ⊢
    have e' := error_blended (s := s) (t := t) (floor A 512 (by decide) (.inl rfl)) (floor A' 512 (by decide) (.inl rfl))
      (floor C 512 (by decide) (.inl rfl))
    norm_num at e'
    generalize (((A + 512) / 1024 : Int) : ℚ) = P at e' ⊢
    generalize (((A' + 512) / 1024 : Int) : ℚ) = Q at e' ⊢
    generalize (((C + 512) / 1024 : Int) : ℚ) = R at e' ⊢
    rw [abs_le] at e' ⊢
    constructor <;> linarith
  have e : |((∑ i ∈ range 8, entry x i * idctPass1 B r i : Int) : ℚ) - s * (∑ i ∈ range 8, entry x i * idctPass1 F r i : Int) -
      t * (∑ i ∈ range 8, entry x i * idctPass1 G r i : Int)| ≤ 30610 * (1 / 2 * (1 + |s| + |t|)) := by
    push_cast
    rw [Finset.mul_sum, Finset.mul_sum, ← Finset.sum_sub_distrib, ← Finset.sum_sub_distrib]
    have h := entry_sum x hx
    have e : (List.range 8).foldl (fun s k => s + |entry x k|) 0 = ∑ i ∈ range 8, |entry x i| := by
      simp [Finset.sum_range_succ, List.range_succ]
    rw [e] at h
    have h : ∑ i ∈ range 8, |(entry x i : ℚ)| ≤ 30610 := by exact_mod_cast h
    refine (Finset.abs_sum_le_sum_abs _ _).trans (le_trans ?_ (mul_le_mul_of_nonneg_right h (by positivity)))
    rw [Finset.sum_mul]
    refine Finset.sum_le_sum fun i hi => ?_
    rw [show (entry x i : ℚ) * idctPass1 B r i - s * (entry x i * idctPass1 F r i) - t * (entry x i * idctPass1 G r i) =
      entry x i * ((idctPass1 B r i : ℚ) - s * idctPass1 F r i - t * idctPass1 G r i) by ring, abs_mul]
    exact mul_le_mul_of_nonneg_left (key i (Finset.mem_range.1 hi)) (abs_nonneg _)
  unfold idctSample
  rw [dot_sum hx fun i => idctPass1 F r i, dot_sum hx fun i => idctPass1 G r i, dot_sum hx fun i => idctPass1 B r i]
  generalize ∑ i ∈ range 8, entry x i * idctPass1 F r i = A at e ⊢
  generalize ∑ i ∈ range 8, entry x i * idctPass1 G r i = A' at e ⊢
  generalize ∑ i ∈ range 8, entry x i * idctPass1 B r i = C at e ⊢
  have e' := error_blended (s := s) (t := t) (floor A 65536 (by decide) (.inr rfl)) (floor A' 65536 (by decide) (.inr rfl))
    (floor C 65536 (by decide) (.inr rfl))
  push_cast at e' ⊢
  generalize (((A + 65536) / 131072 : Int) : ℚ) = P at e' ⊢
  generalize (((A' + 65536) / 131072 : Int) : ℚ) = Q at e' ⊢
  generalize (((C + 65536) / 131072 : Int) : ℚ) = R at e' ⊢
  rw [abs_le] at e e' ⊢
  constructor <;> linarith

/-- A case of `C111_idct`: three quarters of a block and a quarter of another. -/
example : let F : Nat → Nat → Int := fun k i => if (k, i) = (0, 1) then 48 else 0
    let G : Nat → Nat → Int := fun k i => if (k, i) = (2, 0) then -160 else 0
    let B : Nat → Nat → Int := fun k i => if (k, i) = (0, 1) then 36 else if (k, i) = (2, 0) then -40 else 0
    (∀ k < 8, ∀ i < 8, (B k i : ℚ) = 3 / 4 * F k i + 1 / 4 * G k i) ∧
      ∃ r < 8, ∃ x < 8, idctSample F r x ≠ 128 ∧ idctSample G r x ≠ 128 ∧ idctSample B r x ≠ 128 := by
  intro F G B
  have h : (∀ k < 8, ∀ i < 8, 4 * B k i = 3 * F k i + G k i) ∧
      ∃ r < 8, ∃ x < 8, idctSample F r x ≠ 128 ∧ idctSample G r x ≠ 128 ∧ idctSample B r x ≠ 128 := by decide +kernel
  refine ⟨fun k hk i hi => ?_, h.2⟩
  have : ((4 * B k i : Int) : ℚ) = ((3 * F k i + G k i : Int) : ℚ) := by rw [h.1 k hk i hi]
  rw [Int.cast_mul, Int.cast_add, Int.cast_mul] at this
  push_cast at this
  linarith

/-- Samples blended up to `e`, upsampled: up to 1/2 more. -/
theorem upsampled_blended {W Ht H V : Nat} {c : Component} (g : ComponentGeometry W Ht H V c)
    (hH : c.h ≤ H) (hV : c.v ≤ V) (hW : 1 ≤ W) {row : Nat} (hrow : row < Ht) {u : Upsample}
    (hu : chooseUpsampler (c.h, c.v) (H, V) ⟨W, Ht⟩ = .ok u) {x : Nat} (hx : x < W) (p q b : Nat → Nat → Nat) {s t e : ℚ}
    (h : ∀ r i, r < c.size.height → i < c.size.width →
      |(b r i : ℚ) - (128 + s * (p r i - 128) + t * (q r i - 128))| ≤ e * (1 + |s| + |t|)) :
    let U := fun f => upsampled W Ht H V c.h c.v c.size.width c.size.height f row x
    |(U b : ℚ) - (128 + s * (U p - 128) + t * (U q - 128))| ≤ (e + 1 / 2) * (1 + |s| + |t|) ∧
    (c.h = H ∧ c.v = V → |(U b : ℚ) - (128 + s * (U p - 128) + t * (U q - 128))| ≤ e * (1 + |s| + |t|)) := by
  intro U
  have hn : 0 ≤ 1 + |s| + |t| := by positivity
  generalize hK : 1 + |s| + |t| = K at h hn ⊢
  have floor : ∀ (a m : Nat), (m = 2 ∨ m = 8) → |((2 * m * ((a + m) / (2 * m)) : Nat) : ℚ) - a| ≤ m := by
    intro a m hc
    have : (-m : Int) ≤ ((2 * m * ((a + m) / (2 * m)) : Nat) : Int) - a ∧
        ((2 * m * ((a + m) / (2 * m)) : Nat) : Int) - a ≤ m := by
      rcases hc with rfl | rfl <;> omega
    rw [abs_le]
    exact_mod_cast this
  rcases upsampled_shape g hH hV hW hrow hu hx with ⟨r, i, ⟨h1, h2⟩, e⟩ | ⟨n, ⟨r, i, r', i', ⟨h1, h2⟩, ⟨h3, h4⟩, e⟩ |
    ⟨r, r', i, i', h1, h2, h3, h4, e⟩⟩
  · have := h r i h1 h2
    simp only [U, e]
    exact ⟨by linarith, fun _ => this⟩
  · have a1 := h r i h1 h2
    have a2 := h r' i' h3 h4
    simp only [U, e]
    refine ⟨?_, fun h => absurd h n⟩
    have b := error_blended (s := s) (t := t) (floor (3 * p r i + p r' i') 2 (.inl rfl)) (floor (3 * q r i + q r' i') 2 (.inl rfl))
      (floor (3 * b r i + b r' i') 2 (.inl rfl))
    rw [hK] at b
    norm_num at b
    generalize (((3 * p r i + p r' i' + 2) / 4 : Nat) : ℚ) = P at b ⊢
    generalize (((3 * q r i + q r' i' + 2) / 4 : Nat) : ℚ) = Q at b ⊢
    generalize (((3 * _ + _ + 2) / 4 : Nat) : ℚ) = R at b ⊢
    rw [abs_le] at a1 a2 b ⊢
    constructor <;> linarith
  · have a1 := h r i h1 h3
    have a2 := h r' i h2 h3
    have a3 := h r i' h1 h4
    have a4 := h r' i' h2 h4
    simp only [U, e]
    refine ⟨?_, fun h => absurd h n⟩
    have b := error_blended (s := s) (t := t) (floor (3 * (3 * p r i + p r' i) + (3 * p r i' + p r' i')) 8 (.inr rfl))
      (floor (3 * (3 * q r i + q r' i) + (3 * q r i' + q r' i')) 8 (.inr rfl))
      (floor (3 * (3 * b r i + b r' i) + (3 * b r i' + b r' i')) 8 (.inr rfl))
    rw [hK] at b
    norm_num at b
    generalize (((3 * (3 * p r i + p r' i) + (3 * p r i' + p r' i') + 8) / 16 : Nat) : ℚ) = P at b ⊢
    generalize (((3 * (3 * q r i + q r' i) + (3 * q r i' + q r' i') + 8) / 16 : Nat) : ℚ) = Q at b ⊢
    generalize (((3 * (3 * _ + _) + (3 * _ + _) + 8) / 16 : Nat) : ℚ) = R at b ⊢
    rw [abs_le] at a1 a2 a3 a4 b ⊢
    constructor <;> linarith

section

variable {f g b : BaselineFile} {H V : Nat} {s t : ℚ}

theorem sample_blended {r₁ r₂ r₃ : Nat} {k₁ k₂ k₃ : List (Code × Code)} (hf : f.Laid r₁ H V k₁) (hg : g.Laid r₂ H V k₂)
    (hb : b.Laid r₃ H V k₃) (uf : f.Unclipped) (ug : g.Unclipped) (ub : b.Unclipped) (ha : Blended s t f g b) {i : Nat}
    {c : FileComponent} (hc : b.comps[i]? = some c) {Y X : Nat} (hY : Y < 8 * (ceilDiv b.y (8 * V) * c.v))
    (hX : X < 8 * (ceilDiv b.x (8 * H) * c.h)) :
    |((b.sample H i Y X).toNat : ℚ) - (128 + s * ((f.sample H i Y X).toNat - 128) + t * ((g.sample H i Y X).toNat - 128))| ≤
      5 / 8 * (1 + |s| + |t|) := by
  obtain ⟨c₁, hc₁, hh₁, hv₁⟩ := shape_comp ha.left hc
  obtain ⟨c₂, hc₂, hh₂, hv₂⟩ := shape_comp ha.right hc
  obtain ⟨F, a1, a2⟩ := sample_coefficients hf uf hc₁ (Y := Y) (X := X) (by rw [ha.left.y, hv₁]; exact hY)
    (by rw [ha.left.x, hh₁]; exact hX)
  obtain ⟨G, b1, b2⟩ := sample_coefficients hg ug hc₂ (Y := Y) (X := X) (by rw [ha.right.y, hv₂]; exact hY)
    (by rw [ha.right.x, hh₂]; exact hX)
  obtain ⟨B, c1, c2⟩ := sample_coefficients hb ub hc hY hX
  rw [ha.left.x, hh₁, hv₁] at a1
  rw [ha.right.x, hh₂, hv₂] at b1
  have := C111_idct s t F G B (fun k l hk hl => by
    obtain ⟨v, e, e'⟩ := ha.products _ _ _ _ _ _ _ hk hl (a1 k l) (b1 k l)
    rw [← e', Option.some.inj (e.symm.trans (c1 k l))])
    (Y % 8) (X % 8) (Nat.mod_lt _ (by decide)) (Nat.mod_lt _ (by decide))
  rw [← a2, ← b2, ← c2] at this
  push_cast at this
  exact this

theorem upsampledSample_blended {r₁ r₂ r₃ : Nat} {k₁ k₂ k₃ : List (Code × Code)} (hf : f.Laid r₁ H V k₁) (hg : g.Laid r₂ H V k₂)
    (hb : b.Laid r₃ H V k₃) (hr : b.Renderable H V) (uf : f.Unclipped) (ug : g.Unclipped) (ub : b.Unclipped)
    (ha : Blended s t f g b) {i row x : Nat} (hi : i < b.comps.length) (hrow : row < b.y) (hx : x < b.x) :
    let p := (UInt8.ofNat (f.upsampledSample H V i row x)).toNat
    let q := (UInt8.ofNat (g.upsampledSample H V i row x)).toNat
    let v := (UInt8.ofNat (b.upsampledSample H V i row x)).toNat
    |(v : ℚ) - (128 + s * (p - 128) + t * (q - 128))| ≤ 9 / 8 * (1 + |s| + |t|) ∧
      ((∀ c ∈ b.comps, c.h = H ∧ c.v = V) → |(v : ℚ) - (128 + s * (p - 128) + t * (q - 128))| ≤ 5 / 8 * (1 + |s| + |t|)) := by
  have hc := List.getElem?_eq_getElem hi
  generalize b.comps[i] = c at hc
  have hcm := List.mem_of_getElem? hc
  obtain ⟨c₁, hc₁, hh₁, hv₁⟩ := shape_comp ha.left hc
  obtain ⟨c₂, hc₂, hh₂, hv₂⟩ := shape_comp ha.right hc
  have gm := fileComponent_geometry hb hcm
  obtain ⟨f1, f2, f3, f4⟩ := hb.factors c hcm
  have hH := hb.hmax.1 c hcm
  have hV := hb.vmax.1 c hcm
  simp only at hH hV
  obtain ⟨m1, m2, -⟩ := hr c hcm
  obtain ⟨m, hm⟩ := Nat.dvd_of_mod_eq_zero m1
  obtain ⟨n, hn⟩ := Nat.dvd_of_mod_eq_zero m2
  have hm0 : m ≠ 0 := by rintro rfl; omega
  have hn0 : n ≠ 0 := by rintro rfl; omega
  obtain ⟨u, hu⟩ := (C30_integer_ratio c.h c.v m n b.x b.y f1 f3 (by omega) (by omega)).1
  rw [← hm, ← hn] at hu
  have F := Facts.of gm hH hV hb.x.1 (by omega)
  have key := upsampled_blended gm hH hV hb.x.1 hrow hu hx (fun r k => (f.sample H i r k).toNat)
    (fun r k => (g.sample H i r k).toNat) (fun r k => (b.sample H i r k).toNat) (s := s) (t := t) (e := 5 / 8) (fun r k h1 h2 => by
      have e1 := F.w_le
      have e2 := F.h_le
      have e3 : (fileComponent b H V c).lineStride = 8 * (ceilDiv b.x (8 * H) * c.h) := gm.lineStride
      have e4 : (fileComponent b H V c).blockSize.height = ceilDiv b.y (8 * V) * c.v := by rw [gm.blocks]; rfl
      exact sample_blended hf hg hb uf ug ub ha hc (by omega) (by omega))
  simp only [upsampledSample_byte]
  unfold BaselineFile.upsampledSample
  simp only [hc, hc₁, hc₂, ha.left.x, ha.left.y, ha.right.x, ha.right.y, hh₁, hv₁, hh₂, hv₂]
  refine ⟨?_, fun h => key.2 (h c hcm)⟩
  have := key.1
  norm_num at this ⊢
  exact this

end

/-- The limits of a channel. -/
theorem blendOf_saturate {s t e : ℚ} {u v w : Int}
    (h : |(w : ℚ) - (128 + s * (u - 128) + t * (v - 128))| ≤ e * (1 + |s| + |t|)) :
    BlendOf s t e (saturate u) (saturate v) (saturate w) := by
  have hu := saturate_toNat u
  have hv := saturate_toNat v
  have hw := saturate_toNat w
  generalize saturate u = a at hu ⊢
  generalize saturate v = b at hv ⊢
  generalize saturate w = c at hw ⊢
  rintro ⟨h1, h2⟩ ⟨h3, h4⟩
  have eu : (a.toNat : Int) = u := by omega
  have ev : (b.toNat : Int) = v := by omega
  have eu' : (a.toNat : ℚ) = u := by rw [← eu, Int.cast_natCast]
  have ev' : (b.toNat : ℚ) = v := by rw [← ev, Int.cast_natCast]
  have ew : (c.toNat : ℚ) = max 0 (min (w : ℚ) 255) := by
    rw [← Int.cast_natCast, hw]
    push_cast
    rfl
  rw [eu', ev', ew]
  refine le_trans ?_ h
  generalize 128 + s * ((u : ℚ) - 128) + t * ((v : ℚ) - 128) = z
  have k1 := abs_max_sub_max_le_abs (min (w : ℚ) 255) (min z 255) 0
  have k2 := abs_min_sub_min_le_max (w : ℚ) 255 z 255
  rw [sub_self, abs_zero, max_eq_left (abs_nonneg _)] at k2
  rw [max_comm 0 (min (w : ℚ) 255), max_comm 0 (min z 255)]
  exact k1.trans k2

/-- Colours of blended components. -/
theorem color_blended {y b r y' b' r' y'' b'' r'' : UInt8} {s t e : ℚ}
    (hy : |(y''.toNat : ℚ) - (128 + s * (y.toNat - 128) + t * (y'.toNat - 128))| ≤ e * (1 + |s| + |t|))
    (hb : |(b''.toNat : ℚ) - (128 + s * (b.toNat - 128) + t * (b'.toNat - 128))| ≤ e * (1 + |s| + |t|))
    (hr : |(r''.toNat : ℚ) - (128 + s * (r.toNat - 128) + t * (r'.toNat - 128))| ≤ e * (1 + |s| + |t|)) {E : ℚ}
    (hE : e = 5 / 8 ∧ E = 9 / 4 ∨ e = 9 / 8 ∧ E = 29 / 8) :
    BlendOf s t E (saturate (redSum y b r)) (saturate (redSum y' b' r')) (saturate (redSum y'' b'' r'')) ∧
    BlendOf s t E (saturate (greenSum y b r)) (saturate (greenSum y' b' r')) (saturate (greenSum y'' b'' r'')) ∧
    BlendOf s t E (saturate (blueSum y b r)) (saturate (blueSum y' b' r')) (saturate (blueSum y'' b'' r'')) := by
  have hn : 0 ≤ 1 + |s| + |t| := by positivity
  have floor : ∀ a : Int, |((65536 * ((a + 32768) / 65536) : Int) : ℚ) - a| ≤ 32768 := by
    intro a
    have : -32768 ≤ 65536 * ((a + 32768) / 65536) - a ∧ 65536 * ((a + 32768) / 65536) - a ≤ 32768 := by omega
    rw [abs_le]
    exact_mod_cast this
  have three : ∀ a a' a'' : Int, _ := fun a a' a'' => error_blended (s := s) (t := t) (floor a) (floor a') (floor a'')
  refine ⟨blendOf_saturate ?_, blendOf_saturate ?_, blendOf_saturate ?_⟩
  · have h := three (91881 * ((r.toNat : Int) - 128)) (91881 * ((r'.toNat : Int) - 128)) (91881 * ((r''.toNat : Int) - 128))
    generalize 1 + |s| + |t| = K at *
    unfold redSum
    push_cast at h ⊢
    generalize (((91881 * ((r.toNat : Int) - 128) + 32768) / 65536 : Int) : ℚ) = P at h ⊢
    generalize (((91881 * ((r'.toNat : Int) - 128) + 32768) / 65536 : Int) : ℚ) = Q at h ⊢
    generalize (((91881 * ((r''.toNat : Int) - 128) + 32768) / 65536 : Int) : ℚ) = R at h ⊢
    rw [abs_le] at h hy hr ⊢
    rcases hE with ⟨rfl, rfl⟩ | ⟨rfl, rfl⟩ <;> constructor <;> linarith
  · have h := three (-22554 * ((b.toNat : Int) - 128) + -46802 * ((r.toNat : Int) - 128))
      (-22554 * ((b'.toNat : Int) - 128) + -46802 * ((r'.toNat : Int) - 128))
      (-22554 * ((b''.toNat : Int) - 128) + -46802 * ((r''.toNat : Int) - 128))
    generalize 1 + |s| + |t| = K at *
    unfold greenSum
    rw [show ∀ m n : Int, m + 32768 + n = m + n + 32768 by intros; omega,
      show ∀ m n : Int, m + 32768 + n = m + n + 32768 by intros; omega,
      show ∀ m n : Int, m + 32768 + n = m + n + 32768 by intros; omega]
    push_cast at h ⊢
    generalize (((-22554 * ((b.toNat : Int) - 128) + -46802 * ((r.toNat : Int) - 128) + 32768) / 65536 : Int) : ℚ) = P at h ⊢
    generalize (((-22554 * ((b'.toNat : Int) - 128) + -46802 * ((r'.toNat : Int) - 128) + 32768) / 65536 : Int) : ℚ) = Q at h ⊢
    generalize (((-22554 * ((b''.toNat : Int) - 128) + -46802 * ((r''.toNat : Int) - 128) + 32768) / 65536 : Int) : ℚ) = R at h ⊢
    rw [abs_le] at h hy hb hr ⊢
    rcases hE with ⟨rfl, rfl⟩ | ⟨rfl, rfl⟩ <;> constructor <;> linarith
  · have h := three (116130 * ((b.toNat : Int) - 128)) (116130 * ((b'.toNat : Int) - 128)) (116130 * ((b''.toNat : Int) - 128))
    generalize 1 + |s| + |t| = K at *
    unfold blueSum
    push_cast at h ⊢
    generalize (((116130 * ((b.toNat : Int) - 128) + 32768) / 65536 : Int) : ℚ) = P at h ⊢
    generalize (((116130 * ((b'.toNat : Int) - 128) + 32768) / 65536 : Int) : ℚ) = Q at h ⊢
    generalize (((116130 * ((b''.toNat : Int) - 128) + 32768) / 65536 : Int) : ℚ) = R at h ⊢
    rw [abs_le] at h hy hb ⊢
    rcases hE with ⟨rfl, rfl⟩ | ⟨rfl, rfl⟩ <;> constructor <;> linarith

/-- **C111** (three components). A picture whose coefficients are `s` times those of one picture plus `t` times those of another:
every channel of every pixel is `128 + s * (a - 128) + t * (b - 128)`, limited to 0..255, up to 29/8 for each of the three,
if `a` and `b` have not been limited; up to 9/4 without subsampling. With `s + t = 1` it is `s * a + t * b`. -/
theorem C111_image (cfg : Cfg) (s t : ℚ) (f g b : BaselineFile) (H V : Nat) (ha : Blended s t f g b)
    (k₁ k₂ k₃ : List (Code × Code)) (d₁ d₂ d₃ : Decoder) (hd₁ : UsedDecoder d₁) (hd₂ : UsedDecoder d₂) (hd₃ : UsedDecoder d₃)
    (hh₁ : Holds cfg d₁ f.earlier) (hh₂ : Holds cfg d₂ g.earlier) (hh₃ : Holds cfg d₃ b.earlier) (h3 : b.comps.length = 3)
    (hct₁ : f.transform d₁.transform ≠ some 0) (hct₂ : g.transform d₂.transform ≠ some 0)
    (hct₃ : b.transform d₃.transform ≠ some 0) (hv₁ : f.Valid (f.interval d₁.restartInterval) H V k₁)
    (hv₂ : g.Valid (g.interval d₂.restartInterval) H V k₂) (hv₃ : b.Valid (b.interval d₃.restartInterval) H V k₃)
    (hr : b.Renderable H V) (uf : f.Unclipped) (ug : g.Unclipped) (ub : b.Unclipped) :
    ∃ p q v e₁ e₂ e₃, d₁.decode cfg f.bytes = .ok p e₁ ∧ d₂.decode cfg g.bytes = .ok q e₂ ∧ d₃.decode cfg b.bytes = .ok v e₃ ∧
      v.length = b.x * b.y * 3 ∧ ∀ y x j, y < b.y → x < b.x → j < 3 → ∃ l m n,
        p[3 * b.x * y + (3 * x + j)]? = some l ∧ q[3 * b.x * y + (3 * x + j)]? = some m ∧
        v[3 * b.x * y + (3 * x + j)]? = some n ∧ BlendOf s t (29 / 8) l m n ∧
        ((∀ c ∈ b.comps, c.h = H ∧ c.v = V) → BlendOf s t (9 / 4) l m n) := by
  have l₁ : f.comps.length = 3 := by rw [ha.left.factors.length_eq, h3]
  have l₂ : g.comps.length = 3 := by rw [ha.right.factors.length_eq, h3]
  have hr₁ := SameShape.renderable ha.left hr
  have hr₂ := SameShape.renderable ha.right hr
  obtain ⟨p, e₁, a1, -⟩ := C45_decodes cfg f H V k₁ d₁ hd₁ hh₁ l₁ hct₁ hv₁ hr₁
  obtain ⟨q, e₂, b1, -⟩ := C45_decodes cfg g H V k₂ d₂ hd₂ hh₂ l₂ hct₂ hv₂ hr₂
  obtain ⟨v, e₃, c1, c2⟩ := C45_decodes cfg b H V k₃ d₃ hd₃ hh₃ h3 hct₃ hv₃ hr
  refine ⟨p, q, v, e₁, e₂, e₃, a1, b1, c1, c2, ?_⟩
  intro y x j hy hx hj
  have hrow : (if cfg.rayon then y / V else y / V * V) < b.y := by
    have := Nat.div_le_self y V
    have := Nat.div_mul_le_self y V
    split <;> omega
  obtain ⟨r₁, g₁, b₁, w₁, p0, p1, p2⟩ := C45_pixels_partial cfg f H V k₁ d₁ hd₁ hh₁ l₁ hct₁ hv₁ hr₁ uf.inRange p e₁ a1 y x
    (by rw [ha.left.y]; exact hy) (by rw [ha.left.x]; exact hx)
  obtain ⟨r₂, g₂, b₂, w₂, q0, q1, q2⟩ := C45_pixels_partial cfg g H V k₂ d₂ hd₂ hh₂ l₂ hct₂ hv₂ hr₂ ug.inRange q e₂ b1 y x
    (by rw [ha.right.y]; exact hy) (by rw [ha.right.x]; exact hx)
  obtain ⟨r₃, g₃, b₃, w₃, v0, v1, v2⟩ := C45_pixels_partial cfg b H V k₃ d₃ hd₃ hh₃ h3 hct₃ hv₃ hr ub.inRange v e₃ c1 y x hy hx
  rw [ha.left.x] at p0 p1 p2
  rw [ha.right.x] at q0 q1 q2
  have up : ∀ i, i < 3 → _ := fun i hi =>
    upsampledSample_blended hv₁.toLaid hv₂.toLaid hv₃.toLaid hr uf ug ub ha (i := i) (by omega) hrow hx
  rw [ycbcrToRgb_eq] at w₁ w₂ w₃
  simp only [Except.ok.injEq, Prod.mk.injEq] at w₁ w₂ w₃
  obtain ⟨rfl, rfl, rfl⟩ := w₁
  obtain ⟨rfl, rfl, rfl⟩ := w₂
  obtain ⟨rfl, rfl, rfl⟩ := w₃
  have u0 := up 0 (by decide)
  have u1 := up 1 (by decide)
  have u2 := up 2 (by decide)
  have wide := color_blended u0.1 u1.1 u2.1 (E := 29 / 8) (.inr ⟨rfl, rfl⟩)
  have full := fun h => color_blended (u0.2 h) (u1.2 h) (u2.2 h) (E := 9 / 4) (.inl ⟨rfl, rfl⟩)
  rcases (by omega : j = 0 ∨ j = 1 ∨ j = 2) with rfl | rfl | rfl
  · exact ⟨_, _, _, p0, q0, v0, wide.1, fun h => (full h).1⟩
  · exact ⟨_, _, _, p1, q1, v1, wide.2.1, fun h => (full h).2.1⟩
  · exact ⟨_, _, _, p2, q2, v2, wide.2.2, fun h => (full h).2.2⟩

/-- **C111** (CMYK). The bytes are 255 minus the samples: every byte is `127 + s * (a - 127) + t * (b - 127)`, up to 9/8 for each
of the three; up to 5/8 without subsampling. -/
theorem C111_cmyk (cfg : Cfg) (s t : ℚ) (f g b : BaselineFile) (H V : Nat) (ha : Blended s t f g b)
    (k₁ k₂ k₃ : List (Code × Code)) (d₁ d₂ d₃ : Decoder) (hd₁ : UsedDecoder d₁) (hd₂ : UsedDecoder d₂) (hd₃ : UsedDecoder d₃)
    (hh₁ : Holds cfg d₁ f.earlier) (hh₂ : Holds cfg d₂ g.earlier) (hh₃ : Holds cfg d₃ b.earlier) (h4 : b.comps.length = 4)
    (hct₁ : f.transform d₁.transform = some 0) (hct₂ : g.transform d₂.transform = some 0)
    (hct₃ : b.transform d₃.transform = some 0) (hv₁ : f.Valid (f.interval d₁.restartInterval) H V k₁)
    (hv₂ : g.Valid (g.interval d₂.restartInterval) H V k₂) (hv₃ : b.Valid (b.interval d₃.restartInterval) H V k₃)
    (hr : b.Renderable H V) (uf : f.Unclipped) (ug : g.Unclipped) (ub : b.Unclipped) :
    ∃ p q v e₁ e₂ e₃, d₁.decode cfg f.bytes = .ok p e₁ ∧ d₂.decode cfg g.bytes = .ok q e₂ ∧ d₃.decode cfg b.bytes = .ok v e₃ ∧
      v.length = b.x * b.y * 4 ∧ ∀ y x j, y < b.y → x < b.x → j < 4 → ∃ l m n,
        p[4 * b.x * y + (4 * x + j)]? = some l ∧ q[4 * b.x * y + (4 * x + j)]? = some m ∧
        v[4 * b.x * y + (4 * x + j)]? = some n ∧
        |(n.toNat : ℚ) - (127 + s * (l.toNat - 127) + t * (m.toNat - 127))| ≤ 9 / 8 * (1 + |s| + |t|) ∧
        ((∀ c ∈ b.comps, c.h = H ∧ c.v = V) →
          |(n.toNat : ℚ) - (127 + s * (l.toNat - 127) + t * (m.toNat - 127))| ≤ 5 / 8 * (1 + |s| + |t|)) := by
  have l₁ : f.comps.length = 4 := by rw [ha.left.factors.length_eq, h4]
  have l₂ : g.comps.length = 4 := by rw [ha.right.factors.length_eq, h4]
  have hr₁ := SameShape.renderable ha.left hr
  have hr₂ := SameShape.renderable ha.right hr
  obtain ⟨p, e₁, a1, -⟩ := C54_decodes cfg f H V k₁ d₁ hd₁ hh₁ l₁ hct₁ hv₁ hr₁
  obtain ⟨q, e₂, b1, -⟩ := C54_decodes cfg g H V k₂ d₂ hd₂ hh₂ l₂ hct₂ hv₂ hr₂
  obtain ⟨v, e₃, c1, c2⟩ := C54_decodes cfg b H V k₃ d₃ hd₃ hh₃ h4 hct₃ hv₃ hr
  refine ⟨p, q, v, e₁, e₂, e₃, a1, b1, c1, c2, ?_⟩
  intro y x j hy hx hj
  have hrow : (if cfg.rayon then y / V else y / V * V) < b.y := by
    have := Nat.div_le_self y V
    have := Nat.div_mul_le_self y V
    split <;> omega
  have p0 := C54_pixels_partial cfg f H V k₁ d₁ hd₁ hh₁ l₁ hct₁ hv₁ hr₁ uf.inRange p e₁ a1 y x j
    (by rw [ha.left.y]; exact hy) (by rw [ha.left.x]; exact hx) hj
  have q0 := C54_pixels_partial cfg g H V k₂ d₂ hd₂ hh₂ l₂ hct₂ hv₂ hr₂ ug.inRange q e₂ b1 y x j
    (by rw [ha.right.y]; exact hy) (by rw [ha.right.x]; exact hx) hj
  have v0 := C54_pixels_partial cfg b H V k₃ d₃ hd₃ hh₃ h4 hct₃ hv₃ hr ub.inRange v e₃ c1 y x j hy hx hj
  rw [ha.left.x] at p0
  rw [ha.right.x] at q0
  have up := upsampledSample_blended hv₁.toLaid hv₂.toLaid hv₃.toLaid hr uf ug ub ha (i := j) (by omega) hrow hx
  refine ⟨_, _, _, p0, q0, v0, ?_⟩
  have inv : ∀ v : UInt8, ((255 - v).toNat : ℚ) = 255 - v.toNat := by
    intro v
    have := v.toNat_lt
    rw [UInt8.toNat_sub_of_le _ _ (by rw [UInt8.le_iff_toNat_le]; show v.toNat ≤ 255; omega), show (255 : UInt8).toNat = 255 from rfl,
      Nat.cast_sub (by omega)]
    rfl
  have turn : ∀ (l m n : UInt8) (e : ℚ), |(n.toNat : ℚ) - (128 + s * (l.toNat - 128) + t * (m.toNat - 128))| ≤ e →
      |(255 - n.toNat : ℚ) - (127 + s * (255 - l.toNat - 127) + t * (255 - m.toNat - 127))| ≤ e := by
    intro l m n e h
    rw [← abs_neg]
    convert h using 2
    ring
  rw [inv, inv, inv]
  exact ⟨turn _ _ _ _ up.1, fun h => turn _ _ _ _ (up.2 h)⟩

theorem blend_products : ∀ i < 3, ∀ k < 8, ∀ l < 8, ∃ a b c : Int,
    (codedFile (List.replicate 64 4) fullComps 7 5 [addendMcu] []).coefficient 0 i 0 k l = some a ∧
    (codedFile (List.replicate 64 2) fullComps 7 5 [secondMcu] []).coefficient 0 i 0 k l = some b ∧
    (codedFile (List.replicate 64 1) fullComps 7 5 [sumMcu] []).coefficient 0 i 0 k l = some c ∧ 2 * c = a + b := by
  have : ∀ i < 3, ∀ k < 8, ∀ l < 8,
    (codedFile (List.replicate 64 4) fullComps 7 5 [addendMcu] []).coefficient 0 i 0 k l =
      some (dequantised (List.replicate 64 4) (addendMcu.flatten.getD i (dcBlock 0)) k l) ∧
    (codedFile (List.replicate 64 2) fullComps 7 5 [secondMcu] []).coefficient 0 i 0 k l =
      some (dequantised (List.replicate 64 2) (secondMcu.flatten.getD i (dcBlock 0)) k l) ∧
    (codedFile (List.replicate 64 1) fullComps 7 5 [sumMcu] []).coefficient 0 i 0 k l =
      some (dequantised (List.replicate 64 1) (sumMcu.flatten.getD i (dcBlock 0)) k l) ∧
    2 * dequantised (List.replicate 64 1) (sumMcu.flatten.getD i (dcBlock 0)) k l =
      dequantised (List.replicate 64 4) (addendMcu.flatten.getD i (dcBlock 0)) k l +
        dequantised (List.replicate 64 2) (secondMcu.flatten.getD i (dcBlock 0)) k l := by decide +kernel
  exact fun i hi k hk l hl => ⟨_, _, _, this i hi k hk l hl⟩

/-- A case of `C111_image`: half of one picture and half of another, 7 by 5 pixels, no subsampling. -/
example : ∃ f g b : BaselineFile, Blended (1 / 2) (1 / 2) f g b ∧ ∀ cfg, ∃ p q v : List UInt8, decode cfg f.bytes = .ok p ∧
    decode cfg g.bytes = .ok q ∧ decode cfg b.bytes = .ok v ∧ v.length = 7 * 5 * 3 ∧
    ∀ y x j, y < 5 → x < 7 → j < 3 → ∃ l m n, p[21 * y + (3 * x + j)]? = some l ∧ q[21 * y + (3 * x + j)]? = some m ∧
      v[21 * y + (3 * x + j)]? = some n ∧ BlendOf (1 / 2) (1 / 2) (9 / 4) l m n := by
  have hv : ∀ (q : List Nat) (m : Mcu), GoodTable q → Arranged fullComps 7 5 1 1 [m] → _ → _ := fun q m h1 h2 h3 =>
    codedFile_valid (q := q) (comps := fullComps) (x := 7) (y := 5) (H := 1) (V := 1) (mcus := [m]) h1 h2 h3
  obtain ⟨d₁, v₁⟩ := hv (List.replicate 64 4) addendMcu ⟨by decide, by decide⟩
    ⟨by decide, by decide, by decide, by decide, by decide, ⟨by decide, by decide⟩, ⟨by decide, by decide⟩, by decide,
      by decide, by decide, by decide, by decide⟩ (by decide)
  obtain ⟨d₂, v₂⟩ := hv (List.replicate 64 2) secondMcu ⟨by decide, by decide⟩
    ⟨by decide, by decide, by decide, by decide, by decide, ⟨by decide, by decide⟩, ⟨by decide, by decide⟩, by decide,
      by decide, by decide, by decide, by decide⟩ (by decide)
  obtain ⟨d₃, v₃⟩ := hv (List.replicate 64 1) sumMcu ⟨by decide, by decide⟩
    ⟨by decide, by decide, by decide, by decide, by decide, ⟨by decide, by decide⟩, ⟨by decide, by decide⟩, by decide,
      by decide, by decide, by decide, by decide⟩ (by decide)
  have ha : Blended (1 / 2) (1 / 2) (codedFile (List.replicate 64 4) fullComps 7 5 [addendMcu] d₁)
      (codedFile (List.replicate 64 2) fullComps 7 5 [secondMcu] d₂)
      (codedFile (List.replicate 64 1) fullComps 7 5 [sumMcu] d₃) := by
    refine ⟨⟨rfl, rfl, .cons ⟨rfl, rfl⟩ (.cons ⟨rfl, rfl⟩ (.cons ⟨rfl, rfl⟩ .nil))⟩,
      ⟨rfl, rfl, .cons ⟨rfl, rfl⟩ (.cons ⟨rfl, rfl⟩ (.cons ⟨rfl, rfl⟩ .nil))⟩, ?_⟩
    intro n i j k l a b hk hl h1 h2
    by_cases h : n = 0 ∧ i < 3 ∧ j = 0
    · obtain ⟨rfl, hi, rfl⟩ := h
      obtain ⟨a', b', c, c1, c2, c3, c4⟩ := blend_products i hi k hk l hl
      obtain rfl := Option.some.inj (h1.symm.trans c1)
      obtain rfl := Option.some.inj (h2.symm.trans c2)
      refine ⟨c, c3, ?_⟩
      have : ((2 * c : Int) : ℚ) = ((a + b : Int) : ℚ) := by rw [c4]
      push_cast at this
      linarith
    · rw [addendMcu, coefficient_one _ _ _ _ _ _ _ h] at h1
      cases h1
  refine ⟨_, _, _, ha, fun cfg => ?_⟩
  obtain ⟨p, q, v, e₁, e₂, e₃, h1, h2, h3, h4, h5⟩ := C111_image cfg _ _ _ _ _ 1 1 ha _ _ _ Decoder.default Decoder.default
    Decoder.default .new .new .new (.nothing _) (.nothing _) (.nothing _) rfl (by show (none : Option Nat) ≠ some 0; decide)
    (by show (none : Option Nat) ≠ some 0; decide) (by show (none : Option Nat) ≠ some 0; decide) v₁ v₂ v₃
    (renderable_one v₃.toLaid.ones) (codedFile_unclipped (by decide) (by decide +kernel))
    (codedFile_unclipped (by decide) (by decide +kernel)) (codedFile_unclipped (by decide) (by decide +kernel))
  refine ⟨p, q, v, by unfold decode; rw [h1], by unfold decode; rw [h2], by unfold decode; rw [h3], h4, ?_⟩
  intro y x j hy hx hj
  obtain ⟨l, m, n, w1, w2, w3, -, w4⟩ := h5 y x j hy hx hj
  exact ⟨l, m, n, w1, w2, w3, w4 v₃.toLaid.ones⟩

theorem ink_blend : ∀ i < 4, ∀ k < 8, ∀ l < 8, ∃ a b c : Int,
    (codedFile (List.replicate 64 8) inkComps 8 8 [inkMcu 1] []).coefficient 0 i 0 k l = some a ∧
    (codedFile (List.replicate 64 8) inkComps 8 8 [inkMcu (-1)] []).coefficient 0 i 0 k l = some b ∧
    (codedFile (List.replicate 64 4) inkComps 8 8 [inkMcu 1] []).coefficient 0 i 0 k l = some c ∧ 4 * c = 3 * a + b := by
  have : ∀ i < 4, ∀ k < 8, ∀ l < 8,
    (codedFile (List.replicate 64 8) inkComps 8 8 [inkMcu 1] []).coefficient 0 i 0 k l =
      some (dequantised (List.replicate 64 8) ((inkMcu 1).flatten.getD i (dcBlock 0)) k l) ∧
    (codedFile (List.replicate 64 8) inkComps 8 8 [inkMcu (-1)] []).coefficient 0 i 0 k l =
      some (dequantised (List.replicate 64 8) ((inkMcu (-1)).flatten.getD i (dcBlock 0)) k l) ∧
    (codedFile (List.replicate 64 4) inkComps 8 8 [inkMcu 1] []).coefficient 0 i 0 k l =
      some (dequantised (List.replicate 64 4) ((inkMcu 1).flatten.getD i (dcBlock 0)) k l) ∧
    4 * dequantised (List.replicate 64 4) ((inkMcu 1).flatten.getD i (dcBlock 0)) k l =
      3 * dequantised (List.replicate 64 8) ((inkMcu 1).flatten.getD i (dcBlock 0)) k l +
        dequantised (List.replicate 64 8) ((inkMcu (-1)).flatten.getD i (dcBlock 0)) k l := by decide +kernel
  exact fun i hi k hk l hl => ⟨_, _, _, this i hi k hk l hl⟩

/-- A case of `C111_cmyk`: three quarters of a picture and a quarter of its negative; within 5/4 of `(3 * a + b) / 4`. -/
example : ∃ f g b : BaselineFile, Blended (3 / 4) (1 / 4) f g b ∧ ∀ cfg, ∃ p q v : List UInt8, decode cfg f.bytes = .ok p ∧
    decode cfg g.bytes = .ok q ∧ decode cfg b.bytes = .ok v ∧ v.length = 8 * 8 * 4 ∧
    ∀ y x j, y < 8 → x < 8 → j < 4 → ∃ l m n, p[32 * y + (4 * x + j)]? = some l ∧ q[32 * y + (4 * x + j)]? = some m ∧
      v[32 * y + (4 * x + j)]? = some n ∧ |(n.toNat : ℚ) - (3 / 4 * l.toNat + 1 / 4 * m.toNat)| ≤ 5 / 4 := by
  have hv : ∀ (q : List Nat) (m : Mcu), GoodTable q → Arranged inkComps 8 8 1 1 [m] → _ → _ := fun q m h1 h2 h3 =>
    codedFile_valid (q := q) (comps := inkComps) (x := 8) (y := 8) (H := 1) (V := 1) (mcus := [m]) h1 h2 h3
  obtain ⟨d₁, v₁⟩ := hv (List.replicate 64 8) (inkMcu 1) ⟨by decide, by decide⟩
    ⟨by decide, by decide, by decide, by decide, by decide, ⟨by decide, by decide⟩, ⟨by decide, by decide⟩, by decide,
      by decide, by decide, by decide, by decide⟩ (by decide)
  obtain ⟨d₂, v₂⟩ := hv (List.replicate 64 8) (inkMcu (-1)) ⟨by decide, by decide⟩
    ⟨by decide, by decide, by decide, by decide, by decide, ⟨by decide, by decide⟩, ⟨by decide, by decide⟩, by decide,
      by decide, by decide, by decide, by decide⟩ (by decide)
  obtain ⟨d₃, v₃⟩ := hv (List.replicate 64 4) (inkMcu 1) ⟨by decide, by decide⟩
    ⟨by decide, by decide, by decide, by decide, by decide, ⟨by decide, by decide⟩, ⟨by decide, by decide⟩, by decide,
      by decide, by decide, by decide, by decide⟩ (by decide)
  have ha : Blended (3 / 4) (1 / 4) (withAdobe 0 (codedFile (List.replicate 64 8) inkComps 8 8 [inkMcu 1] d₁))
      (withAdobe 0 (codedFile (List.replicate 64 8) inkComps 8 8 [inkMcu (-1)] d₂))
      (withAdobe 0 (codedFile (List.replicate 64 4) inkComps 8 8 [inkMcu 1] d₃)) := by
    refine ⟨⟨rfl, rfl, .cons ⟨rfl, rfl⟩ (.cons ⟨rfl, rfl⟩ (.cons ⟨rfl, rfl⟩ (.cons ⟨rfl, rfl⟩ .nil)))⟩,
      ⟨rfl, rfl, .cons ⟨rfl, rfl⟩ (.cons ⟨rfl, rfl⟩ (.cons ⟨rfl, rfl⟩ (.cons ⟨rfl, rfl⟩ .nil)))⟩, ?_⟩
    intro n i j k l a b hk hl h1 h2
    rw [withAdobe_coefficient] at h1 h2 ⊢
    by_cases h : n = 0 ∧ i < 4 ∧ j = 0
    · obtain ⟨rfl, hi, rfl⟩ := h
      obtain ⟨a', b', c, c1, c2, c3, c4⟩ := ink_blend i hi k hk l hl
      obtain rfl := Option.some.inj (h1.symm.trans c1)
      obtain rfl := Option.some.inj (h2.symm.trans c2)
      refine ⟨c, c3, ?_⟩
      have : ((4 * c : Int) : ℚ) = ((3 * a + b : Int) : ℚ) := by rw [c4]
      push_cast at this
      linarith
    · rw [coefficient_ink _ _ _ _ _ h] at h1
      cases h1
  refine ⟨_, _, _, ha, fun cfg => ?_⟩
  have v₁ := withAdobe_valid (t := 0) (by decide) v₁
  have v₂ := withAdobe_valid (t := 0) (by decide) v₂
  have v₃ := withAdobe_valid (t := 0) (by decide) v₃
  obtain ⟨p, q, v, e₁, e₂, e₃, h1, h2, h3, h4, h5⟩ := C111_cmyk cfg _ _ _ _ _ 1 1 ha _ _ _ Decoder.default Decoder.default
    Decoder.default .new .new .new (.nothing _) (.nothing _) (.nothing _) rfl rfl rfl rfl v₁ v₂ v₃ (renderable_one v₃.toLaid.ones)
    (codedFile_unclipped (data := d₁) (x := 8) (y := 8) (comps := inkComps) (mcus := [inkMcu 1]) (by decide) (by decide +kernel))
    (codedFile_unclipped (data := d₂) (x := 8) (y := 8) (comps := inkComps) (mcus := [inkMcu (-1)]) (by decide) (by decide +kernel))
    (codedFile_unclipped (data := d₃) (x := 8) (y := 8) (comps := inkComps) (mcus := [inkMcu 1]) (by decide) (by decide +kernel))
  refine ⟨p, q, v, by unfold decode; rw [h1], by unfold decode; rw [h2], by unfold decode; rw [h3], h4, ?_⟩
  intro y x j hy hx hj
  obtain ⟨l, m, n, w1, w2, w3, -, w4⟩ := h5 y x j hy hx hj
  refine ⟨l, m, n, w1, w2, w3, ?_⟩
  have := w4 v₃.toLaid.ones
  rw [abs_of_pos (by norm_num : (0 : ℚ) < 3 / 4), abs_of_pos (by norm_num : (0 : ℚ) < 1 / 4)] at this
  rw [abs_le] at this ⊢
  constructor <;> linarith

end Jpeg
