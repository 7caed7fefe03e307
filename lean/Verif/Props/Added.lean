import Verif.Spec.Added
import Verif.Spec.OneComponent
import Verif.Proofs.Shape
import Verif.Props.Flip
import Verif.Props.Requantised
import Verif.Props.Lightened
import Verif.Props.Colors
import Verif.Props.Exact
/-!
# C100: pictures added, and negatives
-/

namespace Jpeg
open Spec Sample

/-- Rounding once and rounding twice. -/
theorem idctMatrix_small : ∀ x < 8, ∀ a b c d e f g h : Int, (-1 ≤ a ∧ a ≤ 1) → (-1 ≤ b ∧ b ≤ 1) → (-1 ≤ c ∧ c ≤ 1) →
    (-1 ≤ d ∧ d ≤ 1) → (-1 ≤ e ∧ e ≤ 1) → (-1 ≤ f ∧ f ≤ 1) → (-1 ≤ g ∧ g ≤ 1) → (-1 ≤ h ∧ h ≤ 1) →
    -30610 ≤ dot (idctMatrixRow x) [a, b, c, d, e, f, g, h] ∧ dot (idctMatrixRow x) [a, b, c, d, e, f, g, h] ≤ 30610 := by
  intro x hx a b c d e f g h ha hb hc hd he hf hg hh
  rcases (by omega : x = 0 ∨ x = 1 ∨ x = 2 ∨ x = 3 ∨ x = 4 ∨ x = 5 ∨ x = 6 ∨ x = 7) with
    rfl | rfl | rfl | rfl | rfl | rfl | rfl | rfl <;>
  simp [dot, idctMatrixRow, idctMatrix] <;> omega

theorem idctMatrixRow_length {x : Nat} (hx : x < 8) : (idctMatrixRow x).length = 8 := by
  rcases (by omega : x = 0 ∨ x = 1 ∨ x = 2 ∨ x = 3 ∨ x = 4 ∨ x = 5 ∨ x = 6 ∨ x = 7) with
      rfl | rfl | rfl | rfl | rfl | rfl | rfl | rfl <;> rfl

/-- **C100** (the inverse DCT). The samples of a block whose coefficients are sums are the sums of the samples (as
differences from 128), up to 1; for all integers. -/
theorem C100_idct (F G S : Nat → Nat → Int) (h : ∀ k i, k < 8 → i < 8 → S k i = F k i + G k i) (r x : Nat) (hr : r < 8)
    (hx : x < 8) : |idctSample S r x - (idctSample F r x + idctSample G r x - 128)| ≤ 1 := by
  have key : ∀ i, i < 8 → ∃ e : Int, (-1 ≤ e ∧ e ≤ 1) ∧ idctPass1 S r i = idctPass1 F r i + idctPass1 G r i + e := by
    intro i hi
    refine ⟨idctPass1 S r i - (idctPass1 F r i + idctPass1 G r i), ?_, by omega⟩
    unfold idctPass1
    rw [range8, range8, range8]
    simp only [h 0 i (by decide) hi, h 1 i (by decide) hi, h 2 i (by decide) hi, h 3 i (by decide) hi,
      h 4 i (by decide) hi, h 5 i (by decide) hi, h 6 i (by decide) hi, h 7 i (by decide) hi]
    rw [dot_add8 _ (idctMatrixRow_length hr)]
    generalize dot (idctMatrixRow r) [F 0 i, F 1 i, F 2 i, F 3 i, F 4 i, F 5 i, F 6 i, F 7 i] = a
    generalize dot (idctMatrixRow r) [G 0 i, G 1 i, G 2 i, G 3 i, G 4 i, G 5 i, G 6 i, G 7 i] = b
    omega
  obtain ⟨e0, b0, k0⟩ := key 0 (by decide)
  obtain ⟨e1, b1, k1⟩ := key 1 (by decide)
  obtain ⟨e2, b2, k2⟩ := key 2 (by decide)
  obtain ⟨e3, b3, k3⟩ := key 3 (by decide)
  obtain ⟨e4, b4, k4⟩ := key 4 (by decide)
  obtain ⟨e5, b5, k5⟩ := key 5 (by decide)
  obtain ⟨e6, b6, k6⟩ := key 6 (by decide)
  obtain ⟨e7, b7, k7⟩ := key 7 (by decide)
  have hb := idctMatrix_small x hx e0 e1 e2 e3 e4 e5 e6 e7 b0 b1 b2 b3 b4 b5 b6 b7
  have hl := idctMatrixRow_length hx
  unfold idctSample
  rw [range8, range8, range8, k0, k1, k2, k3, k4, k5, k6, k7, dot_add8 _ hl, dot_add8 _ hl]
  generalize dot (idctMatrixRow x) [e0, e1, e2, e3, e4, e5, e6, e7] = E at hb
  generalize dot (idctMatrixRow x) [idctPass1 F r 0, idctPass1 F r 1, idctPass1 F r 2, idctPass1 F r 3, idctPass1 F r 4,
    idctPass1 F r 5, idctPass1 F r 6, idctPass1 F r 7] = A
  generalize dot (idctMatrixRow x) [idctPass1 G r 0, idctPass1 G r 1, idctPass1 G r 2, idctPass1 G r 3, idctPass1 G r 4,
    idctPass1 G r 5, idctPass1 G r 6, idctPass1 G r 7] = B
  rw [abs_le]
  omega

/-- A case of C100: two blocks and their sum; here one sample is 1 off. -/
example : let F : Nat → Nat → Int := fun k i => if (k, i) = (0, 1) then 5 else 0
    let G : Nat → Nat → Int := fun k i => if (k, i) = (1, 0) then 6 else 0
    let S : Nat → Nat → Int := fun k i => F k i + G k i
    idctSample S 0 0 = 130 ∧ idctSample F 0 0 = 129 ∧ idctSample G 0 0 = 129 ∧
      ∃ r < 8, ∃ x < 8, idctSample S r x ≠ idctSample F r x + idctSample G r x - 128 := by
  decide +kernel

theorem idctSample_zero : ∀ r < 8, ∀ x < 8, idctSample (fun _ _ => 0) r x = 128 := by decide +kernel

/-- **C100** (the inverse DCT, negatives). With all signs changed, samples above 128 come out as far below, up to 1. -/
theorem C100_idct_negative (F G : Nat → Nat → Int) (h : ∀ k i, k < 8 → i < 8 → G k i = -F k i) (r x : Nat) (hr : r < 8)
    (hx : x < 8) : |idctSample F r x + idctSample G r x - 256| ≤ 1 := by
  have := C100_idct F G (fun _ _ => 0) (fun k i hk hi => by rw [h k i hk hi]; omega) r x hr hx
  rw [idctSample_zero r hr x hx] at this
  rw [abs_le] at this ⊢
  omega

section

variable {f g s : BaselineFile} {H V : Nat}

theorem Spec.BaselineFile.Unclipped.inRange (h : f.Unclipped) : f.InRange := by
  intro i c q hc hq m hm bs hbs b hb
  obtain ⟨h1, h2⟩ := h i c q hc hq m hm bs hbs b hb
  exact ⟨h1, fun k j hk hj => by have := h2 k j hk hj; omega⟩

/-- A sample of the component, its coefficients, and its value. -/
theorem sample_coefficients {r : Nat} {codes : List (Code × Code)} (hv : f.Laid r H V codes) (hu : f.Unclipped) {i : Nat}
    {c : FileComponent} (hc : f.comps[i]? = some c) {Y X : Nat} (hY : Y < 8 * (ceilDiv f.y (8 * V) * c.v))
    (hX : X < 8 * (ceilDiv f.x (8 * H) * c.h)) : ∃ F : Nat → Nat → Int,
    (∀ k l, f.coefficient (Y / 8 / c.v * ceilDiv f.x (8 * H) + X / 8 / c.h) i (Y / 8 % c.v * c.h + X / 8 % c.h) k l =
      some (F k l)) ∧ ((f.sample H i Y X).toNat : Int) = idctSample F (Y % 8) (X % 8) := by
  obtain ⟨q, hq⟩ := hv.quant c (List.mem_of_getElem? hc)
  obtain ⟨m, hm, bs, hbs, b, hb, e⟩ := blockAt_some hv hc hY hX
  have h := (hu i c q hc hq m hm bs hbs b hb).2 (Y % 8) (X % 8) (Nat.mod_lt _ (by decide)) (Nat.mod_lt _ (by decide))
  refine ⟨dequantised q b, fun k l => ?_, ?_⟩
  · rw [coefficient_eq, hc, Option.bind_some, hq, Option.bind_some]
    unfold BaselineFile.blockAt at e
    rw [e]
    rfl
  · unfold BaselineFile.sample
    rw [hc]
    simp only [e, hq]
    rw [saturate_toNat]
    omega

theorem shape_comp (h : SameShape f s) {i : Nat} {c : FileComponent} (hc : s.comps[i]? = some c) :
    ∃ c', f.comps[i]? = some c' ∧ c'.h = c.h ∧ c'.v = c.v := by
  rcases forall₂_get h.factors i with ⟨h1, h2⟩ | ⟨c', c'', h1, h2, hh, hv⟩
  · rw [hc] at h2; cases h2
  · obtain rfl := Option.some.inj (hc.symm.trans h2)
    exact ⟨c', h1, hh, hv⟩

theorem sample_added {r₁ r₂ r₃ : Nat} {k₁ k₂ k₃ : List (Code × Code)} (hf : f.Laid r₁ H V k₁) (hg : g.Laid r₂ H V k₂)
    (hs : s.Laid r₃ H V k₃) (uf : f.Unclipped) (ug : g.Unclipped) (us : s.Unclipped) (ha : Added f g s) {i : Nat}
    {c : FileComponent} (hc : s.comps[i]? = some c) {Y X : Nat} (hY : Y < 8 * (ceilDiv s.y (8 * V) * c.v))
    (hX : X < 8 * (ceilDiv s.x (8 * H) * c.h)) :
    (f.sample H i Y X).toNat + (g.sample H i Y X).toNat ≤ (s.sample H i Y X).toNat + 129 ∧
      (s.sample H i Y X).toNat + 127 ≤ (f.sample H i Y X).toNat + (g.sample H i Y X).toNat := by
  obtain ⟨c₁, hc₁, hh₁, hv₁⟩ := shape_comp ha.left hc
  obtain ⟨c₂, hc₂, hh₂, hv₂⟩ := shape_comp ha.right hc
  obtain ⟨F, a1, a2⟩ := sample_coefficients hf uf hc₁ (Y := Y) (X := X) (by rw [ha.left.y, hv₁]; exact hY)
    (by rw [ha.left.x, hh₁]; exact hX)
  obtain ⟨G, b1, b2⟩ := sample_coefficients hg ug hc₂ (Y := Y) (X := X) (by rw [ha.right.y, hv₂]; exact hY)
    (by rw [ha.right.x, hh₂]; exact hX)
  obtain ⟨S, c1, c2⟩ := sample_coefficients hs us hc hY hX
  rw [ha.left.x, hh₁, hv₁] at a1
  rw [ha.right.x, hh₂, hv₂] at b1
  have := C100_idct F G S (fun k l hk hl => Option.some.inj ((c1 k l).symm.trans (ha.sums _ _ _ _ _ _ _ hk hl (a1 k l) (b1 k l))))
    (Y % 8) (X % 8) (Nat.mod_lt _ (by decide)) (Nat.mod_lt _ (by decide))
  rw [abs_le] at this
  omega

theorem sample_negated {r₁ r₂ : Nat} {k₁ k₂ : List (Code × Code)} (hf : f.Laid r₁ H V k₁) (hg : g.Laid r₂ H V k₂)
    (uf : f.Unclipped) (ug : g.Unclipped) (ha : Negated f g) {i : Nat}
    {c : FileComponent} (hc : g.comps[i]? = some c) {Y X : Nat} (hY : Y < 8 * (ceilDiv g.y (8 * V) * c.v))
    (hX : X < 8 * (ceilDiv g.x (8 * H) * c.h)) :
    (f.sample H i Y X).toNat + (g.sample H i Y X).toNat ≤ 128 + 129 ∧
      128 + 127 ≤ (f.sample H i Y X).toNat + (g.sample H i Y X).toNat := by
  obtain ⟨c₁, hc₁, hh₁, hv₁⟩ := shape_comp ha.shape hc
  obtain ⟨F, a1, a2⟩ := sample_coefficients hf uf hc₁ (Y := Y) (X := X) (by rw [ha.shape.y, hv₁]; exact hY)
    (by rw [ha.shape.x, hh₁]; exact hX)
  obtain ⟨G, b1, b2⟩ := sample_coefficients hg ug hc hY hX
  rw [ha.shape.x, hh₁, hv₁] at a1
  have := C100_idct_negative F G (fun k l hk hl => Option.some.inj ((b1 k l).symm.trans (ha.signs _ _ _ _ _ _ hk hl (a1 k l))))
    (Y % 8) (X % 8) (Nat.mod_lt _ (by decide)) (Nat.mod_lt _ (by decide))
  rw [abs_le] at this
  omega

theorem upsampledSample_byte (i row x : Nat) :
    (UInt8.ofNat (f.upsampledSample H V i row x)).toNat = f.upsampledSample H V i row x := by
  have := upsampledSample_le (f := f) (H := H) (V := V) i row x
  exact UInt8.toNat_ofNat_of_lt' (show _ < 256 by omega)

theorem upsampledSample_added {r₁ r₂ r₃ : Nat} {k₁ k₂ k₃ : List (Code × Code)} (hf : f.Laid r₁ H V k₁) (hg : g.Laid r₂ H V k₂)
    (hs : s.Laid r₃ H V k₃) (hr : s.Renderable H V) (uf : f.Unclipped) (ug : g.Unclipped) (us : s.Unclipped)
    (ha : Added f g s) {i row x : Nat} (hi : i < s.comps.length) (hrow : row < s.y) (hx : x < s.x) :
    let p := (UInt8.ofNat (f.upsampledSample H V i row x)).toNat
    let q := (UInt8.ofNat (g.upsampledSample H V i row x)).toNat
    let t := (UInt8.ofNat (s.upsampledSample H V i row x)).toNat
    (p + q ≤ t + 130 ∧ t + 126 ≤ p + q) ∧
      ((∀ c ∈ s.comps, c.h = H ∧ c.v = V) → p + q ≤ t + 129 ∧ t + 127 ≤ p + q) := by
  have hc := List.getElem?_eq_getElem hi
  generalize s.comps[i] = c at hc
  have hcm := List.mem_of_getElem? hc
  obtain ⟨c₁, hc₁, hh₁, hv₁⟩ := shape_comp ha.left hc
  obtain ⟨c₂, hc₂, hh₂, hv₂⟩ := shape_comp ha.right hc
  have gm := fileComponent_geometry hs hcm
  obtain ⟨f1, f2, f3, f4⟩ := hs.factors c hcm
  have hH := hs.hmax.1 c hcm
  have hV := hs.vmax.1 c hcm
  simp only at hH hV
  obtain ⟨m1, m2, -⟩ := hr c hcm
  obtain ⟨a, ha'⟩ := Nat.dvd_of_mod_eq_zero m1
  obtain ⟨b, hb'⟩ := Nat.dvd_of_mod_eq_zero m2
  have ha0 : a ≠ 0 := by rintro rfl; omega
  have hb0 : b ≠ 0 := by rintro rfl; omega
  obtain ⟨u, hu⟩ := (C30_integer_ratio c.h c.v a b s.x s.y f1 f3 (by omega) (by omega)).1
  rw [← ha', ← hb'] at hu
  have F := Facts.of gm hH hV hs.x.1 (by omega)
  have key := upsampled_added gm hH hV hs.x.1 hrow hu hx (fun r k => (f.sample H i r k).toNat)
    (fun r k => (g.sample H i r k).toNat) (fun r k => (s.sample H i r k).toNat) (fun r k h1 h2 => by
      have e1 := F.w_le
      have e2 := F.h_le
      have e3 : (fileComponent s H V c).lineStride = 8 * (ceilDiv s.x (8 * H) * c.h) := gm.lineStride
      have e4 : (fileComponent s H V c).blockSize.height = ceilDiv s.y (8 * V) * c.v := by rw [gm.blocks]; rfl
      exact sample_added hf hg hs uf ug us ha hc (by omega) (by omega))
  simp only [upsampledSample_byte]
  unfold BaselineFile.upsampledSample
  simp only [hc, hc₁, hc₂, ha.left.x, ha.left.y, ha.right.x, ha.right.y, hh₁, hv₁, hh₂, hv₂]
  exact ⟨key.1, fun h => key.2 (h c hcm)⟩

theorem upsampledSample_negated {r₁ r₂ : Nat} {k₁ k₂ : List (Code × Code)} (hf : f.Laid r₁ H V k₁) (hg : g.Laid r₂ H V k₂)
    (hr : g.Renderable H V) (uf : f.Unclipped) (ug : g.Unclipped)
    (ha : Negated f g) {i row x : Nat} (hi : i < g.comps.length) (hrow : row < g.y) (hx : x < g.x) :
    let p := (UInt8.ofNat (f.upsampledSample H V i row x)).toNat
    let q := (UInt8.ofNat (g.upsampledSample H V i row x)).toNat
    (p + q ≤ 128 + 130 ∧ 128 + 126 ≤ p + q) ∧
      ((∀ c ∈ g.comps, c.h = H ∧ c.v = V) → p + q ≤ 128 + 129 ∧ 128 + 127 ≤ p + q) := by
  have hc := List.getElem?_eq_getElem hi
  generalize g.comps[i] = c at hc
  have hcm := List.mem_of_getElem? hc
  obtain ⟨c₁, hc₁, hh₁, hv₁⟩ := shape_comp ha.shape hc
  have gm := fileComponent_geometry hg hcm
  obtain ⟨f1, f2, f3, f4⟩ := hg.factors c hcm
  have hH := hg.hmax.1 c hcm
  have hV := hg.vmax.1 c hcm
  simp only at hH hV
  obtain ⟨m1, m2, -⟩ := hr c hcm
  obtain ⟨a, ha'⟩ := Nat.dvd_of_mod_eq_zero m1
  obtain ⟨b, hb'⟩ := Nat.dvd_of_mod_eq_zero m2
  have ha0 : a ≠ 0 := by rintro rfl; omega
  have hb0 : b ≠ 0 := by rintro rfl; omega
  obtain ⟨u, hu⟩ := (C30_integer_ratio c.h c.v a b g.x g.y f1 f3 (by omega) (by omega)).1
  rw [← ha', ← hb'] at hu
  have F := Facts.of gm hH hV hg.x.1 (by omega)
  have key := upsampled_added gm hH hV hg.x.1 hrow hu hx (fun r k => (f.sample H i r k).toNat)
    (fun r k => (g.sample H i r k).toNat) (fun _ _ => 128) (fun r k h1 h2 => by
      have e1 := F.w_le
      have e2 := F.h_le
      have e3 : (fileComponent g H V c).lineStride = 8 * (ceilDiv g.x (8 * H) * c.h) := gm.lineStride
      have e4 : (fileComponent g H V c).blockSize.height = ceilDiv g.y (8 * V) * c.v := by rw [gm.blocks]; rfl
      exact sample_negated hf hg uf ug ha hc (by omega) (by omega))
  simp only [upsampled_const] at key
  simp only [upsampledSample_byte]
  unfold BaselineFile.upsampledSample
  simp only [hc, hc₁, ha.shape.x, ha.shape.y, hh₁, hv₁]
  exact ⟨key.1, fun h => key.2 (h c hcm)⟩

end

/-- Colours of sums, up to `e` in each component. -/
theorem color_added {y₁ b₁ r₁ y₂ b₂ r₂ y b r : UInt8} {e : Nat}
    (hy : y₁.toNat + y₂.toNat ≤ y.toNat + 128 + e ∧ y.toNat + 128 ≤ y₁.toNat + y₂.toNat + e)
    (hb : b₁.toNat + b₂.toNat ≤ b.toNat + 128 + e ∧ b.toNat + 128 ≤ b₁.toNat + b₂.toNat + e)
    (hr : r₁.toNat + r₂.toNat ≤ r.toNat + 128 + e ∧ r.toNat + 128 ≤ r₁.toNat + r₂.toNat + e) {B : Int}
    (hB : e = 1 ∧ B = 4 ∨ e = 2 ∧ B = 7) :
    SumOf B (saturate (redSum y₁ b₁ r₁)) (saturate (redSum y₂ b₂ r₂)) (saturate (redSum y b r)) ∧
    SumOf B (saturate (greenSum y₁ b₁ r₁)) (saturate (greenSum y₂ b₂ r₂)) (saturate (greenSum y b r)) ∧
    SumOf B (saturate (blueSum y₁ b₁ r₁)) (saturate (blueSum y₂ b₂ r₂)) (saturate (blueSum y b r)) := by
  have key : ∀ u v w : Int, u + v - 128 ≤ w + B → w ≤ u + v - 128 + B → SumOf B (saturate u) (saturate v) (saturate w) := by
    intro u v w h1 h2
    unfold SumOf
    have := saturate_toNat u
    have := saturate_toNat v
    have := saturate_toNat w
    intro _ _ _ _
    omega
  refine ⟨key _ _ _ ?_ ?_, key _ _ _ ?_ ?_, key _ _ _ ?_ ?_⟩ <;> simp only [redSum, greenSum, blueSum] <;>
    rcases hB with ⟨rfl, rfl⟩ | ⟨rfl, rfl⟩ <;> omega

section

variable {f g s : BaselineFile} {H V : Nat}

theorem SameShape.renderable (h : SameShape f s) (hr : s.Renderable H V) : f.Renderable H V := by
  intro c hc
  obtain ⟨i, hi⟩ := List.mem_iff_getElem?.1 hc
  rcases forall₂_get h.factors i with ⟨h1, -⟩ | ⟨c', c'', h1, h2, hh, hv⟩
  · rw [hi] at h1; cases h1
  · obtain rfl := Option.some.inj (hi.symm.trans h1)
    have := hr c'' (List.mem_of_getElem? h2)
    rw [hh, hv, h.x, h.y]
    exact this

end

/-- **C100** (three components). A picture whose coefficients are the sums of those of two pictures is the sum of the
two pictures: every channel of every pixel is `a + b - 128`, limited to 0..255, up to 7, if `a` and `b` have not been
limited; up to 4 without subsampling. The files may be written in any way, with any tables, and decoded by any decoders. -/
theorem C100_image (cfg : Cfg) (f g s : BaselineFile) (H V : Nat) (ha : Added f g s) (k₁ k₂ k₃ : List (Code × Code))
    (d₁ d₂ d₃ : Decoder) (hd₁ : UsedDecoder d₁) (hd₂ : UsedDecoder d₂) (hd₃ : UsedDecoder d₃)
    (hh₁ : Holds cfg d₁ f.earlier) (hh₂ : Holds cfg d₂ g.earlier) (hh₃ : Holds cfg d₃ s.earlier) (h3 : s.comps.length = 3)
    (hct₁ : f.transform d₁.transform ≠ some 0) (hct₂ : g.transform d₂.transform ≠ some 0)
    (hct₃ : s.transform d₃.transform ≠ some 0) (hv₁ : f.Valid (f.interval d₁.restartInterval) H V k₁)
    (hv₂ : g.Valid (g.interval d₂.restartInterval) H V k₂) (hv₃ : s.Valid (s.interval d₃.restartInterval) H V k₃)
    (hr : s.Renderable H V) (uf : f.Unclipped) (ug : g.Unclipped) (us : s.Unclipped) :
    ∃ p q t e₁ e₂ e₃, d₁.decode cfg f.bytes = .ok p e₁ ∧ d₂.decode cfg g.bytes = .ok q e₂ ∧ d₃.decode cfg s.bytes = .ok t e₃ ∧
      t.length = s.x * s.y * 3 ∧ ∀ y x j, y < s.y → x < s.x → j < 3 → ∃ a b v,
        p[3 * s.x * y + (3 * x + j)]? = some a ∧ q[3 * s.x * y + (3 * x + j)]? = some b ∧
        t[3 * s.x * y + (3 * x + j)]? = some v ∧ SumOf 7 a b v ∧
        ((∀ c ∈ s.comps, c.h = H ∧ c.v = V) → SumOf 4 a b v) := by
  have l₁ : f.comps.length = 3 := by rw [ha.left.factors.length_eq, h3]
  have l₂ : g.comps.length = 3 := by rw [ha.right.factors.length_eq, h3]
  have hr₁ := SameShape.renderable ha.left hr
  have hr₂ := SameShape.renderable ha.right hr
  obtain ⟨p, e₁, a1, -⟩ := C45_decodes cfg f H V k₁ d₁ hd₁ hh₁ l₁ hct₁ hv₁ hr₁
  obtain ⟨q, e₂, b1, -⟩ := C45_decodes cfg g H V k₂ d₂ hd₂ hh₂ l₂ hct₂ hv₂ hr₂
  obtain ⟨t, e₃, c1, c2⟩ := C45_decodes cfg s H V k₃ d₃ hd₃ hh₃ h3 hct₃ hv₃ hr
  refine ⟨p, q, t, e₁, e₂, e₃, a1, b1, c1, c2, ?_⟩
  intro y x j hy hx hj
  have hrow : (if cfg.rayon then y / V else y / V * V) < s.y := by
    have := Nat.div_le_self y V
    have := Nat.div_mul_le_self y V
    split <;> omega
  obtain ⟨r₁, g₁, b₁, w₁, p0, p1, p2⟩ := C45_pixels_partial cfg f H V k₁ d₁ hd₁ hh₁ l₁ hct₁ hv₁ hr₁ uf.inRange p e₁ a1 y x
    (by rw [ha.left.y]; exact hy) (by rw [ha.left.x]; exact hx)
  obtain ⟨r₂, g₂, b₂, w₂, q0, q1, q2⟩ := C45_pixels_partial cfg g H V k₂ d₂ hd₂ hh₂ l₂ hct₂ hv₂ hr₂ ug.inRange q e₂ b1 y x
    (by rw [ha.right.y]; exact hy) (by rw [ha.right.x]; exact hx)
  obtain ⟨r₃, g₃, b₃, w₃, t0, t1, t2⟩ := C45_pixels_partial cfg s H V k₃ d₃ hd₃ hh₃ h3 hct₃ hv₃ hr us.inRange t e₃ c1 y x hy hx
  rw [ha.left.x] at p0 p1 p2
  rw [ha.right.x] at q0 q1 q2
  have up : ∀ i, i < 3 → _ := fun i hi =>
    upsampledSample_added hv₁.toLaid hv₂.toLaid hv₃.toLaid hr uf ug us ha (i := i) (by omega) hrow hx
  rw [ycbcrToRgb_eq] at w₁ w₂ w₃
  simp only [Except.ok.injEq, Prod.mk.injEq] at w₁ w₂ w₃
  obtain ⟨rfl, rfl, rfl⟩ := w₁
  obtain ⟨rfl, rfl, rfl⟩ := w₂
  obtain ⟨rfl, rfl, rfl⟩ := w₃
  have u0 := up 0 (by decide)
  have u1 := up 1 (by decide)
  have u2 := up 2 (by decide)
  have c2 : ∀ {a b c : UInt8}, (a.toNat + b.toNat ≤ c.toNat + 130 ∧ c.toNat + 126 ≤ a.toNat + b.toNat) →
      a.toNat + b.toNat ≤ c.toNat + 128 + 2 ∧ c.toNat + 128 ≤ a.toNat + b.toNat + 2 := by omega
  have c1 : ∀ {a b c : UInt8}, (a.toNat + b.toNat ≤ c.toNat + 129 ∧ c.toNat + 127 ≤ a.toNat + b.toNat) →
      a.toNat + b.toNat ≤ c.toNat + 128 + 1 ∧ c.toNat + 128 ≤ a.toNat + b.toNat + 1 := by omega
  have wide := color_added (c2 u0.1) (c2 u1.1) (c2 u2.1) (B := 7) (.inr ⟨rfl, rfl⟩)
  have full := fun h => color_added (c1 (u0.2 h)) (c1 (u1.2 h)) (c1 (u2.2 h)) (B := 4) (.inl ⟨rfl, rfl⟩)
  rcases (by omega : j = 0 ∨ j = 1 ∨ j = 2) with rfl | rfl | rfl
  · exact ⟨_, _, _, p0, q0, t0, wide.1, fun h => (full h).1⟩
  · exact ⟨_, _, _, p1, q1, t1, wide.2.1, fun h => (full h).2.1⟩
  · exact ⟨_, _, _, p2, q2, t2, wide.2.2, fun h => (full h).2.2⟩

/-- **C100** (negatives of three components). With the signs of all coefficients changed, every channel of every pixel
is 256 minus what it was, up to 7, if neither has been limited; up to 4 without subsampling. -/
theorem C100_negative (cfg : Cfg) (f g : BaselineFile) (H V : Nat) (ha : Negated f g) (k₁ k₂ : List (Code × Code))
    (d₁ d₂ : Decoder) (hd₁ : UsedDecoder d₁) (hd₂ : UsedDecoder d₂)
    (hh₁ : Holds cfg d₁ f.earlier) (hh₂ : Holds cfg d₂ g.earlier) (h3 : g.comps.length = 3)
    (hct₁ : f.transform d₁.transform ≠ some 0) (hct₂ : g.transform d₂.transform ≠ some 0)
    (hv₁ : f.Valid (f.interval d₁.restartInterval) H V k₁)
    (hv₂ : g.Valid (g.interval d₂.restartInterval) H V k₂)
    (hr : g.Renderable H V) (uf : f.Unclipped) (ug : g.Unclipped) :
    ∃ p q e₁ e₂, d₁.decode cfg f.bytes = .ok p e₁ ∧ d₂.decode cfg g.bytes = .ok q e₂ ∧
      q.length = g.x * g.y * 3 ∧ ∀ y x j, y < g.y → x < g.x → j < 3 → ∃ a b,
        p[3 * g.x * y + (3 * x + j)]? = some a ∧ q[3 * g.x * y + (3 * x + j)]? = some b ∧ NegativeOf 7 a b ∧
        ((∀ c ∈ g.comps, c.h = H ∧ c.v = V) → NegativeOf 4 a b) := by
  have l₁ : f.comps.length = 3 := by rw [ha.shape.factors.length_eq, h3]
  have hr₁ := SameShape.renderable ha.shape hr
  obtain ⟨p, e₁, a1, -⟩ := C45_decodes cfg f H V k₁ d₁ hd₁ hh₁ l₁ hct₁ hv₁ hr₁
  obtain ⟨q, e₂, b1, b2⟩ := C45_decodes cfg g H V k₂ d₂ hd₂ hh₂ h3 hct₂ hv₂ hr
  refine ⟨p, q, e₁, e₂, a1, b1, b2, ?_⟩
  intro y x j hy hx hj
  have hrow : (if cfg.rayon then y / V else y / V * V) < g.y := by
    have := Nat.div_le_self y V
    have := Nat.div_mul_le_self y V
    split <;> omega
  obtain ⟨r₁, g₁, b₁, w₁, p0, p1, p2⟩ := C45_pixels_partial cfg f H V k₁ d₁ hd₁ hh₁ l₁ hct₁ hv₁ hr₁ uf.inRange p e₁ a1 y x
    (by rw [ha.shape.y]; exact hy) (by rw [ha.shape.x]; exact hx)
  obtain ⟨r₂, g₂, b₂, w₂, q0, q1, q2⟩ := C45_pixels_partial cfg g H V k₂ d₂ hd₂ hh₂ h3 hct₂ hv₂ hr ug.inRange q e₂ b1 y x hy hx
  rw [ha.shape.x] at p0 p1 p2
  have up : ∀ i, i < 3 → _ := fun i hi =>
    upsampledSample_negated hv₁.toLaid hv₂.toLaid hr uf ug ha (i := i) (by omega) hrow hx
  rw [ycbcrToRgb_eq] at w₁ w₂
  simp only [Except.ok.injEq, Prod.mk.injEq] at w₁ w₂
  obtain ⟨rfl, rfl, rfl⟩ := w₁
  obtain ⟨rfl, rfl, rfl⟩ := w₂
  have u0 := up 0 (by decide)
  have u1 := up 1 (by decide)
  have u2 := up 2 (by decide)
  have h128 : (128 : UInt8).toNat = 128 := rfl
  have c2 : ∀ {a b : UInt8}, (a.toNat + b.toNat ≤ 128 + 130 ∧ 128 + 126 ≤ a.toNat + b.toNat) →
      a.toNat + b.toNat ≤ (128 : UInt8).toNat + 128 + 2 ∧ (128 : UInt8).toNat + 128 ≤ a.toNat + b.toNat + 2 := by
    rw [h128]; omega
  have c1 : ∀ {a b : UInt8}, (a.toNat + b.toNat ≤ 128 + 129 ∧ 128 + 127 ≤ a.toNat + b.toNat) →
      a.toNat + b.toNat ≤ (128 : UInt8).toNat + 128 + 1 ∧ (128 : UInt8).toNat + 128 ≤ a.toNat + b.toNat + 1 := by
    rw [h128]; omega
  have wide := color_added (c2 u0.1) (c2 u1.1) (c2 u2.1) (B := 7) (.inr ⟨rfl, rfl⟩)
  have full := fun h => color_added (c1 (u0.2 h)) (c1 (u1.2 h)) (c1 (u2.2 h)) (B := 4) (.inl ⟨rfl, rfl⟩)
  have z : saturate (redSum 128 128 128) = 128 ∧ saturate (greenSum 128 128 128) = 128 ∧
      saturate (blueSum 128 128 128) = 128 := by decide
  rw [z.1, z.2.1, z.2.2] at wide full
  have neg : ∀ {B : Int} {a b : UInt8}, B < 100 → SumOf B a b 128 → NegativeOf B a b := by
    intro B a b hB h h1 h2 h3 h4
    have := h h1 h2 h3 h4
    rw [h128] at this
    omega
  rcases (by omega : j = 0 ∨ j = 1 ∨ j = 2) with rfl | rfl | rfl
  · exact ⟨_, _, p0, q0, neg (by decide) wide.1, fun h => neg (by decide) (full h).1⟩
  · exact ⟨_, _, p1, q1, neg (by decide) wide.2.1, fun h => neg (by decide) (full h).2.1⟩
  · exact ⟨_, _, p2, q2, neg (by decide) wide.2.2, fun h => neg (by decide) (full h).2.2⟩

/-- **C100** (CMYK). The bytes are 255 minus the samples: each is `a + b - 127` up to 2; up to 1 without subsampling. -/
theorem C100_cmyk (cfg : Cfg) (f g s : BaselineFile) (H V : Nat) (ha : Added f g s) (k₁ k₂ k₃ : List (Code × Code))
    (d₁ d₂ d₃ : Decoder) (hd₁ : UsedDecoder d₁) (hd₂ : UsedDecoder d₂) (hd₃ : UsedDecoder d₃)
    (hh₁ : Holds cfg d₁ f.earlier) (hh₂ : Holds cfg d₂ g.earlier) (hh₃ : Holds cfg d₃ s.earlier) (h4 : s.comps.length = 4)
    (hct₁ : f.transform d₁.transform = some 0) (hct₂ : g.transform d₂.transform = some 0)
    (hct₃ : s.transform d₃.transform = some 0) (hv₁ : f.Valid (f.interval d₁.restartInterval) H V k₁)
    (hv₂ : g.Valid (g.interval d₂.restartInterval) H V k₂) (hv₃ : s.Valid (s.interval d₃.restartInterval) H V k₃)
    (hr : s.Renderable H V) (uf : f.Unclipped) (ug : g.Unclipped) (us : s.Unclipped) :
    ∃ p q t e₁ e₂ e₃, d₁.decode cfg f.bytes = .ok p e₁ ∧ d₂.decode cfg g.bytes = .ok q e₂ ∧ d₃.decode cfg s.bytes = .ok t e₃ ∧
      t.length = s.x * s.y * 4 ∧ ∀ y x j, y < s.y → x < s.x → j < 4 → ∃ a b v,
        p[4 * s.x * y + (4 * x + j)]? = some a ∧ q[4 * s.x * y + (4 * x + j)]? = some b ∧
        t[4 * s.x * y + (4 * x + j)]? = some v ∧ |(v.toNat : Int) - (a.toNat + b.toNat - 127)| ≤ 2 ∧
        ((∀ c ∈ s.comps, c.h = H ∧ c.v = V) → |(v.toNat : Int) - (a.toNat + b.toNat - 127)| ≤ 1) := by
  have l₁ : f.comps.length = 4 := by rw [ha.left.factors.length_eq, h4]
  have l₂ : g.comps.length = 4 := by rw [ha.right.factors.length_eq, h4]
  have hr₁ := SameShape.renderable ha.left hr
  have hr₂ := SameShape.renderable ha.right hr
  obtain ⟨p, e₁, a1, -⟩ := C54_decodes cfg f H V k₁ d₁ hd₁ hh₁ l₁ hct₁ hv₁ hr₁
  obtain ⟨q, e₂, b1, -⟩ := C54_decodes cfg g H V k₂ d₂ hd₂ hh₂ l₂ hct₂ hv₂ hr₂
  obtain ⟨t, e₃, c1, c2⟩ := C54_decodes cfg s H V k₃ d₃ hd₃ hh₃ h4 hct₃ hv₃ hr
  refine ⟨p, q, t, e₁, e₂, e₃, a1, b1, c1, c2, ?_⟩
  intro y x j hy hx hj
  have hrow : (if cfg.rayon then y / V else y / V * V) < s.y := by
    have := Nat.div_le_self y V
    have := Nat.div_mul_le_self y V
    split <;> omega
  have p0 := C54_pixels_partial cfg f H V k₁ d₁ hd₁ hh₁ l₁ hct₁ hv₁ hr₁ uf.inRange p e₁ a1 y x j
    (by rw [ha.left.y]; exact hy) (by rw [ha.left.x]; exact hx) hj
  have q0 := C54_pixels_partial cfg g H V k₂ d₂ hd₂ hh₂ l₂ hct₂ hv₂ hr₂ ug.inRange q e₂ b1 y x j
    (by rw [ha.right.y]; exact hy) (by rw [ha.right.x]; exact hx) hj
  have t0 := C54_pixels_partial cfg s H V k₃ d₃ hd₃ hh₃ h4 hct₃ hv₃ hr us.inRange t e₃ c1 y x j hy hx hj
  rw [ha.left.x] at p0
  rw [ha.right.x] at q0
  have up := upsampledSample_added hv₁.toLaid hv₂.toLaid hv₃.toLaid hr uf ug us ha (i := j) (by omega) hrow hx
  refine ⟨_, _, _, p0, q0, t0, ?_⟩
  have inv : ∀ v : UInt8, ((255 - v).toNat : Int) = 255 - v.toNat := by
    intro v
    have := v.toNat_lt
    rw [UInt8.toNat_sub_of_le _ _ (by rw [UInt8.le_iff_toNat_le]; show v.toNat ≤ 255; omega), show (255 : UInt8).toNat = 255 from rfl]
    omega
  rw [inv, inv, inv]
  refine ⟨?_, fun h => ?_⟩
  · have := up.1
    rw [abs_le]
    omega
  · have := up.2 h
    rw [abs_le]
    omega

/-- **C100** (negatives of CMYK pictures): 254 minus what it was, up to 2; up to 1 without subsampling. -/
theorem C100_cmyk_negative (cfg : Cfg) (f g : BaselineFile) (H V : Nat) (ha : Negated f g) (k₁ k₂ : List (Code × Code))
    (d₁ d₂ : Decoder) (hd₁ : UsedDecoder d₁) (hd₂ : UsedDecoder d₂)
    (hh₁ : Holds cfg d₁ f.earlier) (hh₂ : Holds cfg d₂ g.earlier) (h4 : g.comps.length = 4)
    (hct₁ : f.transform d₁.transform = some 0) (hct₂ : g.transform d₂.transform = some 0)
    (hv₁ : f.Valid (f.interval d₁.restartInterval) H V k₁)
    (hv₂ : g.Valid (g.interval d₂.restartInterval) H V k₂)
    (hr : g.Renderable H V) (uf : f.Unclipped) (ug : g.Unclipped) :
    ∃ p q e₁ e₂, d₁.decode cfg f.bytes = .ok p e₁ ∧ d₂.decode cfg g.bytes = .ok q e₂ ∧
      q.length = g.x * g.y * 4 ∧ ∀ y x j, y < g.y → x < g.x → j < 4 → ∃ a b,
        p[4 * g.x * y + (4 * x + j)]? = some a ∧ q[4 * g.x * y + (4 * x + j)]? = some b ∧
        |(a.toNat : Int) + b.toNat - 254| ≤ 2 ∧
        ((∀ c ∈ g.comps, c.h = H ∧ c.v = V) → |(a.toNat : Int) + b.toNat - 254| ≤ 1) := by
  have l₁ : f.comps.length = 4 := by rw [ha.shape.factors.length_eq, h4]
  have hr₁ := SameShape.renderable ha.shape hr
  obtain ⟨p, e₁, a1, -⟩ := C54_decodes cfg f H V k₁ d₁ hd₁ hh₁ l₁ hct₁ hv₁ hr₁
  obtain ⟨q, e₂, b1, b2⟩ := C54_decodes cfg g H V k₂ d₂ hd₂ hh₂ h4 hct₂ hv₂ hr
  refine ⟨p, q, e₁, e₂, a1, b1, b2, ?_⟩
  intro y x j hy hx hj
  have hrow : (if cfg.rayon then y / V else y / V * V) < g.y := by
    have := Nat.div_le_self y V
    have := Nat.div_mul_le_self y V
    split <;> omega
  have p0 := C54_pixels_partial cfg f H V k₁ d₁ hd₁ hh₁ l₁ hct₁ hv₁ hr₁ uf.inRange p e₁ a1 y x j
    (by rw [ha.shape.y]; exact hy) (by rw [ha.shape.x]; exact hx) hj
  have q0 := C54_pixels_partial cfg g H V k₂ d₂ hd₂ hh₂ h4 hct₂ hv₂ hr ug.inRange q e₂ b1 y x j hy hx hj
  rw [ha.shape.x] at p0
  have up := upsampledSample_negated hv₁.toLaid hv₂.toLaid hr uf ug ha (i := j) (by omega) hrow hx
  refine ⟨_, _, p0, q0, ?_⟩
  have inv : ∀ v : UInt8, ((255 - v).toNat : Int) = 255 - v.toNat := by
    intro v
    have := v.toNat_lt
    rw [UInt8.toNat_sub_of_le _ _ (by rw [UInt8.le_iff_toNat_le]; show v.toNat ≤ 255; omega), show (255 : UInt8).toNat = 255 from rfl]
    omega
  rw [inv, inv]
  refine ⟨?_, fun h => ?_⟩
  · have := up.1
    rw [abs_le]
    omega
  · have := up.2 h
    rw [abs_le]
    omega

/-- Two MCUs and their sum; the first with a table of twos. -/
def addendMcu : Mcu := [[⟨20, 15 :: List.replicate 62 0⟩], [dcBlock 10], [dcBlock 5]]
@[inherit_doc addendMcu]
def secondMcu : Mcu := [[⟨-30, 0 :: 25 :: List.replicate 61 0⟩], [dcBlock (-8)], [dcBlock 12]]
@[inherit_doc addendMcu]
def sumMcu : Mcu := [[⟨10, 30 :: 25 :: List.replicate 61 0⟩], [dcBlock 12], [dcBlock 22]]

theorem coefficient_one (q : List Nat) (a b c : BlockData) (d : List UInt8) {n i j : Nat} (k l : Nat)
    (h : ¬ (n = 0 ∧ i < 3 ∧ j = 0)) : (codedFile q fullComps 7 5 [[[a], [b], [c]]] d).coefficient n i j k l = none := by
  rw [coefficient_eq]
  have : ([[[[a], [b], [c]]]].flatten[n]?.bind fun m : Mcu => m[i]?.bind fun blocks => blocks[j]?) = none := by
    match n, i, j, h with
    | n + 1, _, _, _ => simp
    | 0, i + 3, _, _ => simp
    | 0, 0, j + 1, _ | 0, 1, j + 1, _ | 0, 2, j + 1, _ => simp
  show (_ : Option (List Nat)).bind (fun q => Option.map _ ([[[[a], [b], [c]]]].flatten[n]?.bind fun m : Mcu => m[i]?.bind fun blocks => blocks[j]?)) = none
  rw [this]
  simp

theorem sum_products : ∀ i < 3, ∀ k < 8, ∀ l < 8, ∃ a b : Int,
    (codedFile (List.replicate 64 2) fullComps 7 5 [addendMcu] []).coefficient 0 i 0 k l = some a ∧
    (codedFile (List.replicate 64 1) fullComps 7 5 [secondMcu] []).coefficient 0 i 0 k l = some b ∧
    (codedFile (List.replicate 64 1) fullComps 7 5 [sumMcu] []).coefficient 0 i 0 k l = some (a + b) := by
  have : ∀ i < 3, ∀ k < 8, ∀ l < 8,
    (codedFile (List.replicate 64 2) fullComps 7 5 [addendMcu] []).coefficient 0 i 0 k l =
      some (dequantised (List.replicate 64 2) (addendMcu.flatten.getD i (dcBlock 0)) k l) ∧
    (codedFile (List.replicate 64 1) fullComps 7 5 [secondMcu] []).coefficient 0 i 0 k l =
      some (dequantised (List.replicate 64 1) (secondMcu.flatten.getD i (dcBlock 0)) k l) ∧
    (codedFile (List.replicate 64 1) fullComps 7 5 [sumMcu] []).coefficient 0 i 0 k l =
      some (dequantised (List.replicate 64 2) (addendMcu.flatten.getD i (dcBlock 0)) k l +
        dequantised (List.replicate 64 1) (secondMcu.flatten.getD i (dcBlock 0)) k l) := by decide +kernel
  exact fun i hi k hk l hl => ⟨_, _, this i hi k hk l hl⟩

/-- No value of the block leaves the range of a sample. -/
def BlockUnclipped (q : List Nat) (b : BlockData) : Prop :=
  (∀ k < 8, ∀ j < 8, -2 ^ 16 ≤ dequantised q b k j ∧ dequantised q b k j ≤ 2 ^ 16) ∧
  ∀ k < 8, ∀ j < 8, 0 ≤ idctSample (dequantised q b) k j ∧ idctSample (dequantised q b) k j ≤ 255

instance (q : List Nat) (b : BlockData) : Decidable (BlockUnclipped q b) := by
  unfold BlockUnclipped
  infer_instance

theorem codedFile_unclipped {q : List Nat} {comps : List FileComponent} {x y : Nat} {mcus : List Mcu} {data : List UInt8}
    (hz : ∀ c ∈ comps, c.tq = 0) (h : ∀ m ∈ mcus, ∀ bs ∈ m, ∀ b ∈ bs, BlockUnclipped q b) :
    (codedFile q comps x y mcus data).Unclipped := by
  intro i c q' hc hq m hm bs hbs b hb
  rw [codedFile_quantOf _ _ _ _ _ _ c (hz c (List.mem_of_getElem? hc))] at hq
  cases hq
  obtain ⟨h1, h2⟩ := h m (by simpa [codedFile] using hm) bs (List.mem_of_getElem? hbs) b hb
  exact ⟨fun k j hk hj => h1 k hk j hj, fun k j hk hj => h2 k hk j hj⟩

/-- A case of `C100_image`: 7 by 5 pixels, no subsampling; the channels of the sum are within 4. -/
example : ∃ (f g s : BaselineFile) (p q t : List UInt8), Added f g s ∧ decode ⟨true, true⟩ f.bytes = .ok p ∧
    decode ⟨true, true⟩ g.bytes = .ok q ∧ decode ⟨true, true⟩ s.bytes = .ok t ∧ t.length = 7 * 5 * 3 ∧
    ∀ y x j, y < 5 → x < 7 → j < 3 → ∃ a b v, p[21 * y + (3 * x + j)]? = some a ∧ q[21 * y + (3 * x + j)]? = some b ∧
      t[21 * y + (3 * x + j)]? = some v ∧ SumOf 4 a b v := by
  have hv : ∀ (q : List Nat) (m : Mcu), GoodTable q → Arranged fullComps 7 5 1 1 [m] → _ → _ := fun q m h1 h2 h3 =>
    codedFile_valid (q := q) (comps := fullComps) (x := 7) (y := 5) (H := 1) (V := 1) (mcus := [m]) h1 h2 h3
  obtain ⟨d₁, v₁⟩ := hv (List.replicate 64 2) addendMcu ⟨by decide, by decide⟩
    ⟨by decide, by decide, by decide, by decide, by decide, ⟨by decide, by decide⟩, ⟨by decide, by decide⟩, by decide,
      by decide, by decide, by decide, by decide⟩ (by decide)
  obtain ⟨d₂, v₂⟩ := hv (List.replicate 64 1) secondMcu ⟨by decide, by decide⟩
    ⟨by decide, by decide, by decide, by decide, by decide, ⟨by decide, by decide⟩, ⟨by decide, by decide⟩, by decide,
      by decide, by decide, by decide, by decide⟩ (by decide)
  obtain ⟨d₃, v₃⟩ := hv (List.replicate 64 1) sumMcu ⟨by decide, by decide⟩
    ⟨by decide, by decide, by decide, by decide, by decide, ⟨by decide, by decide⟩, ⟨by decide, by decide⟩, by decide,
      by decide, by decide, by decide, by decide⟩ (by decide)
  have ha : Added (codedFile (List.replicate 64 2) fullComps 7 5 [addendMcu] d₁)
      (codedFile (List.replicate 64 1) fullComps 7 5 [secondMcu] d₂)
      (codedFile (List.replicate 64 1) fullComps 7 5 [sumMcu] d₃) := by
    refine ⟨⟨rfl, rfl, .cons ⟨rfl, rfl⟩ (.cons ⟨rfl, rfl⟩ (.cons ⟨rfl, rfl⟩ .nil))⟩,
      ⟨rfl, rfl, .cons ⟨rfl, rfl⟩ (.cons ⟨rfl, rfl⟩ (.cons ⟨rfl, rfl⟩ .nil))⟩, ?_⟩
    intro n i j k l a b hk hl h1 h2
    by_cases h : n = 0 ∧ i < 3 ∧ j = 0
    · obtain ⟨rfl, hi, rfl⟩ := h
      obtain ⟨a', b', c1, c2, c3⟩ := sum_products i hi k hk l hl
      obtain rfl := Option.some.inj (h1.symm.trans c1)
      obtain rfl := Option.some.inj (h2.symm.trans c2)
      exact c3
    · rw [addendMcu, coefficient_one _ _ _ _ _ _ _ h] at h1
      cases h1
  obtain ⟨p, q, t, e₁, e₂, e₃, h1, h2, h3, h4, h5⟩ := C100_image ⟨true, true⟩ _ _ _ 1 1 ha _ _ _ Decoder.default Decoder.default
    Decoder.default .new .new .new (.nothing _) (.nothing _) (.nothing _) rfl (by show (none : Option Nat) ≠ some 0; decide)
    (by show (none : Option Nat) ≠ some 0; decide) (by show (none : Option Nat) ≠ some 0; decide) v₁ v₂ v₃
    (renderable_one v₃.toLaid.ones) (codedFile_unclipped (by decide) (by decide +kernel))
    (codedFile_unclipped (by decide) (by decide +kernel)) (codedFile_unclipped (by decide) (by decide +kernel))
  refine ⟨_, _, _, p, q, t, ha, by unfold decode; rw [h1], by unfold decode; rw [h2], by unfold decode; rw [h3], h4, ?_⟩
  intro y x j hy hx hj
  obtain ⟨a, b, v, w1, w2, w3, -, w4⟩ := h5 y x j hy hx hj
  exact ⟨a, b, v, w1, w2, w3, w4 v₃.toLaid.ones⟩

theorem withAdobe_coefficient (t : Nat) (f : BaselineFile) (n i j k l : Nat) :
    (withAdobe t f).coefficient n i j k l = f.coefficient n i j k l := by
  rw [coefficient_eq, coefficient_eq]
  simp only [withAdobe_quantOf]
  rfl

/-- A CMYK picture of one MCU and its negative. -/
def inkMcu (s : Int) : Mcu :=
  [[⟨s * 5, s * 7 :: s * -3 :: List.replicate 61 0⟩], [dcBlock (s * -20)], [⟨0, List.replicate 62 0 ++ [s * 9]⟩], [dcBlock (s * 11)]]

theorem coefficient_ink (q : List Nat) (s : Int) (d : List UInt8) {n i j : Nat} (k l : Nat)
    (h : ¬ (n = 0 ∧ i < 4 ∧ j = 0)) : (codedFile q inkComps 8 8 [inkMcu s] d).coefficient n i j k l = none := by
  rw [coefficient_eq]
  have : ([[inkMcu s]].flatten[n]?.bind fun m : Mcu => m[i]?.bind fun blocks => blocks[j]?) = none := by
    unfold inkMcu
    match n, i, j, h with
    | n + 1, _, _, _ => simp
    | 0, i + 4, _, _ => simp
    | 0, 0, j + 1, _ | 0, 1, j + 1, _ | 0, 2, j + 1, _ | 0, 3, j + 1, _ => simp
  show (_ : Option (List Nat)).bind (fun q => Option.map _ ([[inkMcu s]].flatten[n]?.bind fun m : Mcu => m[i]?.bind fun blocks => blocks[j]?)) = none
  rw [this]
  simp

theorem ink_products : ∀ i < 4, ∀ k < 8, ∀ l < 8,
    (codedFile (List.replicate 64 8) inkComps 8 8 [inkMcu (-1)] []).coefficient 0 i 0 k l =
      ((codedFile (List.replicate 64 8) inkComps 8 8 [inkMcu 1] []).coefficient 0 i 0 k l).map (- ·) := by decide +kernel

/-- A case of `C100_cmyk_negative`. -/
example : ∃ f g : BaselineFile, Negated f g ∧ ∀ cfg, ∃ p q : List UInt8, decode cfg f.bytes = .ok p ∧ decode cfg g.bytes = .ok q ∧
    q.length = 256 ∧ ∀ i, i < 256 → ∃ a b, p[i]? = some a ∧ q[i]? = some b ∧ |(a.toNat : Int) + b.toNat - 254| ≤ 1 := by
  have hq : GoodTable (List.replicate 64 8) := ⟨by decide, by decide⟩
  obtain ⟨d₁, v₁⟩ := codedFile_valid hq (comps := inkComps) (x := 8) (y := 8) (H := 1) (V := 1) (mcus := [inkMcu 1])
    ⟨by decide, by decide, by decide, by decide, by decide, ⟨by decide, by decide⟩, ⟨by decide, by decide⟩, by decide,
      by decide, by decide, by decide, by decide⟩ (by decide)
  obtain ⟨d₂, v₂⟩ := codedFile_valid hq (comps := inkComps) (x := 8) (y := 8) (H := 1) (V := 1) (mcus := [inkMcu (-1)])
    ⟨by decide, by decide, by decide, by decide, by decide, ⟨by decide, by decide⟩, ⟨by decide, by decide⟩, by decide,
      by decide, by decide, by decide, by decide⟩ (by decide)
  have ha : Negated (withAdobe 0 (codedFile (List.replicate 64 8) inkComps 8 8 [inkMcu 1] d₁))
      (withAdobe 0 (codedFile (List.replicate 64 8) inkComps 8 8 [inkMcu (-1)] d₂)) := by
    refine ⟨⟨rfl, rfl, .cons ⟨rfl, rfl⟩ (.cons ⟨rfl, rfl⟩ (.cons ⟨rfl, rfl⟩ (.cons ⟨rfl, rfl⟩ .nil)))⟩, ?_⟩
    intro n i j k l a hk hl h1
    rw [withAdobe_coefficient] at h1 ⊢
    by_cases h : n = 0 ∧ i < 4 ∧ j = 0
    · obtain ⟨rfl, hi, rfl⟩ := h
      have := ink_products i hi k hk l hl
      change (codedFile (List.replicate 64 8) inkComps 8 8 [inkMcu (-1)] d₂).coefficient 0 i 0 k l =
        ((codedFile (List.replicate 64 8) inkComps 8 8 [inkMcu 1] d₁).coefficient 0 i 0 k l).map (- ·) at this
      rw [this, h1]
      rfl
    · rw [coefficient_ink _ _ _ _ _ h] at h1
      cases h1
  refine ⟨_, _, ha, fun cfg => ?_⟩
  have v₁ := withAdobe_valid (t := 0) (by decide) v₁
  have v₂ := withAdobe_valid (t := 0) (by decide) v₂
  obtain ⟨p, q, e₁, e₂, h1, h2, h3, h4⟩ := C100_cmyk_negative cfg _ _ 1 1 ha _ _ Decoder.default Decoder.default .new .new
    (.nothing _) (.nothing _) rfl rfl rfl v₁ v₂ (renderable_one v₂.toLaid.ones)
    (codedFile_unclipped (data := d₁) (x := 8) (y := 8) (comps := inkComps) (mcus := [inkMcu 1]) (by decide) (by decide +kernel))
    (codedFile_unclipped (data := d₂) (x := 8) (y := 8) (comps := inkComps) (mcus := [inkMcu (-1)]) (by decide) (by decide +kernel))
  refine ⟨p, q, by unfold decode; rw [h1], by unfold decode; rw [h2], ?_, ?_⟩
  · change q.length = 8 * 8 * 4 at h3
    omega
  intro i hi
  have e : 4 * 8 * (i / 32) + (4 * (i % 32 / 4) + i % 4) = i := by omega
  obtain ⟨a, b, g1, g2, -, g3⟩ := h4 (i / 32) (i % 32 / 4) (i % 4) (by show i / 32 < 8; omega) (by show i % 32 / 4 < 8; omega) (by omega)
  change p[4 * 8 * (i / 32) + (4 * (i % 32 / 4) + i % 4)]? = some a at g1
  change q[4 * 8 * (i / 32) + (4 * (i % 32 / 4) + i % 4)]? = some b at g2
  rw [e] at g1 g2
  exact ⟨a, b, g1, g2, g3 v₂.toLaid.ones⟩

end Jpeg
