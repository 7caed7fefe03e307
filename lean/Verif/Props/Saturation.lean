import Verif.Spec.Saturation
import Verif.Props.Contrast
import Verif.Props.Colourless
/-!
# C108: change of saturation
-/

namespace Jpeg
open Spec Sample

section

variable {f g : BaselineFile} {H V : Nat} {t : Nat → ℚ}

/-- Components whose coefficients stay. -/
theorem upsampledSample_kept {r₁ r₂ : Nat} {k₁ k₂ : List (Code × Code)} (hf : f.Laid r₁ H V k₁) (hg : g.Laid r₂ H V k₂)
    (hr : g.Renderable H V) (uf : f.Unclipped) (ug : g.Unclipped)
    (ha : Scaled t f g) {i row x : Nat} (ht : t i = 1) (hi : i < g.comps.length) (hrow : row < g.y) (hx : x < g.x) :
    f.upsampledSample H V i row x = g.upsampledSample H V i row x := by
  have hc := List.getElem?_eq_getElem hi
  generalize g.comps[i] = c at hc
  have hcm := List.mem_of_getElem? hc
  obtain ⟨c₁, hc₁, hh₁, hv₁⟩ := shape_comp ha.shape hc
  have gm := fileComponent_geometry hg hcm
  have hH := hg.hmax.1 c hcm
  have hV := hg.vmax.1 c hcm
  simp only at hH hV
  have F := Facts.of gm hH hV hg.x.1 (by omega)
  unfold BaselineFile.upsampledSample
  simp only [hc, hc₁, ha.shape.x, ha.shape.y, hh₁, hv₁]
  refine upsampled_congr gm hH hV hg.x.1 hrow ⟨(hr c hcm).1, (hr c hcm).2.1⟩ hx _ _ ?_
  intro Y X h1 h2
  have e1 := F.w_le
  have e2 := F.h_le
  have e3 : (fileComponent g H V c).lineStride = 8 * (ceilDiv g.x (8 * H) * c.h) := gm.lineStride
  have e4 : (fileComponent g H V c).blockSize.height = ceilDiv g.y (8 * V) * c.v := by rw [gm.blocks]; rfl
  obtain ⟨F, a1, a2⟩ := sample_coefficients hf uf hc₁ (Y := Y) (X := X) (by rw [ha.shape.y, hv₁]; omega)
    (by rw [ha.shape.x, hh₁]; omega)
  obtain ⟨G, b1, b2⟩ := sample_coefficients hg ug hc (Y := Y) (X := X) (by omega) (by omega)
  rw [ha.shape.x, hh₁, hv₁] at a1
  have e : ∀ k l, k < 8 → l < 8 → F k l = G k l := by
    intro k l hk hl
    obtain ⟨b, e, e'⟩ := ha.products _ _ _ _ _ _ hk hl (a1 k l)
    rw [ht, one_mul, Option.some.inj (e.symm.trans (b1 k l))] at e'
    exact_mod_cast e'.symm
  rw [idctSample_congr e, ← b2] at a2
  exact_mod_cast a2

end

/-- A channel: the luminance `y` and the rest. -/
theorem saturationOf_saturate {s e d : ℚ} {y : UInt8} {R G B u v : Int} (hl : |(299 * R + 587 * G + 114 * B : ℚ) / 1000 - y.toNat| ≤ 501 / 1000)
    (h : |((v : ℚ) - y.toNat) - s * (u - y.toNat)| ≤ d * (1 + |s|)) (he : d + 501 / 1000 ≤ e)
    (hu : u = R ∨ u = G ∨ u = B) :
    SaturationOf s e (saturate R) (saturate G) (saturate B) (saturate u) (saturate v) := by
  have hR := saturate_toNat R
  have hG := saturate_toNat G
  have hB := saturate_toNat B
  have hU := saturate_toNat u
  have hV := saturate_toNat v
  have hm : saturate u = saturate R ∨ saturate u = saturate G ∨ saturate u = saturate B := by
    rcases hu with rfl | rfl | rfl <;> simp
  unfold SaturationOf luminanceOf
  generalize saturate R = r at *
  generalize saturate G = g at *
  generalize saturate B = b at *
  generalize saturate u = a at *
  generalize saturate v = a' at *
  intro hz
  obtain ⟨r1, r2⟩ := hz r (by simp)
  obtain ⟨g1, g2⟩ := hz g (by simp)
  obtain ⟨b1, b2⟩ := hz b (by simp)
  have eR : (r.toNat : ℚ) = R := by rw [← Int.cast_natCast, show (r.toNat : Int) = R by omega]
  have eG : (g.toNat : ℚ) = G := by rw [← Int.cast_natCast, show (g.toNat : Int) = G by omega]
  have eB : (b.toNat : ℚ) = B := by rw [← Int.cast_natCast, show (b.toNat : Int) = B by omega]
  have ea : 0 < a.toNat ∧ a.toNat < 255 := by rcases hm with rfl | rfl | rfl <;> exact ⟨by assumption, by assumption⟩
  have eU : (a.toNat : ℚ) = u := by rw [← Int.cast_natCast, show (a.toNat : Int) = u by omega]
  have eV : (a'.toNat : ℚ) = max 0 (min (v : ℚ) 255) := by
    rw [← Int.cast_natCast, hV]
    push_cast
    rfl
  rw [eR, eG, eB, eU, eV]
  generalize (299 * (R : ℚ) + 587 * G + 114 * B) / 1000 = L at hl ⊢
  have key : |(v : ℚ) - (L + s * (u - L))| ≤ e * (1 + |s|) := by
    have h1 : (v : ℚ) - (L + s * (u - L)) = (((v : ℚ) - y.toNat) - s * (u - y.toNat)) + (s - 1) * (L - y.toNat) := by ring
    have h2 : |(s - 1) * (L - y.toNat)| ≤ 501 / 1000 * (1 + |s|) := by
      rw [abs_mul, mul_comm]
      have h3 : |s - 1| ≤ 1 + |s| := by
        have := abs_sub s 1
        rw [abs_one] at this
        linarith
      exact mul_le_mul hl h3 (abs_nonneg _) (by norm_num)
    rw [h1]
    refine (abs_add_le _ _).trans ?_
    have h4 : 0 ≤ 1 + |s| := by positivity
    nlinarith [mul_le_mul_of_nonneg_right he h4]
  refine le_trans ?_ key
  generalize L + s * ((u : ℚ) - L) = w
  have k1 := abs_max_sub_max_le_abs (min (v : ℚ) 255) (min w 255) 0
  have k2 := abs_min_sub_min_le_max (v : ℚ) 255 w 255
  rw [sub_self, abs_zero, max_eq_left (abs_nonneg _)] at k2
  rw [max_comm 0 (min (v : ℚ) 255), max_comm 0 (min w 255)]
  exact k1.trans k2

/-- Colours of the same luminance with scaled chrominance. -/
theorem color_saturated {y b r b' r' : UInt8} {s e : ℚ}
    (hb : |(b'.toNat : ℚ) - (128 + s * (b.toNat - 128))| ≤ e * (1 + |s|))
    (hr : |(r'.toNat : ℚ) - (128 + s * (r.toNat - 128))| ≤ e * (1 + |s|)) {E : ℚ}
    (hE : e = 5 / 8 ∧ E = 17 / 8 ∨ e = 9 / 8 ∧ E = 3) :
    let R := redSum y b r
    let G := greenSum y b r
    let B := blueSum y b r
    SaturationOf s E (saturate R) (saturate G) (saturate B) (saturate R) (saturate (redSum y b' r')) ∧
    SaturationOf s E (saturate R) (saturate G) (saturate B) (saturate G) (saturate (greenSum y b' r')) ∧
    SaturationOf s E (saturate R) (saturate G) (saturate B) (saturate B) (saturate (blueSum y b' r')) := by
  intro R G B
  have hn := abs_nonneg s
  have hl : |(299 * R + 587 * G + 114 * B : ℚ) / 1000 - y.toNat| ≤ 501 / 1000 := by
    obtain ⟨h1, h2⟩ := sums_luminance y b r
    have h1' : ((299 * R + 587 * G + 114 * B : Int) : ℚ) ≤ ((1000 * y.toNat + 501 : Int) : ℚ) := Int.cast_le.2 h1
    have h2' : ((1000 * (y.toNat : Int) : Int) : ℚ) ≤ ((299 * R + 587 * G + 114 * B + 501 : Int) : ℚ) := Int.cast_le.2 h2
    push_cast at h1' h2'
    rw [abs_le]
    constructor <;> linarith
  have floor : ∀ a : Int, |((65536 * ((a + 32768) / 65536) : Int) : ℚ) - a| ≤ 32768 := by
    intro a
    have : -32768 ≤ 65536 * ((a + 32768) / 65536) - a ∧ 65536 * ((a + 32768) / 65536) - a ≤ 32768 := by omega
    rw [abs_le]
    exact_mod_cast this
  have two : ∀ a a' : Int, _ := fun a a' => error_scaled (t := s) (floor a) (floor a')
  have hd : e * (116131 / 65536) + 1 / 2 + 501 / 1000 ≤ E := by rcases hE with ⟨rfl, rfl⟩ | ⟨rfl, rfl⟩ <;> norm_num
  have e0 : 0 ≤ e := by rcases hE with ⟨rfl, -⟩ | ⟨rfl, -⟩ <;> norm_num
  refine ⟨saturationOf_saturate (d := e * (116131 / 65536) + 1 / 2) hl ?_ hd (.inl rfl),
    saturationOf_saturate (d := e * (116131 / 65536) + 1 / 2) hl ?_ hd (.inr (.inl rfl)),
    saturationOf_saturate (d := e * (116131 / 65536) + 1 / 2) hl ?_ hd (.inr (.inr rfl))⟩
  · have h := two (91881 * ((r.toNat : Int) - 128)) (91881 * ((r'.toNat : Int) - 128))
    simp only [R]
    unfold redSum
    push_cast at h ⊢
    generalize (((91881 * ((r.toNat : Int) - 128) + 32768) / 65536 : Int) : ℚ) = P at h ⊢
    generalize (((91881 * ((r'.toNat : Int) - 128) + 32768) / 65536 : Int) : ℚ) = Q at h ⊢
    rw [abs_le] at h hr ⊢
    rcases hE with ⟨rfl, rfl⟩ | ⟨rfl, rfl⟩ <;> constructor <;> linarith
  · have h := two (-22554 * ((b.toNat : Int) - 128) + -46802 * ((r.toNat : Int) - 128))
      (-22554 * ((b'.toNat : Int) - 128) + -46802 * ((r'.toNat : Int) - 128))
    simp only [G]
    unfold greenSum
    rw [show ∀ m n : Int, m + 32768 + n = m + n + 32768 by intros; omega,
      show ∀ m n : Int, m + 32768 + n = m + n + 32768 by intros; omega]
    push_cast at h ⊢
    generalize (((-22554 * ((b.toNat : Int) - 128) + -46802 * ((r.toNat : Int) - 128) + 32768) / 65536 : Int) : ℚ) = P at h ⊢
    generalize (((-22554 * ((b'.toNat : Int) - 128) + -46802 * ((r'.toNat : Int) - 128) + 32768) / 65536 : Int) : ℚ) = Q at h ⊢
    rw [abs_le] at h hb hr ⊢
    rcases hE with ⟨rfl, rfl⟩ | ⟨rfl, rfl⟩ <;> constructor <;> linarith
  · have h := two (116130 * ((b.toNat : Int) - 128)) (116130 * ((b'.toNat : Int) - 128))
    simp only [B]
    unfold blueSum
    push_cast at h ⊢
    generalize (((116130 * ((b.toNat : Int) - 128) + 32768) / 65536 : Int) : ℚ) = P at h ⊢
    generalize (((116130 * ((b'.toNat : Int) - 128) + 32768) / 65536 : Int) : ℚ) = Q at h ⊢
    rw [abs_le] at h hb ⊢
    rcases hE with ⟨rfl, rfl⟩ | ⟨rfl, rfl⟩ <;> constructor <;> linarith

theorem greyOf_sums (y b r : UInt8) : GreyOf (saturate (redSum y b r)) (saturate (greenSum y b r)) (saturate (blueSum y b r)) y := by
  obtain ⟨_, _, _, h, hg⟩ := C95_luminance y b r
  rw [ycbcrToRgb_eq] at h
  cases h
  exact hg

/-- **C108**. A picture with the luminance of another and `s` times its coefficients of chrominance has `s` times its
saturation: the difference of every channel of every pixel from the luminance of the pixel is `s` times what it was, the
channel limited to 0..255, up to 3 for it and for what it was (17/8 without subsampling), if no channel of the pixel was
limited. The luminance of the pixels is that of one grey for both. The files may be written in any way, with any tables,
and decoded by any decoders. -/
theorem C108_image (cfg : Cfg) (s : ℚ) (f g : BaselineFile) (H V : Nat) (ha : Scaled (chrominance s) f g)
    (k₁ k₂ : List (Code × Code)) (d₁ d₂ : Decoder) (hd₁ : UsedDecoder d₁) (hd₂ : UsedDecoder d₂)
    (hh₁ : Holds cfg d₁ f.earlier) (hh₂ : Holds cfg d₂ g.earlier) (h3 : g.comps.length = 3)
    (hct₁ : f.transform d₁.transform ≠ some 0) (hct₂ : g.transform d₂.transform ≠ some 0)
    (hv₁ : f.Valid (f.interval d₁.restartInterval) H V k₁)
    (hv₂ : g.Valid (g.interval d₂.restartInterval) H V k₂)
    (hr : g.Renderable H V) (uf : f.Unclipped) (ug : g.Unclipped) :
    ∃ p q e₁ e₂, d₁.decode cfg f.bytes = .ok p e₁ ∧ d₂.decode cfg g.bytes = .ok q e₂ ∧
      q.length = g.x * g.y * 3 ∧ ∀ y x, y < g.y → x < g.x → ∃ c c' : Nat → UInt8, ∃ v,
        (∀ j, j < 3 → p[3 * g.x * y + (3 * x + j)]? = some (c j) ∧ q[3 * g.x * y + (3 * x + j)]? = some (c' j)) ∧
        GreyOf (c 0) (c 1) (c 2) v ∧ GreyOf (c' 0) (c' 1) (c' 2) v ∧
        (∀ j, j < 3 → SaturationOf s 3 (c 0) (c 1) (c 2) (c j) (c' j)) ∧
        ((∀ c ∈ g.comps, c.h = H ∧ c.v = V) → ∀ j, j < 3 → SaturationOf s (17 / 8) (c 0) (c 1) (c 2) (c j) (c' j)) := by
  have l₁ : f.comps.length = 3 := by rw [ha.shape.factors.length_eq, h3]
  have hr₁ := SameShape.renderable ha.shape hr
  obtain ⟨p, e₁, a1, -⟩ := C45_decodes cfg f H V k₁ d₁ hd₁ hh₁ l₁ hct₁ hv₁ hr₁
  obtain ⟨q, e₂, b1, b2⟩ := C45_decodes cfg g H V k₂ d₂ hd₂ hh₂ h3 hct₂ hv₂ hr
  refine ⟨p, q, e₁, e₂, a1, b1, b2, ?_⟩
  intro y x hy hx
  have hrow : (if cfg.rayon then y / V else y / V * V) < g.y := row_lt hy
  obtain ⟨r₁, g₁, b₁, w₁, p0, p1, p2⟩ := C45_pixels_partial cfg f H V k₁ d₁ hd₁ hh₁ l₁ hct₁ hv₁ hr₁ uf.inRange p e₁ a1 y x
    (by rw [ha.shape.y]; exact hy) (by rw [ha.shape.x]; exact hx)
  obtain ⟨r₂, g₂, b₂, w₂, q0, q1, q2⟩ := C45_pixels_partial cfg g H V k₂ d₂ hd₂ hh₂ h3 hct₂ hv₂ hr ug.inRange q e₂ b1 y x hy hx
  rw [ha.shape.x] at p0 p1 p2
  have u0 := upsampledSample_kept hv₁.toLaid hv₂.toLaid hr uf ug ha (i := 0) rfl (by omega) hrow hx
  have u1 := upsampledSample_scaled hv₁.toLaid hv₂.toLaid hr uf ug ha (i := 1) (by omega) hrow hx
  have u2 := upsampledSample_scaled hv₁.toLaid hv₂.toLaid hr uf ug ha (i := 2) (by omega) hrow hx
  rw [ycbcrToRgb_eq] at w₁ w₂
  simp only [u0] at w₁
  simp only [Except.ok.injEq, Prod.mk.injEq] at w₁ w₂
  have grey : ∃ v, GreyOf r₁ g₁ b₁ v ∧ GreyOf r₂ g₂ b₂ v := by
    obtain ⟨rfl, rfl, rfl⟩ := w₁
    obtain ⟨rfl, rfl, rfl⟩ := w₂
    exact ⟨_, greyOf_sums _ _ _, greyOf_sums _ _ _⟩
  have wide : SaturationOf s 3 r₁ g₁ b₁ r₁ r₂ ∧ SaturationOf s 3 r₁ g₁ b₁ g₁ g₂ ∧ SaturationOf s 3 r₁ g₁ b₁ b₁ b₂ := by
    obtain ⟨rfl, rfl, rfl⟩ := w₁
    obtain ⟨rfl, rfl, rfl⟩ := w₂
    exact color_saturated u1.1 u2.1 (E := 3) (.inr ⟨rfl, rfl⟩)
  have full : (∀ c ∈ g.comps, c.h = H ∧ c.v = V) → SaturationOf s (17 / 8) r₁ g₁ b₁ r₁ r₂ ∧
      SaturationOf s (17 / 8) r₁ g₁ b₁ g₁ g₂ ∧ SaturationOf s (17 / 8) r₁ g₁ b₁ b₁ b₂ := fun h => by
    obtain ⟨rfl, rfl, rfl⟩ := w₁
    obtain ⟨rfl, rfl, rfl⟩ := w₂
    exact color_saturated (u1.2 h) (u2.2 h) (E := 17 / 8) (.inl ⟨rfl, rfl⟩)
  obtain ⟨v, v1, v2⟩ := grey
  refine ⟨fun j => if j = 0 then r₁ else if j = 1 then g₁ else b₁, fun j => if j = 0 then r₂ else if j = 1 then g₂ else b₂, v, ?_,
    v1, v2, ?_, ?_⟩
  · intro j hj
    rcases (by omega : j = 0 ∨ j = 1 ∨ j = 2) with rfl | rfl | rfl
    · exact ⟨p0, q0⟩
    · exact ⟨p1, q1⟩
    · exact ⟨p2, q2⟩
  · intro j hj
    rcases (by omega : j = 0 ∨ j = 1 ∨ j = 2) with rfl | rfl | rfl
    · exact wide.1
    · exact wide.2.1
    · exact wide.2.2
  · intro h j hj
    rcases (by omega : j = 0 ∨ j = 1 ∨ j = 2) with rfl | rfl | rfl
    · exact (full h).1
    · exact (full h).2.1
    · exact (full h).2.2

/-- Chrominance of 10 and 6, to be made half as strong again. -/
def softMcu : Mcu := [[⟨20, 15 :: List.replicate 62 0⟩], [⟨10, 4 :: List.replicate 62 0⟩], [dcBlock 6]]
@[inherit_doc softMcu]
def vividMcu : Mcu := [[⟨20, 15 :: List.replicate 62 0⟩], [⟨15, 6 :: List.replicate 62 0⟩], [dcBlock 9]]

theorem vivid_products : ∀ i < 3, ∀ k < 8, ∀ l < 8, ∃ a b : Int,
    (codedFile (List.replicate 64 2) fullComps 7 5 [softMcu] []).coefficient 0 i 0 k l = some a ∧
    (codedFile (List.replicate 64 2) fullComps 7 5 [vividMcu] []).coefficient 0 i 0 k l = some b ∧
    2 * b = (if i = 0 then 2 else 3) * a := by
  have : ∀ i < 3, ∀ k < 8, ∀ l < 8,
    (codedFile (List.replicate 64 2) fullComps 7 5 [softMcu] []).coefficient 0 i 0 k l =
      some (dequantised (List.replicate 64 2) (softMcu.flatten.getD i (dcBlock 0)) k l) ∧
    (codedFile (List.replicate 64 2) fullComps 7 5 [vividMcu] []).coefficient 0 i 0 k l =
      some (dequantised (List.replicate 64 2) (vividMcu.flatten.getD i (dcBlock 0)) k l) ∧
    2 * dequantised (List.replicate 64 2) (vividMcu.flatten.getD i (dcBlock 0)) k l =
      (if i = 0 then 2 else 3) * dequantised (List.replicate 64 2) (softMcu.flatten.getD i (dcBlock 0)) k l := by decide +kernel
  exact fun i hi k hk l hl => ⟨_, _, this i hi k hk l hl⟩

/-- A case of `C108_image`: 7 by 5 pixels, half as much colour again. -/
example : ∃ f g : BaselineFile, Scaled (chrominance (3 / 2)) f g ∧ ∀ cfg, ∃ p q : List UInt8, decode cfg f.bytes = .ok p ∧
    decode cfg g.bytes = .ok q ∧ q.length = 7 * 5 * 3 ∧ ∀ y x, y < 5 → x < 7 → ∃ c c' : Nat → UInt8,
      ∀ j, j < 3 → p[21 * y + (3 * x + j)]? = some (c j) ∧ q[21 * y + (3 * x + j)]? = some (c' j) ∧
        SaturationOf (3 / 2) (17 / 8) (c 0) (c 1) (c 2) (c j) (c' j) := by
  have hv : ∀ (m : Mcu), _ → _ → _ := fun m h1 h2 =>
    codedFile_valid (q := List.replicate 64 2) (comps := fullComps) (x := 7) (y := 5) (H := 1) (V := 1) (mcus := [m])
      ⟨by decide, by decide⟩
      ⟨by decide, by decide, by decide, by decide, by decide, ⟨by decide, by decide⟩, ⟨by decide, by decide⟩, by decide,
        by decide, by decide, rfl, h1⟩ h2
  obtain ⟨d₁, v₁⟩ := hv softMcu (by decide) (by decide)
  obtain ⟨d₂, v₂⟩ := hv vividMcu (by decide) (by decide)
  have ha : Scaled (chrominance (3 / 2)) (codedFile (List.replicate 64 2) fullComps 7 5 [softMcu] d₁)
      (codedFile (List.replicate 64 2) fullComps 7 5 [vividMcu] d₂) := by
    refine ⟨⟨rfl, rfl, List.forall₂_same.2 fun _ _ => ⟨rfl, rfl⟩⟩, ?_⟩
    intro n i j k l a hk hl e
    by_cases h : n = 0 ∧ i < 3 ∧ j = 0
    · obtain ⟨rfl, hi, rfl⟩ := h
      obtain ⟨a', b, h1, h2, h3⟩ := vivid_products i hi k hk l hl
      obtain rfl : a = a' := Option.some.inj (e.symm.trans h1)
      refine ⟨b, h2, ?_⟩
      have h3' : ((2 * b : Int) : ℚ) = (((if i = 0 then 2 else 3) * a : Int) : ℚ) := by rw [h3]
      unfold chrominance
      by_cases h0 : i = 0
      · rw [if_pos h0] at h3' ⊢; push_cast at h3'; linarith
      · rw [if_neg h0] at h3' ⊢; push_cast at h3'; linarith
    · rw [show (codedFile (List.replicate 64 2) fullComps 7 5 [softMcu] d₁).coefficient n i j k l = none from
        coefficient_one _ _ _ _ _ _ _ h] at e
      cases e
  refine ⟨_, _, ha, fun cfg => ?_⟩
  obtain ⟨p, q, e₁, e₂, h1, h2, h3, h4⟩ := C108_image cfg (3 / 2) _ _ 1 1 ha _ _ Decoder.default
    Decoder.default .new .new (.nothing _) (.nothing _) rfl (by show (none : Option Nat) ≠ some 0; decide)
    (by show (none : Option Nat) ≠ some 0; decide) v₁ v₂ (renderable_one v₂.toLaid.ones)
    (codedFile_unclipped (by decide) (by decide +kernel)) (codedFile_unclipped (by decide) (by decide +kernel))
  refine ⟨p, q, by unfold decode; rw [h1], by unfold decode; rw [h2], h3, ?_⟩
  intro y x hy hx
  obtain ⟨c, c', -, w, -, -, -, z⟩ := h4 y x hy hx
  exact ⟨c, c', fun j hj => ⟨(w j hj).1, (w j hj).2, z v₂.toLaid.ones j hj⟩⟩

end Jpeg
