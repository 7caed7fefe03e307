import Verif.Props.Lightened
import Verif.Spec.Colourless
/-!
# C95: the colour taken out of a picture without decoding
-/

namespace Jpeg
open Spec Sample

theorem sums_luminance (y cb cr : UInt8) :
    299 * redSum y cb cr + 587 * greenSum y cb cr + 114 * blueSum y cb cr ≤ 1000 * y.toNat + 501 ∧
    1000 * (y.toNat : Int) ≤ 299 * redSum y cb cr + 587 * greenSum y cb cr + 114 * blueSum y cb cr + 501 := by
  have := y.toNat_lt
  have := cb.toNat_lt
  have := cr.toNat_lt
  unfold redSum greenSum blueSum
  omega

/-- **C95** (the colours). Every colour that the conversion gives has the luminance it was made from, up to rounding
and to the limits of the channels. -/
theorem C95_luminance (y cb cr : UInt8) : ∃ r g b, ycbcrToRgb y cb cr = .ok (r, g, b) ∧ GreyOf r g b y := by
  refine ⟨_, _, _, ycbcrToRgb_eq y cb cr, ?_⟩
  have h := sums_luminance y cb cr
  generalize redSum y cb cr = R at h ⊢
  generalize greenSum y cb cr = G at h ⊢
  generalize blueSum y cb cr = B at h ⊢
  have hr := saturate_toNat R
  have hg := saturate_toNat G
  have hb := saturate_toNat B
  unfold GreyOf luminance1000
  constructor <;> intro _ _ _ <;> omega

/-- A case of C95. -/
example : ∃ r g b, ycbcrToRgb 100 90 200 = .ok (r, g, b) ∧ GreyOf r g b 100 ∧ (r, g, b) = (201, 62, 33) :=
  ⟨201, 62, 33, by decide +kernel, by unfold GreyOf luminance1000; decide, rfl⟩

section

variable {f f' : BaselineFile} {H V : Nat}

theorem dequantised_zero {q : List Nat} {b : BlockData} (h : ZeroBlock b) {k i : Nat} (hk : k < 8) (hi : i < 8) :
    dequantised q b k i = 0 := by
  by_cases h0 : (k, i) = (0, 0)
  · obtain ⟨rfl, rfl⟩ := Prod.mk.inj h0
    rw [dequantised_dc, h.1, Int.zero_mul]
  · exact dequantised_flat h.2 hk hi h0

/-- The blocks of the second file other than those of the luminance. -/
theorem Spec.Colourless.zero (hf : Colourless f f') {i : Nat} (hi : i ≠ 0) {m : Mcu} (hm : m ∈ f'.intervals.flatten)
    {bs : List BlockData} (hbs : m[i]? = some bs) {b : BlockData} (hb : b ∈ bs) : ZeroBlock b := by
  obtain ⟨n, hn⟩ := List.mem_iff_getElem?.1 hm
  rcases forall₂_get hf.mcus n with ⟨-, h⟩ | ⟨m0, m1, -, h, -, hz⟩
  · rw [hn] at h; cases h
  · obtain rfl := Option.some.inj (hn.symm.trans h)
    exact hz i hi bs hbs b hb

theorem Spec.Colourless.moderately (hf : Colourless f f') (h : f.Moderately) : f'.Moderately := by
  intro i c' q hc' hq m hm bs hbs b hb
  by_cases hi : i = 0
  · subst hi
    obtain ⟨c, c0, h1, h2, -, -, e⟩ := hf.luminance
    obtain rfl := Option.some.inj (hc'.symm.trans h2)
    obtain ⟨n, hn⟩ := List.mem_iff_getElem?.1 hm
    rcases forall₂_get hf.mcus n with ⟨-, h3⟩ | ⟨m0, m1, h3, h4, h5, -⟩
    · rw [hn] at h3; cases h3
    · obtain rfl := Option.some.inj (hn.symm.trans h4)
      exact h 0 c q h1 (e.trans hq) m0 (List.mem_of_getElem? h3) bs (h5.trans hbs) b hb
  · intro k j hk hj
    rw [dequantised_zero (hf.zero hi hm hbs hb) hk hj]
    decide

theorem value_luminance (hf : Colourless f f') (Y X : Nat) : f'.value H 0 Y X = f.value H 0 Y X := by
  obtain ⟨c, c', h1, h2, hh, hv, hq⟩ := hf.luminance
  unfold BaselineFile.value
  rw [h1, h2]
  simp only [hq]
  have : f'.blockAt H 0 c' Y X = f.blockAt H 0 c Y X := by
    unfold BaselineFile.blockAt
    rw [← hf.x, ← hh, ← hv]
    rcases forall₂_get hf.mcus (Y / 8 / c.v * ceilDiv f.x (8 * H) + X / 8 / c.h) with ⟨h1, h2⟩ | ⟨m, m', h1, h2, h, -⟩
    · rw [h1, h2]
    · rw [h1, h2, Option.bind_some, Option.bind_some, h]
  rw [this]

theorem aroundSample_luminance (hf : Colourless f f') (row col : Nat) :
    f'.aroundSample H V 0 row col = f.aroundSample H V 0 row col := by
  obtain ⟨c, c', h1, h2, hh, hv, hq⟩ := hf.luminance
  unfold BaselineFile.aroundSample
  rw [h1, h2]
  simp only [← hh, ← hv, ← hf.x, ← hf.y, value_luminance hf]

/-- A component of zeros. -/
theorem aroundSample_zero {r : Nat} {codes : List (Code × Code)} (hv : f'.Laid r H V codes) (hr : f'.Renderable H V)
    (hf : Colourless f f') {i : Nat} (hi0 : i ≠ 0) (hi : i < f'.comps.length) {row x : Nat} (hrow : row < f'.y)
    (hx : x < f'.x) : f'.aroundSample H V i row x = 128 := by
  have hu : f'.Uniform i 128 := by
    intro c q hc hq m hm bs hbs b hb
    have hz := hf.zero hi0 hm hbs hb
    exact ⟨hz.2, 0, by rw [hz.1, Int.zero_mul], by decide, by decide, by decide⟩
  have hc := List.getElem?_eq_getElem hi
  generalize f'.comps[i] = c at hc
  have hcm := List.mem_of_getElem? hc
  have g := fileComponent_geometry hv hcm
  obtain ⟨f1, f2, f3, f4⟩ := hv.factors c hcm
  have hH := hv.hmax.1 c hcm
  have hV := hv.vmax.1 c hcm
  simp only at hH hV
  unfold BaselineFile.aroundSample
  rw [hc]
  simp only
  refine (upsampled_congr g hH hV hv.x.1 hrow
    ⟨(hr c hcm).1, (hr c hcm).2.1⟩ hx _ (fun _ _ => 128) ?_).trans (upsampled_const ..)
  intro r k h1 h2
  have hY : r / 8 / c.v < ceilDiv f'.y (8 * V) := lt_mcus (by omega) (by omega) h1
  have hX : k / 8 / c.h < ceilDiv f'.x (8 * H) := lt_mcus (by omega) (by omega) h2
  obtain ⟨m, hm, bs, hbs, b, hb, e⟩ := blockAt_some hv hc (Y := r) (X := k)
    (by rw [Nat.div_lt_iff_lt_mul f3] at hY; omega) (by rw [Nat.div_lt_iff_lt_mul f1] at hX; omega)
  obtain ⟨q, hq⟩ := hv.quant c hcm
  have hz := hf.zero hi0 hm hbs hb
  have : f'.value H i r k = 128 := by
    unfold BaselineFile.value
    rw [hc]
    simp only [e, hq]
    rw [idctSample_flat hz.2 (Nat.mod_lt _ (by omega)) (Nat.mod_lt _ (by omega)), hz.1, Int.zero_mul]
    rfl
  simp only [this]
  decide

end

/-- **C95**. A three-component baseline picture with its chrominance set to zero without decoding it: the image is
grey, and each grey is the luminance of the colour of the same pixel of the coloured picture, up to 501/1000 and to
channels at the limits 0 and 255; whatever the subsampling of the two (of those that this decoder can render), the
tables, the way the files are written, the decoders and the build. -/
theorem C95_grey (cfg : Cfg) (f f' : BaselineFile) (hf : Colourless f f') (H V : Nat)
    (codes codes' : List (Code × Code)) (d₁ d₂ : Decoder) (hd₁ : UsedDecoder d₁) (hd₂ : UsedDecoder d₂)
    (hh₁ : Holds cfg d₁ f.earlier) (hh₂ : Holds cfg d₂ f'.earlier) (h3 : f.comps.length = 3) (h3' : f'.comps.length = 3)
    (hct₁ : f.transform d₁.transform ≠ some 0) (hct₂ : f'.transform d₂.transform ≠ some 0)
    (hv₁ : f.Valid (f.interval d₁.restartInterval) H V codes) (hv₂ : f'.Valid (f'.interval d₂.restartInterval) H V codes')
    (hr₁ : f.Renderable H V) (hr₂ : f'.Renderable H V) (hin : f.Moderately) :
    ∃ image image' e₁ e₂, d₁.decode cfg f.bytes = .ok image e₁ ∧ d₂.decode cfg f'.bytes = .ok image' e₂ ∧
      image.length = f.x * f.y * 3 ∧ image'.length = f.x * f.y * 3 ∧
      ∀ y x, y < f.y → x < f.x → ∃ r g b v, GreyOf r g b v ∧
        image[3 * f.x * y + 3 * x]? = some r ∧ image[3 * f.x * y + (3 * x + 1)]? = some g ∧
        image[3 * f.x * y + (3 * x + 2)]? = some b ∧
        image'[3 * f.x * y + 3 * x]? = some v ∧ image'[3 * f.x * y + (3 * x + 1)]? = some v ∧
        image'[3 * f.x * y + (3 * x + 2)]? = some v := by
  obtain ⟨image, e₁, a1, a2, p⟩ := C90_reduced cfg f H V codes d₁ hd₁ hh₁ h3 hct₁ hv₁ hr₁ hin
  obtain ⟨image', e₂, b1, b2, p'⟩ := C90_reduced cfg f' H V codes' d₂ hd₂ hh₂ h3' hct₂ hv₂ hr₂ (hf.moderately hin)
  refine ⟨image, image', e₁, e₂, a1, b1, a2, by rw [b2, hf.x, hf.y], ?_⟩
  intro y x hy hx
  obtain ⟨r, g, b, q, p0, p1, p2⟩ := p y x hy hx
  obtain ⟨r', g', b', q', p0', p1', p2'⟩ := p' y x (hf.y ▸ hy) (hf.x ▸ hx)
  rw [← hf.x] at p0' p1' p2'
  have hrow : (if cfg.rayon then y / V else y / V * V) < f'.y := by
    have := Nat.div_le_self y V
    have := Nat.div_mul_le_self y V
    have := hf.y
    split <;> omega
  simp only at q'
  rw [aroundSample_luminance hf, aroundSample_zero hv₂.toLaid hr₂ hf (by decide) (by omega) hrow (hf.x ▸ hx),
    aroundSample_zero hv₂.toLaid hr₂ hf (by decide) (by omega) hrow (hf.x ▸ hx)] at q'
  rw [show UInt8.ofNat 128 = 128 from rfl, C27_grey] at q'
  cases q'
  obtain ⟨r0, g0, b0, e, hg⟩ := C95_luminance (UInt8.ofNat (f.aroundSample H V 0 (if cfg.rayon then y / V else y / V * V) x))
    (UInt8.ofNat (f.aroundSample H V 1 (if cfg.rayon then y / V else y / V * V) x))
    (UInt8.ofNat (f.aroundSample H V 2 (if cfg.rayon then y / V else y / V * V) x))
  cases q.symm.trans e
  exact ⟨_, _, _, _, hg, p0, p1, p2, p0', p1', p2'⟩

/-- `leanMcu` without its colours. -/
def paleMcu : Mcu := [[leanBlock 1, dcBlock 2, dcBlock 3, leanBlock 4], [dcBlock 0], [dcBlock 0]]

/-- A case of C95: a picture of 16 by 16 pixels with half of the chrominance lines and columns. -/
example : ∃ f f' codes, Colourless f f' ∧ f.Valid 0 2 2 codes ∧ f'.Valid 0 2 2 codes ∧
    ∀ cfg, ∃ image image' : List UInt8, decode cfg f.bytes = .ok image ∧ decode cfg f'.bytes = .ok image' ∧
      ∀ y x, y < 16 → x < 16 → ∃ r g b v, GreyOf r g b v ∧ image[48 * y + 3 * x]? = some r ∧
        image[48 * y + (3 * x + 1)]? = some g ∧ image[48 * y + (3 * x + 2)]? = some b ∧
        image'[48 * y + 3 * x]? = some v ∧ image'[48 * y + (3 * x + 1)]? = some v ∧ image'[48 * y + (3 * x + 2)]? = some v := by
  have hq : GoodTable (List.replicate 64 1) := ⟨by decide, by decide⟩
  have ha : ∀ m ∈ [leanMcu, paleMcu], Arranged quarterComps 16 16 2 2 [m] := by
    intro m hm
    refine ⟨by decide, by decide, by decide, by decide, by decide, ⟨by decide, by decide⟩, ⟨by decide, by decide⟩,
      by decide, by decide, by decide, rfl, ?_⟩
    intro m' hm'
    simp only [List.mem_cons, List.not_mem_nil, or_false] at hm hm'
    subst hm'
    rcases hm with rfl | rfl <;> rfl
  obtain ⟨data, hv⟩ := codedFile_valid hq (ha leanMcu (by simp)) (by decide +kernel)
  obtain ⟨data', hv'⟩ := codedFile_valid hq (ha paleMcu (by simp)) (by decide +kernel)
  have hr : ∀ m d, (leanFile m d).Renderable 2 2 := by
    intro m d
    have hx : (leanFile m d).x = 16 := rfl
    have hy : (leanFile m d).y = 16 := rfl
    unfold BaselineFile.Renderable
    rw [hx, hy, show (leanFile m d).comps = quarterComps from rfl]
    decide
  have hin : (leanFile leanMcu data).InRange := codedFile_inRange (by decide) (by decide +kernel)
  have hl : Colourless (leanFile leanMcu data) (leanFile paleMcu data') := by
    refine ⟨rfl, rfl, ⟨_, _, rfl, rfl, rfl, rfl, rfl⟩, .cons ⟨rfl, ?_⟩ .nil⟩
    have hz : ZeroBlock (dcBlock 0) := ⟨rfl, by decide⟩
    intro i hi bs hbs b hb
    match i with
    | 0 => exact absurd rfl hi
    | 1 => cases hbs; rw [List.mem_singleton] at hb; subst hb; exact hz
    | 2 => cases hbs; rw [List.mem_singleton] at hb; subst hb; exact hz
    | i + 3 => cases hbs
  refine ⟨_, _, _, hl, hv, hv', ?_⟩
  intro cfg
  obtain ⟨image, image', e₁, e₂, h1, h2, -, -, h⟩ := C95_grey cfg _ _ hl 2 2 _ _ Decoder.default
    Decoder.default .new .new (.nothing _) (.nothing _) rfl rfl (by show (none : Option Nat) ≠ some 0; decide)
    (by show (none : Option Nat) ≠ some 0; decide) hv hv' (hr _ _) (hr _ _) (InRange.moderately hin)
  exact ⟨image, image', by unfold decode; rw [h1], by unfold decode; rw [h2], h⟩

end Jpeg
