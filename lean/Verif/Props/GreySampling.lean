import Verif.Props.Colourless
import Verif.Props.Joined
import Verif.Props.FlipTall
import Verif.Props.Requantised
import Verif.Spec.GreySampling
/-!
# C105: pictures without colour whatever the subsampling of the colour
-/

namespace Jpeg
open Spec Sample

section

variable {f f' : BaselineFile} {H V H' V' : Nat}

theorem Spec.Achromatic.colourless (h : Achromatic f) {c : FileComponent} (hc : f.comps[0]? = some c) : Colourless f f :=
  ⟨rfl, rfl, ⟨c, c, hc, hc, rfl, rfl, rfl⟩, List.forall₂_same.2 fun m hm => ⟨rfl, h m hm⟩⟩

theorem aroundSample_grey (hf : SameGrey f f' H V H' V') {row x : Nat} (hrow : row < f.y) (hx : x < f.x) :
    f'.aroundSample H' V' 0 row x = f.aroundSample H V 0 row x := by
  obtain ⟨c, c', q, q', hc, hc', hq, hq', ⟨rfl, rfl⟩, ⟨rfl, rfl⟩, hb⟩ := hf.luminance
  obtain ⟨b, b', e, e', hd⟩ := hb row x hrow hx
  unfold BaselineFile.aroundSample
  rw [hc, hc']
  simp only
  unfold upsampled
  rw [if_pos ⟨.inl rfl, .inl rfl⟩, if_pos ⟨.inl rfl, .inl rfl⟩]
  unfold BaselineFile.value
  rw [hc, hc']
  simp only [e, e', hq, hq']
  rw [idctSample_congr hd]

end

/-- **C105** (part). Two files of the same picture without colour, whose chrominance is subsampled differently in
the horizontal direction only, give the same image; whatever the tables, the way the files are written, the decoders
and the build.

Missing: a different subsampling in the vertical direction, see `C105_grey_violated`. -/
theorem C105_grey_partial (cfg : Cfg) (f f' : BaselineFile) (H H' V : Nat) (hf : SameGrey f f' H V H' V)
    (codes codes' : List (Code × Code)) (d₁ d₂ : Decoder) (hd₁ : UsedDecoder d₁) (hd₂ : UsedDecoder d₂)
    (hh₁ : Holds cfg d₁ f.earlier) (hh₂ : Holds cfg d₂ f'.earlier) (h3 : f.comps.length = 3) (h3' : f'.comps.length = 3)
    (hct₁ : f.transform d₁.transform ≠ some 0) (hct₂ : f'.transform d₂.transform ≠ some 0)
    (hv₁ : f.Valid (f.interval d₁.restartInterval) H V codes) (hv₂ : f'.Valid (f'.interval d₂.restartInterval) H' V codes')
    (hr₁ : f.Renderable H V) (hr₂ : f'.Renderable H' V) (hin : f.Moderately) (hin' : f'.Moderately) :
    ∃ image e₁ e₂, d₁.decode cfg f.bytes = .ok image e₁ ∧ d₂.decode cfg f'.bytes = .ok image e₂ := by
  obtain ⟨image, e₁, a1, a2, p⟩ := C90_reduced cfg f H V codes d₁ hd₁ hh₁ h3 hct₁ hv₁ hr₁ hin
  obtain ⟨image', e₂, b1, b2, p'⟩ := C90_reduced cfg f' H' V codes' d₂ hd₂ hh₂ h3' hct₂ hv₂ hr₂ hin'
  obtain ⟨c, c', -, -, hc, hc', -⟩ := hf.luminance
  have z := hf.zero.colourless hc
  have z' := hf.zero'.colourless hc'
  have : image' = image := by
    refine images_ext (X := f.x) (Y := f.y) (n := 3) (by rw [b2, hf.x, hf.y]) a2 ?_
    intro y x hy hx
    obtain ⟨r, g, b, q, p0, p1, p2⟩ := p y x hy hx
    obtain ⟨r', g', b', q', p0', p1', p2'⟩ := p' y x (hf.y ▸ hy) (hf.x ▸ hx)
    rw [← hf.x] at p0' p1' p2'
    have hrow : (if cfg.rayon then y / V else y / V * V) < f.y := row_lt hy
    simp only at q q'
    rw [aroundSample_zero hv₁.toLaid hr₁ z (i := 1) (by decide) (by omega) hrow hx,
      aroundSample_zero hv₁.toLaid hr₁ z (i := 2) (by decide) (by omega) hrow hx, show UInt8.ofNat 128 = 128 from rfl, C27_grey] at q
    rw [aroundSample_grey hf hrow hx,
      aroundSample_zero hv₂.toLaid hr₂ z' (i := 1) (by decide) (by omega) (hf.y ▸ hrow) (hf.x ▸ hx),
      aroundSample_zero hv₂.toLaid hr₂ z' (i := 2) (by decide) (by omega) (hf.y ▸ hrow) (hf.x ▸ hx),
      show UInt8.ofNat 128 = 128 from rfl, C27_grey] at q'
    cases q
    cases q'
    intro j hj
    rcases (by omega : j = 0 ∨ j = 1 ∨ j = 2) with rfl | rfl | rfl
    · rw [Nat.add_zero, p0, p0']
    · rw [p1, p1']
    · rw [p2, p2']
  subst this
  exact ⟨image', e₁, e₂, a1, b1⟩

theorem zeroBlock_dc : ZeroBlock (dcBlock 0) := ⟨rfl, by decide⟩

/-- Chrominance of zeros. -/
theorem achromatic_coded {q : List Nat} {comps : List FileComponent} {x y : Nat} {ms : List Mcu} {data : List UInt8}
    (h : ∀ m ∈ ms, ∃ bs, m = [bs, [dcBlock 0], [dcBlock 0]]) : Achromatic (codedFile q comps x y ms data) := by
  intro m hm i hi bs hbs b hb
  obtain ⟨ls, rfl⟩ := h m (by simpa [codedFile] using hm)
  match i with
  | 0 => exact absurd rfl hi
  | 1 => cases hbs; rw [List.mem_singleton] at hb; subst hb; exact zeroBlock_dc
  | 2 => cases hbs; rw [List.mem_singleton] at hb; subst hb; exact zeroBlock_dc
  | i + 3 => cases hbs

/-- A case of C105: 16 by 7 pixels with half and with all columns of chrominance. -/
example : ∃ f f' codes, SameGrey f f' 2 1 1 1 ∧ f.Valid 0 2 1 codes ∧ f'.Valid 0 1 1 codes ∧ ∀ cfg, ∃ image : List UInt8,
    decode cfg f.bytes = .ok image ∧ decode cfg f'.bytes = .ok image := by
  have hq : GoodTable (List.replicate 64 1) := ⟨by decide, by decide⟩
  obtain ⟨d₁, v₁⟩ := codedFile_valid hq (comps := halfComps) (x := 16) (y := 7) (H := 2) (V := 1)
    (mcus := [[[slopeBlock 64, leanBlock 3], [dcBlock 0], [dcBlock 0]]])
    ⟨by decide, by decide, by decide, by decide, by decide, ⟨by decide, by decide⟩, ⟨by decide, by decide⟩, by decide,
      by decide, by decide, by decide, by decide⟩ (by decide +kernel)
  obtain ⟨d₂, v₂⟩ := codedFile_valid hq (comps := fullComps) (x := 16) (y := 7) (H := 1) (V := 1)
    (mcus := [[[slopeBlock 64], [dcBlock 0], [dcBlock 0]], [[leanBlock 3], [dcBlock 0], [dcBlock 0]]])
    ⟨by decide, by decide, by decide, by decide, by decide, ⟨by decide, by decide⟩, ⟨by decide, by decide⟩, by decide,
      by decide, by decide, by decide, by decide⟩ (by decide +kernel)
  have hs : SameGrey (codedFile (List.replicate 64 1) halfComps 16 7 [[[slopeBlock 64, leanBlock 3], [dcBlock 0], [dcBlock 0]]] d₁)
      (codedFile (List.replicate 64 1) fullComps 16 7
        [[[slopeBlock 64], [dcBlock 0], [dcBlock 0]], [[leanBlock 3], [dcBlock 0], [dcBlock 0]]] d₂) 2 1 1 1 := by
    refine ⟨rfl, rfl, achromatic_coded (by simp), achromatic_coded (by simp), _, _, List.replicate 64 1, List.replicate 64 1,
      rfl, rfl, rfl, rfl, ⟨rfl, rfl⟩, ⟨rfl, rfl⟩, ?_⟩
    intro Y X hY hX
    change Y < 7 at hY
    change X < 16 at hX
    have eY : Y / 8 = 0 := by omega
    unfold BaselineFile.blockAt
    rw [eY]
    rcases (by omega : X / 8 = 0 ∨ X / 8 = 1) with e | e
    · rw [e]; exact ⟨slopeBlock 64, _, by simp [codedFile, ceilDiv], by simp [codedFile, ceilDiv], fun _ _ _ _ => rfl⟩
    · rw [e]; exact ⟨leanBlock 3, _, by simp [codedFile, ceilDiv], by simp [codedFile, ceilDiv], fun _ _ _ _ => rfl⟩
  have hr : ∀ d, (codedFile (List.replicate 64 1) halfComps 16 7 [[[slopeBlock 64, leanBlock 3], [dcBlock 0], [dcBlock 0]]]
      d).Renderable 2 1 := fun d => by
    change ∀ c ∈ halfComps, 2 % c.h = 0 ∧ 1 % c.v = 0 ∧
      (2 * c.h = 2 → (c.v = 1 ∨ 7 = 1) → 16 ≠ 1 → 16 % 2 = 0 ∧ (1 = 1 → 7 % 8 = 0 → 16 ≤ 8 * c.h)) ∧
      (¬ ((c.h = 2 ∨ 16 = 1 ∨ 2 * c.h = 2) ∧ (c.v = 1 ∨ 7 = 1 ∨ 2 * c.v = 1)) → 16 % (2 / c.h) = 0)
    decide
  refine ⟨_, _, _, hs, v₁, v₂, ?_⟩
  intro cfg
  obtain ⟨image, e₁, e₂, h1, h2⟩ := C105_grey_partial cfg _ _ 2 1 1 hs _ _ Decoder.default
    Decoder.default .new .new (.nothing _) (.nothing _) rfl rfl (by show (none : Option Nat) ≠ some 0; decide)
    (by show (none : Option Nat) ≠ some 0; decide) v₁ v₂ (hr _) (renderable_one v₂.toLaid.ones)
    (InRange.moderately (codedFile_inRange (by decide) (by decide +kernel)))
    (InRange.moderately (codedFile_inRange (by decide) (by decide +kernel)))
  exact ⟨image, by unfold decode; rw [h1], by unfold decode; rw [h2]⟩

/-- The picture of `slopeMcu` with all lines of chrominance. -/
def slopeFull (data : List UInt8) : BaselineFile := codedFile (List.replicate 64 1) fullComps 8 16
  [[[slopeBlock 64], [dcBlock 0], [dcBlock 0]], [[slopeBlock 0], [dcBlock 0], [dcBlock 0]]] data

theorem slopeFull_row : ∀ i < 3, (slopeFull []).upsampledSample 1 1 i 15 0 = if i = 0 then 119 else 128 := by
  decide +kernel

theorem slope_sameGrey (data data' : List UInt8) : SameGrey (slopeFile slopeMcu data) (slopeFull data') 1 2 1 1 := by
  refine ⟨rfl, rfl, achromatic_coded (by simp [slopeMcu]), achromatic_coded (by simp), _, _, List.replicate 64 1,
    List.replicate 64 1, rfl, rfl, rfl, rfl, ⟨rfl, rfl⟩, ⟨rfl, rfl⟩, ?_⟩
  intro Y X hY hX
  change Y < 16 at hY
  change X < 8 at hX
  have eX : X / 8 = 0 := by omega
  unfold BaselineFile.blockAt
  rw [eX]
  rcases (by omega : Y / 8 = 0 ∨ Y / 8 = 1) with e | e
  · rw [e]; exact ⟨slopeBlock 64, _, by simp [codedFile, slopeFile, slopeMcu, ceilDiv], by simp [codedFile, slopeFull, ceilDiv], fun _ _ _ _ => rfl⟩
  · rw [e]; exact ⟨slopeBlock 0, _, by simp [codedFile, slopeFile, slopeMcu, ceilDiv], by simp [codedFile, slopeFull, ceilDiv], fun _ _ _ _ => rfl⟩

/-- **C105** (violated with vertical subsampling). A grey picture of 8 by 16 pixels, once with half and once with all
lines of chrominance: the first pixel of the last line is 121 (127 with rayon) in the one and 119 in the other. -/
theorem C105_grey_violated : ∃ (f f' : BaselineFile) (codes : List (Code × Code)), SameGrey f f' 1 2 1 1 ∧
    f.comps.length = 3 ∧ f'.comps.length = 3 ∧ f.Valid 0 1 2 codes ∧ f'.Valid 0 1 1 codes ∧ f.InRange ∧ f'.InRange ∧
    f.Renderable 1 2 ∧ f'.Renderable 1 1 ∧ f.x = 8 ∧ f.y = 16 ∧
    ∀ cfg, ∃ image image' : List UInt8, decode cfg f.bytes = .ok image ∧ decode cfg f'.bytes = .ok image' ∧
      image[3 * f.x * 15]? = some (if cfg.rayon then 127 else 121) ∧ image'[3 * f.x * 15]? = some 119 := by
  have hq : GoodTable (List.replicate 64 1) := ⟨by decide, by decide⟩
  obtain ⟨data, hv⟩ := codedFile_valid hq (comps := tallComps) (x := 8) (y := 16) (H := 1) (V := 2) (mcus := [slopeMcu])
    ⟨by decide, by decide, by decide, by decide, by decide, ⟨by decide, by decide⟩, ⟨by decide, by decide⟩, by decide,
      by decide, by decide, by decide, by decide⟩ (by decide +kernel)
  obtain ⟨data', hv'⟩ := codedFile_valid hq (comps := fullComps) (x := 8) (y := 16) (H := 1) (V := 1)
    (mcus := [[[slopeBlock 64], [dcBlock 0], [dcBlock 0]], [[slopeBlock 0], [dcBlock 0], [dcBlock 0]]])
    ⟨by decide, by decide, by decide, by decide, by decide, ⟨by decide, by decide⟩, ⟨by decide, by decide⟩, by decide,
      by decide, by decide, by decide, by decide⟩ (by decide +kernel)
  have hr : (slopeFile slopeMcu data).Renderable 1 2 := by
    change ∀ c ∈ tallComps, 1 % c.h = 0 ∧ 2 % c.v = 0 ∧
      (2 * c.h = 1 → (c.v = 2 ∨ 16 = 1) → 8 ≠ 1 → 8 % 2 = 0 ∧ (2 = 1 → 16 % 8 = 0 → 8 ≤ 8 * c.h)) ∧
      (¬ ((c.h = 1 ∨ 8 = 1 ∨ 2 * c.h = 1) ∧ (c.v = 2 ∨ 16 = 1 ∨ 2 * c.v = 2)) → 8 % (1 / c.h) = 0)
    decide
  have hr' : (slopeFull data').Renderable 1 1 := renderable_one hv'.toLaid.ones
  have hin : (slopeFile slopeMcu data).InRange := codedFile_inRange (by decide) (by decide +kernel)
  have hin' : (slopeFull data').InRange := codedFile_inRange (by decide) (by decide +kernel)
  refine ⟨slopeFile slopeMcu data, slopeFull data', _, slope_sameGrey _ _, rfl, rfl, hv, hv', hin, hin', hr, hr', rfl, rfl, ?_⟩
  intro cfg
  have key : ∀ s row, (if cfg.rayon then 15 / 2 else 15 / 2 * 2) = row →
      (∀ i < 3, (slopeFile slopeMcu []).upsampledSample 1 2 i row 0 = if i = 0 then s else 128) →
      ∃ image : List UInt8, decode cfg (slopeFile slopeMcu data).bytes = .ok image ∧
        image[3 * 8 * 15]? = some (UInt8.ofNat s) := by
    intro s row hrow hs
    obtain ⟨image, d', e, -⟩ := C45_decodes cfg (slopeFile slopeMcu data) 1 2 _ Decoder.default .new (.nothing _) rfl (by
      show (none : Option Nat) ≠ some 0; decide) hv hr
    obtain ⟨r, g, b, h, p0, -, -⟩ := C45_pixels_partial cfg (slopeFile slopeMcu data) 1 2 _ Decoder.default .new (.nothing _) rfl
      (by show (none : Option Nat) ≠ some 0; decide) hv hr hin image d' e 15 0 (by show 15 < 16; decide) (by show 0 < 8; decide)
    refine ⟨image, by unfold decode; rw [e], ?_⟩
    have hu : ∀ i row, (slopeFile slopeMcu data).upsampledSample 1 2 i row 0 =
      (slopeFile slopeMcu []).upsampledSample 1 2 i row 0 := fun i row => rfl
    simp only [hrow, hu, hs 0 (by decide), hs 1 (by decide), hs 2 (by decide)] at h
    cases (C27_grey (UInt8.ofNat s)).symm.trans h
    exact p0
  have other : ∃ image' : List UInt8, decode cfg (slopeFull data').bytes = .ok image' ∧ image'[3 * 8 * 15]? = some 119 := by
    obtain ⟨image, d', e, -⟩ := C45_decodes cfg (slopeFull data') 1 1 _ Decoder.default .new (.nothing _) rfl (by
      show (none : Option Nat) ≠ some 0; decide) hv' hr'
    obtain ⟨r, g, b, h, p0, -, -⟩ := C45_pixels_own_row_partial cfg (slopeFull data') 1 _ Decoder.default .new (.nothing _) rfl
      (by show (none : Option Nat) ≠ some 0; decide) hv' hr' hin' image d' e 15 0 (by show 15 < 16; decide) (by show 0 < 8; decide)
    refine ⟨image, by unfold decode; rw [e], ?_⟩
    have hu : ∀ i row, (slopeFull data').upsampledSample 1 1 i row 0 = (slopeFull []).upsampledSample 1 1 i row 0 :=
      fun i row => rfl
    simp only [hu, slopeFull_row 0 (by decide), slopeFull_row 1 (by decide), slopeFull_row 2 (by decide)] at h
    cases (C27_grey (UInt8.ofNat 119)).symm.trans h
    exact p0
  obtain ⟨s1, s2, -⟩ := slope_rows
  obtain ⟨image', e2, p2⟩ := other
  cases hray : cfg.rayon with
  | false =>
    obtain ⟨image, e1, p1⟩ := key 121 14 (by rw [hray]; rfl) s1
    exact ⟨image, image', e1, e2, p1, p2⟩
  | true =>
    obtain ⟨image, e1, p1⟩ := key 127 7 (by rw [hray]; rfl) s2
    exact ⟨image, image', e1, e2, p1, p2⟩

end Jpeg
