import Verif.Props.Flip
/-!
# C88: upside down with vertical subsampling
-/

namespace Jpeg
open Spec Sample

/-- A block that gets darker downwards. -/
def slopeBlock (dc : Int) : BlockData := ⟨dc, [0, 50] ++ List.replicate 61 0⟩

/-- One MCU with two luminance blocks, one above the other. -/
def slopeMcu : Mcu := [[slopeBlock 64, slopeBlock 0], [dcBlock 0], [dcBlock 0]]

/-- The same upside down. -/
def slopeFlipped : Mcu := [[flipBlock (slopeBlock 0), flipBlock (slopeBlock 64)], [flipBlock (dcBlock 0)], [flipBlock (dcBlock 0)]]

/-- A picture of one such MCU. -/
def slopeFile (m : Mcu) (data : List UInt8) : BaselineFile := codedFile (List.replicate 64 1) tallComps 8 16 [m] data

theorem slope_rows : (∀ i < 3, (slopeFile slopeMcu []).upsampledSample 1 2 i 14 0 = if i = 0 then 121 else 128) ∧
    (∀ i < 3, (slopeFile slopeMcu []).upsampledSample 1 2 i 7 0 = if i = 0 then 127 else 128) ∧
    (∀ i < 3, (slopeFile slopeFlipped []).upsampledSample 1 2 i 0 0 = if i = 0 then 119 else 128) := by
  refine ⟨?_, ?_, ?_⟩ <;> decide +kernel

theorem slope_flipped (data data' : List UInt8) : FlippedTall (slopeFile slopeMcu data) (slopeFile slopeFlipped data') 1 2 := by
  refine ⟨.cons ⟨rfl, rfl, rfl⟩ (.cons ⟨rfl, rfl, rfl⟩ (.cons ⟨rfl, rfl, rfl⟩ .nil)), rfl, rfl,
    by show 16 % (8 * 2) = 0; decide, ?_⟩
  intro R C hR hC
  have hR' : R < 1 := by change R < 16 / (8 * 2) at hR; omega
  have hC' : C < 1 := by change C < ceilDiv 8 (8 * 1) at hC; simpa [ceilDiv] using hC
  obtain rfl : R = 0 := by omega
  obtain rfl : C = 0 := by omega
  intro i c hc r k hr hk
  have e : (slopeFile slopeMcu data).mcuAt 1 ((slopeFile slopeMcu data).y / (8 * 2) - 1 - 0) 0 = some slopeMcu := by
    simp [BaselineFile.mcuAt, slopeFile, codedFile, ceilDiv]
  have e' : (slopeFile slopeFlipped data').mcuAt 1 0 0 = some slopeFlipped := by
    simp [BaselineFile.mcuAt, slopeFile, codedFile, ceilDiv]
  unfold BaselineFile.mcuBlock
  rw [e, e']
  change tallComps[i]? = some c at hc
  match i with
  | 0 =>
    cases hc
    change r < 2 at hr
    change k < 1 at hk
    obtain rfl : k = 0 := by omega
    rcases (by omega : r = 0 ∨ r = 1) with rfl | rfl <;> rfl
  | 1 | 2 =>
    cases hc
    change r < 1 at hr
    change k < 1 at hk
    obtain rfl : k = 0 := by omega
    obtain rfl : r = 0 := by omega
    rfl
  | i + 3 => cases hc

/-- **C88** (violated with vertical subsampling). A picture of 8 by 16 pixels with half of the chrominance lines, and the
same upside down: the first pixel of the first line of the one is 119, that of the last line of the other 121 (127 with
rayon). -/
theorem C88_flip_subsampled_violated : ∃ (f f' : BaselineFile) (codes : List (Code × Code)), FlippedTall f f' 1 2 ∧
    f.comps.length = 3 ∧ f.Valid 0 1 2 codes ∧ f'.Valid 0 1 2 codes ∧ f.InRange ∧ f'.InRange ∧ f.Renderable 1 2 ∧
    f.x = 8 ∧ f.y = 16 ∧
    ∀ cfg, ∃ image image' : List UInt8, decode cfg f.bytes = .ok image ∧ decode cfg f'.bytes = .ok image' ∧
      image[3 * f.x * (f.y - 1 - 0)]? = some (if cfg.rayon then 127 else 121) ∧ image'[3 * f.x * 0]? = some 119 := by
  have hq : GoodTable (List.replicate 64 1) := ⟨by decide, by decide⟩
  have ha : ∀ m ∈ [slopeMcu, slopeFlipped], Arranged tallComps 8 16 1 2 [m] := by
    intro m hm
    refine ⟨by decide, by decide, by decide, by decide, by decide, ⟨by decide, by decide⟩, ⟨by decide, by decide⟩,
      by decide, by decide, by decide, rfl, ?_⟩
    intro m' hm'
    simp only [List.mem_cons, List.not_mem_nil, or_false] at hm hm'
    subst hm'
    rcases hm with rfl | rfl <;> rfl
  obtain ⟨data, hv⟩ := codedFile_valid hq (ha slopeMcu (by simp)) (by decide +kernel)
  obtain ⟨data', hv'⟩ := codedFile_valid hq (ha slopeFlipped (by simp)) (by decide +kernel)
  have hr : ∀ m d, (slopeFile m d).Renderable 1 2 := by
    intro m d
    have hx : (slopeFile m d).x = 8 := rfl
    have hy : (slopeFile m d).y = 16 := rfl
    unfold BaselineFile.Renderable
    rw [hx, hy, show (slopeFile m d).comps = tallComps from rfl]
    decide
  have hin : (slopeFile slopeMcu data).InRange := codedFile_inRange (by decide) (by decide +kernel)
  have hin' : (slopeFile slopeFlipped data').InRange := codedFile_inRange (by decide) (by decide +kernel)
  refine ⟨slopeFile slopeMcu data, slopeFile slopeFlipped data', _, slope_flipped _ _, rfl, hv, hv', hin, hin', hr _ _,
    rfl, rfl, ?_⟩
  intro cfg
  have key : ∀ (m : Mcu) (d : List UInt8) (y s row : Nat), y < 16 → (if cfg.rayon then y / 2 else y / 2 * 2) = row →
      (slopeFile m d).Valid 0 1 2 (List.replicate tallComps.length (dcK3, acK5)) → (slopeFile m d).InRange →
      (∀ i < 3, (slopeFile m []).upsampledSample 1 2 i row 0 = if i = 0 then s else 128) →
      ∃ image : List UInt8, decode cfg (slopeFile m d).bytes = .ok image ∧ image[3 * 8 * y + 3 * 0]? = some (UInt8.ofNat s) := by
    intro m d y s row hy hrow hv hin hs
    obtain ⟨image, d', e, -⟩ := C45_decodes cfg (slopeFile m d) 1 2 _ Decoder.default .new (.nothing _) rfl (by
      show (none : Option Nat) ≠ some 0; decide) hv (hr _ _)
    obtain ⟨r, g, b, h, p0, -, -⟩ := C45_pixels_partial cfg (slopeFile m d) 1 2 _ Decoder.default .new (.nothing _) rfl (by
      show (none : Option Nat) ≠ some 0; decide) hv (hr _ _) hin image d' e y 0 hy (by show 0 < 8; decide)
    refine ⟨image, by unfold decode; rw [e], ?_⟩
    have hu : ∀ i row, (slopeFile m d).upsampledSample 1 2 i row 0 = (slopeFile m []).upsampledSample 1 2 i row 0 :=
      fun i row => rfl
    simp only [hrow, hu, hs 0 (by decide), hs 1 (by decide), hs 2 (by decide)] at h
    cases (C27_grey (UInt8.ofNat s)).symm.trans h
    exact p0
  obtain ⟨s1, s2, s3⟩ := slope_rows
  obtain ⟨image', e2, p2⟩ := key slopeFlipped data' 0 119 0 (by decide) (by simp) hv' hin' s3
  cases hray : cfg.rayon with
  | false =>
    obtain ⟨image, e1, p1⟩ := key slopeMcu data 15 121 14 (by decide) (by rw [hray]; rfl) hv hin s1
    exact ⟨image, image', e1, e2, p1, p2⟩
  | true =>
    obtain ⟨image, e1, p1⟩ := key slopeMcu data 15 127 7 (by decide) (by rw [hray]; rfl) hv hin s2
    exact ⟨image, image', e1, e2, p1, p2⟩

end Jpeg
