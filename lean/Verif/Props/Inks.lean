import Verif.Spec.Inks
import Verif.Props.Channels
/-!
# C109: inks exchanged without decoding
-/

namespace Jpeg
open Spec Sample

section

variable {f f' : BaselineFile} {H V : Nat} {S : List Nat → BlockData → Nat → Nat → UInt8}

theorem sample_ink {i j : Nat} (hs : SameInk f f' i j) (hx : f.x = f'.x) (Y X : Nat) :
    sampleBy S f H i Y X = sampleBy S f' H j Y X := by
  obtain ⟨c, c', h1, h2, hh, hv, hq⟩ := hs.comp
  have : f'.blockAt H j c' Y X = f.blockAt H i c Y X := by
    unfold BaselineFile.blockAt
    rw [← hx, ← hh, ← hv]
    rcases forall₂_get hs.mcus (Y / 8 / c.v * ceilDiv f.x (8 * H) + X / 8 / c.h) with ⟨h1, h2⟩ | ⟨m, m', h1, h2, h⟩
    · rw [h1, h2]; rfl
    · rw [h1, h2, Option.bind_some, Option.bind_some, h]
  unfold sampleBy
  rw [h1, h2]
  simp only [this, hq]

theorem upsampled_ink {i j : Nat} (hs : SameInk f f' i j) (hx : f.x = f'.x) (hy : f.y = f'.y) (row col : Nat) :
    upsampledBy S f H V i row col = upsampledBy S f' H V j row col := by
  obtain ⟨c, c', h1, h2, hh, hv, hq⟩ := hs.comp
  unfold upsampledBy
  rw [h1, h2]
  simp only [← hh, ← hv, ← hx, ← hy, sample_ink hs hx]

end

/-- **C109**. Two CMYK pictures of the same size: if component `j` of the second is component `i` of the first, byte `j` of
the pixels of the second image is byte `i` of those of the first; whatever the other components, the coefficients, the
subsampling, the way the files are written, the decoders and the build. -/
theorem C109_inks (cfg : Cfg) (f f' : BaselineFile) (hx : f.x = f'.x) (hy : f.y = f'.y) (H V : Nat)
    (codes codes' : List (Code × Code)) (d₁ d₂ : Decoder)
    (hd₁ : UsedDecoder d₁) (hd₂ : UsedDecoder d₂) (hh₁ : Holds cfg d₁ f.earlier) (hh₂ : Holds cfg d₂ f'.earlier)
    (h4 : f.comps.length = 4) (h4' : f'.comps.length = 4)
    (hct₁ : f.transform d₁.transform = some 0) (hct₂ : f'.transform d₂.transform = some 0)
    (hv₁ : f.Valid (f.interval d₁.restartInterval) H V codes) (hv₂ : f'.Valid (f'.interval d₂.restartInterval) H V codes')
    (hr₁ : f.Renderable H V) (hr₂ : f'.Renderable H V) :
    ∃ image image' e₁ e₂, d₁.decode cfg f.bytes = .ok image e₁ ∧ d₂.decode cfg f'.bytes = .ok image' e₂ ∧
      image.length = f.x * f.y * 4 ∧ image'.length = f.x * f.y * 4 ∧
      ∀ i j, i < 4 → j < 4 → SameInk f f' i j → ∀ y x, y < f.y → x < f.x → ∃ v,
        image[4 * f.x * y + (4 * x + i)]? = some v ∧ image'[4 * f.x * y + (4 * x + j)]? = some v := by
  obtain ⟨image, e₁, a1, a2⟩ := C54_decodes cfg f H V codes d₁ hd₁ hh₁ h4 hct₁ hv₁ hr₁
  obtain ⟨image', e₂, b1, b2⟩ := C54_decodes cfg f' H V codes' d₂ hd₂ hh₂ h4' hct₂ hv₂ hr₂
  refine ⟨image, image', e₁, e₂, a1, b1, a2, by rw [b2, hx, hy], ?_⟩
  intro i j hi hj hs y x hy0 hx0
  have p := cmyk_pixels hd₁ hh₁ h4 hct₁ hv₁ hr₁ (givenBy_blockwise f) a1 hy0 hx0 hi
  have p' := cmyk_pixels hd₂ hh₂ h4' hct₂ hv₂ hr₂ (givenBy_blockwise f') b1 (hy ▸ hy0) (hx ▸ hx0) hj
  rw [← hx] at p'
  simp only [upsampled_ink hs hx hy] at p
  exact ⟨_, p, p'⟩

/-- Four inks of one block each, in the order `a`. -/
def inksFile (a : List BlockData) (data : List UInt8) : BaselineFile :=
  withAdobe 0 (codedFile (List.replicate 64 8) inkComps 8 8 [a.map fun b => [b]] data)

/-- Inks in two orders. -/
def inksA : List BlockData := [leanBlock 1, dcBlock 20, leanBlock (-40), dcBlock 900]
@[inherit_doc inksA]
def inksB : List BlockData := [dcBlock 900, leanBlock 1, dcBlock 20, leanBlock (-40)]

theorem inks_same {a b : List BlockData} {i j : Nat} {data data' : List UInt8} (hi : i < 4) (hj : j < 4) (h : a[i]? = b[j]?) :
    SameInk (inksFile a data) (inksFile b data') i j := by
  constructor
  · refine ⟨inkComps[i]'hi, inkComps[j]'hj, List.getElem?_eq_getElem hi, List.getElem?_eq_getElem hj, ?_⟩
    have : ∀ i, i < 4 → ∀ h, (inkComps[i]'h).h = 1 ∧ (inkComps[i]'h).v = 1 ∧ (inkComps[i]'h).tq = 0 := by decide
    obtain ⟨a1, a2, a3⟩ := this i hi hi
    obtain ⟨b1, b2, b3⟩ := this j hj hj
    refine ⟨by rw [a1, b1], by rw [a2, b2], ?_⟩
    unfold inksFile
    rw [withAdobe_quantOf, withAdobe_quantOf, codedFile_quantOf _ _ _ _ _ _ _ a3, codedFile_quantOf _ _ _ _ _ _ _ b3]
  · refine .cons ?_ .nil
    rw [List.getElem?_map, List.getElem?_map, h]

/-- A case of C109: the last ink put in front. -/
example : ∃ f f' : BaselineFile, ∀ cfg, ∃ image image' : List UInt8,
    decode cfg f.bytes = .ok image ∧ decode cfg f'.bytes = .ok image' ∧
    ∀ y x i, y < 8 → x < 8 → i < 4 → ∃ v, image[32 * y + (4 * x + i)]? = some v ∧
      image'[32 * y + (4 * x + (i + 1) % 4)]? = some v := by
  have hq : GoodTable (List.replicate 64 8) := ⟨by decide, by decide⟩
  obtain ⟨data, hv⟩ := codedFile_valid hq (comps := inkComps) (x := 8) (y := 8) (H := 1) (V := 1) (mcus := [inksA.map fun b => [b]])
    ⟨by decide, by decide, by decide, by decide, by decide, ⟨by decide, by decide⟩, ⟨by decide, by decide⟩, by decide,
      by decide, by decide, by decide, by decide⟩ (by decide +kernel)
  obtain ⟨data', hv'⟩ := codedFile_valid hq (comps := inkComps) (x := 8) (y := 8) (H := 1) (V := 1) (mcus := [inksB.map fun b => [b]])
    ⟨by decide, by decide, by decide, by decide, by decide, ⟨by decide, by decide⟩, ⟨by decide, by decide⟩, by decide,
      by decide, by decide, by decide, by decide⟩ (by decide +kernel)
  replace hv : (inksFile inksA data).Valid _ _ _ _ := withAdobe_valid (t := 0) (by decide) hv
  replace hv' : (inksFile inksB data').Valid _ _ _ _ := withAdobe_valid (t := 0) (by decide) hv'
  refine ⟨inksFile inksA data, inksFile inksB data', fun cfg => ?_⟩
  obtain ⟨image, image', e, e', h, h', -, -, p⟩ := C109_inks cfg (inksFile inksA data) (inksFile inksB data') rfl rfl 1 1 _ _
    Decoder.default Decoder.default .new .new (.nothing _) (.nothing _) rfl rfl rfl rfl hv hv' (renderable_one hv.toLaid.ones)
    (renderable_one hv'.toLaid.ones)
  refine ⟨image, image', by unfold decode; rw [h], by unfold decode; rw [h'], ?_⟩
  intro y x i hy hx hi
  refine p i ((i + 1) % 4) hi (by omega) (inks_same hi (by omega) ?_) y x hy hx
  rcases (by omega : i = 0 ∨ i = 1 ∨ i = 2 ∨ i = 3) with rfl | rfl | rfl | rfl <;> rfl

end Jpeg
