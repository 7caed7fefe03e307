import Verif.Spec.OneComponent
import Verif.Props.Lightened
/-!
# C98: which components of a file act on which bytes of a pixel
-/

namespace Jpeg
open Spec Sample

section

variable {f f' : BaselineFile} {H V : Nat} {S : List Nat → BlockData → Nat → Nat → UInt8}

theorem sample_common {i : Nat} (hs : SameComponent f f' i) (hx : f.x = f'.x) (Y X : Nat) :
    sampleBy S f H i Y X = sampleBy S f' H i Y X := by
  obtain ⟨c, c', h1, h2, hh, hv, hq⟩ := hs.comp
  have : f'.blockAt H i c' Y X = f.blockAt H i c Y X := by
    unfold BaselineFile.blockAt
    rw [← hx, ← hh, ← hv]
    rcases forall₂_get hs.mcus (Y / 8 / c.v * ceilDiv f.x (8 * H) + X / 8 / c.h) with ⟨h1, h2⟩ | ⟨m, m', h1, h2, h⟩
    · rw [h1, h2]
    · rw [h1, h2, Option.bind_some, Option.bind_some, h]
  unfold sampleBy
  rw [h1, h2]
  simp only [this, hq]

theorem upsampled_common {i : Nat} (hs : SameComponent f f' i) (hx : f.x = f'.x) (hy : f.y = f'.y) (row col : Nat) :
    upsampledBy S f H V i row col = upsampledBy S f' H V i row col := by
  obtain ⟨c, c', h1, h2, hh, hv, hq⟩ := hs.comp
  unfold upsampledBy
  rw [h1, h2]
  simp only [← hh, ← hv, ← hx, ← hy, sample_common hs hx]

end

/-- **C98** (blue-difference component). Two pictures that differ in the second component only, whatever the
coefficients are: no red byte differs, and where blue grows green does not. -/
theorem C98_cb (cfg : Cfg) (f f' : BaselineFile) (hx : f.x = f'.x) (hy : f.y = f'.y) (h0 : SameComponent f f' 0)
    (h2 : SameComponent f f' 2) (H V : Nat) (codes codes' : List (Code × Code)) (d₁ d₂ : Decoder)
    (hd₁ : UsedDecoder d₁) (hd₂ : UsedDecoder d₂) (hh₁ : Holds cfg d₁ f.earlier) (hh₂ : Holds cfg d₂ f'.earlier)
    (h3 : f.comps.length = 3) (h3' : f'.comps.length = 3)
    (hct₁ : f.transform d₁.transform ≠ some 0) (hct₂ : f'.transform d₂.transform ≠ some 0)
    (hv₁ : f.Valid (f.interval d₁.restartInterval) H V codes) (hv₂ : f'.Valid (f'.interval d₂.restartInterval) H V codes')
    (hr₁ : f.Renderable H V) (hr₂ : f'.Renderable H V) :
    ∃ image image' e₁ e₂, d₁.decode cfg f.bytes = .ok image e₁ ∧ d₂.decode cfg f'.bytes = .ok image' e₂ ∧
      image.length = f.x * f.y * 3 ∧ image'.length = f.x * f.y * 3 ∧
      ∀ y x, y < f.y → x < f.x → ∃ r g b g' b',
        image[3 * f.x * y + 3 * x]? = some r ∧ image'[3 * f.x * y + 3 * x]? = some r ∧
        image[3 * f.x * y + (3 * x + 1)]? = some g ∧ image'[3 * f.x * y + (3 * x + 1)]? = some g' ∧
        image[3 * f.x * y + (3 * x + 2)]? = some b ∧ image'[3 * f.x * y + (3 * x + 2)]? = some b' ∧
        (b.toNat < b'.toNat → g'.toNat ≤ g.toNat) ∧ (b'.toNat < b.toNat → g.toNat ≤ g'.toNat) := by
  obtain ⟨image, e₁, a1, a2⟩ := C45_decodes cfg f H V codes d₁ hd₁ hh₁ h3 hct₁ hv₁ hr₁
  obtain ⟨image', e₂, b1, b2⟩ := C45_decodes cfg f' H V codes' d₂ hd₂ hh₂ h3' hct₂ hv₂ hr₂
  refine ⟨image, image', e₁, e₂, a1, b1, a2, by rw [b2, hx, hy], ?_⟩
  intro y x hy0 hx0
  obtain ⟨r, g, b, q, p0, p1, p2⟩ := file_pixels hd₁ hh₁ h3 hct₁ hv₁ hr₁ (givenBy_blockwise f) a1 hy0 hx0
  obtain ⟨r', g', b', q', p0', p1', p2'⟩ := file_pixels hd₂ hh₂ h3' hct₂ hv₂ hr₂ (givenBy_blockwise f') b1 (hy ▸ hy0) (hx ▸ hx0)
  rw [← hx] at p0' p1' p2'
  simp only [upsampled_common h0 hx hy, upsampled_common h2 hx hy] at q
  simp only at q'
  rw [ycbcrToRgb_eq] at q q'
  simp only [Except.ok.injEq, Prod.mk.injEq] at q q'
  obtain ⟨rfl, rfl, rfl⟩ := q
  obtain ⟨rfl, rfl, rfl⟩ := q'
  refine ⟨_, _, _, _, _, p0, p0', p1, p1', p2, p2', ?_⟩
  generalize UInt8.ofNat (upsampledBy blockwise f H V 1 _ x) = cb
  generalize UInt8.ofNat (upsampledBy blockwise f' H V 1 _ x) = cb'
  generalize UInt8.ofNat (upsampledBy blockwise f' H V 0 _ x) = u
  generalize UInt8.ofNat (upsampledBy blockwise f' H V 2 _ x) = cr
  have hg := saturate_toNat (greenSum u cb cr)
  have hg' := saturate_toNat (greenSum u cb' cr)
  have hb := saturate_toNat (blueSum u cb cr)
  have hb' := saturate_toNat (blueSum u cb' cr)
  unfold greenSum at hg hg' ⊢
  unfold blueSum at hb hb' ⊢
  constructor <;> intro _ <;> omega

/-- **C98** (red-difference component). Two pictures that differ in the third component only: no blue byte differs,
and where red grows green does not. -/
theorem C98_cr (cfg : Cfg) (f f' : BaselineFile) (hx : f.x = f'.x) (hy : f.y = f'.y) (h0 : SameComponent f f' 0)
    (h1 : SameComponent f f' 1) (H V : Nat) (codes codes' : List (Code × Code)) (d₁ d₂ : Decoder)
    (hd₁ : UsedDecoder d₁) (hd₂ : UsedDecoder d₂) (hh₁ : Holds cfg d₁ f.earlier) (hh₂ : Holds cfg d₂ f'.earlier)
    (h3 : f.comps.length = 3) (h3' : f'.comps.length = 3)
    (hct₁ : f.transform d₁.transform ≠ some 0) (hct₂ : f'.transform d₂.transform ≠ some 0)
    (hv₁ : f.Valid (f.interval d₁.restartInterval) H V codes) (hv₂ : f'.Valid (f'.interval d₂.restartInterval) H V codes')
    (hr₁ : f.Renderable H V) (hr₂ : f'.Renderable H V) :
    ∃ image image' e₁ e₂, d₁.decode cfg f.bytes = .ok image e₁ ∧ d₂.decode cfg f'.bytes = .ok image' e₂ ∧
      image.length = f.x * f.y * 3 ∧ image'.length = f.x * f.y * 3 ∧
      ∀ y x, y < f.y → x < f.x → ∃ r g b r' g',
        image[3 * f.x * y + 3 * x]? = some r ∧ image'[3 * f.x * y + 3 * x]? = some r' ∧
        image[3 * f.x * y + (3 * x + 1)]? = some g ∧ image'[3 * f.x * y + (3 * x + 1)]? = some g' ∧
        image[3 * f.x * y + (3 * x + 2)]? = some b ∧ image'[3 * f.x * y + (3 * x + 2)]? = some b ∧
        (r.toNat < r'.toNat → g'.toNat ≤ g.toNat) ∧ (r'.toNat < r.toNat → g.toNat ≤ g'.toNat) := by
  obtain ⟨image, e₁, a1, a2⟩ := C45_decodes cfg f H V codes d₁ hd₁ hh₁ h3 hct₁ hv₁ hr₁
  obtain ⟨image', e₂, b1, b2⟩ := C45_decodes cfg f' H V codes' d₂ hd₂ hh₂ h3' hct₂ hv₂ hr₂
  refine ⟨image, image', e₁, e₂, a1, b1, a2, by rw [b2, hx, hy], ?_⟩
  intro y x hy0 hx0
  obtain ⟨r, g, b, q, p0, p1, p2⟩ := file_pixels hd₁ hh₁ h3 hct₁ hv₁ hr₁ (givenBy_blockwise f) a1 hy0 hx0
  obtain ⟨r', g', b', q', p0', p1', p2'⟩ := file_pixels hd₂ hh₂ h3' hct₂ hv₂ hr₂ (givenBy_blockwise f') b1 (hy ▸ hy0) (hx ▸ hx0)
  rw [← hx] at p0' p1' p2'
  simp only [upsampled_common h0 hx hy, upsampled_common h1 hx hy] at q
  simp only at q'
  rw [ycbcrToRgb_eq] at q q'
  simp only [Except.ok.injEq, Prod.mk.injEq] at q q'
  obtain ⟨rfl, rfl, rfl⟩ := q
  obtain ⟨rfl, rfl, rfl⟩ := q'
  refine ⟨_, _, _, _, _, p0, p0', p1, p1', p2, p2', ?_⟩
  generalize UInt8.ofNat (upsampledBy blockwise f H V 2 _ x) = cr
  generalize UInt8.ofNat (upsampledBy blockwise f' H V 2 _ x) = cr'
  generalize UInt8.ofNat (upsampledBy blockwise f' H V 0 _ x) = u
  generalize UInt8.ofNat (upsampledBy blockwise f' H V 1 _ x) = cb
  have hg := saturate_toNat (greenSum u cb cr)
  have hg' := saturate_toNat (greenSum u cb cr')
  have hr := saturate_toNat (redSum u cb cr)
  have hr' := saturate_toNat (redSum u cb cr')
  unfold greenSum at hg hg' ⊢
  unfold redSum at hr hr' ⊢
  constructor <;> intro _ <;> omega

/-- **C98** (luminance). Two pictures that differ in the first component only: the three bytes of a pixel differ by
the same amount, those that are 0 or 255 apart. -/
theorem C98_luminance (cfg : Cfg) (f f' : BaselineFile) (hx : f.x = f'.x) (hy : f.y = f'.y) (h1 : SameComponent f f' 1)
    (h2 : SameComponent f f' 2) (H V : Nat) (codes codes' : List (Code × Code)) (d₁ d₂ : Decoder)
    (hd₁ : UsedDecoder d₁) (hd₂ : UsedDecoder d₂) (hh₁ : Holds cfg d₁ f.earlier) (hh₂ : Holds cfg d₂ f'.earlier)
    (h3 : f.comps.length = 3) (h3' : f'.comps.length = 3)
    (hct₁ : f.transform d₁.transform ≠ some 0) (hct₂ : f'.transform d₂.transform ≠ some 0)
    (hv₁ : f.Valid (f.interval d₁.restartInterval) H V codes) (hv₂ : f'.Valid (f'.interval d₂.restartInterval) H V codes')
    (hr₁ : f.Renderable H V) (hr₂ : f'.Renderable H V) :
    ∃ image image' e₁ e₂, d₁.decode cfg f.bytes = .ok image e₁ ∧ d₂.decode cfg f'.bytes = .ok image' e₂ ∧
      image.length = f.x * f.y * 3 ∧ image'.length = f.x * f.y * 3 ∧
      ∀ y x, y < f.y → x < f.x → ∃ δ : Int, ∀ j, j < 3 → ∃ v v',
        image[3 * f.x * y + (3 * x + j)]? = some v ∧ image'[3 * f.x * y + (3 * x + j)]? = some v' ∧
        (0 ≤ δ → v.toNat ≤ v'.toNat ∧ v'.toNat ≤ v.toNat + δ) ∧ (δ ≤ 0 → v'.toNat ≤ v.toNat ∧ v.toNat + δ ≤ v'.toNat) ∧
        (Unlimited v → Unlimited v' → (v'.toNat : Int) = v.toNat + δ) := by
  obtain ⟨image, e₁, a1, a2⟩ := C45_decodes cfg f H V codes d₁ hd₁ hh₁ h3 hct₁ hv₁ hr₁
  obtain ⟨image', e₂, b1, b2⟩ := C45_decodes cfg f' H V codes' d₂ hd₂ hh₂ h3' hct₂ hv₂ hr₂
  refine ⟨image, image', e₁, e₂, a1, b1, a2, by rw [b2, hx, hy], ?_⟩
  intro y x hy0 hx0
  obtain ⟨r, g, b, q, p0, p1, p2⟩ := file_pixels hd₁ hh₁ h3 hct₁ hv₁ hr₁ (givenBy_blockwise f) a1 hy0 hx0
  obtain ⟨r', g', b', q', p0', p1', p2'⟩ := file_pixels hd₂ hh₂ h3' hct₂ hv₂ hr₂ (givenBy_blockwise f') b1 (hy ▸ hy0) (hx ▸ hx0)
  rw [← hx] at p0' p1' p2'
  simp only [upsampled_common h1 hx hy, upsampled_common h2 hx hy] at q
  simp only at q'
  rw [ycbcrToRgb_eq] at q q'
  simp only [Except.ok.injEq, Prod.mk.injEq] at q q'
  obtain ⟨rfl, rfl, rfl⟩ := q
  obtain ⟨rfl, rfl, rfl⟩ := q'
  generalize UInt8.ofNat (upsampledBy blockwise f H V 0 _ x) = u at p0 p1 p2
  generalize UInt8.ofNat (upsampledBy blockwise f' H V 0 _ x) = u' at p0' p1' p2'
  generalize UInt8.ofNat (upsampledBy blockwise f' H V 1 _ x) = cb at *
  generalize UInt8.ofNat (upsampledBy blockwise f' H V 2 _ x) = cr at *
  have key : ∀ s : Int, (0 ≤ (u'.toNat : Int) - u.toNat → (saturate (u.toNat + s)).toNat ≤ (saturate (u'.toNat + s)).toNat ∧
        (saturate (u'.toNat + s)).toNat ≤ (saturate (u.toNat + s)).toNat + ((u'.toNat : Int) - u.toNat)) ∧
      ((u'.toNat : Int) - u.toNat ≤ 0 → (saturate (u'.toNat + s)).toNat ≤ (saturate (u.toNat + s)).toNat ∧
        (saturate (u.toNat + s)).toNat + ((u'.toNat : Int) - u.toNat) ≤ (saturate (u'.toNat + s)).toNat) ∧
      (Unlimited (saturate (u.toNat + s)) → Unlimited (saturate (u'.toNat + s)) →
        ((saturate (u'.toNat + s)).toNat : Int) = (saturate (u.toNat + s)).toNat + ((u'.toNat : Int) - u.toNat)) := by
    intro s
    have h := saturate_toNat (u.toNat + s)
    have h' := saturate_toNat (u'.toNat + s)
    unfold Unlimited
    refine ⟨fun _ => ⟨?_, ?_⟩, fun _ => ⟨?_, ?_⟩, fun _ _ => ?_⟩ <;> omega
  refine ⟨(u'.toNat : Int) - u.toNat, ?_⟩
  intro j hj
  rcases (by omega : j = 0 ∨ j = 1 ∨ j = 2) with rfl | rfl | rfl
  · exact ⟨_, _, p0, p0', key _⟩
  · exact ⟨_, _, p1, p1', key _⟩
  · exact ⟨_, _, p2, p2', key _⟩

/-- **C98** (four components). A four-component picture: byte `j` of the pixels depends on component `j` alone. -/
theorem C98_cmyk (cfg : Cfg) (f f' : BaselineFile) (hx : f.x = f'.x) (hy : f.y = f'.y) (H V : Nat)
    (codes codes' : List (Code × Code)) (d₁ d₂ : Decoder)
    (hd₁ : UsedDecoder d₁) (hd₂ : UsedDecoder d₂) (hh₁ : Holds cfg d₁ f.earlier) (hh₂ : Holds cfg d₂ f'.earlier)
    (h4 : f.comps.length = 4) (h4' : f'.comps.length = 4)
    (hct₁ : f.transform d₁.transform = some 0) (hct₂ : f'.transform d₂.transform = some 0)
    (hv₁ : f.Valid (f.interval d₁.restartInterval) H V codes) (hv₂ : f'.Valid (f'.interval d₂.restartInterval) H V codes')
    (hr₁ : f.Renderable H V) (hr₂ : f'.Renderable H V) :
    ∃ image image' e₁ e₂, d₁.decode cfg f.bytes = .ok image e₁ ∧ d₂.decode cfg f'.bytes = .ok image' e₂ ∧
      image.length = f.x * f.y * 4 ∧ image'.length = f.x * f.y * 4 ∧
      ∀ j, j < 4 → SameComponent f f' j → ∀ y x, y < f.y → x < f.x → ∃ v,
        image[4 * f.x * y + (4 * x + j)]? = some v ∧ image'[4 * f.x * y + (4 * x + j)]? = some v := by
  obtain ⟨image, e₁, a1, a2⟩ := C54_decodes cfg f H V codes d₁ hd₁ hh₁ h4 hct₁ hv₁ hr₁
  obtain ⟨image', e₂, b1, b2⟩ := C54_decodes cfg f' H V codes' d₂ hd₂ hh₂ h4' hct₂ hv₂ hr₂
  refine ⟨image, image', e₁, e₂, a1, b1, a2, by rw [b2, hx, hy], ?_⟩
  intro j hj hs y x hy0 hx0
  have p := cmyk_pixels hd₁ hh₁ h4 hct₁ hv₁ hr₁ (givenBy_blockwise f) a1 hy0 hx0 hj
  have p' := cmyk_pixels hd₂ hh₂ h4' hct₂ hv₂ hr₂ (givenBy_blockwise f') b1 (hy ▸ hy0) (hx ▸ hx0) hj
  rw [← hx] at p'
  simp only [upsampled_common hs hx hy] at p
  exact ⟨_, p, p'⟩

/-- `leanMcu` with another first, second or third component. -/
def recoloured : Nat → Mcu
  | 0 => [[dcBlock 5, leanBlock 9, dcBlock 700, dcBlock (-900)], [leanBlock 5], [dcBlock 6]]
  | 1 => [[leanBlock 1, dcBlock 2, dcBlock 3, leanBlock 4], [leanBlock 1000], [dcBlock 6]]
  | _ => [[leanBlock 1, dcBlock 2, dcBlock 3, leanBlock 4], [leanBlock 5], [leanBlock (-700)]]

theorem recoloured_valid {m : Mcu} (hm : m ∈ [leanMcu, recoloured 0, recoloured 1, recoloured 2]) :
    ∃ data, (leanFile m data).Valid 0 2 2 (List.replicate 3 (dcK3, acK5)) ∧ (leanFile m data).Renderable 2 2 := by
  have hq : GoodTable (List.replicate 64 1) := ⟨by decide, by decide⟩
  have ha : Arranged quarterComps 16 16 2 2 [m] := by
    refine ⟨by decide, by decide, by decide, by decide, by decide, ⟨by decide, by decide⟩, ⟨by decide, by decide⟩,
      by decide, by decide, by decide, rfl, ?_⟩
    intro m' hm'
    simp only [List.mem_cons, List.not_mem_nil, or_false] at hm hm'
    subst hm'
    rcases hm with rfl | rfl | rfl | rfl <;> rfl
  have hc : ∀ m ∈ [leanMcu, recoloured 0, recoloured 1, recoloured 2], ∀ bs ∈ m, ∀ b ∈ bs, Codable b := by decide +kernel
  obtain ⟨data, hv⟩ := codedFile_valid hq ha (fun m' hm' => by
    rw [List.mem_singleton] at hm'; subst hm'; exact hc m' hm)
  refine ⟨data, hv, ?_⟩
  have hx : (leanFile m data).x = 16 := rfl
  have hy : (leanFile m data).y = 16 := rfl
  unfold BaselineFile.Renderable
  rw [hx, hy, show (leanFile m data).comps = quarterComps from rfl]
  decide

theorem recoloured_same {m m' : Mcu} {i : Nat} (hi : i < 3) (h : m[i]? = m'[i]?) (data data' : List UInt8) :
    SameComponent (leanFile m data) (leanFile m' data') i := by
  refine ⟨?_, .cons h .nil⟩
  match i with
  | 0 | 1 | 2 => exact ⟨_, _, rfl, rfl, rfl, rfl, rfl⟩

/-- A case of C98: a picture of 16 by 16 pixels with half of the chrominance lines and columns, and three others that
differ from it in one component, far beyond the range of the samples. -/
example : ∃ f f₀ f₁ f₂ : BaselineFile, f.intervals ≠ f₀.intervals ∧ f.intervals ≠ f₁.intervals ∧ f.intervals ≠ f₂.intervals ∧
    ∀ cfg, ∃ image i₀ i₁ i₂ : List UInt8,
    decode cfg f.bytes = .ok image ∧ decode cfg f₀.bytes = .ok i₀ ∧ decode cfg f₁.bytes = .ok i₁ ∧ decode cfg f₂.bytes = .ok i₂ ∧
    ∀ y x, y < 16 → x < 16 →
      (∃ r, image[48 * y + 3 * x]? = some r ∧ i₁[48 * y + 3 * x]? = some r) ∧
      (∃ b, image[48 * y + (3 * x + 2)]? = some b ∧ i₂[48 * y + (3 * x + 2)]? = some b) ∧
      ∃ δ : Int, ∀ j, j < 3 → ∃ v v', image[48 * y + (3 * x + j)]? = some v ∧ i₀[48 * y + (3 * x + j)]? = some v' ∧
        (Unlimited v → Unlimited v' → (v'.toNat : Int) = v.toNat + δ) := by
  obtain ⟨data, hv, hr⟩ := recoloured_valid (m := leanMcu) (by simp)
  obtain ⟨data0, hv0, hr0⟩ := recoloured_valid (m := recoloured 0) (by simp)
  obtain ⟨data1, hv1, hr1⟩ := recoloured_valid (m := recoloured 1) (by simp)
  obtain ⟨data2, hv2, hr2⟩ := recoloured_valid (m := recoloured 2) (by simp)
  have ht : (none : Option Nat) ≠ some 0 := by decide
  refine ⟨leanFile leanMcu data, leanFile (recoloured 0) data0, leanFile (recoloured 1) data1, leanFile (recoloured 2) data2,
    ?_, ?_, ?_, fun cfg => ?_⟩
  · show [[leanMcu]] ≠ [[recoloured 0]]
    decide
  · show [[leanMcu]] ≠ [[recoloured 1]]
    decide
  · show [[leanMcu]] ≠ [[recoloured 2]]
    decide
  · obtain ⟨image, i₀, e, e0, h, h0, -, -, p0⟩ := C98_luminance cfg (leanFile leanMcu data) (leanFile (recoloured 0) data0) rfl rfl
      (recoloured_same (m := leanMcu) (m' := recoloured 0) (by decide) rfl _ _)
      (recoloured_same (m := leanMcu) (m' := recoloured 0) (by decide) rfl _ _) 2 2 _ _ Decoder.default
      Decoder.default .new .new (.nothing _) (.nothing _) rfl rfl (show (none : Option Nat) ≠ some 0 from ht)
      (show (none : Option Nat) ≠ some 0 from ht) hv hv0 hr hr0
    obtain ⟨i, i₁, e', e1, h', h1, -, -, p1⟩ := C98_cb cfg (leanFile leanMcu data) (leanFile (recoloured 1) data1) rfl rfl
      (recoloured_same (m := leanMcu) (m' := recoloured 1) (by decide) rfl _ _)
      (recoloured_same (m := leanMcu) (m' := recoloured 1) (by decide) rfl _ _) 2 2 _ _ Decoder.default
      Decoder.default .new .new (.nothing _) (.nothing _) rfl rfl (show (none : Option Nat) ≠ some 0 from ht)
      (show (none : Option Nat) ≠ some 0 from ht) hv hv1 hr hr1
    cases h.symm.trans h'
    obtain ⟨i, i₂, e', e2, h', h2, -, -, p2⟩ := C98_cr cfg (leanFile leanMcu data) (leanFile (recoloured 2) data2) rfl rfl
      (recoloured_same (m := leanMcu) (m' := recoloured 2) (by decide) rfl _ _)
      (recoloured_same (m := leanMcu) (m' := recoloured 2) (by decide) rfl _ _) 2 2 _ _ Decoder.default
      Decoder.default .new .new (.nothing _) (.nothing _) rfl rfl (show (none : Option Nat) ≠ some 0 from ht)
      (show (none : Option Nat) ≠ some 0 from ht) hv hv2 hr hr2
    cases h.symm.trans h'
    refine ⟨image, i₀, i₁, i₂, by unfold decode; rw [h], by unfold decode; rw [h0], by unfold decode; rw [h1],
      by unfold decode; rw [h2], ?_⟩
    intro y x hy hx
    obtain ⟨r, g, b, g', b', q1, q2, -⟩ := p1 y x hy hx
    obtain ⟨r', g', b', r'', g'', -, -, -, -, q3, q4, -⟩ := p2 y x hy hx
    obtain ⟨δ, q⟩ := p0 y x hy hx
    refine ⟨⟨_, q1, q2⟩, ⟨_, q3, q4⟩, δ, fun j hj => ?_⟩
    obtain ⟨v, v', a, b, -, -, c⟩ := q j hj
    exact ⟨v, v', a, b, c⟩

/-- A case of C98 for CMYK: another third ink. -/
example : ∃ f f' : BaselineFile, ∀ cfg, ∃ image image' : List UInt8,
    decode cfg f.bytes = .ok image ∧ decode cfg f'.bytes = .ok image' ∧
    ∀ y x j, y < 8 → x < 8 → j < 4 → j ≠ 2 → ∃ v, image[32 * y + (4 * x + j)]? = some v ∧ image'[32 * y + (4 * x + j)]? = some v := by
  have hq : GoodTable (List.replicate 64 8) := ⟨by decide, by decide⟩
  have ha : ∀ v : Int, Arranged inkComps 8 8 1 1 [[[leanBlock 1], [dcBlock 2], [⟨v, (leanBlock 3).zz⟩], [dcBlock 4]]] := by
    intro v
    refine ⟨by decide, by decide, by decide, by decide, by decide, ⟨by decide, by decide⟩, ⟨by decide, by decide⟩,
      by decide, by decide, by decide, rfl, ?_⟩
    intro m' hm'
    simp only [List.mem_cons, List.not_mem_nil, or_false] at hm'
    subst hm'
    rfl
  obtain ⟨data, hv⟩ := codedFile_valid hq (ha (-30)) (by decide +kernel)
  obtain ⟨data', hv'⟩ := codedFile_valid hq (ha 900) (by decide +kernel)
  replace hv : (inkFile (-30) data).Valid _ _ _ _ := withAdobe_valid (t := 0) (by decide) hv
  replace hv' : (inkFile 900 data').Valid _ _ _ _ := withAdobe_valid (t := 0) (by decide) hv'
  have hr : ∀ v data, (inkFile v data).Renderable 1 1 := by
    intro v data
    have hx : (inkFile v data).x = 8 := rfl
    have hy : (inkFile v data).y = 8 := rfl
    unfold BaselineFile.Renderable
    rw [hx, hy, show (inkFile v data).comps = inkComps from rfl]
    decide
  refine ⟨inkFile (-30) data, inkFile 900 data', fun cfg => ?_⟩
  obtain ⟨image, image', e, e', h, h', -, -, p⟩ := C98_cmyk cfg (inkFile (-30) data) (inkFile 900 data') rfl rfl 1 1 _ _ Decoder.default Decoder.default .new .new
    (.nothing _) (.nothing _) rfl rfl rfl rfl hv hv' (hr _ _) (hr _ _)
  refine ⟨image, image', by unfold decode; rw [h], by unfold decode; rw [h'], ?_⟩
  intro y x j hy hx hj hj2
  refine p j hj ⟨?_, .cons ?_ .nil⟩ y x hy hx
  · rcases (by omega : j = 0 ∨ j = 1 ∨ j = 3) with rfl | rfl | rfl <;> exact ⟨_, _, rfl, rfl, rfl, rfl, rfl⟩
  · rcases (by omega : j = 0 ∨ j = 1 ∨ j = 3) with rfl | rfl | rfl <;> rfl

end Jpeg
