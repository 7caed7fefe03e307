import Verif.Props.GreySampling
import Verif.Props.OutcomeKind
import Verif.Spec.Ratios
/-!
# C107: only the ratios of the sampling factors matter
-/

namespace Jpeg
open Spec Sample

theorem ceilDiv_ratio {x k c : Nat} (hc : 0 < c) (hk : 0 < k) : ceilDiv (x * c) (k * c) = ceilDiv x k := by
  unfold ceilDiv
  have h1 : x * c + (k * c - 1) = (x + (k - 1)) * c + (c - 1) := by
    obtain ⟨k, rfl⟩ : ∃ j, k = j + 1 := ⟨k - 1, by omega⟩
    rw [Nat.add_sub_cancel, Nat.add_mul, Nat.add_mul, Nat.one_mul]
    omega
  rw [h1, Nat.mul_comm k c, ← Nat.div_div_eq_div_mul, Nat.add_comm, Nat.add_mul_div_right _ _ hc,
    Nat.div_eq_of_lt (Nat.sub_lt hc Nat.one_pos), Nat.zero_add]

section

variable {f f' : BaselineFile} {H V H' V' : Nat}

/-- Factors with the same ratio to the largest. -/
theorem ratio_split {c c' H H' : Nat} (hc : 0 < c) (hm : H % c = 0) (h : c * H' = c' * H) : ∃ k, H = k * c ∧ H' = k * c' := by
  obtain ⟨k, rfl⟩ := Nat.dvd_of_mod_eq_zero hm
  refine ⟨k, Nat.mul_comm _ _, Nat.eq_of_mul_eq_mul_left hc ?_⟩
  rw [h]; ring

theorem upsampledBy_ratios (S : List Nat → BlockData → Nat → Nat → UInt8) {r r' : Nat} {codes codes' : List (Code × Code)}
    (hv : f.Laid r H V codes) (hv' : f'.Laid r' H' V' codes') (hr : f.Renderable H V) (hs : SameRatios f f' H V H' V')
    {i row x : Nat} (hrow : row < f.y) (hx : x < f.x) :
    upsampledBy S f H V i row x = upsampledBy S f' H' V' i row x := by
  unfold upsampledBy
  rcases forall₂_get hs.ratios i with ⟨h1, h2⟩ | ⟨c, c', h1, h2, hh, hvv, hq⟩
  · rw [h1, h2]
  rw [h1, h2]
  simp only
  have hcm := List.mem_of_getElem? h1
  have hcm' := List.mem_of_getElem? h2
  have g := fileComponent_geometry hv hcm
  obtain ⟨f1, f2, f3, f4⟩ := hv.factors c hcm
  obtain ⟨f1', f2', f3', f4'⟩ := hv'.factors c' hcm'
  have hH := hv.hmax.1 c hcm
  have hV := hv.vmax.1 c hcm
  simp only at hH hV
  refine (upsampled_congr g hH hV hv.x.1 hrow ⟨(hr c hcm).1, (hr c hcm).2.1⟩ hx _
    (fun r k => (sampleBy S f' H' i r k).toNat) ?_).trans ?_
  · intro r k a1 a2
    unfold sampleBy
    rw [h1, h2]
    simp only
    rw [hs.blocks i c c' h1 h2 r k a1 a2, hq]
  · obtain ⟨k, e1, e1'⟩ := ratio_split (by omega) (hr c hcm).1 hh
    obtain ⟨l, e2, e2'⟩ := ratio_split (by omega) (hr c hcm).2.1 hvv
    have k0 : 0 < k := by rcases Nat.eq_zero_or_pos k with h | h <;> [(rw [h] at e1; omega); exact h]
    have l0 : 0 < l := by rcases Nat.eq_zero_or_pos l with h | h <;> [(rw [h] at e2; omega); exact h]
    rw [← hs.x, ← hs.y]
    subst e1 e1' e2 e2'
    have a1 : 0 < c.h := by omega
    have a2 : 0 < c'.h := by omega
    have a3 : 0 < c.v := by omega
    have a4 : 0 < c'.v := by omega
    have one : ∀ {j a : Nat}, 0 < a → (a = j * a) = (j = 1) := by
      intro j a ha
      apply propext
      constructor
      · intro h
        exact (Nat.eq_of_mul_eq_mul_right ha (by rw [Nat.one_mul]; exact h)).symm
      · rintro rfl; rw [Nat.one_mul]
    have two : ∀ {j a : Nat}, 0 < a → (2 * a = j * a) = (j = 2) := by
      intro j a ha
      apply propext
      exact ⟨fun h => (Nat.eq_of_mul_eq_mul_right ha h).symm, fun h => by rw [h]⟩
    change upsampled f.x f.y (k * c.h) (l * c.v) c.h c.v (ceilDiv (f.x * c.h) (k * c.h)) (ceilDiv (f.y * c.v) (l * c.v)) _ row x = _
    unfold upsampled
    simp only [one a1, one a2, one a3, one a4, two a1, two a2, two a3, two a4, Nat.mul_div_cancel _ a1, Nat.mul_div_cancel _ a2,
      Nat.mul_div_cancel _ a3, Nat.mul_div_cancel _ a4, ceilDiv_ratio a1 k0, ceilDiv_ratio a2 k0, ceilDiv_ratio a3 l0,
      ceilDiv_ratio a4 l0]

end

/-- **C107** (part). Two files with the same blocks whose sampling factors have the same ratios to the largest ones give
the same image, if the largest vertical factors are the same: whatever the order the blocks are interleaved in, the
codes, the restart intervals, the decoders and the build, and whatever the coefficients.

Missing: different largest vertical factors, see `C107_lines_partial` and `C107_ratios_violated`; files
one of which cannot be rendered, see `C107_outcome_violated`. -/
theorem C107_ratios_partial (cfg : Cfg) (f f' : BaselineFile) (H H' V : Nat) (hs : SameRatios f f' H V H' V)
    (codes codes' : List (Code × Code)) (d₁ d₂ : Decoder) (hd₁ : UsedDecoder d₁) (hd₂ : UsedDecoder d₂)
    (hh₁ : Holds cfg d₁ f.earlier) (hh₂ : Holds cfg d₂ f'.earlier) (n : Nat)
    (hn₁ : f.Coloured d₁.transform n) (hn₂ : f'.Coloured d₂.transform n)
    (hv₁ : f.Valid (f.interval d₁.restartInterval) H V codes) (hv₂ : f'.Valid (f'.interval d₂.restartInterval) H' V codes')
    (hr₁ : f.Renderable H V) (hr₂ : f'.Renderable H' V) :
    ∃ image e₁ e₂, d₁.decode cfg f.bytes = .ok image e₁ ∧ d₂.decode cfg f'.bytes = .ok image e₂ ∧
      image.length = f.x * f.y * n := by
  obtain ⟨image, e₁, a1, a2⟩ := coloured_decodes cfg f H V codes d₁ hd₁ hh₁ hn₁ hv₁ hr₁
  obtain ⟨image', e₂, b1, b2⟩ := coloured_decodes cfg f' H' V codes' d₂ hd₂ hh₂ hn₂ hv₂ hr₂
  have hi : image = image' := by
    refine images_ext a2 (by rw [b2, hs.x, hs.y]) ?_
    intro y x hy hx j hj
    have key := pixel_of_upsampled hd₁ hd₂ hh₁ hh₂ hn₁ hn₂ hv₁ hv₂ hr₁ hr₂ (givenBy_blockwise f) (givenBy_blockwise f') a1 b1 hy hx
      (hs.y ▸ hy) (hs.x ▸ hx) (j := j) (hj := hj)
      (fun i _ => upsampledBy_ratios blockwise hv₁.toLaid hv₂.toLaid hr₁ hs (row_lt hy) hx)
    rw [← hs.x] at key; exact key
  subst hi
  exact ⟨image, e₁, e₂, a1, b1, a2⟩

/-- **C107** (part). Whatever the largest vertical factors, the lines whose number is a multiple of both are the same; in
the build with rayon only the first line. -/
theorem C107_lines_partial (cfg : Cfg) (f f' : BaselineFile) (H H' V V' : Nat) (hs : SameRatios f f' H V H' V')
    (codes codes' : List (Code × Code)) (d₁ d₂ : Decoder) (hd₁ : UsedDecoder d₁) (hd₂ : UsedDecoder d₂)
    (hh₁ : Holds cfg d₁ f.earlier) (hh₂ : Holds cfg d₂ f'.earlier) (n : Nat)
    (hn₁ : f.Coloured d₁.transform n) (hn₂ : f'.Coloured d₂.transform n)
    (hv₁ : f.Valid (f.interval d₁.restartInterval) H V codes) (hv₂ : f'.Valid (f'.interval d₂.restartInterval) H' V' codes')
    (hr₁ : f.Renderable H V) (hr₂ : f'.Renderable H' V') :
    ∃ image image' e₁ e₂, d₁.decode cfg f.bytes = .ok image e₁ ∧ d₂.decode cfg f'.bytes = .ok image' e₂ ∧
      image.length = f.x * f.y * n ∧ image'.length = f.x * f.y * n ∧
      ∀ y x j, y < f.y → x < f.x → j < n → V ∣ y → V' ∣ y → (cfg.rayon = true → y = 0) →
        image[n * f.x * y + (n * x + j)]? = image'[n * f.x * y + (n * x + j)]? := by
  obtain ⟨image, e₁, a1, a2⟩ := coloured_decodes cfg f H V codes d₁ hd₁ hh₁ hn₁ hv₁ hr₁
  obtain ⟨image', e₂, b1, b2⟩ := coloured_decodes cfg f' H' V' codes' d₂ hd₂ hh₂ hn₂ hv₂ hr₂
  refine ⟨image, image', e₁, e₂, a1, b1, a2, by rw [b2, hs.x, hs.y], ?_⟩
  intro y x j hy hx hj m1 m2 h0
  have hrow : (if cfg.rayon then y / V' else y / V' * V') = if cfg.rayon then y / V else y / V * V := by
    cases hray : cfg.rayon with
    | false => simp [Nat.div_mul_cancel m1, Nat.div_mul_cancel m2]
    | true => simp [h0 hray]
  have key := pixel_of_upsampled hd₁ hd₂ hh₁ hh₂ hn₁ hn₂ hv₁ hv₂ hr₁ hr₂ (givenBy_blockwise f) (givenBy_blockwise f') a1 b1 hy hx
    (hs.y ▸ hy) (hs.x ▸ hx) (j := j) (hj := hj) (fun i _ => by
      rw [hrow]; exact upsampledBy_ratios blockwise hv₁.toLaid hv₂.toLaid hr₁ hs (row_lt hy) hx)
  rw [← hs.x] at key; exact key

/-- Factors 4, 2 and 2 instead of 2, 1 and 1. -/
def twiceHalfComps : List FileComponent := [⟨⟨1, 4, 1, 0⟩, 0, 0⟩, ⟨⟨2, 2, 1, 0⟩, 0, 0⟩, ⟨⟨3, 2, 1, 0⟩, 0, 0⟩]

/-- The same blocks with factors 2, 1, 1 and 4, 2, 2; the latter has blocks beyond the edge. -/
theorem half_ratios {y : Nat} (hy : y ≤ 8) (d₁ d₂ : List UInt8) :
    SameRatios (codedFile (List.replicate 64 1) halfComps 16 y [[[slopeBlock 64, leanBlock 3], [dcBlock 5], [leanBlock 2]]] d₁)
      (codedFile (List.replicate 64 1) twiceHalfComps 16 y
        [[[slopeBlock 64, leanBlock 3, dcBlock 9, dcBlock 9], [dcBlock 5, dcBlock 1], [leanBlock 2, dcBlock 8]]] d₂) 2 1 4 1 := by
  refine ⟨rfl, rfl, .cons ⟨rfl, rfl, rfl⟩ (.cons ⟨rfl, rfl, rfl⟩ (.cons ⟨rfl, rfl, rfl⟩ .nil)), ?_⟩
  intro i c c' hc hc' Y X hY hX
  match i with
  | 0 =>
    cases hc; cases hc'
    replace hY : Y < y := by simpa [codedFile, ceilDiv] using hY
    replace hX : X < 16 := by simpa [codedFile, ceilDiv] using hX
    unfold BaselineFile.blockAt
    rw [show Y / 8 = 0 by omega]
    rcases (by omega : X / 8 = 0 ∨ X / 8 = 1) with e | e
    · rw [e]; simp [codedFile, ceilDiv]
    · rw [e]; simp [codedFile, ceilDiv]
  | 1 =>
    cases hc; cases hc'
    replace hY : Y < y := by simpa [codedFile, ceilDiv] using hY
    replace hX : X < 8 := by simpa [codedFile, ceilDiv] using hX
    unfold BaselineFile.blockAt
    rw [show Y / 8 = 0 by omega, show X / 8 = 0 by omega]
    simp [codedFile, ceilDiv]
  | 2 =>
    cases hc; cases hc'
    replace hY : Y < y := by simpa [codedFile, ceilDiv] using hY
    replace hX : X < 8 := by simpa [codedFile, ceilDiv] using hX
    unfold BaselineFile.blockAt
    rw [show Y / 8 = 0 by omega, show X / 8 = 0 by omega]
    simp [codedFile, ceilDiv]
  | i + 3 => cases hc

/-- A case of C107: 16 by 7 pixels with factors 2, 1, 1 and with factors 4, 2, 2, where the only MCU has blocks beyond
the edge. -/
example : ∃ f f' codes, SameRatios f f' 2 1 4 1 ∧ f.Valid 0 2 1 codes ∧ f'.Valid 0 4 1 codes ∧ ∀ cfg, ∃ image : List UInt8,
    decode cfg f.bytes = .ok image ∧ decode cfg f'.bytes = .ok image := by
  have hq : GoodTable (List.replicate 64 1) := ⟨by decide, by decide⟩
  obtain ⟨d₁, v₁⟩ := codedFile_valid hq (comps := halfComps) (x := 16) (y := 7) (H := 2) (V := 1)
    (mcus := [[[slopeBlock 64, leanBlock 3], [dcBlock 5], [leanBlock 2]]])
    ⟨by decide, by decide, by decide, by decide, by decide, ⟨by decide, by decide⟩, ⟨by decide, by decide⟩, by decide,
      by decide, by decide, by decide, by decide⟩ (by decide +kernel)
  obtain ⟨d₂, v₂⟩ := codedFile_valid hq (comps := twiceHalfComps) (x := 16) (y := 7) (H := 4) (V := 1)
    (mcus := [[[slopeBlock 64, leanBlock 3, dcBlock 9, dcBlock 9], [dcBlock 5, dcBlock 1], [leanBlock 2, dcBlock 8]]])
    ⟨by decide, by decide, by decide, by decide, by decide, ⟨by decide, by decide⟩, ⟨by decide, by decide⟩, by decide,
      by decide, by decide, by decide, by decide⟩ (by decide +kernel)
  have hs := half_ratios (y := 7) (by decide) d₁ d₂
  have hr : ∀ ms d, (codedFile (List.replicate 64 1) halfComps 16 7 ms d).Renderable 2 1 := fun ms d => by
    change ∀ c ∈ halfComps, 2 % c.h = 0 ∧ 1 % c.v = 0 ∧
      (2 * c.h = 2 → (c.v = 1 ∨ 7 = 1) → 16 ≠ 1 → 16 % 2 = 0 ∧ (1 = 1 → 7 % 8 = 0 → 16 ≤ 8 * c.h)) ∧
      (¬ ((c.h = 2 ∨ 16 = 1 ∨ 2 * c.h = 2) ∧ (c.v = 1 ∨ 7 = 1 ∨ 2 * c.v = 1)) → 16 % (2 / c.h) = 0)
    decide
  have hr' : ∀ ms d, (codedFile (List.replicate 64 1) twiceHalfComps 16 7 ms d).Renderable 4 1 := fun ms d => by
    change ∀ c ∈ twiceHalfComps, 4 % c.h = 0 ∧ 1 % c.v = 0 ∧
      (2 * c.h = 4 → (c.v = 1 ∨ 7 = 1) → 16 ≠ 1 → 16 % 2 = 0 ∧ (1 = 1 → 7 % 8 = 0 → 16 ≤ 8 * c.h)) ∧
      (¬ ((c.h = 4 ∨ 16 = 1 ∨ 2 * c.h = 4) ∧ (c.v = 1 ∨ 7 = 1 ∨ 2 * c.v = 1)) → 16 % (4 / c.h) = 0)
    decide
  refine ⟨_, _, _, hs, v₁, v₂, ?_⟩
  intro cfg
  obtain ⟨image, e₁, e₂, h1, h2, -⟩ := C107_ratios_partial cfg _ _ 2 4 1 hs _ _ Decoder.default
    Decoder.default .new .new (.nothing _) (.nothing _) 3 ⟨rfl, .inl ⟨rfl, by show (none : Option Nat) ≠ some 0; decide⟩⟩
    ⟨rfl, .inl ⟨rfl, by show (none : Option Nat) ≠ some 0; decide⟩⟩ v₁ v₂ (hr _ _) (hr' _ _)
  exact ⟨image, by unfold decode; rw [h1], by unfold decode; rw [h2]⟩

/-- **C107** (violated, outcome). A picture of 16 by 8 pixels whose chrominance has half the columns makes the decoder panic
with factors 2, 1, 1 and decodes with factors 4, 2, 2, where the buffers are larger. -/
theorem C107_outcome_violated : ∃ (f f' : BaselineFile) (codes : List (Code × Code)), SameRatios f f' 2 1 4 1 ∧
    f.Valid 0 2 1 codes ∧ f'.Valid 0 4 1 codes ∧ f.x = 16 ∧ f.y = 8 ∧
    ∀ cfg, decode cfg f.bytes = .error (.panic .index) ∧ ∃ image : List UInt8, decode cfg f'.bytes = .ok image ∧
      image.length = 16 * 8 * 3 := by
  have hq : GoodTable (List.replicate 64 1) := ⟨by decide, by decide⟩
  obtain ⟨d₁, v₁⟩ := codedFile_valid hq (comps := halfComps) (x := 16) (y := 8) (H := 2) (V := 1)
    (mcus := [[[slopeBlock 64, leanBlock 3], [dcBlock 5], [leanBlock 2]]])
    ⟨by decide, by decide, by decide, by decide, by decide, ⟨by decide, by decide⟩, ⟨by decide, by decide⟩, by decide,
      by decide, by decide, by decide, by decide⟩ (by decide +kernel)
  obtain ⟨d₂, v₂⟩ := codedFile_valid hq (comps := twiceHalfComps) (x := 16) (y := 8) (H := 4) (V := 1)
    (mcus := [[[slopeBlock 64, leanBlock 3, dcBlock 9, dcBlock 9], [dcBlock 5, dcBlock 1], [leanBlock 2, dcBlock 8]]])
    ⟨by decide, by decide, by decide, by decide, by decide, ⟨by decide, by decide⟩, ⟨by decide, by decide⟩, by decide,
      by decide, by decide, by decide, by decide⟩ (by decide +kernel)
  refine ⟨_, _, _, half_ratios (y := 8) (by decide) d₁ d₂, v₁, v₂, rfl, rfl, fun cfg => ⟨?_, ?_⟩⟩
  · have h := C67_outcome cfg (codedFile (List.replicate 64 1) halfComps 16 8 [[[slopeBlock 64, leanBlock 3], [dcBlock 5],
      [leanBlock 2]]] d₁) 2 1 _ Decoder.default .new (.nothing _) v₁
    rw [show (codedFile (List.replicate 64 1) halfComps 16 8 [[[slopeBlock 64, leanBlock 3], [dcBlock 5], [leanBlock 2]]] d₁).outcome
        ((codedFile (List.replicate 64 1) halfComps 16 8 [[[slopeBlock 64, leanBlock 3], [dcBlock 5], [leanBlock 2]]] d₁).transform
          Decoder.default.transform) 2 1 = .panic by
      change (codedFile (List.replicate 64 1) halfComps 16 8 [] []).outcome none 2 1 = .panic
      decide +kernel] at h
    obtain ⟨p, d', h⟩ := h
    have h0 := C67_panics cfg (codedFile (List.replicate 64 1) halfComps 16 8 [[[slopeBlock 64, leanBlock 3], [dcBlock 5], [leanBlock 2]]] d₁)
      2 1 _ Decoder.default .new (.nothing _) v₁ p d' h
    rcases h0 with ⟨-, h0⟩ | ⟨rfl, -⟩ | ⟨-, h0, -⟩
    · exact absurd h0 (by show ¬ 3 < 3; decide)
    · unfold decode
      rw [h]
    · exact absurd h0 (by show ¬ 3 = 4; decide)
  · obtain ⟨image, d', h, hl⟩ := C45_decodes cfg (codedFile (List.replicate 64 1) twiceHalfComps 16 8
      [[[slopeBlock 64, leanBlock 3, dcBlock 9, dcBlock 9], [dcBlock 5, dcBlock 1], [leanBlock 2, dcBlock 8]]] d₂) 4 1 _
      Decoder.default .new (.nothing _) rfl (by show (none : Option Nat) ≠ some 0; decide) v₂ (by
        change ∀ c ∈ twiceHalfComps, 4 % c.h = 0 ∧ 1 % c.v = 0 ∧
          (2 * c.h = 4 → (c.v = 1 ∨ 8 = 1) → 16 ≠ 1 → 16 % 2 = 0 ∧ (1 = 1 → 8 % 8 = 0 → 16 ≤ 8 * c.h)) ∧
          (¬ ((c.h = 4 ∨ 16 = 1 ∨ 2 * c.h = 4) ∧ (c.v = 1 ∨ 8 = 1 ∨ 2 * c.v = 1)) → 16 % (4 / c.h) = 0)
        decide)
    exact ⟨image, by unfold decode; rw [h], hl⟩

/-- All factors 1 by 2. -/
def postComps : List FileComponent := [⟨⟨1, 1, 2, 0⟩, 0, 0⟩, ⟨⟨2, 1, 2, 0⟩, 0, 0⟩, ⟨⟨3, 1, 2, 0⟩, 0, 0⟩]

/-- The picture of `slopeFull` with all factors 1 by 2. -/
def postFile (data : List UInt8) : BaselineFile := codedFile (List.replicate 64 1) postComps 8 16
  [[[slopeBlock 64, slopeBlock 0], [dcBlock 0, dcBlock 0], [dcBlock 0, dcBlock 0]]] data

theorem post_rows : (∀ i < 3, (postFile []).upsampledSample 1 2 i 14 0 = if i = 0 then 121 else 128) ∧
    ∀ i < 3, (postFile []).upsampledSample 1 2 i 7 0 = if i = 0 then 127 else 128 := by
  constructor <;> decide +kernel

theorem post_ratios (data data' : List UInt8) : SameRatios (postFile data) (slopeFull data') 1 2 1 1 := by
  refine ⟨rfl, rfl, .cons ⟨rfl, rfl, rfl⟩ (.cons ⟨rfl, rfl, rfl⟩ (.cons ⟨rfl, rfl, rfl⟩ .nil)), ?_⟩
  intro i c c' hc hc' Y X hY hX
  match i with
  | 0 | 1 | 2 =>
    cases hc; cases hc'
    replace hY : Y < 16 := by simpa [codedFile, postFile, ceilDiv] using hY
    replace hX : X < 8 := by simpa [codedFile, postFile, ceilDiv] using hX
    unfold BaselineFile.blockAt
    rw [show X / 8 = 0 by omega]
    rcases (by omega : Y / 8 = 0 ∨ Y / 8 = 1) with e | e
    · rw [e]; simp [codedFile, postFile, slopeFull, ceilDiv]
    · rw [e]; simp [codedFile, postFile, slopeFull, ceilDiv]
  | i + 3 => cases hc

/-- **C107** (violated with different largest vertical factors). The same blocks of 8 by 16 pixels, once with all factors
1 by 2 and once with all factors 1 by 1, that is without subsampling in either: the first pixel of the last line is 121
(127 with rayon) in the one and 119 in the other. -/
theorem C107_ratios_violated : ∃ (f f' : BaselineFile) (codes : List (Code × Code)), SameRatios f f' 1 2 1 1 ∧
    f.comps.length = 3 ∧ f'.comps.length = 3 ∧ f.Valid 0 1 2 codes ∧ f'.Valid 0 1 1 codes ∧ f.InRange ∧ f'.InRange ∧
    f.Renderable 1 2 ∧ f'.Renderable 1 1 ∧ f.x = 8 ∧ f.y = 16 ∧
    ∀ cfg, ∃ image image' : List UInt8, decode cfg f.bytes = .ok image ∧ decode cfg f'.bytes = .ok image' ∧
      image[3 * f.x * 15]? = some (if cfg.rayon then 127 else 121) ∧ image'[3 * f.x * 15]? = some 119 := by
  have hq : GoodTable (List.replicate 64 1) := ⟨by decide, by decide⟩
  obtain ⟨data, hv⟩ := codedFile_valid hq (comps := postComps) (x := 8) (y := 16) (H := 1) (V := 2)
    (mcus := [[[slopeBlock 64, slopeBlock 0], [dcBlock 0, dcBlock 0], [dcBlock 0, dcBlock 0]]])
    ⟨by decide, by decide, by decide, by decide, by decide, ⟨by decide, by decide⟩, ⟨by decide, by decide⟩, by decide,
      by decide, by decide, by decide, by decide⟩ (by decide +kernel)
  obtain ⟨data', hv'⟩ := codedFile_valid hq (comps := fullComps) (x := 8) (y := 16) (H := 1) (V := 1)
    (mcus := [[[slopeBlock 64], [dcBlock 0], [dcBlock 0]], [[slopeBlock 0], [dcBlock 0], [dcBlock 0]]])
    ⟨by decide, by decide, by decide, by decide, by decide, ⟨by decide, by decide⟩, ⟨by decide, by decide⟩, by decide,
      by decide, by decide, by decide, by decide⟩ (by decide +kernel)
  have hr : (postFile data).Renderable 1 2 := by
    change ∀ c ∈ postComps, 1 % c.h = 0 ∧ 2 % c.v = 0 ∧
      (2 * c.h = 1 → (c.v = 2 ∨ 16 = 1) → 8 ≠ 1 → 8 % 2 = 0 ∧ (2 = 1 → 16 % 8 = 0 → 8 ≤ 8 * c.h)) ∧
      (¬ ((c.h = 1 ∨ 8 = 1 ∨ 2 * c.h = 1) ∧ (c.v = 2 ∨ 16 = 1 ∨ 2 * c.v = 2)) → 8 % (1 / c.h) = 0)
    decide
  have hr' : (slopeFull data').Renderable 1 1 := renderable_one hv'.toLaid.ones
  have hin : (postFile data).InRange := codedFile_inRange (by decide) (by decide +kernel)
  have hin' : (slopeFull data').InRange := codedFile_inRange (by decide) (by decide +kernel)
  refine ⟨postFile data, slopeFull data', _, post_ratios _ _, rfl, rfl, hv, hv', hin, hin', hr, hr', rfl, rfl, ?_⟩
  intro cfg
  have key : ∀ s row, (if cfg.rayon then 15 / 2 else 15 / 2 * 2) = row →
      (∀ i < 3, (postFile []).upsampledSample 1 2 i row 0 = if i = 0 then s else 128) →
      ∃ image : List UInt8, decode cfg (postFile data).bytes = .ok image ∧ image[3 * 8 * 15]? = some (UInt8.ofNat s) := by
    intro s row hrow hs
    obtain ⟨image, d', e, -⟩ := C45_decodes cfg (postFile data) 1 2 _ Decoder.default .new (.nothing _) rfl (by
      show (none : Option Nat) ≠ some 0; decide) hv hr
    obtain ⟨r, g, b, h, p0, -, -⟩ := C45_pixels_partial cfg (postFile data) 1 2 _ Decoder.default .new (.nothing _) rfl
      (by show (none : Option Nat) ≠ some 0; decide) hv hr hin image d' e 15 0 (by show 15 < 16; decide) (by show 0 < 8; decide)
    refine ⟨image, by unfold decode; rw [e], ?_⟩
    have hu : ∀ i row, (postFile data).upsampledSample 1 2 i row 0 = (postFile []).upsampledSample 1 2 i row 0 := fun i row => rfl
    simp only [hrow, hu, hs 0 (by decide), hs 1 (by decide), hs 2 (by decide)] at h
    cases (C27_grey (UInt8.ofNat s)).symm.trans h
    exact p0
  have other : ∃ image' : List UInt8, decode cfg (slopeFull data').bytes = .ok image' ∧ image'[3 * 8 * 15]? = some 119 := by
    obtain ⟨image, d', e, -⟩ := C45_decodes cfg (slopeFull data') 1 1 _ Decoder.default .new (.nothing _) rfl (by
      show (none : Option Nat) ≠ some 0; decide) hv' hr'
    obtain ⟨r, g, b, h, p0, -, -⟩ := C45_pixels_own_row_partial cfg (slopeFull data') 1 _ Decoder.default .new (.nothing _) rfl
      (by show (none : Option Nat) ≠ some 0; decide) hv' hr' hin' image d' e 15 0 (by show 15 < 16; decide) (by show 0 < 8; decide)
    refine ⟨image, by unfold decode; rw [e], ?_⟩
    have hu : ∀ i row, (slopeFull data').upsampledSample 1 1 i row 0 = (slopeFull []).upsampledSample 1 1 i row 0 :=
      fun i row => rfl
    simp only [hu, slopeFull_row 0 (by decide), slopeFull_row 1 (by decide), slopeFull_row 2 (by decide)] at h
    cases (C27_grey (UInt8.ofNat 119)).symm.trans h
    exact p0
  obtain ⟨s1, s2⟩ := post_rows
  obtain ⟨image', e2, p2⟩ := other
  cases hray : cfg.rayon with
  | false =>
    obtain ⟨image, e1, p1⟩ := key 121 14 (by rw [hray]; rfl) s1
    exact ⟨image, image', e1, e2, p1, p2⟩
  | true =>
    obtain ⟨image, e1, p1⟩ := key 127 7 (by rw [hray]; rfl) s2
    exact ⟨image, image', e1, e2, p1, p2⟩

end Jpeg
