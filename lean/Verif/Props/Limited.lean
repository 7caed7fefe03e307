import Verif.Spec.Limited
import Verif.Props.Local
/-!
# Values beyond the range of a sample (C90)
-/

namespace Jpeg
open Spec Sample

/-- The transform with the table of the decoder. -/
def wrapping (q : List Nat) (b : BlockData) (r x : Nat) : UInt8 := saturate (around (idctSample (dequantised q b) r x))

theorem givenBy_wrapping {f : BaselineFile} (h : f.Moderately) : GivenBy wrapping f := by
  intro i c qv hc hqv m hm bs hbs b hb q _ hq r x hr hx
  have h1 := h i c qv hc hqv m hm bs hbs b hb
  unfold sampleAt wrapping
  rw [C24_no_visible_wrap b.block q (by
    intro i hi
    have := coef_dequantised hq b (k := i / 8) (i := i % 8) (by omega) (by omega)
    rw [show i % 8 + 8 * (i / 8) = i by omega] at this
    rw [this]
    exact h1 _ _ (by omega) (by omega))]
  simp only [List.getD_eq_getElem?_getD, List.getElem?_map, List.getElem?_range hr, List.getElem?_range hx,
    Option.map_some, Option.getD_some]
  rw [idctSample_congr (fun k i hk hi => coef_dequantised hq b hk hi) r x]
  rfl

theorem InRange.moderately {f : BaselineFile} (h : f.InRange) : f.Moderately :=
  fun i c q hc hq m hm bs hbs b hb => (h i c q hc hq m hm bs hbs b hb).1

section

variable {f : BaselineFile} {H V : Nat} {r : Nat} {codes : List (Code × Code)}

theorem sampleBy_value (hv : f.Laid r H V codes) {i : Nat} {c : FileComponent} (hc : f.comps[i]? = some c) {Y X : Nat}
    (hY : Y / 8 / c.v < ceilDiv f.y (8 * V)) (hX : X / 8 / c.h < ceilDiv f.x (8 * H)) :
    sampleBy wrapping f H i Y X = saturate (around (f.value H i Y X)) := by
  obtain ⟨f1, f2, f3, f4⟩ := hv.factors c (List.mem_of_getElem? hc)
  obtain ⟨-, -, -, -, b, -, hb⟩ := blockAt_some hv hc (Y := Y) (X := X)
    (by rw [Nat.div_lt_iff_lt_mul f3] at hY; omega) (by rw [Nat.div_lt_iff_lt_mul f1] at hX; omega)
  obtain ⟨q, hq⟩ := hv.quant c (List.mem_of_getElem? hc)
  unfold sampleBy BaselineFile.value
  rw [hc]
  simp only [hb, hq]
  rfl

theorem upsampledBy_wrapping (hv : f.Laid r H V codes) (hr : f.Renderable H V) {i row x : Nat} (hrow : row < f.y) (hx : x < f.x) :
    upsampledBy wrapping f H V i row x = f.aroundSample H V i row x := by
  unfold upsampledBy BaselineFile.aroundSample
  cases hc : f.comps[i]? with
  | none => rfl
  | some c =>
    simp only
    have hcm := List.mem_of_getElem? hc
    have g := fileComponent_geometry hv hcm
    have hH := hv.hmax.1 c hcm
    have hV := hv.vmax.1 c hcm
    simp only at hH hV
    obtain ⟨f1, f2, f3, f4⟩ := hv.factors c hcm
    have := upsampled_congr g hH hV hv.x.1 hrow ⟨(hr c hcm).1, (hr c hcm).2.1⟩ hx
      (fun r k => (sampleBy wrapping f H i r k).toNat) (fun r k => (saturate (around (f.value H i r k))).toNat) ?_
    · exact this
    intro r k h1 h2
    rw [sampleBy_value hv hc (lt_mcus (by omega) (by omega) h1) (lt_mcus (by omega) (by omega) h2)]

end

/-- **C90** (exactly). Every file whose dequantised coefficients are at most `2^16` in magnitude, whatever the values
that the inverse transform gives: pixel `(x, y)` is the colour of the values reduced modulo 1024 to -256..767 and then
limited to 0..255. (In row `y / V * V` or `y / V`, see C33.) -/
theorem C90_reduced (cfg : Cfg) (f : BaselineFile) (H V : Nat) (codes : List (Code × Code)) (d : Decoder)
    (hd : UsedDecoder d) (hh : Holds cfg d f.earlier) (h3 : f.comps.length = 3) (hct : f.transform d.transform ≠ some 0)
    (hv : f.Valid (f.interval d.restartInterval) H V codes) (hr : f.Renderable H V) (hm : f.Moderately) :
    ∃ image d', d.decode cfg f.bytes = .ok image d' ∧ image.length = f.x * f.y * 3 ∧ ∀ y x, y < f.y → x < f.x →
      let row := if cfg.rayon then y / V else y / V * V
      let up := fun i => UInt8.ofNat (f.aroundSample H V i row x)
      ∃ r g b, ycbcrToRgb (up 0) (up 1) (up 2) = .ok (r, g, b) ∧
        image[3 * f.x * y + 3 * x]? = some r ∧
        image[3 * f.x * y + (3 * x + 1)]? = some g ∧
        image[3 * f.x * y + (3 * x + 2)]? = some b := by
  obtain ⟨image, d', e, hl⟩ := C45_decodes cfg f H V codes d hd hh h3 hct hv hr
  refine ⟨image, d', e, hl, fun y x hy hx => ?_⟩
  have hrow : (if cfg.rayon then y / V else y / V * V) < f.y := by
    have := Nat.div_le_self y V
    have := Nat.div_mul_le_self y V
    split <;> omega
  have := file_pixels hd hh h3 hct hv hr (givenBy_wrapping hm) e hy hx
  simp only [upsampledBy_wrapping hv.toLaid hr hrow hx] at this
  exact this

/-- **C90** (exactly, CMYK). Likewise: byte `i` of pixel `(x, y)` is 255 minus the value of component `i`, reduced modulo
1024 to -256..767 and then limited to 0..255. -/
theorem C90_reduced_cmyk (cfg : Cfg) (f : BaselineFile) (H V : Nat) (codes : List (Code × Code)) (d : Decoder)
    (hd : UsedDecoder d) (hh : Holds cfg d f.earlier) (h4 : f.comps.length = 4) (hct : f.transform d.transform = some 0)
    (hv : f.Valid (f.interval d.restartInterval) H V codes) (hr : f.Renderable H V) (hm : f.Moderately) :
    ∃ image d', d.decode cfg f.bytes = .ok image d' ∧ image.length = f.x * f.y * 4 ∧ ∀ y x i, y < f.y → x < f.x → i < 4 →
      let row := if cfg.rayon then y / V else y / V * V
      image[4 * f.x * y + (4 * x + i)]? = some (255 - UInt8.ofNat (f.aroundSample H V i row x)) := by
  obtain ⟨image, d', e, hl⟩ := C54_decodes cfg f H V codes d hd hh h4 hct hv hr
  refine ⟨image, d', e, hl, fun y x i hy hx hi => ?_⟩
  have hrow : (if cfg.rayon then y / V else y / V * V) < f.y := by
    have := Nat.div_le_self y V
    have := Nat.div_mul_le_self y V
    split <;> omega
  have := cmyk_pixels hd hh h4 hct hv hr (givenBy_wrapping hm) e hy hx hi
  simp only [upsampledBy_wrapping hv.toLaid hr hrow hx] at this
  exact this

/-- **C90** (part). No subsampling: a pixel whose three values are not more than 256 below and 512 above the range
0..255 is the colour of the values limited to 0..255, whatever the other pixels are.

Missing: other values, see `C90_violated`. -/
theorem C90_limited_partial (cfg : Cfg) (f : BaselineFile) (codes : List (Code × Code)) (d : Decoder)
    (hd : UsedDecoder d) (hh : Holds cfg d f.earlier) (h3 : f.comps.length = 3) (hct : f.transform d.transform ≠ some 0)
    (hv : f.Valid (f.interval d.restartInterval) 1 1 codes) (hm : f.Moderately) :
    ∃ image d', d.decode cfg f.bytes = .ok image d' ∧ image.length = f.x * f.y * 3 ∧ ∀ y x, y < f.y → x < f.x →
      (∀ i, i < 3 → -256 ≤ f.value 1 i y x ∧ f.value 1 i y x ≤ 767) →
      ∃ r g b, ycbcrToRgb (saturate (f.value 1 0 y x)) (saturate (f.value 1 1 y x)) (saturate (f.value 1 2 y x)) = .ok (r, g, b) ∧
        image[3 * f.x * y + 3 * x]? = some r ∧
        image[3 * f.x * y + (3 * x + 1)]? = some g ∧
        image[3 * f.x * y + (3 * x + 2)]? = some b := by
  have hr := renderable_one hv.toLaid.ones
  obtain ⟨image, d', e, hl, hp⟩ := C90_reduced cfg f 1 1 codes d hd hh h3 hct hv hr hm
  refine ⟨image, d', e, hl, fun y x hy hx hb => ?_⟩
  have key := hp y x hy hx
  have hrow : (if cfg.rayon then y / 1 else y / 1 * 1) = y := by simp
  have hup : ∀ i, i < 3 → UInt8.ofNat (f.aroundSample 1 1 i y x) = saturate (f.value 1 i y x) := by
    intro i hi
    unfold BaselineFile.aroundSample
    rw [List.getElem?_eq_getElem (by omega)]
    have o := hv.toLaid.ones f.comps[i] (List.getElem_mem _)
    simp only [o.1, o.2]
    unfold upsampled
    rw [if_pos ⟨.inl rfl, .inl rfl⟩]
    simp only
    rw [show around (f.value 1 i y x) = f.value 1 i y x from window_id (hb i hi)]
    simp
  simp only [hrow, hup 0 (by decide), hup 1 (by decide), hup 2 (by decide)] at key
  exact key

/-! ## The violation, and cases -/

/-- A bright MCU. -/
def brightMcu : Mcu := [[dcBlock 640], [dcBlock 0], [dcBlock 0]]

/-- **C90** (violated). A picture of one grey far above white, all 64 values of the luminance being 768: it is black. -/
theorem C90_violated : ∃ (f : BaselineFile) (codes : List (Code × Code)), f.comps.length = 3 ∧ f.Valid 0 1 1 codes ∧
    f.Moderately ∧ f.x = 8 ∧ f.y = 8 ∧
    (∀ y x, y < 8 → x < 8 → f.value 1 0 y x = 768 ∧ f.value 1 1 y x = 128 ∧ f.value 1 2 y x = 128) ∧
    ∀ cfg, ∃ image : List UInt8, decode cfg f.bytes = .ok image ∧
      ∀ y x j, y < 8 → x < 8 → j < 3 → image[3 * f.x * y + (3 * x + j)]? = some 0 := by
  obtain ⟨data, hv⟩ := codedFile_valid (q := List.replicate 64 8) (comps := fullComps) (x := 8) (y := 8) (H := 1) (V := 1)
    (mcus := [brightMcu]) ⟨by decide, by decide⟩
    ⟨by decide, by decide, by decide, by decide, by decide, ⟨by decide, by decide⟩, ⟨by decide, by decide⟩, by decide,
      by decide, by decide, by decide, by decide⟩ (by decide)
  have hval : ∀ y < 8, ∀ x < 8, ∀ i < 3, (codedFile (List.replicate 64 8) fullComps 8 8 [brightMcu] []).value 1 i y x =
      if i = 0 then 768 else 128 := by decide +kernel
  have hval' : ∀ y < 8, ∀ x < 8, ∀ i < 3, (codedFile (List.replicate 64 8) fullComps 8 8 [brightMcu] data).value 1 i y x =
      if i = 0 then 768 else 128 := hval
  have hm : (codedFile (List.replicate 64 8) fullComps 8 8 [brightMcu] data).Moderately := by
    intro i c q hc hq m hmm bs hbs b hb
    obtain rfl : m = brightMcu := by simpa [codedFile] using hmm
    rw [codedFile_quantOf _ _ _ _ _ _ _ ((by decide : ∀ c ∈ fullComps, c.tq = 0) c (List.mem_of_getElem? hc))] at hq
    cases hq
    have key : ∀ bs ∈ brightMcu, ∀ b ∈ bs, ∀ k < 8, ∀ j < 8, -2 ^ 16 ≤ dequantised (List.replicate 64 8) b k j ∧
        dequantised (List.replicate 64 8) b k j ≤ 2 ^ 16 := by decide +kernel
    exact fun k j hk hj => key bs (List.mem_of_getElem? hbs) b hb k hk j hj
  refine ⟨codedFile (List.replicate 64 8) fullComps 8 8 [brightMcu] data, _, rfl, hv, hm, rfl, rfl, fun y x hy hx =>
    ⟨hval' y hy x hx 0 (by decide), hval' y hy x hx 1 (by decide), hval' y hy x hx 2 (by decide)⟩, fun cfg => ?_⟩
  have hr := renderable_one hv.toLaid.ones
  obtain ⟨image, d', e, hl, hp⟩ := C90_reduced cfg _ 1 1 _ Decoder.default .new (.nothing _) rfl (by
    show (none : Option Nat) ≠ some 0; decide) hv hr hm
  refine ⟨image, by unfold decode; rw [e], fun y x j hy hx hj => ?_⟩
  obtain ⟨r, g, b, h, p0, p1, p2⟩ := hp y x hy hx
  have hrow : (if cfg.rayon then y / 1 else y / 1 * 1) = y := by simp
  have hup : ∀ i < 3, UInt8.ofNat ((codedFile (List.replicate 64 8) fullComps 8 8 [brightMcu] data).aroundSample 1 1 i y x) =
      if i = 0 then 0 else 128 := by
    intro i hi
    unfold BaselineFile.aroundSample
    rw [show (codedFile (List.replicate 64 8) fullComps 8 8 [brightMcu] data).comps[i]? = fullComps[i]? from rfl,
      List.getElem?_eq_getElem (by exact hi)]
    have o := hv.toLaid.ones fullComps[i] (List.getElem_mem _)
    simp only [o.1, o.2]
    unfold upsampled
    rw [if_pos ⟨.inl rfl, .inl rfl⟩]
    simp only [hval' y hy x hx i hi]
    split <;> decide
  simp only [hrow, hup 0 (by decide), hup 1 (by decide), hup 2 (by decide)] at h
  cases (C27_grey 0).symm.trans h
  rcases (by omega : j = 0 ∨ j = 1 ∨ j = 2) with rfl | rfl | rfl
  · exact p0
  · exact p1
  · exact p2

/-- A case of `C90_reduced_cmyk`. -/
example : ∃ image d', Decoder.default.decode ⟨true, false⟩ (exampleOf 4 0 exampleData4).bytes = .ok image d' ∧
    image[4 * 16 * 3 + (4 * 9 + 3)]? = some 129 := by
  obtain ⟨image, d', e, -, h⟩ := C90_reduced_cmyk ⟨true, false⟩ _ 1 1 _ Decoder.default .new (.nothing _) rfl rfl
    (example4_valid 0 (by decide)) (exampleOf_renderable _ _ _) (InRange.moderately (exampleOf_inRange _ _ _))
  refine ⟨image, d', e, ?_⟩
  have := h 3 9 3 (by decide) (by decide) (by decide)
  simp only [show (exampleOf 4 0 exampleData4).aroundSample 1 1 3 (if (Cfg.mk true false).rayon then 3 / 1 else 3 / 1 * 1) 9 = 126
    by decide +kernel] at this
  exact this

end Jpeg
