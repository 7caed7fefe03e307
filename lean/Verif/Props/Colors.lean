import Verif.Props.EndToEnd
import Verif.Props.Layout
/-!
# Whole files by number of components and colour transform

Greyscale (C46), RGB (C47), CMYK (C54) and YCCK (C55) files laid out as the standard says.
-/

namespace Jpeg
open Spec

section

variable {cfg : Cfg} {f : BaselineFile} {H V : Nat} {codes : List (Code × Code)}

/-- The result for a whole file is that of the last stage. -/
theorem file_result {d : Decoder} (hd : UsedDecoder d) (hh : Holds cfg d f.earlier)
    (hv : f.Valid (f.interval d.restartInterval) H V codes) :
    ∃ d' : Decoder, Decoded d' (fileFrame f H V) ∧ d'.transform = f.transform d.transform ∧
      (∀ image, upsample cfg d' = .ok image → d.decode cfg f.bytes = .ok image d') ∧
      (∀ image d'', d.decode cfg f.bytes = .ok image d'' → upsample cfg d' = .ok image) ∧
      (∀ e, upsample cfg d' = .error (.panic e) → d.decode cfg f.bytes = .fail (.panic e) d') ∧
      (∀ e, upsample cfg d' = .error (.err e) → d.decode cfg f.bytes = .fail (.err e) d') ∧
      TablesHeld cfg f.tables d' ∧ d'.planes = scanPlanes (ceilDiv f.x (8 * H)) d'.quantTables
        (fileFrame f H V).components f.intervals.flatten := by
  obtain ⟨d', bi, h1, h2, h3, h4, h5, h7⟩ := file_decoded (cfg := cfg) hd.inv hh.held hv
  refine ⟨d', h3, h4, ?_, ?_, ?_, ?_, h5, h7⟩
  · intro a e
    unfold Decoder.decode decodeParser
    unfold loopAll at h1
    rw [h1, Out.bind_ok]
    simp only [e, h2]
    simp
  · intro image d'' e
    unfold Decoder.decode decodeParser at e
    unfold loopAll at h1
    rw [h1, Out.bind_ok] at e
    cases eu : upsample cfg d' with
    | error x => rw [eu] at e; cases x <;> simp [h2] at e
    | ok i => rw [eu] at e; simp [h2] at e; rw [e.1]
  all_goals
    intro a e
    unfold Decoder.decode decodeParser
    unfold loopAll at h1
    rw [h1, Out.bind_ok]
    simp only [e, h2, ne_eq, not_true_eq_false, if_false]

theorem fileFrame_length : (fileFrame f H V).components.length = f.comps.length := by simp [fileFrame]

/-- **C46** (refutation, every file). Every one-component file laid out as the standard says panics, on every
decoder, in every build. -/
theorem C46_violated_every_file (cfg : Cfg) (f : BaselineFile) (H V : Nat) (codes : List (Code × Code))
    (d : Decoder) (hd : UsedDecoder d) (hh : Holds cfg d f.earlier) (h1 : f.comps.length = 1)
    (hv : f.Valid (f.interval d.restartInterval) H V codes) :
    ∃ d', d.decode cfg f.bytes = .fail (.panic .componentCount) d' := by
  obtain ⟨d', hdec, -, -, -, hp, -⟩ := file_result (cfg := cfg) hd hh hv
  refine ⟨d', hp _ ?_⟩
  unfold upsample
  rw [hdec.has]
  simp only [fileFrame_length, h1, chooseColorConvert]

/-- **C47** (refutation, every file). Every three-component file laid out as the standard says, with sampling
factors this decoder can render, and transform 0 in its Adobe segment, decodes to zeros: a picture that does
not depend on the coefficients. -/
theorem C47_violated_every_file (cfg : Cfg) (f : BaselineFile) (H V : Nat) (codes : List (Code × Code))
    (d : Decoder) (hd : UsedDecoder d) (hh : Holds cfg d f.earlier) (h3 : f.comps.length = 3) (hct : f.transform d.transform = some 0)
    (hv : f.Valid (f.interval d.restartInterval) H V codes) (hr : f.Renderable H V) :
    ∃ d', d.decode cfg f.bytes = .ok (List.replicate (f.x * f.y * 3) 0) d' := by
  obtain ⟨d', hdec, ht, hok, -⟩ := file_result (cfg := cfg) hd hh hv
  have hct' : d'.colorTransform = some .unknown := transform_unknown.2 (ht.trans hct)
  obtain ⟨us, hu⟩ := file_upsamples hv.toLaid hr
  obtain ⟨image, e, -⟩ := C32_no_panic_partial cfg d' (fileFrame f H V) hdec hv.x.1 .null
    (by rw [fileFrame_length, h3, hct']; rfl) (by decide) us hu H V
    ((Largest.map (f := Component.h)).2 hv.hmax) ((Largest.map (f := Component.v)).2 hv.vmax) (by
      intro c hc
      obtain ⟨k, hk, rfl⟩ := List.mem_map.1 hc
      exact (hr k hk).2.2.1)
  have key := hok _ e
  refine ⟨d', ?_⟩
  rw [key, C47_violated cfg f.bytes image d d' _ key hdec.has (by rw [fileFrame_length, h3]) hct']
  rfl

/-- **C54** (no Adobe segment). Four components and no transform in force: refused with the error meant for
that. -/
theorem C54_without_adobe (cfg : Cfg) (f : BaselineFile) (H V : Nat) (codes : List (Code × Code))
    (d : Decoder) (hd : UsedDecoder d) (hh : Holds cfg d f.earlier) (h4 : f.comps.length = 4) (hct : f.transform d.transform = none)
    (hv : f.Valid (f.interval d.restartInterval) H V codes) :
    ∃ d', d.decode cfg f.bytes = .fail (.err .fourComponents) d' := by
  obtain ⟨d', hdec, ht, -, -, -, he, -⟩ := file_result (cfg := cfg) hd hh hv
  have hct' : d'.colorTransform = none := by
    have := ht.trans hct
    unfold Decoder.transform at this
    simpa using this
  refine ⟨d', he _ ?_⟩
  unfold upsample
  rw [hdec.has]
  simp only [fileFrame_length, h4, hct', chooseColorConvert]

/-- **C54** (decoding succeeds). Every four-component file laid out as the standard says, with sampling
factors this decoder can render and Adobe transform 0 (CMYK), decodes to `x * y` pixels of four bytes. -/
theorem C54_decodes (cfg : Cfg) (f : BaselineFile) (H V : Nat) (codes : List (Code × Code)) (d : Decoder)
    (hd : UsedDecoder d) (hh : Holds cfg d f.earlier) (h4 : f.comps.length = 4) (hct : f.transform d.transform = some 0)
    (hv : f.Valid (f.interval d.restartInterval) H V codes) (hr : f.Renderable H V) :
    ∃ image d', d.decode cfg f.bytes = .ok image d' ∧ image.length = f.x * f.y * 4 := by
  obtain ⟨d', hdec, ht, hok, -⟩ := file_result (cfg := cfg) hd hh hv
  have hct' : d'.colorTransform = some .unknown := transform_unknown.2 (ht.trans hct)
  obtain ⟨us, hu⟩ := file_upsamples hv.toLaid hr
  obtain ⟨image, e, hl⟩ := C32_no_panic_partial cfg d' (fileFrame f H V) hdec hv.x.1 .cmyk
    (by rw [fileFrame_length, h4, hct']; rfl) (by decide) us hu H V
    ((Largest.map (f := Component.h)).2 hv.hmax) ((Largest.map (f := Component.v)).2 hv.vmax) (by
      intro c hc
      obtain ⟨k, hk, rfl⟩ := List.mem_map.1 hc
      exact (hr k hk).2.2.1)
  exact ⟨image, d', hok _ e, by rw [hl, fileFrame_length, h4]; rfl⟩

/-- A CMYK image as a function of the planes. -/
theorem cmyk_group_row {d : Decoder} {frame : Frame} (h : Decoded d frame) {image : List UInt8}
    (e : upsample cfg d = .ok image) (h4 : frame.components.length = 4)
    (hct : d.colorTransform = some .unknown)
    (hH : Largest (·.h) frame.components H) (hV : Largest (·.v) frame.components V)
    (hcol : CompleteColumns frame H V) {y x i : Nat} (hy : y < frame.lines) (hx : x < frame.samplesPerLine)
    {c : Component} {p : List UInt8} (hc : frame.components[i]? = some c) (hp : d.planes[i]? = some p) :
    image[4 * frame.samplesPerLine * y + (4 * x + i)]? =
      some (255 - upAt frame H V c p (if cfg.rayon then y / V else y / V * V) x) := by
  have hf : chooseColorConvert frame.components.length d.colorTransform = .ok .cmyk := by
    rw [h4, hct]; rfl
  obtain ⟨us, hcs, hW, hV1, rfl⟩ := upsample_success h e .cmyk hf (by decide) hH hV
  have hlen : ∀ y, (convLine .cmyk frame.samplesPerLine
      (rowVals us frame.samplesPerLine frame.components d.planes (rowOf cfg V y))).length =
      4 * frame.samplesPerLine := by
    intro y
    rw [convLine_length _ _ _ _ _ hf (by decide), h4, Nat.mul_comm]
  have hi : i < 4 := by
    rw [← h4]
    exact (List.getElem?_eq_some_iff.1 hc).1
  rw [flatMap_get hlen frame.lines y (4 * x + i) hy (by omega)]
  show ((List.range frame.samplesPerLine).flatMap fun x => _)[4 * x + i]? = _
  rw [flatMap_get (k := 4) (fun _ => rfl) frame.samplesPerLine x i hx hi]
  have := rowVals_upAt hcs hcol hc hp (row := rowOf cfg V y) hx
  rcases (by omega : i = 0 ∨ i = 1 ∨ i = 2 ∨ i = 3) with rfl | rfl | rfl | rfl <;>
    (rw [← show _ = upAt frame H V c p (if cfg.rayon then y / V else y / V * V) x from this]; rfl)

/-- The pixels of a CMYK file, blocks being transformed by `S`. -/
theorem cmyk_pixels {S : List Nat → BlockData → Nat → Nat → UInt8} {f : BaselineFile} {d : Decoder}
    (hd : UsedDecoder d) (hh : Holds cfg d f.earlier) (h4 : f.comps.length = 4) (hct : f.transform d.transform = some 0)
    (hv : f.Valid (f.interval d.restartInterval) H V codes) (hr : f.Renderable H V) (hin : GivenBy S f)
    {image : List UInt8} {d' : Decoder} (e : d.decode cfg f.bytes = .ok image d')
    {y x i : Nat} (hy : y < f.y) (hx : x < f.x) (hi : i < 4) :
    let row := if cfg.rayon then y / V else y / V * V
    image[4 * f.x * y + (4 * x + i)]? = some (255 - UInt8.ofNat (upsampledBy S f H V i row x)) := by
  intro row
  obtain ⟨d2, hdec, ht, -, hup, -, -, htab, hpl⟩ := file_result (cfg := cfg) hd hh hv
  have hup := hup _ _ e
  have hct' : d2.colorTransform = some .unknown := transform_unknown.2 (ht.trans hct)
  have hl : (fileFrame f H V).components.length = 4 := by rw [fileFrame_length, h4]
  have hcm := List.getElem?_eq_getElem (l := f.comps) (i := i) (by omega)
  have hci : (fileFrame f H V).components[i]? = some (fileComponent f H V (f.comps[i]'(by omega))) := by
    simp [fileFrame, hcm]
  obtain ⟨p, hpi⟩ : ∃ p, d2.planes[i]? = some p :=
    ⟨_, List.getElem?_eq_getElem (by rw [hpl]; simp [scanPlanes, hl]; exact hi)⟩
  have hrow : row < f.y := by
    show (if cfg.rayon then y / V else y / V * V) < f.y
    have := Nat.div_le_self y V
    have := Nat.div_mul_le_self y V
    split <;> omega
  have key := cmyk_group_row hdec hup hl hct' ((Largest.map (f := Component.h)).2 hv.hmax)
    ((Largest.map (f := Component.v)).2 hv.vmax) (file_columns hr) (y := y) (x := x) hy hx hci hpi
  rw [upAt_file hv.toLaid hr hin htab hcm (by rw [← hpl]; exact hpi) hrow hx] at key
  exact key

/-- **C54** (the pixels). Byte `i` of pixel `(x, y)` is 255 minus the sample of component `i`, dequantised,
transformed, clamped and upsampled, in column `x` of row `y / V * V` (`y / V` with rayon), which is row `y`
if no vertical sampling factor is above 1.

Missing: row `y` for larger vertical factors, which is false (C33). -/
theorem C54_pixels_partial (cfg : Cfg) (f : BaselineFile) (H V : Nat) (codes : List (Code × Code)) (d : Decoder)
    (hd : UsedDecoder d) (hh : Holds cfg d f.earlier) (h4 : f.comps.length = 4) (hct : f.transform d.transform = some 0)
    (hv : f.Valid (f.interval d.restartInterval) H V codes) (hr : f.Renderable H V) (hin : f.InRange)
    (image : List UInt8) (d' : Decoder) (e : d.decode cfg f.bytes = .ok image d')
    (y x i : Nat) (hy : y < f.y) (hx : x < f.x) (hi : i < 4) :
    let row := if cfg.rayon then y / V else y / V * V
    image[4 * f.x * y + (4 * x + i)]? = some (255 - UInt8.ofNat (f.upsampledSample H V i row x)) :=
  cmyk_pixels hd hh h4 hct hv hr (givenBy_exactly hin) e hy hx hi

/-- **C54** (the pixels, no vertical subsampling). -/
theorem C54_pixels_own_row_partial (cfg : Cfg) (f : BaselineFile) (H : Nat) (codes : List (Code × Code)) (d : Decoder)
    (hd : UsedDecoder d) (hh : Holds cfg d f.earlier) (h4 : f.comps.length = 4) (hct : f.transform d.transform = some 0)
    (hv : f.Valid (f.interval d.restartInterval) H 1 codes) (hr : f.Renderable H 1) (hin : f.InRange)
    (image : List UInt8) (d' : Decoder) (e : d.decode cfg f.bytes = .ok image d')
    (y x i : Nat) (hy : y < f.y) (hx : x < f.x) (hi : i < 4) :
    image[4 * f.x * y + (4 * x + i)]? = some (255 - UInt8.ofNat (f.upsampledSample H 1 i y x)) := by
  have := C54_pixels_partial cfg f H 1 codes d hd hh h4 hct hv hr hin image d' e y x i hy hx hi
  simp only [Nat.div_one, Nat.mul_one, ite_self] at this
  exact this

/-- Four lines for a conversion that takes three. -/
theorem upsample_ycck {d : Decoder} {frame : Frame} (h : Decoded d frame) (hW : 1 ≤ frame.samplesPerLine)
    (hL : 1 ≤ frame.lines) (h4 : frame.components.length = 4)
    (hf : chooseColorConvert frame.components.length d.colorTransform = .ok .ycck)
    {ucs : List UpsamplerComponent}
    (hu : upsamplerNew frame.components ⟨frame.samplesPerLine, frame.lines⟩ = .ok ucs)
    (hH : Largest (·.h) frame.components H) (hV : Largest (·.v) frame.components V)
    (hgood : ∀ c ∈ frame.components, 2 * c.h = H → (c.v = V ∨ frame.lines = 1) → frame.samplesPerLine ≠ 1 →
      frame.samplesPerLine % 2 = 0 ∧
      (V = 1 → frame.lines % 8 = 0 → frame.samplesPerLine ≤ 8 * c.h)) :
    upsample cfg d = .error (.panic .fixedSlice) := by
  obtain ⟨H', V', us, hH', hV', hv, hV1, rfl, hc, h4'⟩ := h.comps hu
  obtain rfl := hH.unique hH'
  obtain rfl := hV.unique hV'
  unfold upsample
  rw [h.has]
  simp only [hf, hu, hv]
  rw [if_neg (by
    intro h0
    rcases Nat.mul_eq_zero.mp h0 with h0 | h0 <;> omega)]
  have hr0 : rowOf cfg V 0 = 0 := by unfold rowOf; simp
  obtain ⟨lines, bufs', e, -, hl, -⟩ := rowGo_ok hc hW (row := 0) (by omega) (by
    intro i u c h1 h2
    obtain ⟨plane, _, hci⟩ := hc.get i u c h1 h2
    have := rowFits_of (cfg := cfg) hci hW (hgood c (List.mem_of_getElem? h2)) (y := 0) (by omega)
    rwa [hr0] at this) (List.replicate 4 []) (BufsOk.init _ _ _ h4')
  obtain ⟨a, b, c, k, rfl⟩ := list4 (hl.trans h4)
  have hrow : upsampleAndInterleaveRow cfg (compsOf us frame.components) d.planes (List.replicate 4 []) 0
      frame.samplesPerLine = .ok ([a, b, c, k], bufs') := by
    unfold upsampleAndInterleaveRow
    rw [if_neg, e]
    rintro ⟨_, hne⟩
    have := hc.length
    unfold compsOf at hne
    rw [List.length_zipWith] at hne
    omega
  obtain ⟨n, hn⟩ : ∃ n, frame.lines = n + 1 := ⟨frame.lines - 1, by omega⟩
  obtain ⟨m, hm⟩ : ∃ m, max V 1 = m + 1 := ⟨max V 1 - 1, by omega⟩
  rw [hn, List.replicate_succ (n := n), upsampleGroups]
  rw [if_neg (by simp)]
  simp only [ite_self, hrow, hm, List.take_succ_cons, convertLines, ColorConvertFunc.convert]

/-- **C55** (refutation, every file). Every four-component file laid out as the standard says, not empty, with
sampling factors this decoder can render, and an Adobe transform other than 0, panics in the colour
conversion. -/
theorem C55_violated_every_file (cfg : Cfg) (f : BaselineFile) (H V t : Nat) (codes : List (Code × Code))
    (d : Decoder) (hd : UsedDecoder d) (hh : Holds cfg d f.earlier) (h4 : f.comps.length = 4) (hct : f.transform d.transform = some (t + 1))
    (hv : f.Valid (f.interval d.restartInterval) H V codes) (hr : f.Renderable H V) (hy : 1 ≤ f.y) :
    ∃ d', d.decode cfg f.bytes = .fail (.panic .fixedSlice) d' := by
  obtain ⟨d', hdec, ht, -, -, hp, -⟩ := file_result (cfg := cfg) hd hh hv
  refine ⟨d', hp _ ?_⟩
  obtain ⟨us, hu⟩ := file_upsamples hv.toLaid hr
  refine upsample_ycck hdec hv.x.1 hy (by rw [fileFrame_length, h4]) ?_ hu
    ((Largest.map (f := Component.h)).2 hv.hmax) ((Largest.map (f := Component.v)).2 hv.vmax) ?_
  · rw [fileFrame_length, h4]
    have := ht.trans hct
    unfold Decoder.transform at this
    rcases hc : d'.colorTransform with _ | _ | _ | _ <;> rw [hc] at this <;>
      first | rfl | simp [AdobeColorTransform.code] at this
  · intro c hc
    obtain ⟨k, hk, rfl⟩ := List.mem_map.1 hc
    exact (hr k hk).2.2.1

end

/-! ## Cases -/

/-- An MCU of one block for each of `n` components. -/
def exampleMcuOf (n : Nat) : Mcu := List.replicate n [⟨-5, exampleZz⟩]

/-- 16 by 8 pixels of `n` components, two MCUs, restart interval 1, Adobe's segment with transform `t`; `data`
is the data of an MCU. -/
def exampleOf (n t : Nat) (data : List UInt8) : BaselineFile where
  before := [.adobe 100 0 0 t, .dqt [⟨false, 1, List.replicate 64 2⟩]]
  sof := 0
  precision := 8
  y := 8
  x := 16
  comps := (List.range n).map fun i => ⟨⟨UInt8.ofNat (i + 1), 1, 1, 1⟩, 0, 2⟩
  after := [.dht [⟨false, 0, exampleDc.counts, exampleDc.values⟩, ⟨true, 2, exampleAc.counts, exampleAc.values⟩],
    .dri 1]
  intervals := [[exampleMcuOf n], [exampleMcuOf n]]
  data := stuff data ++ ([] ++ 0xFF :: 0xD0 :: (stuff data ++ markerBytes .EOI))

theorem exampleMcuOf_bits (n : Nat) : McuBits (List.replicate n (exampleDc, exampleAc)) (List.replicate n 0)
    (exampleMcuOf n) (List.replicate n exampleBits).flatten (List.replicate n (-5)) := by
  have hb := C13_standard_encoder _ _ _ _ _ (by decide) exampleBits_eq
  have h1 : BlocksBits exampleDc exampleAc 0 [⟨-5, exampleZz⟩] _ (-5) := .cons hb (by decide) .nil
  induction n with
  | zero => exact .nil
  | succ n ih =>
    have := McuBits.cons h1 ih
    unfold exampleMcuOf at this ⊢
    simpa [List.replicate_succ] using this

theorem exampleOf_valid (n t : Nat) (data : List UInt8) (hn : 1 ≤ n ∧ n ≤ 4) (ht : t ≤ 2) (pad : List Bool)
    (hd : bitsOf data = (List.replicate n exampleBits).flatten ++ pad) :
    (exampleOf n t data).Valid 1 1 1 (List.replicate n (exampleDc, exampleAc)) := by
  have hi : IntervalData (List.replicate n (exampleDc, exampleAc)) [exampleMcuOf n] data := by
    refine ⟨_, pad, List.replicate n (-5), .cons (by simpa using exampleMcuOf_bits n) .nil, ?_⟩
    rw [List.append_nil]
    exact hd
  have hlen : (exampleOf n t data).comps.length = n := by simp [exampleOf]
  have hcomp : ∀ c ∈ (exampleOf n t data).comps, c.h = 1 ∧ c.v = 1 ∧ c.tq = 1 ∧ c.dc = 0 ∧ c.ac = 2 := by
    intro c hc
    simp only [exampleOf, List.mem_map, List.mem_range] at hc
    obtain ⟨i, -, rfl⟩ := hc
    exact ⟨rfl, rfl, rfl, rfl, rfl⟩
  have hex : ∃ c, c ∈ (exampleOf n t data).comps :=
    List.exists_mem_of_length_pos (by rw [hlen]; omega)
  refine ⟨⟨?_, by simp [exampleOf], by simp [exampleOf], by simp [exampleOf], by rw [hlen]; exact hn, ?_, ?_,
    ⟨?_, ?_⟩, ⟨?_, ?_⟩, ?_, fun _ => ⟨rfl, rfl⟩, ?_, ?_, ?_, ?_, ?_⟩, ⟨0, .cons 0 hi (.last hi)⟩⟩
  · intro s hs
    simp only [exampleOf, BaselineFile.tables, BaselineFile.segments, List.cons_append, List.nil_append, List.mem_cons,
      List.not_mem_nil, or_false] at hs
    rcases hs with rfl | rfl | rfl | rfl
    · exact ⟨by simp [TableSegment.content, be16], by decide, ht⟩
    · refine ⟨by decide, ?_⟩
      intro t ht
      rw [List.mem_singleton.1 ht]
      exact ⟨by decide, by decide, by decide⟩
    · refine ⟨by decide, ?_⟩
      intro t ht
      simp only [List.mem_cons, List.not_mem_nil, or_false] at ht
      rcases ht with rfl | rfl
      · exact ⟨⟨by decide, by decide, by decide⟩, by decide, by decide, by unfold KraftOk; decide⟩
      · exact ⟨⟨by decide, by decide, by decide⟩, by decide, by decide, by unfold KraftOk; decide⟩
    · exact ⟨by decide, by show (1 : Nat) < 65536; decide⟩
  · have : ∀ n : Fin 5, ((List.range n).map fun i => UInt8.ofNat (i + 1)).Nodup := by decide
    simpa [exampleOf, Function.comp_def] using this ⟨n, by omega⟩
  · intro c hc
    obtain ⟨h1, h2, -⟩ := hcomp c hc
    omega
  · intro c hc; exact Nat.le_of_eq (hcomp c hc).1
  · obtain ⟨c, hc⟩ := hex; exact ⟨c, hc, (hcomp c hc).1⟩
  · intro c hc; exact Nat.le_of_eq (hcomp c hc).2.1
  · obtain ⟨c, hc⟩ := hex; exact ⟨c, hc, (hcomp c hc).2.1⟩
  · simp [exampleOf, Function.comp_def]; omega
  · intro c hc
    refine ⟨List.replicate 64 2, ?_⟩
    unfold BaselineFile.quantOf
    rw [(hcomp c hc).2.2.1]
    rfl
  · rw [List.forall₂_iff_get]
    refine ⟨by simp [exampleOf], fun i a b => ?_⟩
    obtain ⟨-, -, -, h4, h5⟩ := hcomp _ (List.get_mem _ ⟨i, a⟩)
    unfold BaselineFile.dcCode BaselineFile.acCode
    rw [h4, h5]
    simp only [List.get_eq_getElem, List.getElem_replicate]
    exact ⟨rfl, rfl⟩
  · simp [exampleOf, ceilDiv]
  · intro m hm
    have : m = exampleMcuOf n := by simpa [exampleOf] using hm
    rw [this]
    simp [exampleMcuOf, exampleOf, Function.comp_def]
  · unfold IntervalsOk
    rw [if_neg (by decide)]
    exact Or.inr ⟨[[exampleMcuOf n]], [exampleMcuOf n], rfl, by simp, by simp, by simp⟩

theorem exampleOf_renderable (n t : Nat) (data : List UInt8) : (exampleOf n t data).Renderable 1 1 := by
  intro c hc
  simp only [exampleOf, List.mem_map, List.mem_range] at hc
  obtain ⟨i, -, rfl⟩ := hc
  simp

theorem exampleOf_inRange (n t : Nat) (data : List UInt8) : (exampleOf n t data).InRange := by
  intro i c q hc hq m hm bs hbs b hb
  have hm : m = exampleMcuOf n := by simpa [exampleOf] using hm
  subst hm
  have hb : b = ⟨-5, exampleZz⟩ := by
    have := List.mem_of_getElem? hbs
    simp only [exampleMcuOf, List.mem_replicate] at this
    rw [this.2] at hb
    simpa using hb
  have hq' : q = List.replicate 64 2 := by
    have := List.mem_of_getElem? hc
    simp only [exampleOf, List.mem_map, List.mem_range] at this
    obtain ⟨i, -, rfl⟩ := this
    exact (Option.some.inj hq).symm
  rw [hb, hq']
  exact exampleBlock_inRange

/-- Data of an MCU of one, three and four components. -/
def exampleData1 : List UInt8 := [0x88, 0xB1, 0xBF]
def exampleData4 : List UInt8 := [0x88, 0xB1, 0xA2, 0x2C, 0x68, 0x8B, 0x1A, 0x22, 0xC6]

theorem example1_valid (t : Nat) (ht : t ≤ 2) :
    (exampleOf 1 t exampleData1).Valid 1 1 1 [(exampleDc, exampleAc)] :=
  exampleOf_valid 1 t _ (by decide) ht (List.replicate 6 true) (by decide +kernel)

theorem example3_valid (t : Nat) (ht : t ≤ 2) :
    (exampleOf 3 t exampleData).Valid 1 1 1 (List.replicate 3 (exampleDc, exampleAc)) :=
  exampleOf_valid 3 t _ (by decide) ht [false, false] (by decide +kernel)

theorem example4_valid (t : Nat) (ht : t ≤ 2) :
    (exampleOf 4 t exampleData4).Valid 1 1 1 (List.replicate 4 (exampleDc, exampleAc)) :=
  exampleOf_valid 4 t _ (by decide) ht [] (by decide +kernel)

/-- A greyscale file that panics (C46). -/
example : ∃ d', Decoder.default.decode ⟨true, false⟩ (exampleOf 1 0 exampleData1).bytes =
    .fail (.panic .componentCount) d' :=
  C46_violated_every_file _ _ 1 1 _ _ .new (.nothing _) rfl (example1_valid 0 (by decide))

/-- An RGB file that comes out black (C47). -/
example : ∃ d', Decoder.default.decode ⟨true, false⟩ (exampleOf 3 0 exampleData).bytes =
    .ok (List.replicate 384 0) d' :=
  C47_violated_every_file _ _ 1 1 _ _ .new (.nothing _) rfl rfl (example3_valid 0 (by decide)) (exampleOf_renderable _ _ _)

/-- A CMYK file (C54): it decodes, and the K byte of the pixel in row 3, column 9 is 255 - 126. -/
example : ∃ image d', Decoder.default.decode ⟨true, false⟩ (exampleOf 4 0 exampleData4).bytes = .ok image d' ∧
    image.length = 512 ∧ image[4 * 16 * 3 + (4 * 9 + 3)]? = some 129 := by
  obtain ⟨image, d', e, hl⟩ := C54_decodes ⟨true, false⟩ _ 1 1 _ Decoder.default .new (.nothing _) rfl rfl
    (example4_valid 0 (by decide)) (exampleOf_renderable _ _ _)
  refine ⟨image, d', e, hl, ?_⟩
  have := C54_pixels_own_row_partial ⟨true, false⟩ _ 1 _ Decoder.default .new (.nothing _) rfl rfl
    (example4_valid 0 (by decide)) (exampleOf_renderable _ _ _) (exampleOf_inRange _ _ _) image d' e 3 9 3
    (by decide) (by decide) (by decide)
  rw [show (exampleOf 4 0 exampleData4).upsampledSample 1 1 3 3 9 = 126 by decide +kernel] at this
  exact this

/-- A YCCK file that panics (C55). -/
example : ∃ d', Decoder.default.decode ⟨true, false⟩ (exampleOf 4 2 exampleData4).bytes =
    .fail (.panic .fixedSlice) d' :=
  C55_violated_every_file _ _ 1 1 1 _ _ .new (.nothing _) rfl rfl (example4_valid 2 (by decide)) (exampleOf_renderable _ _ _)
    (by decide)

end Jpeg
