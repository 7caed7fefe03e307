import Verif.Proofs.BaselinePicture
import Verif.Props.Panics
/-!
# C45: from the bytes of a file to the pixels
-/

namespace Jpeg
open Spec

section

variable {cfg : Cfg} {f : BaselineFile} {H V : Nat} {codes : List (Code × Code)}

theorem Spec.BaselineFile.Laid.geometry {r : Nat} (hv : f.Laid r H V codes) : FrameGeometry (fileFrame f H V) := by
  refine ⟨hv.x.2, hv.y, H, V, ?_, ?_, rfl, ?_⟩
  · exact (Largest.map (f := Component.h)).2 hv.hmax
  · exact (Largest.map (f := Component.v)).2 hv.vmax
  · intro c hc
    obtain ⟨c', hc', rfl⟩ := List.mem_map.1 hc
    exact fileComponent_geometry hv hc'

theorem transform_unknown {d : Decoder} : d.colorTransform = some .unknown ↔ d.transform = some 0 := by
  unfold Decoder.transform
  rcases d.colorTransform with _ | _ | _ | _ <;> simp [AdobeColorTransform.code]

/-- Decoder after the file. -/
theorem file_decoded {d : Decoder} (hd : DecInv d) (hh : TablesHeld cfg f.earlier d) (hv : f.Valid (f.interval d.restartInterval) H V codes) :
    ∃ d' bi, loopAll cfg ⟨d, Biterator.new f.bytes⟩ = .ok () ⟨d', bi⟩ ∧ bi.input = [] ∧
      Decoded d' (fileFrame f H V) ∧ d'.transform = f.transform d.transform ∧
      TablesHeld cfg f.tables d' ∧
      d'.planes = scanPlanes (ceilDiv f.x (8 * H)) d'.quantTables (fileFrame f H V).components
        f.intervals.flatten := by
  obtain ⟨d', bi, h1, h2, h3, h4, h5, h6⟩ := loopAll_file (cfg := cfg) hd hh hv
  refine ⟨d', bi, h1, h2, ⟨h4, hv.geometry, ?_⟩, h5, h3, h6⟩
  rw [h6, List.forall₂_iff_get]
  have hl : (scanPlanes (ceilDiv f.x (8 * H)) d'.quantTables (fileFrame f H V).components
      f.intervals.flatten).length = (fileFrame f H V).components.length := by simp [scanPlanes]
  refine ⟨hl, fun i a b => ?_⟩
  have hc := List.getElem?_eq_getElem b
  have hp := scanPlanes_get (W := ceilDiv f.x (8 * H)) (qts := d'.quantTables) (ms := f.intervals.flatten) hc
  rw [List.getElem?_eq_getElem a] at hp
  rw [List.get_eq_getElem, List.get_eq_getElem, Option.some.inj hp, planeSamples_length]
  obtain ⟨k, hk, e⟩ := List.mem_map.1 (List.getElem_mem b)
  rw [← e]
  exact planeSize_eq (fileComponent_geometry hv.toLaid hk)

theorem file_upsamples {r : Nat} (hv : f.Laid r H V codes) (hr : f.Renderable H V) :
    ∃ us, upsamplerNew (fileFrame f H V).components ⟨f.x, f.y⟩ = .ok us := by
  have h4 : (fileFrame f H V).components.length ≤ 4 := by
    rw [show (fileFrame f H V).components.length = f.comps.length by simp [fileFrame]]
    exact hv.count.2
  rcases C30_frame (fileFrame f H V) h4 H V
    ((Largest.map (f := Component.h)).2 hv.hmax) ((Largest.map (f := Component.v)).2 hv.vmax)
    ⟨f.x, f.y⟩ with ⟨-, c, hc, e⟩ | ⟨us, h, -⟩
  · exfalso
    obtain ⟨k, hk, rfl⟩ := List.mem_map.1 hc
    obtain ⟨f1, f2, f3, f4⟩ := hv.factors k hk
    obtain ⟨h1, h2, -⟩ := hr k hk
    have := (C30_selection k.h k.v H V f.x f.y).2.2.2.2.2.1 e
    omega
  · exact ⟨us, h⟩

theorem file_columns (hr : f.Renderable H V) :
    CompleteColumns (fileFrame f H V) H V := by
  intro c hc hs vs e
  obtain ⟨k, hk, rfl⟩ := List.mem_map.1 hc
  obtain ⟨h1, h2, h3, h4⟩ := hr k hk
  have e : chooseUpsampler (k.h, k.v) (H, V) ⟨f.x, f.y⟩ = .ok (.generic hs vs) := e
  rcases chooseUpsampler_cases e with ⟨h, _⟩ | ⟨h, _⟩ | ⟨h, _⟩ | ⟨h, _⟩ | ⟨h, n1, n2, n3, n4, -, -⟩
  · cases h
  · cases h
  · cases h
  · cases h
  · injection h with hh _
    rw [hh]
    apply h4
    rintro ⟨a | a | a, b | b | b⟩
    · exact n1 ⟨.inl a, .inl b⟩
    · exact n1 ⟨.inl a, .inr b⟩
    · exact n3 ⟨.inl a, by omega⟩
    · exact n1 ⟨.inr a, .inl b⟩
    · exact n1 ⟨.inr a, .inr b⟩
    · exact n3 ⟨.inr a, by omega⟩
    · exact n2 ⟨by omega, .inl b⟩
    · exact n2 ⟨by omega, .inr b⟩
    · exact n4 ⟨by omega, by omega⟩

/-- An abbreviated file for table specifications (B.5). -/
def Spec.tablesFile (l : List TableSegment) : List UInt8 :=
  markerBytes .SOI ++ (l.flatMap TableSegment.bytes ++ markerBytes .EOI)

/-- The run over an abbreviated file for table specifications. -/
theorem loopAll_tablesFile {l : List TableSegment} (hl : ∀ s ∈ l, s.Ok) {d : Decoder} (hd : DecInv d) :
    ∃ d', loopAll cfg ⟨d, Biterator.new (tablesFile l)⟩ = .ok () ⟨d', ⟨[], 0, 0⟩⟩ ∧ TablesAfter cfg l d d' := by
  unfold Biterator.new tablesFile
  rw [loopAll_eq (m := .SOI) hd (wf_zero _) (marker_bytes' (m := .SOI) trivial _) (by decide)]
  simp only [St.setInput, doSegment, Out.bind_ok]
  obtain ⟨d1, t1, i1, e1⟩ := loopAll_tables (cfg := cfg) wf_zero (rest := markerBytes .EOI)
    ⟨0, .EOI, [], trivial, rfl⟩ l hl d hd
  refine ⟨d1, ?_, t1⟩
  rw [e1, loopAll_eoi (rest := []) (marker_bytes' (m := .EOI) trivial [])]
  rfl

/-- What earlier files, decoded on the same decoder, have defined: `l`, in order (or, if that is all one
knows, nothing). -/
inductive Holds (cfg : Cfg) : Decoder → List TableSegment → Prop
  | nothing (d : Decoder) : Holds cfg d []
  | image {d : Decoder} {f : BaselineFile} {H V : Nat} {codes : List (Code × Code)} (hd : UsedDecoder d)
      (hh : Holds cfg d f.earlier) (hv : f.Valid (f.interval d.restartInterval) H V codes) :
      Holds cfg (d.decode cfg f.bytes).state f.tables
  | behind {d : Decoder} {f : BaselineFile} {H V : Nat} {codes : List (Code × Code)} {more : List TableSegment}
      {k : Nat} (hd : UsedDecoder d) (hh : Holds cfg d f.earlier)
      (hv : f.Laid (f.interval d.restartInterval) H V codes) (hm : ∀ s ∈ more, s.Ok)
      (hdata : ScanBytes codes (more.flatMap TableSegment.bytes ++ (List.replicate k 0xFF ++ markerBytes .EOI)) 0
        f.intervals f.data) :
      Holds cfg (d.decode cfg f.bytes).state (f.tables ++ more)
  | tables {d : Decoder} {l more : List TableSegment} (hd : UsedDecoder d) (hh : Holds cfg d l)
      (hm : ∀ s ∈ more, s.Ok) : Holds cfg (d.decode cfg (tablesFile more)).state (l ++ more)

theorem loopAll_state {d d' : Decoder} {bi : Biterator} {b : List UInt8}
    (h : loopAll cfg ⟨d, Biterator.new b⟩ = .ok () ⟨d', bi⟩) : (d.decode cfg b).state = d' := by
  rw [decode_state]
  unfold loopAll at h
  rw [show b.length = (Biterator.new b).input.length from rfl, h]
  rfl

theorem Holds.held {d : Decoder} {l : List TableSegment} (h : Holds cfg d l) : TablesHeld cfg l d := by
  induction h with
  | nothing d => exact .nothing cfg d
  | image hd _ hv ih =>
    obtain ⟨d', bi, h1, -, h3, -⟩ := loopAll_file (cfg := cfg) hd.inv ih hv
    rw [loopAll_state h1]
    exact h3
  | behind hd _ hv hm hdata ih =>
    obtain ⟨d0, d', bi, h1, -, -, h3, -⟩ := loopAll_behind (cfg := cfg) hd.inv ih hv hm hdata
    rw [loopAll_state h1]
    exact h3
  | tables hd _ hm ih =>
    obtain ⟨d', h1, h2⟩ := loopAll_tablesFile (cfg := cfg) hm hd.inv
    rw [loopAll_state h1]
    exact ih.after h2

/-- **C45** (decoding succeeds). Every file laid out as the standard says, with three components in one
scan, not marked as RGB by an Adobe segment, with sampling factors this decoder can render, decodes, on a new decoder and on one used before, to
`x * y` pixels of three bytes. -/
theorem C45_decodes (cfg : Cfg) (f : BaselineFile) (H V : Nat) (codes : List (Code × Code)) (d : Decoder)
    (hd : UsedDecoder d) (hh : Holds cfg d f.earlier) (h3 : f.comps.length = 3) (hct : f.transform d.transform ≠ some 0)
    (hv : f.Valid (f.interval d.restartInterval) H V codes) (hr : f.Renderable H V) :
    ∃ image d', d.decode cfg f.bytes = .ok image d' ∧ image.length = f.x * f.y * 3 := by
  obtain ⟨d', bi, h1, h2, hdec, h4, -, -⟩ := file_decoded (cfg := cfg) hd.inv hh.held hv
  obtain ⟨us, hu⟩ := file_upsamples hv.toLaid hr
  have hf : chooseColorConvert (fileFrame f H V).components.length d'.colorTransform = .ok .ycbcr := by
    rw [show (fileFrame f H V).components.length = 3 by simp [fileFrame, h3]]
    show (if d'.colorTransform = some .unknown then _ else _) = _
    rw [if_neg (fun h => hct (h4 ▸ transform_unknown.1 h))]
  obtain ⟨image, e, hl⟩ := C32_no_panic_partial cfg d' (fileFrame f H V) hdec hv.x.1 .ycbcr hf (by decide) us hu H V
    ((Largest.map (f := Component.h)).2 hv.hmax) ((Largest.map (f := Component.v)).2 hv.vmax) (by
      intro c hc
      obtain ⟨k, hk, rfl⟩ := List.mem_map.1 hc
      exact (hr k hk).2.2.1)
  refine ⟨image, d', ?_, by rw [hl]; simp [fileFrame, h3]⟩
  unfold Decoder.decode decodeParser
  unfold loopAll at h1
  rw [h1, Out.bind_ok]
  simp only [e, h2]
  simp

/-- The pixels rendered from the planes of a file. -/
theorem pixels_of_planes {S : List Nat → BlockData → Nat → Nat → UInt8} {r : Nat} (h3 : f.comps.length = 3)
    (hv : f.Laid r H V codes) (hr : f.Renderable H V) (hin : GivenBy S f) {d2 : Decoder} (hdec : Decoded d2 (fileFrame f H V)) (hct : d2.transform ≠ some 0)
    (ht : TablesHeld cfg f.tables d2)
    (h5 : d2.planes = scanPlanes (ceilDiv f.x (8 * H)) d2.quantTables (fileFrame f H V).components
      f.intervals.flatten) {image : List UInt8} (hup : upsample cfg d2 = .ok image)
    {y x : Nat} (hy : y < f.y) (hx : x < f.x) :
    let row := if cfg.rayon then y / V else y / V * V
    let up := fun i => UInt8.ofNat (upsampledBy S f H V i row x)
    ∃ r g b, ycbcrToRgb (up 0) (up 1) (up 2) = .ok (r, g, b) ∧
      image[3 * f.x * y + 3 * x]? = some r ∧
      image[3 * f.x * y + (3 * x + 1)]? = some g ∧
      image[3 * f.x * y + (3 * x + 2)]? = some b := by
  intro row up
  obtain ⟨a, b, c, hcs⟩ : ∃ a b c, f.comps = [a, b, c] := List.length_eq_three.1 h3
  have hcomps : (fileFrame f H V).components = [fileComponent f H V a, fileComponent f H V b, fileComponent f H V c] := by
    simp [fileFrame, hcs]
  have hpl := h5
  have hlen : d2.planes.length = 3 := by rw [hpl]; simp [scanPlanes, hcomps]
  obtain ⟨p0, p1, p2, hps⟩ : ∃ a b c, d2.planes = [a, b, c] := List.length_eq_three.1 hlen
  rw [hps] at hpl
  have key := C33_group_row cfg d2 (fileFrame f H V) hdec image hup _ _ _ p0 p1 p2 hcomps hps
    (fun h => hct (transform_unknown.1 h))
    H V ((Largest.map (f := Component.h)).2 hv.hmax) ((Largest.map (f := Component.v)).2 hv.vmax)
    (file_columns hr) y x hy hx
  have hrow : row < f.y := by
    show (if cfg.rayon then y / V else y / V * V) < f.y
    have := Nat.div_le_self y V
    have := Nat.div_mul_le_self y V
    split <;> omega
  simp only at key
  rw [upAt_file hv hr hin ht (i := 0) (by rw [hcs]; rfl) (by rw [← hpl]; rfl) hrow hx,
    upAt_file hv hr hin ht (i := 1) (by rw [hcs]; rfl) (by rw [← hpl]; rfl) hrow hx,
    upAt_file hv hr hin ht (i := 2) (by rw [hcs]; rfl) (by rw [← hpl]; rfl) hrow hx] at key
  exact key

/-- The pixels of a file, blocks being transformed by `S`. -/
theorem file_pixels {S : List Nat → BlockData → Nat → Nat → UInt8} {d : Decoder}
    (hd : UsedDecoder d) (hh : Holds cfg d f.earlier) (h3 : f.comps.length = 3) (hct : f.transform d.transform ≠ some 0)
    (hv : f.Valid (f.interval d.restartInterval) H V codes) (hr : f.Renderable H V) (hin : GivenBy S f)
    {image : List UInt8} {d' : Decoder} (e : d.decode cfg f.bytes = .ok image d')
    {y x : Nat} (hy : y < f.y) (hx : x < f.x) :
    let row := if cfg.rayon then y / V else y / V * V
    let up := fun i => UInt8.ofNat (upsampledBy S f H V i row x)
    ∃ r g b, ycbcrToRgb (up 0) (up 1) (up 2) = .ok (r, g, b) ∧
      image[3 * f.x * y + 3 * x]? = some r ∧
      image[3 * f.x * y + (3 * x + 1)]? = some g ∧
      image[3 * f.x * y + (3 * x + 2)]? = some b := by
  obtain ⟨d2, bi, h1, h2, hdec, h4, ht, h5⟩ := file_decoded (cfg := cfg) hd.inv hh.held hv
  unfold Decoder.decode decodeParser at e
  unfold loopAll at h1
  rw [h1, Out.bind_ok] at e
  have hup : upsample cfg d2 = .ok image := by
    cases eu : upsample cfg d2 with
    | error x => rw [eu] at e; cases x <;> simp [h2] at e
    | ok i => rw [eu] at e; simp [h2] at e; rw [e.1]
  exact pixels_of_planes h3 hv.toLaid hr hin hdec (by rw [h4]; exact hct) ht h5 hup hy hx

/-- **C45** (the pixels). Every such file whose coefficients are those of a picture: pixel `(x, y)` is the
colour of the samples of the three components, dequantised, transformed, clamped and upsampled, in column
`x` of row `y / V * V` (`y / V` with rayon), which is row `y` if no vertical sampling factor is above 1.

Missing: row `y` for larger vertical factors, which is false (C33). -/
theorem C45_pixels_partial (cfg : Cfg) (f : BaselineFile) (H V : Nat) (codes : List (Code × Code)) (d : Decoder)
    (hd : UsedDecoder d) (hh : Holds cfg d f.earlier) (h3 : f.comps.length = 3) (hct : f.transform d.transform ≠ some 0)
    (hv : f.Valid (f.interval d.restartInterval) H V codes) (hr : f.Renderable H V) (hin : f.InRange)
    (image : List UInt8) (d' : Decoder) (e : d.decode cfg f.bytes = .ok image d')
    (y x : Nat) (hy : y < f.y) (hx : x < f.x) :
    let row := if cfg.rayon then y / V else y / V * V
    let up := fun i => UInt8.ofNat (f.upsampledSample H V i row x)
    ∃ r g b, ycbcrToRgb (up 0) (up 1) (up 2) = .ok (r, g, b) ∧
      image[3 * f.x * y + 3 * x]? = some r ∧
      image[3 * f.x * y + (3 * x + 1)]? = some g ∧
      image[3 * f.x * y + (3 * x + 2)]? = some b :=
  file_pixels hd hh h3 hct hv hr (givenBy_exactly hin) e hy hx

/-- **C45** (the pixels, no vertical subsampling). With vertical sampling factors 1, pixel `(x, y)` is
the colour of the samples in row `y`, column `x`. -/
theorem C45_pixels_own_row_partial (cfg : Cfg) (f : BaselineFile) (H : Nat) (codes : List (Code × Code)) (d : Decoder)
    (hd : UsedDecoder d) (hh : Holds cfg d f.earlier) (h3 : f.comps.length = 3) (hct : f.transform d.transform ≠ some 0)
    (hv : f.Valid (f.interval d.restartInterval) H 1 codes) (hr : f.Renderable H 1) (hin : f.InRange)
    (image : List UInt8) (d' : Decoder) (e : d.decode cfg f.bytes = .ok image d')
    (y x : Nat) (hy : y < f.y) (hx : x < f.x) :
    let up := fun i => UInt8.ofNat (f.upsampledSample H 1 i y x)
    ∃ r g b, ycbcrToRgb (up 0) (up 1) (up 2) = .ok (r, g, b) ∧
      image[3 * f.x * y + 3 * x]? = some r ∧
      image[3 * f.x * y + (3 * x + 1)]? = some g ∧
      image[3 * f.x * y + (3 * x + 2)]? = some b := by
  have := C45_pixels_partial cfg f H 1 codes d hd hh h3 hct hv hr hin image d' e y x hy hx
  simp only [Nat.div_one, Nat.mul_one, ite_self] at this
  exact this

end

/-! ## C42: files that define what they use -/

/-- What the caller gets. -/
def Out.result {σ α : Type} : Out σ α → Except Fail α
  | .ok a _ => .ok a
  | .fail f _ => .error f

theorem transform_injective {a b : Decoder} (h : a.transform = b.transform) :
    a.colorTransform = b.colorTransform := by
  unfold Decoder.transform at h
  rcases ha : a.colorTransform with _ | _ | _ | _ <;> rcases hb : b.colorTransform with _ | _ | _ | _ <;>
    rw [ha, hb] at h <;> first | rfl | simp [AdobeColorTransform.code] at h

theorem upsample_only {cfg : Cfg} {a b : Decoder} (h1 : a.frame = b.frame) (h2 : a.planes = b.planes)
    (h3 : a.transform = b.transform) : upsample cfg a = upsample cfg b := by
  unfold upsample
  rw [← h1, ← h2, transform_injective h3]

theorem quantOf_unique {f : BaselineFile} {r H V : Nat} {codes : List (Code × Code)} (hv : f.Valid r H V codes)
    {cfg : Cfg} {a b : Decoder} (h1 : TablesHeld cfg f.tables a) (h2 : TablesHeld cfg f.tables b)
    {c : FileComponent} (hc : c ∈ f.comps) :
    quantOf a.quantTables (fileComponent f H V c) = quantOf b.quantTables (fileComponent f H V c) := by
  obtain ⟨qv, hq⟩ := hv.quant c hc
  obtain ⟨q, e1, l1, g1⟩ := quant_uses hv.toLaid h1 hq
  obtain ⟨p, e2, l2, g2⟩ := quant_uses hv.toLaid h2 hq
  rw [quantOf_eq (c := fileComponent f H V c) e1, quantOf_eq (c := fileComponent f H V c) e2]
  apply List.ext_getElem?
  intro i
  by_cases hi : i < 64
  · obtain ⟨k1, k2⟩ := zigzag_idxOf hi
    have := (g1 _ k1).trans (g2 _ k1).symm
    rwa [k2] at this
  · rw [List.getElem?_eq_none (by omega), List.getElem?_eq_none (by omega)]

/-- **C42** (part). A file laid out as the standard says, with one to four components in one scan, gives the
same result (image, error or panic) on any two decoders, new or used before, provided that the colour
transform and the restart interval in force are the same (for example because the file sets them).

Missing: files that rely on what was defined before, where it is false: `C42_violated`,
`C42_violated_color`. -/
theorem C42_reuse_partial (cfg : Cfg) (f : BaselineFile) (H V : Nat) (codes : List (Code × Code)) (a b : Decoder)
    (ha : UsedDecoder a) (hb : UsedDecoder b) (ea : Holds cfg a f.earlier) (eb : Holds cfg b f.earlier)
    (ht : f.transform a.transform = f.transform b.transform)
    (hr : f.interval a.restartInterval = f.interval b.restartInterval)
    (hv : f.Valid (f.interval a.restartInterval) H V codes) :
    (a.decode cfg f.bytes).result = (b.decode cfg f.bytes).result := by
  obtain ⟨a', ai, a1, a2, a3, a4, at', a7⟩ := file_decoded (cfg := cfg) ha.inv ea.held hv
  obtain ⟨b', bi, b1, b2, b3, b4, bt, b7⟩ := file_decoded (cfg := cfg) hb.inv eb.held (hr ▸ hv)
  have hpl : a'.planes = b'.planes := by
    rw [a7, b7]
    unfold scanPlanes
    apply List.map_congr_left
    intro i _
    cases hc : (fileFrame f H V).components[i]? with
    | none => rfl
    | some c =>
      obtain ⟨k, hk, rfl⟩ := List.mem_map.1 (List.mem_of_getElem? hc)
      simp only
      rw [quantOf_unique hv at' bt hk]
  have hup : upsample cfg a' = upsample cfg b' := upsample_only (a3.has.trans b3.has.symm) hpl
    (a4.trans (ht.trans b4.symm))
  unfold Decoder.decode decodeParser
  unfold loopAll at a1 b1
  rw [a1, b1, Out.bind_ok, Out.bind_ok]
  simp only [hup]
  cases upsample cfg b' with
  | ok image => simp [a2, b2, Out.result]
  | error x => cases x <;> simp [a2, b2, Out.result]

/-- **C42** (part). In particular a file that sets the restart interval (and the colour transform, unless
none was set before), on a used decoder, gives what `decode` gives. -/
theorem C42_reuse_fresh_partial (cfg : Cfg) (f : BaselineFile) (H V r : Nat) (codes : List (Code × Code)) (d : Decoder)
    (hd : UsedDecoder d) (he : f.earlier = []) (ht : f.transform d.transform = f.transform none)
    (hr : (restartDefs f.segments).getLast? = some r) (hv : f.Valid r H V codes) :
    (d.decode cfg f.bytes).result = decode cfg f.bytes := by
  have e : ∀ n, f.interval n = r := fun n => by unfold BaselineFile.interval; rw [hr]; rfl
  rw [C42_reuse_partial cfg f H V codes d Decoder.default hd .new (he ▸ .nothing _) (he ▸ .nothing _) ht
    (by rw [e, e]) (by rw [e]; exact hv)]
  unfold decode
  cases Decoder.default.decode cfg f.bytes <;> rfl

/-! ## A case -/

/-- An MCU of one block per component. -/
def exampleMcu3 : Mcu := [[⟨-5, exampleZz⟩], [⟨-5, exampleZz⟩], [⟨-5, exampleZz⟩]]

/-- 16 by 8 pixels, two MCUs, restart interval 1, tables on both sides of the frame header, a comment, Adobe's
segment with transform 1. -/
def exampleFile : BaselineFile where
  before := [.app 0 [1, 2, 3], .com [0x68, 0x69], .adobe 100 0 0 1, .dqt [⟨false, 1, List.replicate 64 2⟩]]
  sof := 0
  precision := 8
  y := 8
  x := 16
  comps := [⟨⟨1, 1, 1, 1⟩, 0, 2⟩, ⟨⟨2, 1, 1, 1⟩, 0, 2⟩, ⟨⟨3, 1, 1, 1⟩, 0, 2⟩]
  after := [.dht [⟨false, 0, exampleDc.counts, exampleDc.values⟩, ⟨true, 2, exampleAc.counts, exampleAc.values⟩],
    .dri 1]
  intervals := [[exampleMcu3], [exampleMcu3]]
  data := stuff exampleData ++ ([0xFF] ++ 0xFF :: 0xD0 :: (stuff exampleData ++ ([0xFF] ++ markerBytes .EOI)))

theorem exampleMcu3_bits : McuBits (List.replicate 3 (exampleDc, exampleAc)) [0, 0, 0] exampleMcu3
    (exampleBits ++ exampleBits ++ exampleBits) [-5, -5, -5] := by
  have hb := C13_standard_encoder _ _ _ _ _ (by decide) exampleBits_eq
  have h1 : BlocksBits exampleDc exampleAc 0 [⟨-5, exampleZz⟩] _ (-5) := .cons hb (by decide) .nil
  have := McuBits.cons h1 (McuBits.cons h1 (McuBits.cons h1 (McuBits.nil (ps := []))))
  unfold exampleMcu3
  simpa using this

theorem exampleFile_valid : exampleFile.Valid 1 1 1 (List.replicate 3 (exampleDc, exampleAc)) := by
  have hi : IntervalData (List.replicate 3 (exampleDc, exampleAc)) [exampleMcu3] exampleData :=
    ⟨_, [false, false], _, .cons exampleMcu3_bits .nil, by decide +kernel⟩
  refine ⟨⟨?_, by decide, by decide, by decide, by decide, by decide, by decide, ⟨by decide, by decide⟩,
    ⟨by decide, by decide⟩, by decide, fun _ => ⟨rfl, rfl⟩, ?_, ?_, by decide, ?_, ?_⟩, ⟨1, .cons 1 hi (.last hi)⟩⟩
  · intro s hs
    simp only [exampleFile, BaselineFile.tables, BaselineFile.segments, List.cons_append, List.nil_append, List.mem_cons,
      List.not_mem_nil, or_false] at hs
    rcases hs with rfl | rfl | rfl | rfl | rfl | rfl
    · exact ⟨by decide, by decide⟩
    · exact ⟨by decide, hiComment⟩
    · exact ⟨by decide, by decide⟩
    · refine ⟨by decide, ?_⟩
      intro t ht
      rw [List.mem_singleton.1 ht]
      exact ⟨by decide, by decide, by decide⟩
    · refine ⟨by decide, ?_⟩
      intro t ht
      simp only [List.mem_cons, List.not_mem_nil, or_false] at ht
      rcases ht with rfl | rfl
      · exact ⟨⟨by decide, by decide, by decide⟩, by decide, by decide, by unfold KraftOk; decide⟩
      · exact ⟨⟨by decide, by decide, by decide⟩, by decide, by decide, by unfold KraftOk; decide⟩
    · exact ⟨by decide, by show (1 : Nat) < 65536; decide⟩
  · intro c hc
    simp only [exampleFile, List.mem_cons, List.not_mem_nil, or_false] at hc
    rcases hc with rfl | rfl | rfl <;> exact ⟨List.replicate 64 2, rfl⟩
  · exact .cons ⟨rfl, rfl⟩ (.cons ⟨rfl, rfl⟩ (.cons ⟨rfl, rfl⟩ .nil))
  · intro m hm
    have : m = exampleMcu3 := by simpa [exampleFile] using hm
    rw [this]; rfl
  · unfold IntervalsOk
    rw [if_neg (by decide)]
    exact Or.inr ⟨[[exampleMcu3]], [exampleMcu3], rfl, by simp, by simp, by simp⟩

theorem exampleFile_renderable : exampleFile.Renderable 1 1 := by
  unfold BaselineFile.Renderable
  decide

theorem exampleBlock_inRange :
    (∀ k j, k < 8 → j < 8 → -2 ^ 16 ≤ dequantised (List.replicate 64 2) ⟨-5, exampleZz⟩ k j ∧
      dequantised (List.replicate 64 2) ⟨-5, exampleZz⟩ k j ≤ 2 ^ 16) ∧
    ∀ k j, k < 8 → j < 8 → -256 ≤ idctSample (dequantised (List.replicate 64 2) ⟨-5, exampleZz⟩) k j ∧
      idctSample (dequantised (List.replicate 64 2) ⟨-5, exampleZz⟩) k j ≤ 767 := by
  have h : ∀ k j : Fin 8, (-2 ^ 16 ≤ dequantised (List.replicate 64 2) ⟨-5, exampleZz⟩ k j ∧
      dequantised (List.replicate 64 2) ⟨-5, exampleZz⟩ k j ≤ 2 ^ 16) ∧
      -256 ≤ idctSample (dequantised (List.replicate 64 2) ⟨-5, exampleZz⟩) k j ∧
      idctSample (dequantised (List.replicate 64 2) ⟨-5, exampleZz⟩) k j ≤ 767 := by decide +kernel
  exact ⟨fun k j hk hj => (h ⟨k, hk⟩ ⟨j, hj⟩).1, fun k j hk hj => (h ⟨k, hk⟩ ⟨j, hj⟩).2⟩

theorem exampleFile_inRange : exampleFile.InRange := by
  intro i c q hc hq m hm bs hbs b hb
  have hm : m = exampleMcu3 := by simpa [exampleFile] using hm
  subst hm
  have hb : b = ⟨-5, exampleZz⟩ := by
    have := List.mem_of_getElem? hbs
    simp only [exampleMcu3, List.mem_cons, List.not_mem_nil, or_false, or_self] at this
    subst this
    simpa using hb
  have hq' : q = List.replicate 64 2 := by
    have := List.mem_of_getElem? hc
    simp only [exampleFile, List.mem_cons, List.not_mem_nil, or_false] at this
    rcases this with rfl | rfl | rfl <;> exact (Option.some.inj hq).symm
  rw [hb, hq']
  exact exampleBlock_inRange

/-- A case of C45: the example file decodes, and its pixel in row 3, column 9 is the colour of the samples
there. -/
example : ∃ image d', Decoder.default.decode ⟨true, false⟩ exampleFile.bytes = .ok image d' ∧
    image.length = 384 ∧
    (∃ r g b, ycbcrToRgb 126 126 126 = .ok (r, g, b) ∧ image[3 * 16 * 3 + 3 * 9]? = some r) := by
  obtain ⟨image, d', e, hl⟩ := C45_decodes ⟨true, false⟩ exampleFile 1 1 _ Decoder.default .new (.nothing _) rfl
    (by decide) exampleFile_valid exampleFile_renderable
  have := C45_pixels_own_row_partial ⟨true, false⟩ exampleFile 1 _ Decoder.default .new (.nothing _) rfl
    (by decide) exampleFile_valid exampleFile_renderable exampleFile_inRange image d' e 3 9
    (by decide) (by decide)
  refine ⟨image, d', e, hl, ?_⟩
  simp only at this
  obtain ⟨r, g, b, h1, h2, -⟩ := this
  rw [show exampleFile.upsampledSample 1 1 0 3 9 = 126 by decide +kernel,
    show exampleFile.upsampledSample 1 1 1 3 9 = 126 by decide +kernel,
    show exampleFile.upsampledSample 1 1 2 3 9 = 126 by decide +kernel] at h1
  exact ⟨r, g, b, h1, h2⟩

end Jpeg
