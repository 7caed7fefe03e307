import Verif.Props.Images
import Verif.Props.Stream
import Verif.Props.Outcome
import Verif.Props.EndToEnd
import Verif.Props.Wellformed
import Verif.Proofs.LastScan
/-!
# What data must look like to be decoded: start, frame, scan, end (C82)
-/

namespace Jpeg
open Spec

section

variable {cfg : Cfg}

theorem sos_needs_frame {s : St} (hf : s.dec.frame = none) (s' : St) : sos cfg s ≠ .ok () s' := by
  intro h
  unfold sos at h
  cases h1 : segmentBytes cfg s.bi.input with
  | error f => rw [h1] at h; cases h
  | ok q =>
    obtain ⟨payload, rest⟩ := q
    rw [h1] at h
    simp only [St.setInput, hf] at h
    cases h2 : sosSegment none payload with
    | error f => rw [h2] at h; cases h
    | ok r => rw [h2] at h; cases h

/-- From a decoder without planes to one with planes: a scan was read on the way, before the end. -/
theorem segmentLoop_scan : ∀ (fuel : Nat) (s s' : St), DecInv s.dec → s.bi.WF →
    segmentLoop cfg fuel s = .ok () s' → s.dec.planes = [] → s'.dec.planes ≠ [] →
    ∃ b c, s.bi.input = b ++ markerBytes .SOS ++ c ++ markerBytes .EOI ++ s'.bi.input := by
  intro fuel
  induction fuel with
  | zero => intro s s' _ _ h; cases h
  | succ fuel ih =>
    intro s s' hd hwf h hp hp'
    rw [segmentLoop] at h
    split at h
    · cases h
    · rename_i m rest hm
      split at h
      · cases h; exact absurd hp hp'
      · obtain ⟨pre, hpre⟩ := marker_split hm
        have hs := doSegment_safe (cfg := cfg) (C36_found _ _ _ hm).1 (s := s.setInput rest) hd hwf
        cases h1 : doSegment cfg m (s.setInput rest) with
        | fail f s1 => rw [h1] at h; cases h
        | ok u s1 =>
          rw [h1, Out.bind_ok] at h
          rw [h1] at hs
          obtain ⟨gap, hgap⟩ := hs.suffix
          simp only [Out.state, setInput_bi] at hgap
          by_cases hsos : m = .SOS
          · subst hsos
            obtain ⟨c, hc⟩ := segmentLoop_eoi _ s1 s' hs.inv hs.wf h
            exact ⟨pre, gap ++ c, by rw [hpre, ← hgap, hc]; simp only [List.append_assoc]⟩
          · have hk := doSegment_same (cfg := cfg) hsos (s.setInput rest)
            rw [h1] at hk
            obtain ⟨b, c, hb⟩ := ih s1 s' hs.inv hs.wf h (Eq.trans hk.2 hp) hp'
            exact ⟨pre ++ markerBytes m ++ gap ++ b, c, by rw [hpre, ← hgap, hb]; simp only [List.append_assoc]⟩

/-- From a decoder without frame and planes to one with planes: a frame header and then a scan were read. -/
theorem segmentLoop_frame_scan : ∀ (fuel : Nat) (s s' : St), DecInv s.dec → s.bi.WF →
    segmentLoop cfg fuel s = .ok () s' → s.dec.frame = none → s.dec.planes = [] → s'.dec.planes ≠ [] →
    ∃ i a b c, MarkerExists (.SOF i) ∧ s.bi.input = a ++ markerBytes (.SOF i) ++ b ++ markerBytes .SOS ++ c ++
      markerBytes .EOI ++ s'.bi.input := by
  intro fuel
  induction fuel with
  | zero => intro s s' _ _ h; cases h
  | succ fuel ih =>
    intro s s' hd hwf h hf hp hp'
    rw [segmentLoop] at h
    split at h
    · cases h
    · rename_i m rest hm
      split at h
      · cases h; exact absurd hp hp'
      · obtain ⟨pre, hpre⟩ := marker_split hm
        have hmx := (C36_found _ _ _ hm).1
        have hs := doSegment_safe (cfg := cfg) hmx (s := s.setInput rest) hd hwf
        cases h1 : doSegment cfg m (s.setInput rest) with
        | fail f s1 => rw [h1] at h; cases h
        | ok u s1 =>
          rw [h1, Out.bind_ok] at h
          rw [h1] at hs
          obtain ⟨gap, hgap⟩ := hs.suffix
          simp only [Out.state, setInput_bi] at hgap
          by_cases hsos : m = .SOS
          · subst hsos
            exact absurd h1 (sos_needs_frame (s := s.setInput rest) hf s1)
          · have hk := doSegment_same (cfg := cfg) hsos (s.setInput rest)
            rw [h1] at hk
            by_cases hsof : ∃ i, m = .SOF i
            · obtain ⟨i, rfl⟩ := hsof
              obtain ⟨b, c, hb⟩ := segmentLoop_scan _ s1 s' hs.inv hs.wf h (Eq.trans hk.2 hp) hp'
              exact ⟨i, pre, gap ++ b, c, hmx, by rw [hpre, ← hgap, hb]; simp only [List.append_assoc]⟩
            · obtain ⟨i, a, b, c, hi, hb⟩ := ih s1 s' hs.inv hs.wf h
                ((hs.frame fun i hi => hsof ⟨i, hi⟩).trans hf) (Eq.trans hk.2 hp) hp'
              exact ⟨i, pre ++ markerBytes m ++ gap ++ a, b, c, hi, by
                rw [hpre, ← hgap, hb]; simp only [List.append_assoc]⟩

end

/-! ## The end -/

/-- **C82** (the end). Data that decode, on whatever decoder, end with the two bytes of an end of image marker. -/
theorem C82_end (cfg : Cfg) (d d' : Decoder) (hd : UsedDecoder d) (file image : List UInt8)
    (h : d.decode cfg file = .ok image d') : ∃ pre, file = pre ++ [0xFF, 0xD9] := by
  obtain ⟨t, h1, -, h3, -⟩ := decode_ok_inv h
  obtain ⟨pre, hpre⟩ := segmentLoop_eoi _ _ _ hd.inv (new_wf file) h1
  refine ⟨pre, ?_⟩
  have : file = pre ++ markerBytes .EOI ++ t.bi.input := hpre
  rw [h3, List.append_nil] at this
  exact this

/-- **C82** (frame, scan, end; what holds). Data from which a new decoder gets an image that is not empty have
a frame header, behind it a scan header, and end with the end of image marker; unless, in a build without
debug assertions, an Adobe segment announces RGB. -/
theorem C82_parts_partial (cfg : Cfg) (file image : List UInt8) (d' : Decoder)
    (h : Decoder.default.decode cfg file = .ok image d') (hne : image ≠ [])
    (hrgb : cfg.debug = true ∨ d'.colorTransform ≠ some .unknown) :
    ∃ i a b c, i ≤ 2 ∧ file = a ++ markerBytes (.SOF i) ++ b ++ markerBytes .SOS ++ c ++ [0xFF, 0xD9] := by
  obtain ⟨t, h1, rfl, h3, h4⟩ := decode_ok_inv h
  have hp : t.dec.planes ≠ [] := by
    intro hp
    obtain ⟨frame, hf, hl⟩ := upsample_length h4
    have hlen : frame.lines ≠ 0 ∧ frame.components.length ≠ 0 := by
      have : image.length ≠ 0 := by simpa using hne
      rw [hl] at this
      constructor <;> (intro h0; rw [h0] at this; simp at this)
    obtain ⟨g, colors, line, l, c1, c2, c3, c4⟩ := upsample_planes h4 hf hlen.1
    rw [hp] at c2 c4
    have hcol : colors = [] := List.length_eq_zero_iff.1 (by rw [c2]; simp)
    subst hcol
    rcases hrgb with hr | hr
    · exact hlen.2 (c4 hr).symm
    · cases g with
      | null =>
        unfold chooseColorConvert at c1
        split at c1
        · rw [if_neg hr] at c1; cases c1
        · split at c1 <;> cases c1
        · cases c1
      | ycbcr => cases c3
      | ycck => cases c3
      | cmyk => cases c3
  obtain ⟨i, a, b, c, hi, e⟩ := segmentLoop_frame_scan _ _ _ UsedDecoder.new.inv (new_wf file) h1 rfl rfl hp
  refine ⟨i, a, b, c, hi, ?_⟩
  have : file = a ++ markerBytes (.SOF i) ++ b ++ markerBytes .SOS ++ c ++ markerBytes .EOI ++ t.bi.input := e
  rw [h3, List.append_nil] at this
  exact this

/-! ## The start -/

theorem loopAll_soi {cfg : Cfg} {d : Decoder} (hd : DecInv d) (rest : List UInt8) :
    loopAll cfg ⟨d, Biterator.new (0xFF :: 0xD8 :: rest)⟩ = loopAll cfg ⟨d, Biterator.new rest⟩ := by
  rw [loopAll_eq (m := .SOI) hd (new_wf _) (marker_bytes' (m := .SOI) trivial rest) (by decide)]
  rfl

/-- **C82** (the start; refutation). The start of image marker is not looked for: any data decode, on whatever
decoder, to what they decode to with the marker in front. -/
theorem C82_no_start_violated (cfg : Cfg) (d : Decoder) (hd : UsedDecoder d) (rest : List UInt8) :
    d.decode cfg (0xFF :: 0xD8 :: rest) = d.decode cfg rest := by
  have e := loopAll_soi (cfg := cfg) hd.inv rest
  unfold loopAll at e
  unfold Decoder.decode decodeParser
  rw [e]

/-- **C82** (the start; refutation). Bytes in front of a file are skipped as long as there is no marker among
them: the result is that of the file. -/
theorem C82_junk_violated (cfg : Cfg) (d : Decoder) (hd : UsedDecoder d) (junk rest : List UInt8)
    (hj : ∀ j c, ¬ MarkerAt junk j c) : d.decode cfg (junk ++ 0xFF :: rest) = d.decode cfg (0xFF :: rest) := by
  have hm : marker (junk ++ 0xFF :: rest) = marker (0xFF :: rest) := marker_skip hj rest
  cases hr : marker (0xFF :: rest) with
  | error f =>
    unfold Decoder.decode decodeParser
    simp only [Biterator.new, segmentLoop, hm, hr, Out.bind_fail]
  | ok q =>
    obtain ⟨m, more⟩ := q
    rw [hr] at hm
    by_cases hne : m = .EOI
    · subst hne
      unfold Decoder.decode decodeParser
      simp only [Biterator.new, segmentLoop, hm, hr, if_true, St.setInput]
    · have e : loopAll cfg ⟨d, Biterator.new (junk ++ 0xFF :: rest)⟩ = loopAll cfg ⟨d, Biterator.new (0xFF :: rest)⟩ := by
        rw [loopAll_eq (s := ⟨d, Biterator.new (junk ++ 0xFF :: rest)⟩) hd.inv (new_wf _) hm hne,
          loopAll_eq (s := ⟨d, Biterator.new (0xFF :: rest)⟩) hd.inv (new_wf _) hr hne]
        rfl
      unfold loopAll at e
      unfold Decoder.decode decodeParser
      rw [e]

/-! ## The scan -/

theorem upsampleGroups_empty {cfg : Cfg} (hr : cfg.debug = false) {us : List UpsamplerComponent} {width vMax : Nat} :
    ∀ (fuel row group : Nat) (bufs lines : List (List UInt8)), lines.length < fuel →
    upsampleGroups cfg .null us [] width vMax fuel row group bufs lines = .ok lines := by
  intro fuel
  induction fuel with
  | zero => intro row group bufs lines h; omega
  | succ fuel ih =>
    intro row group bufs lines h
    rw [upsampleGroups]
    split
    · rename_i hl; rw [hl]
    · rename_i hl
      have hu : ∀ r, upsampleAndInterleaveRow cfg us [] bufs r width = .ok ([], bufs) := by
        intro r
        unfold upsampleAndInterleaveRow
        rw [if_neg (by rw [hr]; simp)]
        cases us <;> rfl
      have hpos : 0 < lines.length := List.length_pos_of_ne_nil hl
      simp only [hu, convertLines_null]
      rw [ih _ _ _ _ (by rw [List.length_drop]; omega)]
      simp only [List.take_append_drop]

/-- A file without scan: the Adobe segment for RGB, a frame header with three components, the end. -/
def noScanFile (y x : Nat) (cs : List HeaderComponent) : List UInt8 :=
  markerBytes .SOI ++ Sample.adobe0 ++ markerSegment (.SOF 0) (frameHeader 8 y x cs) ++ markerBytes .EOI

theorem loopAll_segment {cfg : Cfg} {d d1 : Decoder} (hd : DecInv d) {m : Marker} (he : MarkerExists m) (hne : m ≠ .EOI)
    (payload rest : List UInt8) (h : doSegment cfg m ⟨d, ⟨segmentOf payload ++ rest, 0, 0⟩⟩ = .ok () ⟨d1, ⟨rest, 0, 0⟩⟩) :
    loopAll cfg ⟨d, ⟨markerSegment m payload ++ rest, 0, 0⟩⟩ = loopAll cfg ⟨d1, ⟨rest, 0, 0⟩⟩ := by
  rw [loopAll_eq (s := ⟨d, ⟨markerSegment m payload ++ rest, 0, 0⟩⟩) hd (wf_zero _) (m := m) (rest := segmentOf payload ++ rest) (by
    rw [← marker_bytes' he]; simp [markerSegment]) hne]
  simp only [St.setInput]
  rw [h, Out.bind_ok]

private theorem three_of_length {α : Type} : {l : List α} → l.length = 3 → ∃ a b c, l = [a, b, c]
  | [a, b, c], _ => ⟨a, b, c, rfl⟩

private theorem upsamplerNew_ones (a b c : Component) (out : Dim) (ha : a.h = 1) (ha' : a.v = 1)
    (hb : b.h = 1) (hb' : b.v = 1) (hc : c.h = 1) (hc' : c.v = 1) :
    ∃ us, upsamplerNew [a, b, c] out = .ok us := by
  refine ⟨[⟨.h1v1, a.size, a.blockSize.width * 8⟩, ⟨.h1v1, b.size, b.blockSize.width * 8⟩,
    ⟨.h1v1, c.size, c.blockSize.width * 8⟩], ?_⟩
  simp [upsamplerNew, listMax?, upsamplerComponents, chooseUpsampler, ha, ha', hb, hb', hc, hc',
    MAX_COMPONENTS, bind, Except.bind, pure, Except.pure]

/-- **C82** (the scan; refutation). In builds without debug assertions data without any scan are an image: for
every size the Adobe segment, the frame header and the end of image marker alone decode to zeros. -/
theorem C82_no_scan_violated (cfg : Cfg) (hr : cfg.debug = false) (x y : Nat) (hx : 1 ≤ x ∧ x < 2 ^ 16) (hy : y < 2 ^ 16)
    (cs : List HeaderComponent) (h3 : cs.length = 3) (hc : ∀ c ∈ cs, c.h = 1 ∧ c.v = 1) :
    decode cfg (noScanFile y x cs) = .ok (List.replicate (x * y * 3) 0) := by
  have hne : cs ≠ [] := by rintro rfl; simp at h3
  obtain ⟨H, V, hH, hV, hsof⟩ := sof_header cfg 0 8 hx.2 hy cs hne (by omega)
    (by intro c hm; obtain ⟨a, b⟩ := hc c hm; rw [a, b]; exact ⟨by decide, by decide, by decide, by decide⟩) []
  rw [List.append_nil] at hsof
  obtain rfl : H = 1 := by obtain ⟨c, hm, rfl⟩ := hH.2; exact (hc c hm).1
  obtain rfl : V = 1 := by obtain ⟨c, hm, rfl⟩ := hV.2; exact (hc c hm).2
  have hmap : (cs.map fun c => fullComponent x y 1 1 (rawComponent c.id c.h c.v c.tq.toNat)) =
      cs.map fun c => fullComponent x y 1 1 (rawComponent c.id 1 1 c.tq.toNat) :=
    List.map_congr_left fun c hm => by rw [(hc c hm).1, (hc c hm).2]
  rw [hmap] at hsof
  generalize hfr : (⟨0, 8, y, x, ⟨ceilDiv x (8 * 1), ceilDiv y (8 * 1)⟩,
    cs.map fun c => fullComponent x y 1 1 (rawComponent c.id 1 1 c.tq.toNat)⟩ : Frame) = fr at hsof
  generalize hd' : ({ Decoder.default with colorTransform := some .unknown, frame := some fr } : Decoder) = d'
  have hlen : (frameHeader 8 y x cs).length + 2 < 65536 := by
    obtain ⟨a, b, c, rfl⟩ := three_of_length h3
    simp [frameHeader, HeaderComponent.bytes]
  have hd1 := UsedDecoder.new.inv
  have hloop : loopAll cfg ⟨Decoder.default, Biterator.new (noScanFile y x cs)⟩ = .ok () ⟨d', ⟨[], 0, 0⟩⟩ := by
    have e1 : noScanFile y x cs = 0xFF :: 0xD8 :: (Sample.adobe0 ++
        (markerSegment (.SOF 0) (frameHeader 8 y x cs) ++ markerBytes .EOI)) := by
      simp only [noScanFile, List.append_assoc]
      rfl
    have e2 : loopAll cfg ⟨Decoder.default, Biterator.new (noScanFile y x cs)⟩ = loopAll cfg ⟨Decoder.default,
        ⟨Sample.adobe0 ++ (markerSegment (.SOF 0) (frameHeader 8 y x cs) ++ markerBytes .EOI), 0, 0⟩⟩ := by
      rw [e1, loopAll_soi hd1]
      rw [Biterator.new]
    rw [e2]
    unfold Sample.adobe0
    have hd2 : DecInv { Decoder.default with colorTransform := some .unknown } :=
      ⟨⟨hd1.tables.dc, hd1.tables.ac⟩, hd1.dc4, hd1.ac4, hd1.q4, hd1.q64, hd1.fin4, hd1.frame, hd1.interval⟩
    rw [loopAll_segment hd1 (m := .APP 14) (by show 14 ≤ 15; omega) (by decide)
      (d1 := { Decoder.default with colorTransform := some .unknown }) _ _ (by
        rw [doSegment, if_pos rfl, segment_result (by decide), adobeBody]
        rfl)]
    rw [loopAll_segment hd2 (m := .SOF 0) (by show 0 ≤ 2; omega) (by decide) (d1 := d') _ _ (by
        rw [doSegment, segment_result hlen, sofBody, hsof, ← hd'])]
    unfold loopAll
    have hm := marker_bytes' (m := .EOI) trivial []
    rw [List.append_nil] at hm
    rw [segmentLoop, hm]
    rfl
  have hup : upsample cfg d' = .ok (List.replicate (x * y * 3) 0) := by
    obtain ⟨a, b, c, rfl⟩ := three_of_length h3
    obtain ⟨us, hus⟩ : ∃ us, upsamplerNew fr.components ⟨fr.samplesPerLine, fr.lines⟩ = .ok us := by
      rw [← hfr]
      exact upsamplerNew_ones _ _ _ _ rfl rfl rfl rfl rfl rfl
    have hv : fr.maxV = .ok 1 := by rw [← hfr]; rfl
    have h1 : fr.components.length = 3 := by rw [← hfr]; rfl
    have h2 : fr.samplesPerLine = x := by rw [← hfr]
    have h4 : fr.lines = y := by rw [← hfr]
    have hf : d'.frame = some fr := by rw [← hd']
    have ht : d'.colorTransform = some .unknown := by rw [← hd']
    have hp : d'.planes = [] := by rw [← hd']; rfl
    unfold upsample
    rw [hf]
    simp only [hus, hv, h1, h2, h4, ht, hp, chooseColorConvert, if_true]
    rw [h2, h4] at hus
    rw [hus]
    simp only
    rw [if_neg (by omega), upsampleGroups_empty hr _ _ _ _ _ (by simp)]
    simp only [Except.ok.injEq]
    rw [List.eq_replicate_iff]
    constructor
    · simp only [List.length_flatten, List.map_replicate, List.sum_replicate, List.length_replicate]
      rw [Nat.nsmul_eq_mul, Nat.mul_comm x y, Nat.mul_assoc]
    · intro b hb
      simp only [List.mem_flatten, List.mem_replicate] at hb
      obtain ⟨l, ⟨-, rfl⟩, hb⟩ := hb
      exact (List.mem_replicate.1 hb).2
  unfold decode Decoder.decode decodeParser
  unfold loopAll at hloop
  rw [hloop]
  simp only [Out.bind_ok, hup]
  simp

/-! ## Cases -/

/-- C82_parts: the grey file has its parts; without its first two bytes, and with a line of text in front, it
decodes to the same. -/
example : ∃ image, decode ⟨true, false⟩ Sample.grey = .ok image ∧ image ≠ [] :=
  ⟨List.replicate 192 128, by decide +kernel, by decide⟩
example : (∀ j c, ¬ MarkerAt [0x48, 0x54, 0x54, 0x50, 0x0A] j c) ∧
    (match decode ⟨true, false⟩ ([0x48, 0x54, 0x54, 0x50, 0x0A] ++ Sample.grey.drop 2) with
    | .ok image => image == List.replicate 192 128
    | .error _ => false) = true := by
  refine ⟨?_, by decide +kernel⟩
  rintro j c ⟨h, -⟩
  have := List.mem_of_getElem? h
  simp at this

/-- C82_no_scan: with debug assertions it is a panic. -/
example : (match decode ⟨true, false⟩ (noScanFile 2 2 [⟨1, 1, 1, 0⟩, ⟨2, 1, 1, 0⟩, ⟨3, 1, 1, 0⟩]) with
    | .error (.panic p) => p == .componentMismatch
    | _ => false) = true := by decide +kernel

end Jpeg
