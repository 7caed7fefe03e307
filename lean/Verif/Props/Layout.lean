import Verif.Proofs.LastScan
import Verif.Props.Stream
/-!
# Layout of files: separate scans (C52), YCCK (C55), application segments (C56)
-/

namespace Jpeg
open Spec Sample

/-! ## C52 -/

/-- **C52** (refutation). Whatever the file: a three-component picture decodes only if the last scan header
lists all three components. (Adobe's transform 0 is excluded: such pictures come out black, C47.) -/
theorem C52_violated (cfg : Cfg) (file image : List UInt8) (d' : Decoder) (frame : Frame)
    (h : Decoder.default.decode cfg file = .ok image d') (hf : d'.frame = some frame)
    (h3 : frame.components.length = 3) (hct : d'.colorTransform ≠ some .unknown) (hl : frame.lines ≠ 0) :
    ∀ scan, d'.scan = some scan → 3 ≤ scan.headers.length := by
  intro scan hs
  obtain ⟨t, hloop, rfl, -, hu⟩ := decode_ok_inv h
  have hp := segmentLoop_planes _ _ _ (by intro scan hs; cases hs) hloop scan hs
  obtain ⟨f, colors, line, l, hc, hlen, hconv, -⟩ := upsample_planes hu hf hl
  rw [h3] at hc hlen
  simp only [chooseColorConvert, if_neg hct, Except.ok.injEq] at hc
  subst hc
  match colors, hconv, hlen with
  | [_, _, _], _, hlen => simp at hlen; omega
  | [], hconv, _ => cases hconv
  | [_], hconv, _ => cases hconv
  | [_, _], hconv, _ => cases hconv
  | _ :: _ :: _ :: _ :: _, hconv, _ => cases hconv

/-- **C52** (refutation), a file: three scans of one component each, every scan complete. With the three
components in one scan the same picture decodes; in separate scans it panics, in both kinds of build. -/
theorem C52_violated_witness :
    (match decode dbg (file [quant8, frame 0 8 8 ycc, dc, ac, scan all3 0 63 0, [0]]) with
    | .ok image => image == List.replicate 192 128
    | .error _ => false) = true ∧
    panicOf (decode dbg (file [quant8, frame 0 8 8 ycc, dc, ac, scan [⟨1, 0, 0⟩] 0 63 0, [0],
      scan [⟨2, 0, 0⟩] 0 63 0, [0], scan [⟨3, 0, 0⟩] 0 63 0, [0]])) = some .componentMismatch ∧
    panicOf (decode ⟨false, false⟩ (file [quant8, frame 0 8 8 ycc, dc, ac, scan [⟨1, 0, 0⟩] 0 63 0, [0],
      scan [⟨2, 0, 0⟩] 0 63 0, [0], scan [⟨3, 0, 0⟩] 0 63 0, [0]])) = some .fixedSlice := by
  refine ⟨?_, ?_, ?_⟩ <;> decide +kernel

/-! ## C55 -/

/-- **C55** (refutation). Whatever the file: a four-component picture with an Adobe transform other than 0
(YCCK) never decodes in a build with debug assertions; without them it decodes only if the last scan leaves
out a component. -/
theorem C55_violated (cfg : Cfg) (file image : List UInt8) (d' : Decoder) (frame : Frame)
    (h : Decoder.default.decode cfg file = .ok image d') (hf : d'.frame = some frame)
    (h4 : frame.components.length = 4) (t : AdobeColorTransform) (hct : d'.colorTransform = some t)
    (ht : t ≠ .unknown) (hl : frame.lines ≠ 0) :
    cfg.debug = false ∧ ∀ scan, d'.scan = some scan → scan.headers.length = 3 := by
  obtain ⟨st, hloop, rfl, -, hu⟩ := decode_ok_inv h
  obtain ⟨f, colors, line, l, hc, hlen, hconv, hdbg⟩ := upsample_planes hu hf hl
  have hf' : f = .ycck := by
    rw [h4, hct] at hc
    cases t with
    | unknown => exact absurd rfl ht
    | yCbCr | ycck => simp only [chooseColorConvert, Except.ok.injEq] at hc; exact hc.symm
  subst hf'
  have h3 : colors.length = 3 := by
    match colors, hconv with
    | [_, _, _], _ => rfl
    | [], hconv => cases hconv
    | [_], hconv => cases hconv
    | [_, _], hconv => cases hconv
    | _ :: _ :: _ :: _ :: _, hconv => cases hconv
  rw [h4] at hlen hdbg
  refine ⟨?_, ?_⟩
  · cases hd : cfg.debug with
    | false => rfl
    | true => have := hdbg hd; omega
  · intro scan hs
    have hp := segmentLoop_planes _ _ _ (by intro scan hs; cases hs) hloop scan hs
    omega

/-- Four components. -/
def Sample.four : List HeaderComponent := ycc ++ [⟨4, 1, 1, 0⟩]
/-- All four components in a scan. -/
def Sample.all4 : List ScanComponent := all3 ++ [⟨4, 0, 0⟩]
/-- The APP14 segment of Adobe with transform 2. -/
def Sample.adobe2 : List UInt8 :=
  markerSegment (.APP 14) [0x41, 0x64, 0x6F, 0x62, 0x65, 0, 100, 0, 0, 0, 0, 2]

/-- **C55** (refutation), a file: the same picture decodes as CMYK and panics as YCCK. -/
theorem C55_violated_witness :
    (match decode dbg (file [adobe0, quant8, frame 0 8 8 four, dc, ac, scan all4 0 63 0, [0]]) with
    | .ok image => image == List.replicate 256 127
    | .error _ => false) = true ∧
    panicOf (decode dbg (file [adobe2, quant8, frame 0 8 8 four, dc, ac, scan all4 0 63 0, [0]])) =
      some .fixedSlice ∧
    panicOf (decode ⟨false, false⟩ (file [adobe2, quant8, frame 0 8 8 four, dc, ac, scan all4 0 63 0,
      [0]])) = some .fixedSlice := by
  refine ⟨?_, ?_, ?_⟩ <;> decide +kernel

/-! ## C56 -/

/-- **C56** (the full claim, with APP14, is refuted by `C56_violated`). An application segment other than
APP14, with any content, changes nothing, anywhere between two segments. -/
theorem C56_app_skipped_partial (cfg : Cfg) (d : Decoder) (bits count : Nat) (hd : DecInv d)
    (hwf : ∀ l, (⟨l, bits, count⟩ : Biterator).WF) (n : Nat) (hn : n ≤ 15) (hn' : n ≠ 14)
    (content rest : List UInt8) (hlen : content.length + 2 < 65536) :
    loopAll cfg ⟨d, ⟨markerSegment (.APP n) content ++ rest, bits, count⟩⟩ =
      loopAll cfg ⟨d, ⟨rest, bits, count⟩⟩ := by
  rw [loopAll_eq (m := .APP n) (rest := segmentOf content ++ rest) hd (hwf _) (by
    rw [← marker_bytes' (m := .APP n) hn]; simp [markerSegment]) (by simp)]
  have : doSegment cfg (.APP n) (St.setInput ⟨d, ⟨markerSegment (.APP n) content ++ rest, bits, count⟩⟩
      (segmentOf content ++ rest)) = .ok () ⟨d, ⟨rest, bits, count⟩⟩ := by
    simp only [doSegment, if_neg hn', segment]
    have hb : segmentBytes cfg (segmentOf content ++ rest) = .ok (content, rest) :=
      segmentBytes_ok cfg hlen rest
    rw [show (St.setInput ⟨d, ⟨markerSegment (.APP n) content ++ rest, bits, count⟩⟩
      (segmentOf content ++ rest)).bi.input = segmentOf content ++ rest from rfl, hb]
    rfl
  rw [this]
  rfl

/-- **C56**, for whole files: an application segment behind any number of table, header and application
segments. -/
theorem C56_file_partial (cfg : Cfg) (d : Decoder) (hd : UsedDecoder d) (segs : List (Marker × List UInt8))
    (hsegs : ∀ p ∈ segs, HasSegment p.1 ∧ MarkerExists p.1 ∧ p.2.length + 2 < 65536)
    (n : Nat) (hn : n ≤ 15) (hn' : n ≠ 14) (content rest : List UInt8) (hlen : content.length + 2 < 65536) :
    d.decode cfg (markerBytes .SOI ++ segs.flatMap (fun p => markerSegment p.1 p.2) ++
        markerSegment (.APP n) content ++ rest) =
      d.decode cfg (markerBytes .SOI ++ segs.flatMap (fun p => markerSegment p.1 p.2) ++ rest) := by
  have hwf : ∀ l, (⟨l, 0, 0⟩ : Biterator).WF := new_wf
  have step : ∀ l, loopAll cfg ⟨d, ⟨markerBytes .SOI ++ l, 0, 0⟩⟩ = loopAll cfg ⟨d, ⟨l, 0, 0⟩⟩ := by
    intro l
    rw [loopAll_eq (m := .SOI) (rest := l) hd.inv (hwf _) (marker_bytes' (m := .SOI) trivial _) (by simp)]
    rfl
  apply decode_sameRun
  simp only [Biterator.new, List.append_assoc]
  rw [step, step]
  exact loopAll_segments hwf (fun d hd => .inl (C56_app_skipped_partial cfg d 0 0 hd hwf n hn hn' content rest
    hlen)) segs hsegs d hd.inv

/-- **C56** (refutation). An APP14 segment that is not Adobe's, at the start of a file: whatever follows,
the file is refused. -/
theorem C56_violated (cfg : Cfg) (d : Decoder) (hd : UsedDecoder d) (content rest : List UInt8)
    (hlen : content.length + 2 < 65536) (h6 : 6 ≤ content.length)
    (hne : content.take 6 ≠ [0x41, 0x64, 0x6F, 0x62, 0x65, 0x00]) :
    d.decode cfg (markerBytes .SOI ++ (markerSegment (.APP 14) content ++ rest)) = .fail (.err .adobeTag) d := by
  have hwf : ∀ l, (⟨l, 0, 0⟩ : Biterator).WF := new_wf
  have hstep : doSegment cfg (.APP 14) ⟨d, ⟨segmentOf content ++ rest, 0, 0⟩⟩ =
      .fail (.err .adobeTag) ⟨d, ⟨rest, 0, 0⟩⟩ := by
    have hb : segmentBytes cfg (segmentOf content ++ rest) = .ok (content, rest) :=
      segmentBytes_ok cfg hlen rest
    have ha : appAdobe content = .error (.err .adobeTag) := by
      unfold appAdobe takeBytes
      rw [if_neg (by omega)]
      simp only [if_pos hne]
    simp only [doSegment, if_true, segment, hb, adobeBody, ha]
    rfl
  have hrun : loopAll cfg ⟨d, ⟨markerBytes .SOI ++ (markerSegment (.APP 14) content ++ rest), 0, 0⟩⟩ =
      .fail (.err .adobeTag) ⟨d, ⟨rest, 0, 0⟩⟩ := by
    rw [loopAll_eq (m := .SOI) (rest := markerSegment (.APP 14) content ++ rest) hd.inv (hwf _)
      (marker_bytes' (m := .SOI) trivial _) (by simp)]
    have e : doSegment cfg .SOI (St.setInput ⟨d, ⟨markerBytes .SOI ++ (markerSegment (.APP 14) content ++ rest),
        0, 0⟩⟩ (markerSegment (.APP 14) content ++ rest)) =
        .ok () ⟨d, ⟨markerSegment (.APP 14) content ++ rest, 0, 0⟩⟩ := rfl
    rw [e, Out.bind_ok, loopAll_eq (m := .APP 14) (rest := segmentOf content ++ rest) hd.inv (hwf _) (by
      rw [← marker_bytes' (m := .APP 14) (show 14 ≤ 15 by decide)]; simp [markerSegment]) (by simp)]
    have e2 : St.setInput ⟨d, ⟨markerSegment (.APP 14) content ++ rest, 0, 0⟩⟩ (segmentOf content ++ rest) =
        ⟨d, ⟨segmentOf content ++ rest, 0, 0⟩⟩ := rfl
    rw [e2, hstep]
    rfl
  unfold loopAll at hrun
  unfold Decoder.decode decodeParser Biterator.new
  rw [hrun]
  rfl

/-- A case of `C56_file_partial`: a JFIF header (APP0) in a file that decodes; and one of `C56_violated`. -/
example : (match decode dbg (file [markerSegment (.APP 0) [0x4A, 0x46, 0x49, 0x46, 0, 1, 1, 0, 0, 1, 0, 1, 0,
      0], quant8, frame 0 8 8 ycc, dc, ac, scan all3 0 63 0, [0]]) with
    | .ok image => image == List.replicate 192 128
    | .error _ => false) = true := by decide +kernel

example : (6 ≤ ([0x4F, 0x74, 0x68, 0x65, 0x72, 0x00] : List UInt8).length) ∧
    ([0x4F, 0x74, 0x68, 0x65, 0x72, 0x00] : List UInt8).take 6 ≠ [0x41, 0x64, 0x6F, 0x62, 0x65, 0x00] := by decide

end Jpeg
