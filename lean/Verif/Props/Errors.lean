import Verif.Proofs.ErrorLoop
import Verif.Proofs.RenderKind
import Verif.Props.Upsample
import Verif.Props.Color
import Verif.Props.Panics
import Verif.Props.Stream
/-!
# Every error names a fault of the file (C96)
-/

namespace Jpeg
open Spec Sample

theorem upsample_err {cfg : Cfg} {d : Decoder} {e : ErrKind} (hd : DecInv d) (h : upsample cfg d = .error (.err e)) :
    RenderError d e := by
  unfold upsample at h
  cases hf : d.frame with
  | none => rw [hf] at h; cases h
  | some frame =>
    obtain ⟨-, hne, -⟩ := hd.frame frame hf
    rw [hf] at h
    simp only at h
    obtain ⟨s1, s2, s3, s4, s5, -⟩ := C28_selection frame.components.length d.colorTransform
    cases e1 : chooseColorConvert frame.components.length d.colorTransform with
    | error f =>
      rw [e1] at h
      simp only [Except.error.injEq] at h
      rw [h] at e1
      have he : e = .fourComponents := by
        unfold chooseColorConvert at e1
        split at e1
        · split at e1 <;> cases e1
        · split at e1 <;> cases e1
          rfl
        · cases e1
      subst he
      obtain ⟨h1, h2⟩ := s5.1 e1
      exact .fourComponents frame hf h1 h2
    | ok g =>
      have hcount : frame.components.length = 3 ∨ frame.components.length = 4 ∧ d.colorTransform ≠ none := by
        cases g with
        | null => exact .inl (s1.1 e1).1
        | ycbcr => exact .inl (s2.1 e1).1
        | cmyk => exact .inr ⟨(s3.1 e1).1, by rw [(s3.1 e1).2]; simp⟩
        | ycck => exact .inr ⟨(s4.1 e1).1, by rcases (s4.1 e1).2 with h | h <;> rw [h] <;> simp⟩
      rw [e1] at h
      simp only at h
      obtain ⟨H, hH⟩ := listMax?_some (l := frame.components.map (·.h)) (by simpa using hne)
      obtain ⟨V, hV⟩ := listMax?_some (l := frame.components.map (·.v)) (by simpa using hne)
      have hH := listMax?_largest _ _ _ hH
      have hV := listMax?_largest _ _ _ hV
      rcases C30_frame frame (by omega) H V hH hV ⟨frame.samplesPerLine, frame.lines⟩ with
        ⟨e2, c, hc, hch⟩ | ⟨us, e2, -⟩
      · rw [e2] at h
        simp only [Except.error.injEq, Fail.err.injEq] at h
        subst h
        obtain ⟨h1, h2⟩ := (C30_selection c.h c.v H V frame.samplesPerLine frame.lines).2.2.2.2.2.1 hch
        refine .ratio frame H V c hf hcount hH hV hc ?_ h2
        rwa [or_assoc, or_assoc] at h1
      · exfalso
        rw [e2] at h
        simp only at h
        split at h
        · next hv =>
          unfold Frame.maxV at hv
          split at hv <;> cases hv
          cases h
        · split at h
          · cases h
          · split at h
            · next hg =>
              obtain ⟨p, rfl⟩ := upsampleGroups_onlyPanics _ _ _ _ _ _ _ _ _ _ _ _ hg
              cases h
            · cases h

/-- **C96**. Whenever decoding reports an error, the file has the fault the error is about: an unknown marker, a
segment whose content is not in order, a scan header that does not fit the frame, tables or restart markers that do
not fit the scan, or a frame the decoder has no colour conversion or upsampler for (then the file is read to its
end). For every file and every decoder a program can hold. -/
theorem C96_errors (cfg : Cfg) (file : List UInt8) (d d' : Decoder) (e : ErrKind) (hd : UsedDecoder d)
    (h : d.decode cfg file = .fail (.err e) d') :
    SegmentError cfg file e ∨ HeaderError cfg file d'.frame e ∨
    (∃ scan, d'.scan = some scan ∧ ScanError file d' scan e) ∨
    (RenderError d' e ∧ ∃ pre, file = pre ++ markerBytes .EOI) := by
  have hs := segmentLoop_safe (cfg := cfg) file (file.length + 1) ⟨d, Biterator.new file⟩ hd.inv
    (new_wf file) (by simp [Biterator.new]) (List.suffix_refl _)
  unfold Decoder.decode decodeParser at h
  rw [show (⟨d, Biterator.new file⟩ : St).bi.input.length + 1 = file.length + 1 from rfl] at h
  cases e1 : segmentLoop cfg (file.length + 1) ⟨d, Biterator.new file⟩ with
  | fail f s =>
    rw [e1] at h
    simp only [Out.bind_fail, Out.fail.injEq] at h
    obtain ⟨rfl, rfl⟩ := h
    rcases segmentLoop_err _ _ _ hd.inv (new_wf file) (List.suffix_refl _) e1 with h | h | h
    · exact .inl h
    · exact .inr (.inl h)
    · exact .inr (.inr (.inl h))
  | ok u s =>
    rw [e1] at h hs
    rw [Out.bind_ok] at h
    cases e2 : upsample cfg s.dec with
    | ok image =>
      rw [e2] at h
      simp only at h
      split at h <;> cases h
    | error f =>
      rcases upsample_renders cfg s.dec f e2 with rfl | rfl | ⟨p, rfl⟩
      case inr.inr => rw [e2] at h; cases h
      all_goals
        rw [e2] at h
        simp only at h
        split at h
        · cases h
        · next hne =>
          simp only [Out.fail.injEq, Fail.err.injEq] at h
          obtain ⟨rfl, rfl⟩ := h
          obtain ⟨pre, hpre⟩ := segmentLoop_eoi _ _ _ hd.inv (new_wf file) e1
          refine .inr (.inr (.inr ⟨upsample_err hs.1 e2, pre, ?_⟩))
          have hnil : s.bi.input = [] := by simpa using hne
          rw [hnil] at hpre
          simpa [Biterator.new] using hpre

/-- The error of a result. -/
def errorOf {α : Type} : Except Fail α → Option ErrKind
  | .error (.err e) => some e
  | _ => none

/-- **C96** (none of the errors is idle). Every error there is, with a file that gives it. -/
theorem C96_every_error :
    errorOf (decode dbg (file [[0xFF, 0xC5]])) = some .markerExpected ∧
    errorOf (decode dbg (file [frame 0 8 8 [⟨1, 5, 1, 0⟩]])) = some .samplingFactor ∧
    errorOf (decode dbg (file [dc, markerSegment .DHT [0x20]])) = some .tableClass ∧
    errorOf (decode dbg (file [dc, markerSegment .DHT [0x14]])) = some .dhtDestination ∧
    errorOf (decode ⟨false, false⟩ (file [markerSegment .DHT (0 :: List.replicate 14 0 ++ [2, 255] ++
      List.replicate 257 0)])) = some .badHuffsize ∧
    errorOf (decode dbg (file [markerSegment .DHT ([0, 3] ++ List.replicate 15 0 ++ [0, 1, 2])])) =
      some .badHuffCode ∧
    errorOf (decode dbg (file [quant8, markerSegment .DQT [0x20]])) = some .dqtPrecision ∧
    errorOf (decode dbg (file [quant8, markerSegment .DQT [0x04]])) = some .dqtDestination ∧
    errorOf (decode dbg (file [markerSegment (.APP 14) [0x41, 0x64, 0x6F, 0x62, 0x65, 1]])) = some .adobeTag ∧
    errorOf (decode dbg (file [markerSegment (.APP 14) (adobeName ++ [0, 0, 0, 0, 0, 3])])) =
      some .adobeTransform ∧
    errorOf (decode dbg (file [frame 0 8 8 ycc, scan [] 0 63 0])) = some .componentCount ∧
    errorOf (decode dbg (file [scan all3 0 63 0])) = some .sosBeforeSof ∧
    errorOf (decode dbg (file [frame 0 8 8 ycc, scan [⟨1, 0, 0⟩, ⟨7, 0, 0⟩] 0 63 0])) = some .noSuchComponent ∧
    errorOf (decode dbg (file [frame 0 8 8 ycc, scan [⟨1, 0, 0⟩, ⟨3, 0, 0⟩, ⟨2, 0, 0⟩] 0 63 0])) =
      some .componentOrder ∧
    errorOf (decode dbg (file [frame 0 8 8 ycc, scan [⟨1, 0, 0⟩, ⟨2, 0, 0⟩, ⟨2, 0, 0⟩] 0 63 0])) =
      some .componentDuplicate ∧
    errorOf (decode dbg (file [frame 0 8 8 ycc, ac, scan all3 0 63 0])) = some .unsetDc ∧
    errorOf (decode dbg (file [frame 0 8 8 ycc, dc, scan all3 0 63 0])) = some .unsetAc ∧
    errorOf (decode dbg (file [quant8, frame 0 8 8 ycc, markerSegment .DHT ([0, 1] ++ List.replicate 15 0 ++ [12]),
      ac, scan all3 0 63 0, [0, 0, 0, 0, 0, 0]])) = some .dcCategory ∧
    errorOf (decode dbg (eobRun.take (eobRun.length - 3))) = some .outOfBits ∧
    errorOf (decode dbg (file [quant8, frame 0 16 8 ycc, dc, ac, markerSegment .DRI [0, 1], scan all3 0 63 0,
      [0], markerBytes (.RST 3), [0]])) = some .wrongRst ∧
    errorOf (decode dbg (file [quant8, frame 0 16 8 ycc, dc, ac, markerSegment .DRI [0, 1], scan all3 0 63 0,
      [0], markerBytes .COM, [0]])) = some .notRst ∧
    errorOf (decode dbg (file [frame 0 8 0 (ycc ++ [⟨4, 1, 1, 0⟩])])) = some .fourComponents ∧
    errorOf (decode dbg (file [frame 0 8 0 [⟨1, 3, 1, 0⟩, ⟨2, 2, 1, 0⟩, ⟨3, 1, 1, 0⟩]])) =
      some .nonIntegerSubsampling := by
  refine ⟨?_, ?_, ?_, ?_, ?_, ?_, ?_, ?_, ?_, ?_, ?_, ?_, ?_, ?_, ?_, ?_, ?_, ?_, ?_, ?_, ?_, ?_, ?_⟩ <;>
    decide +kernel

end Jpeg
