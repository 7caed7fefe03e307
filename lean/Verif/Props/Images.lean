import Verif.Props.Panics
/-!
# Greyscale and Adobe RGB files (C46, C47), reuse of a decoder (C42)
-/

namespace Jpeg
open Spec Sample

/-- A successful decode is a successful run of the loop and of the last stage. -/
theorem decode_ok {cfg : Cfg} {file image : List UInt8} {d d' : Decoder}
    (h : d.decode cfg file = .ok image d') : upsample cfg d' = .ok image ∧
      segmentLoop cfg (file.length + 1) ⟨d, Biterator.new file⟩ = .ok () ⟨d', ⟨[], (segmentLoop cfg
        (file.length + 1) ⟨d, Biterator.new file⟩).state.bi.bits, (segmentLoop cfg
        (file.length + 1) ⟨d, Biterator.new file⟩).state.bi.count⟩⟩ := by
  unfold Decoder.decode decodeParser at h
  rw [show (⟨d, Biterator.new file⟩ : St).bi.input.length + 1 = file.length + 1 from rfl] at h
  cases e : segmentLoop cfg (file.length + 1) ⟨d, Biterator.new file⟩ with
  | fail f s => rw [e] at h; simp at h
  | ok u s =>
    rw [e] at h
    rw [Out.bind_ok] at h
    cases e2 : upsample cfg s.dec with
    | error f => rw [e2] at h; cases f <;> simp only at h <;> first | cases h | (split at h <;> cases h)
    | ok i =>
      rw [e2] at h
      simp only at h
      split at h
      · cases h
      · rename_i hin
        simp only [ne_eq, not_not] at hin
        simp only [Out.ok.injEq] at h
        obtain ⟨rfl, rfl⟩ := h
        refine ⟨e2, ?_⟩
        simp only [Out.state]
        rw [← hin]

/-! ## C46 -/

/-- **C46** (refutation). Whatever the file and the decoder: a decode that reached the end of the image
with a frame of one component panics. -/
theorem C46_violated (cfg : Cfg) (file : List UInt8) (d : Decoder) (s : St) (frame : Frame)
    (hrun : segmentLoop cfg (file.length + 1) ⟨d, Biterator.new file⟩ = .ok () s)
    (hf : s.dec.frame = some frame) (h1 : frame.components.length = 1) :
    d.decode cfg file = .fail (.panic .componentCount) s.dec := by
  unfold Decoder.decode decodeParser
  rw [show (⟨d, Biterator.new file⟩ : St).bi.input.length + 1 = file.length + 1 from rfl, hrun, Out.bind_ok]
  have : upsample cfg s.dec = .error (.panic .componentCount) := by
    unfold upsample
    rw [hf]
    simp only [h1, chooseColorConvert]
  rw [this]

/-- **C46** (refutation). No decode ever returns an image of a one-component frame. -/
theorem C46_never_decodes (cfg : Cfg) (file image : List UInt8) (d d' : Decoder) (frame : Frame)
    (h : d.decode cfg file = .ok image d') (hf : d'.frame = some frame) :
    frame.components.length ≠ 1 := by
  intro h1
  obtain ⟨-, hrun⟩ := decode_ok h
  rw [C46_violated cfg file d _ frame hrun hf h1] at h
  cases h

/-- A greyscale file of 8 by 8 pixels with its complete scan: it gets to the end and panics there. -/
theorem C46_violated_witness :
    panicOf (decode dbg (file [quant8, frame 0 8 8 [⟨1, 1, 1, 0⟩], dc, ac, scan [⟨1, 0, 0⟩] 0 63 0, [0]])) =
      some .componentCount := by decide +kernel

/-! ## C47 -/

theorem convertLines_null (colors : List (List UInt8)) : ∀ lines, convertLines .null colors lines = .ok lines := by
  intro lines
  induction lines with
  | nil => rfl
  | cons l lines ih => rw [convertLines]; simp only [ColorConvertFunc.convert, ih]

theorem upsampleGroups_null {cfg : Cfg} {us : List UpsamplerComponent} {planes : List (List UInt8)}
    {width vMax : Nat} : ∀ (fuel row group : Nat) (bufs lines out : List (List UInt8)),
    upsampleGroups cfg .null us planes width vMax fuel row group bufs lines = .ok out → out = lines := by
  intro fuel
  induction fuel with
  | zero =>
    intro row group bufs lines out h
    rw [upsampleGroups] at h
    split at h
    · rename_i hl; cases h; exact hl.symm
    · cases h
  | succ fuel ih =>
    intro row group bufs lines out h
    rw [upsampleGroups] at h
    split at h
    · rename_i hl; cases h; exact hl.symm
    · simp only [convertLines_null] at h
      split at h
      · cases h
      · split at h
        · cases h
        · rename_i rest hrest
          cases h
          rw [ih _ _ _ _ _ hrest, List.take_append_drop]

/-- **C47** (refutation). Whatever the file: a three-component image with Adobe transform 0 that decodes
is zero in every byte. -/
theorem C47_violated (cfg : Cfg) (file image : List UInt8) (d d' : Decoder) (frame : Frame)
    (h : d.decode cfg file = .ok image d') (hf : d'.frame = some frame)
    (h3 : frame.components.length = 3) (hct : d'.colorTransform = some .unknown) :
    image = List.replicate (frame.samplesPerLine * frame.lines * 3) 0 := by
  have hu := (decode_ok h).1
  obtain ⟨frame', hf', hl⟩ := upsample_length hu
  rw [hf] at hf'
  cases hf'
  unfold upsample at hu
  rw [hf] at hu
  simp only [h3, hct, chooseColorConvert, if_true] at hu
  split at hu
  · cases hu
  · split at hu
    · cases hu
    · split at hu
      · cases hu
      · split at hu
        · cases hu
        · rename_i lines hlines
          cases hu
          have := upsampleGroups_null _ _ _ _ _ _ hlines
          rw [List.eq_replicate_iff]
          refine ⟨by rw [hl, h3], ?_⟩
          intro b hb
          rw [this] at hb
          simp only [List.mem_flatten, List.mem_replicate] at hb
          obtain ⟨l, ⟨-, rfl⟩, hb⟩ := hb
          exact (List.mem_replicate.1 hb).2

/-- The APP14 segment of Adobe with transform 0. -/
def Sample.adobe0 : List UInt8 :=
  markerSegment (.APP 14) [0x41, 0x64, 0x6F, 0x62, 0x65, 0, 100, 0, 0, 0, 0, 0]

/-- A case of C47: grey samples of value 128 in all components, the image is black. -/
theorem C47_violated_witness :
    (match decode dbg (file [adobe0, quant8, frame 0 8 8 ycc, dc, ac, scan all3 0 63 0, [0]]) with
    | .ok image => image == List.replicate 192 0
    | .error _ => false) = true := by decide +kernel

/-! ## C42 -/

/-- A file of 8 by 8 grey pixels. -/
def Sample.grey : List UInt8 := file [quant8, frame 0 8 8 ycc, dc, ac, scan all3 0 63 0, [0]]

/-- **C42** (refutation). After the file `grey` the decoder takes the empty image `SOI EOI` for `grey`
again; a new decoder panics on it. -/
theorem C42_violated :
    (match (Decoder.default.decode dbg grey).state.decode dbg (file []) with
    | .ok image _ => image == List.replicate 192 128
    | .fail _ _ => false) = true ∧
    panicOf (decode dbg (file [])) = some .noFrame := by
  constructor <;> decide +kernel

/-- **C42** (refutation). The colour transform of an earlier file stays: after a file with Adobe transform
0 (that of `C47_violated_witness`, which decodes), `grey` comes out black. -/
theorem C42_violated_color :
    (match (Decoder.default.decode dbg (file [adobe0, quant8, frame 0 8 8 ycc, dc, ac, scan all3 0 63 0,
        [0]])).state.decode dbg grey with
    | .ok image _ => image == List.replicate 192 0
    | .fail _ _ => false) = true ∧
    (match decode dbg grey with
    | .ok image => image == List.replicate 192 128
    | .error _ => false) = true := by
  constructor <;> decide +kernel

end Jpeg
