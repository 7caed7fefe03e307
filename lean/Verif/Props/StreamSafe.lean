import Verif.Proofs.StreamInv
import Verif.Props.Stream
/-!
# Streaming decoders: memory, termination, size of the images (C58, C50, C35)
-/

namespace Jpeg
open Spec

/-- The streaming decoders a program can hold, however the bytes arrived: a new one, and one that has
returned "more bytes needed" or an image. (A parse error ends the stream.) -/
inductive UsedCodec : Codec → Prop
  | new : UsedCodec Codec.new
  | pushed {c : Codec} (chunk : List UInt8) : UsedCodec c → UsedCodec (c.push chunk)
  | pending {c c' : Codec} (cfg : Cfg) : UsedCodec c → c.poll cfg = .pending c' → UsedCodec c'
  | image {c c' : Codec} (cfg : Cfg) {r : Except Fail (List UInt8)} : UsedCodec c → c.poll cfg = .image r c' →
      UsedCodec c'

theorem StageInv.setInput {st : Stage} {s : St} (h : StageInv st s) (l : List UInt8) :
    StageInv st (s.setInput l) := by
  cases st with
  | segments => exact h
  | scan pd ph todo =>
    obtain ⟨scan, frame, k, h⟩ := h
    exact ⟨scan, frame, k, h.move (OnlyScan.refl _) ⟨h.step.wf, h.step.eob, h.step.preds⟩ rfl h.coefficients⟩

theorem poll_inv {cfg : Cfg} {c : Codec} (h : StageInv c.stage c.st) :
    match c.poll cfg with
    | .pending c => StageInv c.stage c.st
    | .image _ c => StageInv c.stage c.st
    | .failed f s => ∀ p, f = .panic p → StreamPanic cfg c.st.bi.input s.dec p := by
  unfold Codec.poll
  by_cases he : c.st.bi.input = []
  · rw [if_pos he]; exact h
  · rw [if_neg he]
    exact codecRun_inv _ _ _ h (List.suffix_refl _) (by cases c.stage <;> simp)

theorem UsedCodec.inv {c : Codec} (h : UsedCodec c) : StageInv c.stage c.st := by
  induction h with
  | new => exact ⟨DecInv.default, new_wf []⟩
  | pushed chunk _ ih => exact ih.setInput _
  | pending cfg _ h ih => have := poll_inv (cfg := cfg) ih; rw [h] at this; exact this
  | image cfg _ h ih => have := poll_inv (cfg := cfg) ih; rw [h] at this; exact this

/-- **C58**. Nor does a streaming decoder, whatever the bytes and however they are split, for the first and
for every later image on the same codec. -/
theorem C58_streaming (cfg : Cfg) (c : Codec) (hc : UsedCodec c) (p : PanicSite) (s : St)
    (h : c.poll cfg = .failed (.panic p) s) : ¬ p.Undefined := by
  have := poll_inv (cfg := cfg) hc.inv
  rw [h] at this
  exact (this p rfl).real.1

/-- **C50**. Every call of a streaming decoder returns: the bound of the model's loop, two more than the
number of buffered bytes, is never the reason for a failure. -/
theorem C50_streaming (cfg : Cfg) (c : Codec) (hc : UsedCodec c) (s : St) :
    c.poll cfg ≠ .failed (.panic .fuel) s := by
  intro h
  have := poll_inv (cfg := cfg) hc.inv
  rw [h] at this
  exact (this .fuel rfl).real.2 rfl

/-- **C41** (streaming; the property fails as stated, this is what holds instead). Every panic of every call of
a streaming decoder belongs to one of the listed classes, whatever the bytes and however they are split. -/
theorem C41_streaming_panics_listed_partial (cfg : Cfg) (c : Codec) (hc : UsedCodec c) (p : PanicSite) (s : St)
    (h : c.poll cfg = .failed (.panic p) s) : StreamPanic cfg c.st.bi.input s.dec p := by
  have := poll_inv (cfg := cfg) hc.inv
  rw [h] at this
  exact this p rfl

theorem codecRun_image {cfg : Cfg} : ∀ (fuel : Nat) (st : Stage) (s : St) (r : Except Fail (List UInt8)) (c : Codec),
    codecRun cfg fuel st s = .image r c → upsample cfg c.st.dec = r ∧ c.stage = .segments := by
  intro fuel
  induction fuel with
  | zero => intro st s r c h; cases h
  | succ fuel ih =>
    intro st s r c h
    rw [codecRun] at h
    cases e : stageStep cfg st s with
    | next t => rw [e] at h; exact ih _ _ _ _ h
    | wait st' t => rw [e] at h; cases h
    | failed f t => rw [e] at h; cases h
    | eoi t =>
      rw [e] at h
      simp only at h
      cases eu : upsample cfg t.dec with
      | ok img => rw [eu] at h; cases h; exact ⟨eu, rfl⟩
      | error f => rw [eu] at h; cases f <;> cases h <;> exact ⟨eu, rfl⟩

/-- **C35**. The images of a streaming decoder have the size of the frame the decoder then holds. -/
theorem C35_streaming (cfg : Cfg) (c c' : Codec) (image : List UInt8)
    (h : c.poll cfg = .image (.ok image) c') :
    ∃ frame, c'.st.dec.frame = some frame ∧
      image.length = frame.samplesPerLine * frame.lines * frame.components.length := by
  unfold Codec.poll at h
  split at h
  · cases h
  · exact upsample_length (codecRun_image _ _ _ _ _ h).1

/-! ## Cases -/

/-- A codec in the middle of a scan, one that has returned an image, one that panics. -/
example : UsedCodec ((Codec.new.push (exampleFile.bytes.take 202)).push [0xFF]) := .pushed _ (.pushed _ .new)
example : (match (Codec.new.push (exampleFile.bytes.take 202)).poll ⟨false, false⟩ with
    | .pending ⟨.scan _ _ todo, _⟩ => decide (todo.length = 2)
    | _ => false) = true := by decide +kernel
example : (match (Codec.new.push exampleFile.bytes).poll ⟨false, false⟩ with
    | .image (.ok image) c => decide (image.length = 384) && decide (c.st.bi.input = [])
    | _ => false) = true := by decide +kernel

end Jpeg
