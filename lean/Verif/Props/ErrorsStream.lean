import Verif.Proofs.ErrorStream
import Verif.Props.Errors
import Verif.Props.Read
/-!
# Errors of the streaming decoders and of `ReadDecoder` (C96)
-/

namespace Jpeg
open Spec

theorem FileErr.of_poll {cfg : Cfg} {c : Codec} {e : ErrKind} {s : St} (hc : StageInv c.stage c.st)
    (h : c.poll cfg = .failed (.err e) s) : FileErr cfg c.st.bi.input s.dec e := by
  unfold Codec.poll at h
  split at h
  · cases h
  · have := codecRun_err (cfg := cfg) (c.st.bi.input.length + 2) c.stage c.st hc (List.suffix_refl _)
    rw [h] at this
    exact this e rfl

theorem poll_left {cfg : Cfg} {c c' : Codec} (hc : StageInv c.stage c.st) (h : c.poll cfg = .pending c') :
    c'.st.bi.input <:+ c.st.bi.input := by
  unfold Codec.poll at h
  split at h
  · cases h; exact List.suffix_refl _
  · have := codecRun_err (cfg := cfg) (c.st.bi.input.length + 2) c.stage c.st hc (List.suffix_refl _)
    rw [h] at this
    exact this

theorem feed_err {cfg : Cfg} {e : ErrKind} {s : St} : ∀ (chunks : List (List UInt8)) (c : Codec)
    (rest : List (List UInt8)), StageInv c.stage c.st → c.feed cfg chunks = (.failed (.err e) s, rest) →
    FileErr cfg (c.st.bi.input ++ chunks.flatten) s.dec e := by
  intro chunks
  induction chunks with
  | nil => intro c rest _ h; cases h
  | cons chunk chunks ih =>
    intro c rest hc h
    have hp : StageInv (c.push chunk).stage (c.push chunk).st := hc.setInput _
    have hi : (c.push chunk).st.bi.input = c.st.bi.input ++ chunk := rfl
    rw [Codec.feed] at h
    cases e1 : (c.push chunk).poll cfg with
    | pending c' =>
      rw [e1] at h
      have hl := poll_left hp e1
      have hinv := poll_inv (cfg := cfg) hp
      rw [e1] at hinv
      refine FileErr.within ?_ (ih c' rest hinv h)
      obtain ⟨a, ha⟩ := hl
      refine ⟨a, [], ?_⟩
      rw [← List.append_assoc, ha, hi]
      simp
    | image r c' => rw [e1] at h; cases h
    | failed f t =>
      rw [e1] at h
      cases h
      refine FileErr.within ?_ (FileErr.of_poll hp e1)
      exact ⟨[], chunks.flatten, by rw [hi]; simp⟩

/-- **C96** (streaming). An error of a streaming decoder names a fault of the bytes fed to it, whatever the
chunks, for the first and for every later image on the same codec; an error returned in place of an image says
why the frame the decoder then holds cannot be put together. -/
theorem C96_streaming (cfg : Cfg) (c : Codec) (hc : UsedCodec c) (chunks rest : List (List UInt8)) (e : ErrKind) :
    (∀ s, c.feed cfg chunks = (.failed (.err e) s, rest) →
      SegmentError cfg (c.st.bi.input ++ chunks.flatten) e ∨
      HeaderError cfg (c.st.bi.input ++ chunks.flatten) s.dec.frame e ∨
      ∃ scan, s.dec.scan = some scan ∧ ScanError (c.st.bi.input ++ chunks.flatten) s.dec scan e) ∧
    (∀ c', c.feed cfg chunks = (.image (.error (.err e)) c', rest) → RenderError c'.st.dec e) := by
  refine ⟨fun s h => feed_err chunks c rest hc.inv h, ?_⟩
  have key : ∀ (chunks : List (List UInt8)) (c c' : Codec), StageInv c.stage c.st →
      c.feed cfg chunks = (.image (.error (.err e)) c', rest) → RenderError c'.st.dec e := by
    intro chunks
    induction chunks with
    | nil => intro c c' _ h; cases h
    | cons chunk chunks ih =>
      intro c c' hc h
      have hp : StageInv (c.push chunk).stage (c.push chunk).st := hc.setInput _
      have hinv := poll_inv (cfg := cfg) hp
      rw [Codec.feed] at h
      cases e1 : (c.push chunk).poll cfg with
      | pending c1 => rw [e1] at h hinv; exact ih c1 c' hinv h
      | failed f t => rw [e1] at h; cases h
      | image r c1 =>
        rw [e1] at h
        cases h
        unfold Codec.poll at e1
        split at e1
        · cases e1
        · have hd := codecRun_err (cfg := cfg) ((c.push chunk).st.bi.input.length + 2) (c.push chunk).stage
            (c.push chunk).st hp (List.suffix_refl _)
          rw [e1] at hd
          exact upsample_err hd (codecRun_image _ _ _ _ _ e1).1
  exact fun c' h => key chunks c c' hc.inv h

/-! ## `ReadDecoder` -/

theorem FileErr.of_run {cfg : Cfg} {c : Codec} (hc : StageInv c.stage c.st) :
    match c.run cfg with
    | .pending c' => c'.st.bi.input <:+ c.st.bi.input
    | .image r c' => ∀ e, r = .error (.err e) → RenderError c'.st.dec e
    | .failed f s => ∀ e, f = .err e → FileErr cfg c.st.bi.input s.dec e := by
  have := codecRun_err (cfg := cfg) (c.st.bi.input.length + 2) c.stage c.st hc (List.suffix_refl _)
  have hi := codecRun_image (cfg := cfg) (c.st.bi.input.length + 2) c.stage c.st
  revert this hi
  unfold Codec.run
  cases codecRun cfg (c.st.bi.input.length + 2) c.stage c.st with
  | pending c' => exact fun h _ => h
  | image r c' => exact fun h hi e he => upsample_err h (by rw [← he]; exact (hi r c' rfl).1)
  | failed f s => exact fun h _ => h

/-- What the errors of a call say. -/
def ReturnedErr (cfg : Cfg) (file : List UInt8) : Returned → Prop
  | .image r d => ∀ e, r = .error (.err e) → RenderError d.codec.st.dec e
  | .io _ => True
  | .failed f s => ∀ e, f = .err e → FileErr cfg file s.dec e

theorem ReturnedErr.within {cfg : Cfg} {part file : List UInt8} (hp : part <:+: file) {r : Returned}
    (h : ReturnedErr cfg part r) : ReturnedErr cfg file r := by
  cases r with
  | image r d => exact h
  | io d => exact h
  | failed f s => exact fun e he => (h e he).within hp

theorem readEnd_err {cfg : Cfg} {c : Codec} (hc : StageInv c.stage c.st) :
    ReturnedErr cfg c.st.bi.input (readEnd cfg c) := by
  have := FileErr.of_run (cfg := cfg) hc
  unfold readEnd
  cases hr : c.run cfg with
  | pending c' => intro e he; cases he
  | image r c' => rw [hr] at this; exact this
  | failed f s => rw [hr] at this; exact this

theorem readLoop_err {cfg : Cfg} : ∀ (reads : List ReadResult) (c : Codec), StageInv c.stage c.st →
    ReturnedErr cfg (c.st.bi.input ++ dataOf reads) (readLoop cfg c reads).1 := by
  intro reads
  induction reads with
  | nil =>
    intro c hc
    have h1 := FileErr.of_run (cfg := cfg) hc
    have h2 := run_inv (cfg := cfg) hc
    rw [readLoop, dataOf, List.append_nil]
    cases hr : c.run cfg with
    | pending c' => rw [hr] at h1 h2; exact (readEnd_err h2).within h1.isInfix
    | image r c' => rw [hr] at h1; exact h1
    | failed f s => rw [hr] at h1; exact h1
  | cons r reads ih =>
    intro c hc
    have h1 := FileErr.of_run (cfg := cfg) hc
    have h2 := run_inv (cfg := cfg) hc
    rw [readLoop]
    cases hr : c.run cfg with
    | pending c' =>
      rw [hr] at h1 h2
      match r with
      | .error => trivial
      | .data [] => exact (readEnd_err h2).within (h1.isInfix.trans (List.prefix_append _ _).isInfix)
      | .data (b :: bs) =>
        refine (ih (c'.push (b :: bs)) (h2.setInput _)).within ?_
        obtain ⟨a, ha⟩ := h1
        refine ⟨a, [], ?_⟩
        rw [dataOf, ← ha]
        show a ++ (c'.st.bi.input ++ (b :: bs) ++ dataOf reads) ++ [] = _
        simp
    | image r c' => rw [hr] at h1; exact h1
    | failed f s =>
      rw [hr] at h1
      exact fun e he => (h1 e he).within (List.prefix_append _ _).isInfix

/-- **C96** (reading). An error of a `ReadDecoder` names a fault of the bytes its reader gave (and of those left
from the image before). -/
theorem C96_reader (cfg : Cfg) (d : ReadDecoder) (hd : UsedReader d) (reads rest : List ReadResult) (e : ErrKind) :
    (∀ s, d.decode cfg reads = (.failed (.err e) s, rest) →
      SegmentError cfg (d.codec.st.bi.input ++ dataOf reads) e ∨
      HeaderError cfg (d.codec.st.bi.input ++ dataOf reads) s.dec.frame e ∨
      ∃ scan, s.dec.scan = some scan ∧ ScanError (d.codec.st.bi.input ++ dataOf reads) s.dec scan e) ∧
    (∀ d', d.decode cfg reads = (.image (.error (.err e)) d', rest) → RenderError d'.codec.st.dec e) := by
  have key : ReturnedErr cfg (d.codec.st.bi.input ++ dataOf reads) (d.decode cfg reads).1 := by
    unfold ReadDecoder.decode
    split
    · exact (readEnd_err hd.inv).within (List.prefix_append _ _).isInfix
    · exact readLoop_err reads d.codec hd.inv
  refine ⟨fun s h => ?_, fun d' h => ?_⟩
  · rw [h] at key; exact key e rfl
  · rw [h] at key; exact key e rfl

/-! ## Cases -/

section
open Sample

/-- A file with an unknown marker, in two chunks split inside the marker; a frame of four components without an
Adobe segment; a scan without a frame, read in two parts. -/
example : (match (Codec.new.feed dbg [file [[0xFF]] |>.take 3, [0xC5, 0xFF]]).1 with
    | .failed (.err .markerExpected) _ => true
    | _ => false) = true := by decide +kernel
example : (match (Codec.new.feed dbg [file [frame 0 8 0 (ycc ++ [⟨4, 1, 1, 0⟩])]]).1 with
    | .image (.error (.err .fourComponents)) c => decide (c.st.bi.input = [])
    | _ => false) = true := by decide +kernel
example : (match (ReadDecoder.new.decode dbg [.data [0xFF], .data ((file [scan all3 0 63 0]).drop 1)]).1 with
    | .failed (.err .sosBeforeSof) _ => true
    | _ => false) = true := by decide +kernel

end

end Jpeg
