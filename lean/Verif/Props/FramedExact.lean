import Verif.Props.Framed
import Verif.Props.StreamExact
/-!
# C80: when the stream gives the image, exactly (checked builds)
-/

namespace Jpeg
open Spec Sample

theorem collectEnd_atRestart {cfg : Cfg} {c : Codec} (hd : cfg.debug = true) (h : c.AtRestart) :
    (c.collectEnd cfg).1 = [] := by
  unfold Codec.collectEnd
  rw [Codec.drain]
  by_cases hi : c.st.bi.input = []
  · have hp : c.poll cfg = .pending c := by unfold Codec.poll; rw [if_pos hi]
    rw [hp]
  · rw [poll_atRestart hd h hi]

theorem feed_atRestart_pending {cfg : Cfg} (hd : cfg.debug = true) : ∀ (chunks : List (List UInt8)) (c c' : Codec),
    c.AtRestart → c.feed cfg chunks = (.pending c', []) → c'.AtRestart := by
  intro chunks
  induction chunks with
  | nil => intro c c' h e; cases e; exact h
  | cons chunk chunks ih =>
    intro c c' h e
    have hp : (c.push chunk).AtRestart := h
    rw [Codec.feed] at e
    by_cases hi : (c.push chunk).st.bi.input = []
    · have : (c.push chunk).poll cfg = .pending (c.push chunk) := by
        unfold Codec.poll
        rw [if_pos hi]
      rw [this] at e
      exact ih _ _ hp e
    · rw [poll_atRestart hd hp hi] at e
      cases e

/-- **C80** (the exception, checked builds). When the codec comes to wait for a restart marker at the end of a piece,
the stream has no items. -/
theorem C80_restart_nothing (cfg : Cfg) (hdbg : cfg.debug = true) (d : Decoder) (hd : UsedDecoder d)
    (reads : List PollRead) (hs : Steady reads) (h : StopsAtRestart cfg (Codec.ofDecoder d) (piecesOf reads)) :
    ((Codec.ofDecoder d).collect cfg reads).1 = [] := by
  have hi := Codec.idle_ofDecoder hd
  have key := collect_feed (cfg := cfg) reads (Codec.ofDecoder d) ⟨hi.inv, hi.wf⟩ hs
  obtain ⟨k, c', hk, hr⟩ := h
  have ha := feed_wait _ _ _ _ (.inl (by simp [Codec.ofDecoder, Stage.atRestart])) hk hr
  have e : (Codec.ofDecoder d).feed cfg (piecesOf reads) = c'.feed cfg ((piecesOf reads).drop k) := by
    conv => lhs; rw [← List.take_append_drop k (piecesOf reads)]
    exact feed_append _ _ _ _ hk
  rw [e] at key
  rcases feed_atRestart hdbg ((piecesOf reads).drop k) c' ha with ⟨c1, h1⟩ | ⟨s, r1, h1⟩
  · rw [h1] at key
    rw [key]
    exact collectEnd_atRestart hdbg (feed_atRestart_pending hdbg _ _ _ ha h1)
  · rw [h1] at key
    rw [key]

/-- **C80** (part). Checked builds, a file that decodes, arriving in any pieces: the stream consists of the image
exactly if at the end of no piece the codec is waiting for a restart marker and it does not give up in an end of band
run.

Missing: the two exceptions themselves, see `C80_restart_nothing`, `C80_violated`. -/
theorem C80_exact_partial (cfg : Cfg) (hdbg : cfg.debug = true) (d : Decoder) (hd : UsedDecoder d)
    (file image : List UInt8) (d' : Decoder) (h : d.decode cfg file = .ok image d') (reads : List PollRead)
    (hs : Steady reads) (hfile : (piecesOf reads).flatten = file) :
    (Codec.ofDecoder d).collect cfg reads = ([image], .finished) ↔
      ¬ StopsAtRestart cfg (Codec.ofDecoder d) (piecesOf reads) ∧
      ¬ GivesUpInRun cfg (Codec.ofDecoder d) (piecesOf reads) := by
  have hi := Codec.idle_ofDecoder hd
  have key := collect_feed (cfg := cfg) reads (Codec.ofDecoder d) ⟨hi.inv, hi.wf⟩ hs
  constructor
  · intro g
    refine ⟨fun hr => ?_, ?_⟩
    · have := C80_restart_nothing cfg hdbg d hd reads hs hr
      rw [g] at this
      cases this
    · rintro ⟨s, rest, g'⟩
      rw [g'] at key
      rw [g] at key
      cases key
  · rintro ⟨h1, h2⟩
    rcases C80_one_image_partial cfg d hd file image d' h reads hs hfile with g | g | g
    · exact g
    · exact absurd g.1 h1
    · exact absurd g.1 h2

/-- A case of `C80_restart_nothing`: the example file, with its first piece ending in front of the restart marker. -/
example : ∃ s rest, Codec.new.feed ⟨true, false⟩ (piecesOf
    [.data (exampleFile.bytes.take 202), .pending, .data (exampleFile.bytes.drop 202)]) =
      (.failed (.panic .restartUnderflow) s, rest) ∧
    (decode ⟨true, false⟩ exampleFile.bytes).toOption.isSome := by
  have h : (match Codec.new.feed ⟨true, false⟩ (piecesOf
      [.data (exampleFile.bytes.take 202), .pending, .data (exampleFile.bytes.drop 202)]) with
    | (.failed (.panic .restartUnderflow) _, _) => true
    | _ => false) = true := by decide +kernel
  split at h
  · next s rest e => exact ⟨s, rest, e, by decide +kernel⟩
  · cases h

/-- The other case of `C80_exact_partial`: cut one byte later, inside the restart marker. -/
example : Codec.new.collect ⟨true, false⟩ [.data (exampleFile.bytes.take 203), .pending,
    .data (exampleFile.bytes.drop 203)] = ((decode ⟨true, false⟩ exampleFile.bytes).toOption.toList, .finished) := by
  decide +kernel

end Jpeg
