import Verif.Proofs.RestartWait
import Verif.Props.StreamPending
/-!
# C43, C72: in checked builds, exactly which ways of cutting a file are harmless
-/

namespace Jpeg
open Spec Sample

/-- At the end of one of the pieces the codec is waiting for a restart marker. -/
def StopsAtRestart (cfg : Cfg) (c : Codec) (chunks : List (List UInt8)) : Prop :=
  ∃ k c', c.feed cfg (chunks.take k) = (.pending c', []) ∧ c'.stage.atRestart

/-- The codec gives up because a piece ends in the bits of an end of band run. -/
def GivesUpInRun (cfg : Cfg) (c : Codec) (chunks : List (List UInt8)) : Prop :=
  ∃ s rest, c.feed cfg chunks = (.failed (.err .outOfBits) s, rest)

/-- **C43** (the exception, checked builds). A codec that has stopped for a restart marker never gets past it:
whatever bytes come next, the call panics. -/
theorem C43_restart_panics (cfg : Cfg) (hdbg : cfg.debug = true) (d : Decoder) (chunks : List (List UInt8)) (k : Nat)
    (c' : Codec) (hk : (Codec.ofDecoder d).feed cfg (chunks.take k) = (.pending c', [])) (hr : c'.stage.atRestart)
    (hmore : (chunks.drop k).flatten ≠ []) :
    ∃ s rest, (Codec.ofDecoder d).feed cfg chunks = (.failed (.panic .restartUnderflow) s, rest) := by
  have ha := feed_wait _ _ _ _ (.inl (by simp [Codec.ofDecoder, Stage.atRestart])) hk hr
  have e : (Codec.ofDecoder d).feed cfg chunks = c'.feed cfg (chunks.drop k) := by
    conv => lhs; rw [← List.take_append_drop k chunks]
    exact feed_append _ _ _ _ hk
  rw [e]
  generalize chunks.drop k = l at hmore
  clear e hk
  induction l generalizing c' with
  | nil => exact absurd rfl hmore
  | cons chunk l ih =>
    have hp : (c'.push chunk).AtRestart := ha
    rw [Codec.feed]
    by_cases hi : (c'.push chunk).st.bi.input = []
    · have hq : (c'.push chunk).poll cfg = .pending (c'.push chunk) := by
        unfold Codec.poll
        rw [if_pos hi]
      rw [hq]
      have hc : chunk = [] := (List.append_eq_nil_iff.1 (show c'.st.bi.input ++ chunk = [] from hi)).2
      rw [hc, List.flatten_cons, List.nil_append] at hmore
      exact ih _ hr hp hmore
    · rw [poll_atRestart hdbg hp hi]
      exact ⟨_, _, rfl⟩

theorem stops_no_image {cfg : Cfg} (hdbg : cfg.debug = true) {d : Decoder} {chunks : List (List UInt8)}
    (h : StopsAtRestart cfg (Codec.ofDecoder d) chunks) (r : Except Fail (List UInt8)) (c : Codec)
    (rest : List (List UInt8)) : (Codec.ofDecoder d).feed cfg chunks ≠ (.image r c, rest) := by
  obtain ⟨k, c', hk, hr⟩ := h
  have ha := feed_wait _ _ _ _ (.inl (by simp [Codec.ofDecoder, Stage.atRestart])) hk hr
  have e : (Codec.ofDecoder d).feed cfg chunks = c'.feed cfg (chunks.drop k) := by
    conv => lhs; rw [← List.take_append_drop k chunks]
    exact feed_append _ _ _ _ hk
  rw [e]
  rcases feed_atRestart hdbg (chunks.drop k) c' ha with ⟨c1, h1⟩ | ⟨s, r1, h1⟩ <;> rw [h1] <;> simp

/-- **C43** (part). Checked builds, a file that decodes, cut in any way: the codec returns the image exactly if at no
cut it is waiting for a restart marker and it does not give up in an end of band run. When it returns an image at
all it is the right one.

Missing: the two exceptions themselves, see `C43_restart_panics`, `C43_violated_restart`, `C43_violated_eobRun`. -/
theorem C43_exact_partial (cfg : Cfg) (hdbg : cfg.debug = true) (d : Decoder) (hd : UsedDecoder d)
    (file behind : List UInt8) (chunks : List (List UInt8)) (hne : chunks ≠ []) (hfile : chunks.flatten = file ++ behind)
    (image : List UInt8) (d' : Decoder) (h : d.decode cfg file = .ok image d') :
    ((∃ c' rest, (Codec.ofDecoder d).feed cfg chunks = (.image (.ok image) c', rest) ∧ c'.st.dec = d' ∧
        c'.st.bi.input ++ rest.flatten = behind) ↔
      ¬ StopsAtRestart cfg (Codec.ofDecoder d) chunks ∧ ¬ GivesUpInRun cfg (Codec.ofDecoder d) chunks) ∧
    ∀ r c' rest, (Codec.ofDecoder d).feed cfg chunks = (.image r c', rest) → r = .ok image := by
  have key := C43_chunks_partial cfg d hd file behind chunks hne hfile image d' h
  refine ⟨⟨?_, ?_⟩, ?_⟩
  · rintro ⟨c', rest, g, -⟩
    refine ⟨fun hs => stops_no_image hdbg hs _ _ _ g, ?_⟩
    rintro ⟨s, r, g'⟩
    rw [g] at g'
    cases g'
  · rintro ⟨h1, h2⟩
    rcases key with ⟨c', rest, g, -, g1, g2⟩ | g | g
    · exact ⟨c', rest, g, g1, g2⟩
    · exact absurd g.1 h1
    · exact absurd g.1 h2
  · intro r c' rest g
    rcases key with ⟨c1, r1, g1, -⟩ | g1 | ⟨⟨s, r1, g1⟩, -⟩
    · rw [g] at g1
      cases g1
      rfl
    · exact absurd g (stops_no_image hdbg g1.1 _ _ _)
    · rw [g] at g1
      cases g1

/-- The example file cut in front of its restart marker stops there, so that `C43_restart_panics` applies to it (and
`C43_exact_partial` says that no image is returned). -/
example : StopsAtRestart ⟨true, false⟩ Codec.new [exampleFile.bytes.take 202, exampleFile.bytes.drop 202] := by
  have h : (match Codec.new.feed ⟨true, false⟩ [exampleFile.bytes.take 202] with
      | (.pending c, []) => match c.stage with
        | .scan _ .restart _ => true
        | _ => false
      | _ => false) = true := by decide +kernel
  refine ⟨1, ?_⟩
  rw [show ([exampleFile.bytes.take 202, exampleFile.bytes.drop 202].take 1) = [exampleFile.bytes.take 202] from rfl]
  split at h
  · next c e =>
    refine ⟨c, e, ?_⟩
    split at h
    · next e2 => rw [e2]; trivial
    · cases h
  · cases h

end Jpeg
