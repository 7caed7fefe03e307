import Verif.Props.Read
import Verif.Props.StreamExact
/-!
# C70: when reading gives the image, exactly (checked builds)
-/

namespace Jpeg
open Spec Sample

/-- With overflow checks, running a parser that waits for a restart marker panics, with or without more bytes. -/
theorem run_atRestart {cfg : Cfg} {c : Codec} (hd : cfg.debug = true) (h : c.AtRestart) :
    c.run cfg = .failed (.panic .restartUnderflow) c.st := by
  obtain ⟨⟨pd, y, x, rest, h1⟩, ⟨frame, h2⟩, h3, h4⟩ := h
  have hr : restartParser cfg x y c.st = .fail (.panic .restartUnderflow) c.st := by
    unfold restartParser
    rw [if_pos h3, h2]
    simp only
    rw [if_pos ⟨h4, hd⟩]
  unfold Codec.run
  rw [show c.st.bi.input.length + 2 = (c.st.bi.input.length + 1) + 1 from rfl, codecRun, h1]
  have hm : mcuResume cfg pd .restart ((y, x) :: rest) c.st = .failed (.panic .restartUnderflow) c.st := by
    rw [mcuResume]
    simp [hr]
  have hs : stageStep cfg (.scan pd .restart ((y, x) :: rest)) c.st = .failed (.panic .restartUnderflow) c.st := by
    show scanStep cfg pd .restart ((y, x) :: rest) c.st = _
    unfold scanStep
    rw [hm]
  rw [hs]

theorem run_wait {cfg : Cfg} {c c' : Codec} (h : c.run cfg = .pending c') (ha : c'.stage.atRestart) : c'.AtRestart :=
  codecRun_wait _ _ _ _ h ha

theorem retry_atRestart {cfg : Cfg} {c : Codec} (hd : cfg.debug = true) (h : c.AtRestart) (n : Nat)
    (reads : List ReadResult) :
    (⟨c, false⟩ : ReadDecoder).retry cfg n reads = (.failed (.panic .restartUnderflow) c.st, reads) := by
  have e : (⟨c, false⟩ : ReadDecoder).decode cfg reads = (.failed (.panic .restartUnderflow) c.st, reads) := by
    show readLoop cfg c reads = _
    cases reads <;> rw [readLoop, run_atRestart hd h]
  cases n <;> rw [ReadDecoder.retry, e]

theorem stops_panics {cfg : Cfg} (hd : cfg.debug = true) {c c' : Codec} {reads : List ReadResult}
    (h : Stops cfg c reads c') (ha : c'.stage.atRestart) : ∀ n, NoEmptyRead reads → errorsOf reads ≤ n →
    ∃ s rest, (⟨c, false⟩ : ReadDecoder).retry cfg n reads = (.failed (.panic .restartUnderflow) s, rest) := by
  have hdata : ∀ (c c1 : Codec) (b : UInt8) (bs : List UInt8) (reads : List ReadResult) (n : Nat),
      c.run cfg = .pending c1 →
      (⟨c, false⟩ : ReadDecoder).retry cfg n (.data (b :: bs) :: reads) =
        (⟨c1.push (b :: bs), false⟩ : ReadDecoder).retry cfg n reads := by
    intro c c1 b bs reads n hp
    have hdec : (⟨c, false⟩ : ReadDecoder).decode cfg (.data (b :: bs) :: reads) =
      (⟨c1.push (b :: bs), false⟩ : ReadDecoder).decode cfg reads := by
      show readLoop cfg c _ = readLoop cfg _ reads
      rw [readLoop, hp]
    cases n <;> rw [ReadDecoder.retry, ReadDecoder.retry, hdec]
  have herror : ∀ (c c1 : Codec) (reads : List ReadResult) (n : Nat), c.run cfg = .pending c1 →
      (⟨c, false⟩ : ReadDecoder).retry cfg (n + 1) (.error :: reads) =
        (⟨c1, false⟩ : ReadDecoder).retry cfg n reads := by
    intro c c1 reads n hp
    have hdec : (⟨c, false⟩ : ReadDecoder).decode cfg (.error :: reads) = (.io ⟨c1, false⟩, reads) := by
      show readLoop cfg c _ = _
      rw [readLoop, hp]
    rw [ReadDecoder.retry, hdec]
  induction h with
  | @here c c' reads hp =>
    intro n hne hn
    have hw := run_wait hp ha
    cases reads with
    | nil =>
      have hdec : (⟨c, false⟩ : ReadDecoder).decode cfg [] = (.failed (.panic .restartUnderflow) c'.st, []) := by
        show readLoop cfg c [] = _
        rw [readLoop, hp]
        simp only
        unfold readEnd
        rw [run_atRestart hd hw]
      cases n <;> exact ⟨_, _, by rw [ReadDecoder.retry, hdec]⟩
    | cons r reads =>
      cases r with
      | error =>
        obtain ⟨n, rfl⟩ : ∃ k, n = k + 1 := ⟨n - 1, by simp only [errorsOf] at hn; omega⟩
        rw [herror c c' reads n hp]
        exact ⟨_, _, retry_atRestart hd hw n reads⟩
      | data chunk =>
        obtain ⟨b, bs, rfl⟩ : ∃ b bs, chunk = b :: bs := by
          cases chunk with
          | nil => exact absurd rfl (hne [] (List.mem_cons_self ..))
          | cons b bs => exact ⟨b, bs, rfl⟩
        rw [hdata c c' b bs reads n hp]
        exact ⟨_, _, retry_atRestart (c := c'.push (b :: bs)) hd hw n reads⟩
  | @data c c1 c' chunk reads hp h ih =>
    intro n hne hn
    obtain ⟨b, bs, rfl⟩ : ∃ b bs, chunk = b :: bs := by
      cases chunk with
      | nil => exact absurd rfl (hne [] (List.mem_cons_self ..))
      | cons b bs => exact ⟨b, bs, rfl⟩
    rw [hdata c c1 b bs reads n hp]
    exact ih ha n (fun chunk hc => hne chunk (List.mem_cons_of_mem _ hc)) hn
  | @error c c1 c' reads hp h ih =>
    intro n hne hn
    obtain ⟨n, rfl⟩ : ∃ k, n = k + 1 := ⟨n - 1, by simp only [errorsOf] at hn; omega⟩
    rw [herror c c1 reads n hp]
    exact ih ha n (fun chunk hc => hne chunk (List.mem_cons_of_mem _ hc)) (by simp only [errorsOf] at hn; omega)

/-- While it reads, the decoder comes to wait for a restart marker. -/
def ReadStopsAtRestart (cfg : Cfg) (d : ReadDecoder) (reads : List ReadResult) : Prop :=
  ∃ c', Stops cfg d.codec reads c' ∧ c'.stage.atRestart

/-- **C70** (the exception, checked builds). A `ReadDecoder` whose parser has stopped for a restart marker panics,
whatever the reader gives next, and also when it gives nothing more. -/
theorem C70_restart_panics (cfg : Cfg) (hdbg : cfg.debug = true) (d : ReadDecoder) (hd : d.ended = false)
    (reads : List ReadResult) (hne : NoEmptyRead reads) (n : Nat) (hn : errorsOf reads ≤ n)
    (h : ReadStopsAtRestart cfg d reads) :
    ∃ s rest, d.retry cfg n reads = (.failed (.panic .restartUnderflow) s, rest) := by
  obtain ⟨c, ended⟩ := d
  have hd : ended = false := hd
  subst hd
  obtain ⟨c', h1, h2⟩ := h
  exact stops_panics hdbg h1 h2 n hne hn

/-- **C70** (part). Checked builds, a reader that gives a file `decode` accepts and anything behind it: the image is
returned exactly if the parser never stops for a restart marker and does not give up in an end of band run. When an
image is returned at all it is the right one.

Missing: the two exceptions themselves, see `C70_restart_panics`, `C70_violated`. -/
theorem C70_exact_partial (cfg : Cfg) (hdbg : cfg.debug = true) (d : Decoder) (hd : UsedDecoder d)
    (file behind : List UInt8) (reads : List ReadResult) (hne : NoEmptyRead reads)
    (hdata : dataOf reads = file ++ behind) (image : List UInt8) (d' : Decoder)
    (h : d.decode cfg file = .ok image d') (n : Nat) (hn : errorsOf reads ≤ n) :
    ((∃ r rest, (ReadDecoder.ofDecoder d).retry cfg n reads = (.image (.ok image) r, rest) ∧
        r.codec.st.dec = d' ∧ r.codec.st.bi.input ++ dataOf rest = behind) ↔
      ¬ ReadStopsAtRestart cfg (ReadDecoder.ofDecoder d) reads ∧
      ¬ ∃ s rest, (ReadDecoder.ofDecoder d).retry cfg n reads = (.failed (.err .outOfBits) s, rest)) ∧
    ∀ i r rest, (ReadDecoder.ofDecoder d).retry cfg n reads = (.image i r, rest) → i = .ok image := by
  have key := C70_image_partial cfg d hd file behind reads hne hdata image d' h n hn
  have hstop := C70_restart_panics cfg hdbg (ReadDecoder.ofDecoder d) rfl reads hne n hn
  refine ⟨⟨?_, ?_⟩, ?_⟩
  · rintro ⟨r, rest, g, -⟩
    refine ⟨fun hs => ?_, ?_⟩
    · obtain ⟨s, rest', g'⟩ := hstop hs
      rw [g] at g'
      cases g'
    · rintro ⟨s, rest', g'⟩
      rw [g] at g'
      cases g'
  · rintro ⟨h1, h2⟩
    rcases key with g | g | g
    · exact g
    · exact absurd g.1 h1
    · exact absurd g.1 h2
  · intro i r rest g
    rcases key with ⟨r1, rest1, g1, -⟩ | g1 | ⟨⟨s, rest1, g1⟩, -⟩
    · rw [g] at g1
      cases g1
      rfl
    · obtain ⟨s, rest', g'⟩ := hstop g1.1
      rw [g] at g'
      cases g'
    · rw [g] at g1
      cases g1

/-- A case of `C70_restart_panics` and `C70_exact_partial`: the example file, the reader stops in front of its restart
marker. -/
example : ReadStopsAtRestart ⟨true, false⟩ ReadDecoder.new [.data (exampleFile.bytes.take 202), .error] := by
  have h0 : (match ReadDecoder.new.codec.run ⟨true, false⟩ with
      | .pending c => match (c.push (exampleFile.bytes.take 202)).run ⟨true, false⟩ with
        | .pending c' => match c'.stage with
          | .scan _ .restart _ => true
          | _ => false
        | _ => false
      | _ => false) = true := by decide +kernel
  split at h0
  · next c e =>
    split at h0
    · next c' e' =>
      refine ⟨c', .data e (.here e'), ?_⟩
      split at h0
      · next e2 => rw [e2]; trivial
      · cases h0
    · cases h0
  · cases h0

end Jpeg
