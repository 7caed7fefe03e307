import Verif.Proofs.Loop
/-!
# Whole files: size of the result, comments, panics, termination (C35, C40, C41, C50)
-/

namespace Jpeg
open Spec

/-- The decoders a program can hold: a new one, or one that has been used, whatever came of it. -/
inductive UsedDecoder : Decoder → Prop
  | new : UsedDecoder Decoder.default
  | used {d : Decoder} (cfg : Cfg) (file : List UInt8) : UsedDecoder d → UsedDecoder (d.decode cfg file).state

theorem decode_state {cfg : Cfg} {file : List UInt8} {d : Decoder} :
    (d.decode cfg file).state = (segmentLoop cfg (file.length + 1) ⟨d, Biterator.new file⟩).state.dec := by
  unfold Decoder.decode decodeParser
  simp only [Biterator.new]
  cases segmentLoop cfg (file.length + 1) ⟨d, ⟨file, 0, 0⟩⟩ with
  | fail f s => rfl
  | ok u s =>
    rw [Out.bind_ok]
    cases upsample cfg s.dec with
    | ok image => simp only; split <;> rfl
    | error f => cases f <;> simp only <;> first | rfl | (split <;> rfl)

theorem new_wf (file : List UInt8) : (Biterator.new file).WF := by
  simp [Biterator.new, Biterator.WF]

theorem UsedDecoder.inv {d : Decoder} (h : UsedDecoder d) : DecInv d := by
  induction h with
  | new => exact DecInv.default
  | used cfg file _ ih =>
    rw [decode_state]
    exact (segmentLoop_safe file _ ⟨_, Biterator.new file⟩ ih (new_wf file)
      (by simp [Biterator.new]) (List.suffix_refl _)).1

/-! ## C41 -/

/-- **C41** (the property fails as stated; this is what holds instead: every panic belongs to one of the
listed classes). For every file and every decoder a program can hold. -/
theorem C41_panics_listed_partial (cfg : Cfg) (file : List UInt8) (d d' : Decoder) (p : PanicSite)
    (hd : UsedDecoder d) (h : d.decode cfg file = .fail (.panic p) d') :
    SegmentPanic cfg file p ∨
    (∃ frame scan, d'.frame = some frame ∧ d'.scan = some scan ∧ ScanPanic cfg d' frame scan p) ∨
    RenderPanic cfg d' p ∨
    (p = .trailing ∧ ∃ pre rest, file = pre ++ markerBytes .EOI ++ rest ∧ rest ≠ []) := by
  have hs := segmentLoop_safe (cfg := cfg) file (file.length + 1) ⟨d, Biterator.new file⟩ hd.inv
    (new_wf file) (by simp [Biterator.new]) (List.suffix_refl _)
  unfold Decoder.decode decodeParser at h
  rw [show (⟨d, Biterator.new file⟩ : St).bi.input.length + 1 = file.length + 1 from rfl] at h
  cases e : segmentLoop cfg (file.length + 1) ⟨d, Biterator.new file⟩ with
  | fail f s =>
    rw [e] at h hs
    simp only [Out.bind_fail, Out.fail.injEq] at h
    obtain ⟨rfl, rfl⟩ := h
    rcases hs.2.2.2 p s rfl with h | h
    · exact .inl h
    · exact .inr (.inl h)
  | ok u s =>
    rw [e] at h hs
    rw [Out.bind_ok] at h
    cases e2 : upsample cfg s.dec with
    | error f =>
      cases f with
      | panic q =>
        rw [e2] at h
        simp only [Out.fail.injEq, Fail.panic.injEq] at h
        obtain ⟨rfl, rfl⟩ := h
        exact .inr (.inr (.inl (upsample_panic hs.1 e2)))
      | _ =>
        rw [e2] at h
        simp only at h
        split at h
        · rename_i hne
          simp only [Out.fail.injEq, Fail.panic.injEq] at h
          obtain ⟨pre, hpre⟩ := segmentLoop_eoi _ _ _ hd.inv (new_wf file) e
          exact .inr (.inr (.inr ⟨h.1.symm, pre, _, hpre, hne⟩))
        · simp at h
    | ok image =>
      rw [e2] at h
      simp only at h
      split at h
      · rename_i hne
        simp only [Out.fail.injEq, Fail.panic.injEq] at h
        obtain ⟨pre, hpre⟩ := segmentLoop_eoi _ _ _ hd.inv (new_wf file) e
        exact .inr (.inr (.inr ⟨h.1.symm, pre, _, hpre, hne⟩))
      · simp at h

/-! ## C50 -/

/-- **C50**. Decoding terminates: the model's bounds on its loops are never the reason for a failure. -/
theorem C50_terminates (cfg : Cfg) (file : List UInt8) (d d' : Decoder) (hd : UsedDecoder d) :
    d.decode cfg file ≠ .fail (.panic .fuel) d' := by
  intro h
  rcases C41_panics_listed_partial cfg file d d' .fuel hd h with h | ⟨_, _, _, _, h⟩ | h | ⟨h, -⟩
  · cases h
  · cases h
  · cases h <;> exact absurd rfl (by assumption : PanicSite.Real .fuel).2
  · cases h

/-! ## C58 -/

/-- **C58**. No file makes the decoder use memory it must not: no unchecked access leaves its array and no
uninitialised memory is handed out, on any decoder a program can hold and whatever the file. -/
theorem C58_no_undefined_behaviour (cfg : Cfg) (file : List UInt8) (d d' : Decoder) (hd : UsedDecoder d)
    (p : PanicSite) (h : d.decode cfg file = .fail (.panic p) d') : ¬ p.Undefined := by
  intro hu
  rcases C41_panics_listed_partial cfg file d d' p hd h with h | ⟨_, _, _, _, h⟩ | h | ⟨h, -⟩
  · cases h <;> cases hu
  · cases h <;> cases hu
  · cases h <;> first | exact (by assumption : PanicSite.Real p).1 hu | cases hu
  · subst h; cases hu

/-- The model does see such accesses: a coefficient index of a block that is too short, a sample outside
the clamp table on either side. -/
example : unzigzag (List.replicate 63 (0 : Int)) 63 5 = .error (.panic .unchecked) := by decide
example : clampIdx (-257) = .error (.panic .unchecked) ∧ clampIdx 768 = .error (.panic .unchecked) := by
  decide +kernel

/-- **C50**. The number of segments is bounded by half the length of the input: every larger bound gives
the same run. -/
theorem C50_segments_bounded (cfg : Cfg) (file : List UInt8) (d : Decoder) (hd : UsedDecoder d) (n : Nat)
    (hn : file.length < 2 * n) :
    segmentLoop cfg n ⟨d, Biterator.new file⟩ = segmentLoop cfg (file.length + 1) ⟨d, Biterator.new file⟩ :=
  segmentLoop_fuel _ _ _ hd.inv (new_wf file) hn (by simp only [Biterator.new]; omega)

/-- **C50**. Every round of the segment loop takes at least the two bytes of a marker away, also when the
segment fails. -/
theorem C50_progress (cfg : Cfg) (s : St) (hd : DecInv s.dec) (hwf : s.bi.WF) (m : Marker)
    (rest : List UInt8) (hm : marker s.bi.input = .ok (m, rest)) :
    (doSegment cfg m (s.setInput rest)).state.bi.input.length + 2 ≤ s.bi.input.length := by
  have hs := doSegment_safe (cfg := cfg) (C36_found _ _ _ hm).1 (s := s.setInput rest) hd hwf
  have h1 := hs.suffix.length_le
  have h2 := marker_length hm
  simp only [setInput_bi] at h1
  omega

/-! ## C35 -/

/-- **C35**. A successful decode leaves a frame behind and has its size. -/
theorem C35_size (cfg : Cfg) (file image : List UInt8) (d d' : Decoder)
    (h : d.decode cfg file = .ok image d') :
    ∃ frame, d'.frame = some frame ∧
      image.length = frame.samplesPerLine * frame.lines * frame.components.length := by
  unfold Decoder.decode decodeParser at h
  cases e : segmentLoop cfg ((⟨d, Biterator.new file⟩ : St).bi.input.length + 1) ⟨d, Biterator.new file⟩ with
  | fail f s => rw [e] at h; simp at h
  | ok u s =>
    rw [e] at h
    rw [Out.bind_ok] at h
    cases e2 : upsample cfg s.dec with
    | error f => rw [e2] at h; cases f <;> simp only at h <;> first | cases h | (split at h <;> cases h)
    | ok i =>
      rw [e2] at h
      simp only at h
      split at h
      · cases h
      · simp only [Out.ok.injEq] at h
        obtain ⟨rfl, rfl⟩ := h
        exact upsample_length e2

/-- **C35**. On a new decoder the frame comes from a frame header in the file: the size is the one
written there. -/
theorem C35_size_of_header (cfg : Cfg) (file image : List UInt8) (d' : Decoder)
    (h : Decoder.default.decode cfg file = .ok image d') :
    ∃ (i : Nat) (p n : UInt8) (y x : Nat) (more : List UInt8),
      FileSegment cfg file (.SOF i) (p :: be16 y ++ be16 x ++ n :: more) ∧
      image.length = x * y * n.toNat := by
  obtain ⟨frame, hf, hl⟩ := C35_size cfg file image _ d' h
  have hst := decode_state (cfg := cfg) (file := file) (d := Decoder.default)
  cases e : segmentLoop cfg (file.length + 1) ⟨Decoder.default, Biterator.new file⟩ with
  | fail f s =>
    unfold Decoder.decode decodeParser at h
    rw [show (⟨Decoder.default, Biterator.new file⟩ : St).bi.input.length + 1 = file.length + 1 from rfl, e] at h
    simp at h
  | ok u s =>
    rw [h, e] at hst
    simp only [Out.state] at hst
    rw [hst] at hf
    rcases segmentLoop_frame file _ _ _ DecInv.default (new_wf file) (List.suffix_refl _) e with h1 | h1
    · rw [hf] at h1; cases h1
    · obtain ⟨i, content, frame', more, h1, h2, h3⟩ := h1
      rw [hf] at h1
      cases h1
      obtain ⟨p, n, more', h4, h5, -, -⟩ := sof_inv h3
      exact ⟨i, p, n, _, _, more', h4 ▸ h2, by rw [hl, h5]⟩

/-- **C35**. An accepted frame header replaces the frame by what it says; no other segment touches it.
So the size is that of the last header. -/
theorem C35_last_header (cfg : Cfg) (s s' : St) (m : Marker) (hm : MarkerExists m) (hd : DecInv s.dec)
    (hwf : s.bi.WF) (h : doSegment cfg m s = .ok () s') :
    (∃ (i : Nat) (frame : Frame) (p n : UInt8) (more : List UInt8), m = .SOF i ∧ s'.dec.frame = some frame ∧
      (∀ pre, FileSegment cfg (pre ++ markerBytes m ++ s.bi.input) m
        (p :: be16 frame.lines ++ be16 frame.samplesPerLine ++ n :: more)) ∧
      frame.components.length = n.toNat) ∨
    ((∀ i, m ≠ .SOF i) ∧ s'.dec.frame = s.dec.frame) := by
  by_cases hs : ∃ i, m = .SOF i
  · obtain ⟨i, rfl⟩ := hs
    obtain ⟨content, rest, frame, more, h1, h2, h3⟩ := doSegment_sof h
    obtain ⟨p, n, more', h4, h5, -, -⟩ := sof_inv h2
    exact .inl ⟨i, frame, p, n, more', rfl, h3, fun pre => h4 ▸ fileSegment_of h1 pre, h5⟩
  · have hne : ∀ i, m ≠ .SOF i := fun i hi => hs ⟨i, hi⟩
    have := (doSegment_safe (cfg := cfg) hm hd hwf).frame hne
    rw [h] at this
    exact .inr ⟨hne, this⟩

/-! ## C40 -/

/-- **C40** (the full claim, without the condition on the content, is refuted by `C40_violated`). A comment
none of whose bytes, length field included, look like a marker changes nothing, anywhere between two
segments: the loop runs on as if it were not there. -/
theorem C40_comment_skipped_partial (cfg : Cfg) (d : Decoder) (bits count : Nat) (hd : DecInv d)
    (hwf : ∀ l, (⟨l, bits, count⟩ : Biterator).WF) (comment rest : List UInt8)
    (hno : ∀ j c, ¬ MarkerAt (segmentOf comment) j c) :
    SameRun (loopAll cfg ⟨d, ⟨markerSegment .COM comment ++ 0xFF :: rest, bits, count⟩⟩)
      (loopAll cfg ⟨d, ⟨0xFF :: rest, bits, count⟩⟩) := by
  rw [loopAll_eq (m := .COM) (rest := segmentOf comment ++ 0xFF :: rest) hd (hwf _) (by
    rw [← marker_bytes' (m := .COM) trivial]; simp [markerSegment]) (by simp)]
  exact loopAll_sameMarker hd (hwf _) (hwf _) (marker_skip hno rest)

/-- **C40**, for whole files: a comment behind any number of table, header and application segments. -/
theorem C40_file_partial (cfg : Cfg) (d : Decoder) (hd : UsedDecoder d) (segs : List (Marker × List UInt8))
    (hsegs : ∀ p ∈ segs, HasSegment p.1 ∧ MarkerExists p.1 ∧ p.2.length + 2 < 65536)
    (comment rest : List UInt8) (hno : ∀ j c, ¬ MarkerAt (segmentOf comment) j c) :
    d.decode cfg (markerBytes .SOI ++ segs.flatMap (fun p => markerSegment p.1 p.2) ++
        markerSegment .COM comment ++ 0xFF :: rest) =
      d.decode cfg (markerBytes .SOI ++ segs.flatMap (fun p => markerSegment p.1 p.2) ++ 0xFF :: rest) := by
  have hwf : ∀ l, (⟨l, 0, 0⟩ : Biterator).WF := new_wf
  have step : ∀ l, loopAll cfg ⟨d, ⟨markerBytes .SOI ++ l, 0, 0⟩⟩ = loopAll cfg ⟨d, ⟨l, 0, 0⟩⟩ := by
    intro l
    rw [loopAll_eq (m := .SOI) (rest := l) hd.inv (hwf _) (marker_bytes' (m := .SOI) trivial _) (by simp)]
    rfl
  apply decode_sameRun
  simp only [Biterator.new, List.append_assoc]
  rw [step, step]
  exact loopAll_segments hwf (fun d hd => C40_comment_skipped_partial cfg d 0 0 hd hwf comment rest hno)
    segs hsegs d hd.inv

/-- **C40** (refutation). The bytes `FF D9` in a comment end the image: with this comment in front no file
at all decodes on a new decoder. -/
theorem C40_violated (cfg : Cfg) (rest : List UInt8) :
    decode cfg (markerBytes .SOI ++ markerSegment .COM [0xFF, 0xD9] ++ rest) =
      .error (.panic .noFrame) := by
  have hrun : loopAll cfg ⟨Decoder.default, Biterator.new
      (markerBytes .SOI ++ markerSegment .COM [0xFF, 0xD9] ++ rest)⟩ =
      .ok () ⟨Decoder.default, ⟨rest, 0, 0⟩⟩ := by
    have hwf : ∀ l, (⟨l, 0, 0⟩ : Biterator).WF := new_wf
    rw [Biterator.new, loopAll_eq (m := .SOI) (rest := markerSegment .COM [0xFF, 0xD9] ++ rest)
      DecInv.default (hwf _) (by rw [← marker_bytes' (m := .SOI) trivial]; simp) (by simp)]
    show loopAll cfg ⟨_, ⟨markerSegment .COM [0xFF, 0xD9] ++ rest, 0, 0⟩⟩ = _
    rw [loopAll_eq (m := .COM) (rest := segmentOf [0xFF, 0xD9] ++ rest)
      DecInv.default (hwf _) (by rw [← marker_bytes' (m := .COM) trivial]; simp [markerSegment]) (by simp)]
    show loopAll cfg ⟨_, ⟨segmentOf [0xFF, 0xD9] ++ rest, 0, 0⟩⟩ = _
    rw [loopAll_eoi (rest := rest) rfl]
    rfl
  unfold decode Decoder.decode decodeParser
  unfold loopAll at hrun
  rw [hrun]
  rfl

end Jpeg
