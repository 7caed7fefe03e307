import Verif.Proofs.Render
/-!
# The loop over the segments, without fuel
-/

namespace Jpeg
open Spec

/-- The loop with enough fuel. -/
def loopAll (cfg : Cfg) (s : St) : Out St Unit := segmentLoop cfg (s.bi.input.length + 1) s

theorem segmentLoop_loopAll {cfg : Cfg} {s : St} (hd : DecInv s.dec) (hwf : s.bi.WF) {fuel : Nat}
    (hf : s.bi.input.length < 2 * fuel) : segmentLoop cfg fuel s = loopAll cfg s :=
  segmentLoop_fuel _ _ s hd hwf hf (by omega)

/-- One round. -/
theorem loopAll_eq {cfg : Cfg} {s : St} (hd : DecInv s.dec) (hwf : s.bi.WF) {m : Marker} {rest : List UInt8}
    (hm : marker s.bi.input = .ok (m, rest)) (hne : m ≠ .EOI) :
    loopAll cfg s = (doSegment cfg m (s.setInput rest)).bind fun _ s => loopAll cfg s := by
  unfold loopAll
  rw [segmentLoop, hm]
  simp only
  rw [if_neg hne]
  have hs := doSegment_safe (cfg := cfg) (C36_found _ _ _ hm).1 (s := s.setInput rest) hd hwf
  cases e : doSegment cfg m (s.setInput rest) with
  | fail f s' => rfl
  | ok u s' =>
    rw [e] at hs
    rw [Out.bind_ok, Out.bind_ok]
    have := hs.suffix.length_le
    have := marker_length hm
    simp only [Out.state, setInput_bi] at *
    exact segmentLoop_fuel _ _ s' hs.inv hs.wf (by omega) (by omega)

theorem loopAll_eoi {cfg : Cfg} {s : St} {rest : List UInt8} (hm : marker s.bi.input = .ok (.EOI, rest)) :
    loopAll cfg s = .ok () (s.setInput rest) := by
  unfold loopAll
  rw [segmentLoop, hm]
  simp

theorem loopAll_error {cfg : Cfg} {s : St} {f : Fail} (hm : marker s.bi.input = .error f) :
    loopAll cfg s = .fail f s := by
  unfold loopAll
  rw [segmentLoop, hm]

theorem marker_bytes' {m : Marker} (h : MarkerExists m) (rest : List UInt8) :
    marker (markerBytes m ++ rest) = .ok (m, rest) := by
  have := marker_bytes h 0 rest
  simpa using this

/-- The bytes of the marker stand right before what is left. -/
theorem marker_split {l rest : List UInt8} {m : Marker} (h : marker l = .ok (m, rest)) :
    ∃ pre, l = pre ++ markerBytes m ++ rest := by
  obtain ⟨-, i, ⟨hb1, hb2, -, -⟩, -, hrest⟩ := C36_found _ _ _ h
  obtain ⟨hi1, hi1'⟩ := List.getElem?_eq_some_iff.1 hb1
  obtain ⟨hi2, hi2'⟩ := List.getElem?_eq_some_iff.1 hb2
  refine ⟨l.take i, ?_⟩
  rw [hrest]
  conv_lhs => rw [← List.take_append_drop i l, List.drop_eq_getElem_cons hi1,
    List.drop_eq_getElem_cons hi2, hi1', hi2']
  simp [markerBytes]

/-- When the loop ends well, it ends at an EOI marker. -/
theorem segmentLoop_eoi {cfg : Cfg} : ∀ (fuel : Nat) (s s' : St), DecInv s.dec → s.bi.WF →
    segmentLoop cfg fuel s = .ok () s' → ∃ pre, s.bi.input = pre ++ markerBytes .EOI ++ s'.bi.input := by
  intro fuel
  induction fuel with
  | zero => intro s s' _ _ h; simp [segmentLoop] at h
  | succ fuel ih =>
    intro s s' hd hwf h
    rw [segmentLoop] at h
    cases e : marker s.bi.input with
    | error f => rw [e] at h; simp at h
    | ok q =>
      obtain ⟨m, rest⟩ := q
      rw [e] at h
      simp only at h
      obtain ⟨pre, hpre⟩ := marker_split e
      split at h
      · rename_i hm
        simp only [Out.ok.injEq, true_and] at h
        subst h
        exact ⟨pre, by rw [hpre, hm]; rfl⟩
      · have hs := doSegment_safe (cfg := cfg) (C36_found _ _ _ e).1 (s := s.setInput rest) hd hwf
        cases e2 : doSegment cfg m (s.setInput rest) with
        | fail f s1 => rw [e2] at h; simp at h
        | ok u s1 =>
          rw [e2] at h hs
          rw [Out.bind_ok] at h
          obtain ⟨pre1, h1⟩ := ih s1 s' hs.inv hs.wf h
          obtain ⟨pre2, h2⟩ := hs.suffix
          simp only [Out.state, setInput_bi] at h2
          exact ⟨pre ++ markerBytes m ++ pre2 ++ pre1, by rw [hpre, ← h2, h1]; simp⟩

/-- What an accepted frame header says. -/
theorem sof_inv {cfg : Cfg} {i : Nat} {l rest : List UInt8} {frame : Frame}
    (h : sof cfg i l = .ok (frame, rest)) : ∃ (p n : UInt8) (more : List UInt8),
    l = p :: be16 frame.lines ++ be16 frame.samplesPerLine ++ n :: more ∧
    frame.components.length = n.toNat ∧ frame.markerIndex = i ∧ frame.precision = p := by
  unfold sof at h
  simp only [bind, Except.bind] at h
  cases l with
  | nil => simp [anyByte] at h
  | cons b l1 =>
    simp only [anyByte] at h
    cases e2 : beU16 l1 with
    | error f => rw [e2] at h; simp at h
    | ok p2 =>
      obtain ⟨Y, l2⟩ := p2
      rw [e2] at h; simp only at h
      cases e3 : beU16 l2 with
      | error f => rw [e3] at h; simp at h
      | ok p3 =>
        obtain ⟨X, l3⟩ := p3
        rw [e3] at h; simp only at h
        cases l3 with
        | nil => simp at h
        | cons n l4 =>
          simp only at h
          cases e5 : componentsP n.toNat l4 with
          | error f => rw [e5] at h; simp at h
          | ok p5 =>
            obtain ⟨cs, l5⟩ := p5
            rw [e5] at h; simp only at h
            obtain ⟨hlen, hcs⟩ := componentsP_ok _ e5
            by_cases hne : cs = []
            · subst hne
              simp [buildFrame, listMax?] at h
            · obtain ⟨H, V, hH, hV, hb⟩ := buildFrame_eq cfg i b (beU16_lt e3) (beU16_lt e2) cs hne (by
                intro c hc
                obtain ⟨_, _, _, _, rfl, hf⟩ := hcs c hc
                exact hf)
              rw [hb] at h
              simp only [pure, Except.pure, Except.ok.injEq, Prod.mk.injEq] at h
              obtain ⟨rfl, -⟩ := h
              refine ⟨b, n, l4, ?_, by simpa using hlen, rfl, rfl⟩
              rw [(beU16_inv e2).2, (beU16_inv e3).2]
              simp

/-- What a frame header accepted in the loop leaves behind. -/
theorem doSegment_sof {cfg : Cfg} {i : Nat} {s s' : St} (h : doSegment cfg (.SOF i) s = .ok () s') :
    ∃ content rest frame more, segmentBytes cfg s.bi.input = .ok (content, rest) ∧
      sof cfg i content = .ok (frame, more) ∧ s'.dec.frame = some frame := by
  simp only [doSegment, segment] at h
  cases e : segmentBytes cfg s.bi.input with
  | error f => rw [e] at h; simp at h
  | ok q =>
    obtain ⟨content, rest⟩ := q
    rw [e] at h
    simp only [sofBody] at h
    cases e2 : sof cfg i content with
    | error f => rw [e2] at h; simp at h
    | ok q =>
      obtain ⟨frame, more⟩ := q
      rw [e2] at h
      simp only [Out.ok.injEq, true_and] at h
      exact ⟨content, rest, frame, more, rfl, e2, by rw [← h]⟩

/-- The frame at the end is the one from before or comes from a frame header in the input. -/
theorem segmentLoop_frame {cfg : Cfg} (file : List UInt8) : ∀ (fuel : Nat) (s s' : St), DecInv s.dec →
    s.bi.WF → s.bi.input <:+ file → segmentLoop cfg fuel s = .ok () s' → s'.dec.frame = s.dec.frame ∨
    ∃ i content frame more, s'.dec.frame = some frame ∧ FileSegment cfg file (.SOF i) content ∧
      sof cfg i content = .ok (frame, more) := by
  intro fuel
  induction fuel with
  | zero => intro s s' _ _ _ h; simp [segmentLoop] at h
  | succ fuel ih =>
    intro s s' hd hwf hsuf h
    rw [segmentLoop] at h
    cases e : marker s.bi.input with
    | error f => rw [e] at h; simp at h
    | ok q =>
      obtain ⟨m, rest⟩ := q
      rw [e] at h
      simp only at h
      obtain ⟨pre, hpre⟩ := marker_split e
      split at h
      · simp only [Out.ok.injEq, true_and] at h
        subst h
        exact .inl rfl
      · have hs := doSegment_safe (cfg := cfg) (C36_found _ _ _ e).1 (s := s.setInput rest) hd hwf
        cases e2 : doSegment cfg m (s.setInput rest) with
        | fail f s1 => rw [e2] at h; simp at h
        | ok u s1 =>
          rw [e2] at h hs
          rw [Out.bind_ok] at h
          have hsu := hs.suffix
          simp only [Out.state, setInput_bi] at hsu
          rcases ih s1 s' hs.inv hs.wf ((hsu.trans (marker_suffix e)).trans hsuf) h with h1 | h1
          · by_cases hm : ∃ i, m = .SOF i
            · obtain ⟨i, rfl⟩ := hm
              obtain ⟨content, rest', frame, more, h2, h3, h4⟩ := doSegment_sof e2
              right
              refine ⟨i, content, frame, more, by rw [h1, h4], ?_, h3⟩
              obtain ⟨pre', hpre'⟩ := hsuf
              have := fileSegment_of (m := .SOF i) h2 (pre' ++ pre)
              rw [← hpre', hpre]
              simpa [setInput_bi] using this
            · left
              rw [h1]
              exact hs.frame (fun i hi => hm ⟨i, hi⟩)
          · exact .inr h1

/-! ### Comments -/

theorem markerAux_skip : ∀ (x : List UInt8) (b : Bool) (rest : List UInt8),
    (∀ j c, ¬ MarkerAt (if b then 0xFF :: x else x) j c) →
    markerAux b (x ++ 0xFF :: rest) = markerAux true rest := by
  intro x
  induction x with
  | nil => intro b rest _; cases b <;> simp [markerAux]
  | cons a x ih =>
    intro b rest hno
    have hx : ∀ j c, ¬ MarkerAt (a :: x) j c := by
      cases b with
      | false => simpa using hno
      | true =>
        intro j c h
        exact hno (j + 1) c (by simpa [MarkerAt] using h)
    have hx' : ∀ j c, ¬ MarkerAt x j c := fun j c h => hx (j + 1) c (by simpa [MarkerAt] using h)
    rw [List.cons_append]
    cases b with
    | false =>
      rw [markerAux]
      by_cases ha : a = 0xFF
      · subst ha
        exact ih true rest (by simpa using hx)
      · rw [show (a == 0xFF) = false by simpa using ha]
        exact ih false rest (by simpa using hx')
    | true =>
      rw [markerAux]
      by_cases ha : a = 0xFF
      · subst ha
        rw [if_pos rfl]
        exact ih true rest (by simpa using hx)
      · rw [if_neg ha]
        by_cases h0 : a = 0
        · rw [if_pos h0]
          exact ih false rest (by simpa using hx')
        · exact absurd (show MarkerAt (0xFF :: a :: x) 0 a from ⟨rfl, rfl, h0, ha⟩)
            (by simpa using hno 0 a)

theorem marker_skip {x : List UInt8} (hno : ∀ j c, ¬ MarkerAt x j c) (rest : List UInt8) :
    marker (x ++ 0xFF :: rest) = marker (0xFF :: rest) := by
  unfold marker
  rw [markerAux_skip x false rest (by simpa using hno)]
  simp [markerAux]

/-- Two runs that agree, but for the unread input of a failed one. -/
def SameRun (a b : Out St Unit) : Prop :=
  a = b ∨ ∃ f s1 s2, a = .fail f s1 ∧ b = .fail f s2 ∧ s1.dec = s2.dec

theorem loopAll_sameMarker {cfg : Cfg} {d : Decoder} {l1 l2 : List UInt8} {bits count : Nat} (hd : DecInv d)
    (hwf : (⟨l1, bits, count⟩ : Biterator).WF) (hwf' : (⟨l2, bits, count⟩ : Biterator).WF)
    (h : marker l1 = marker l2) :
    SameRun (loopAll cfg ⟨d, ⟨l1, bits, count⟩⟩) (loopAll cfg ⟨d, ⟨l2, bits, count⟩⟩) := by
  cases e : marker l2 with
  | error f =>
    rw [loopAll_error (s := ⟨d, ⟨l1, bits, count⟩⟩) (h.trans e), loopAll_error (s := ⟨d, ⟨l2, bits, count⟩⟩) e]
    exact .inr ⟨f, _, _, rfl, rfl, rfl⟩
  | ok q =>
    obtain ⟨m, rest⟩ := q
    left
    by_cases hm : m = .EOI
    · subst hm
      rw [loopAll_eoi (s := ⟨d, ⟨l1, bits, count⟩⟩) (h.trans e), loopAll_eoi (s := ⟨d, ⟨l2, bits, count⟩⟩) e]
      rfl
    · rw [loopAll_eq (s := ⟨d, ⟨l1, bits, count⟩⟩) hd hwf (h.trans e) hm,
        loopAll_eq (s := ⟨d, ⟨l2, bits, count⟩⟩) hd hwf' e hm]
      rfl

/-- Segments in front do not matter. -/
theorem loopAll_segments {cfg : Cfg} {l1 l2 : List UInt8} {bits count : Nat}
    (hwf : ∀ l, (⟨l, bits, count⟩ : Biterator).WF)
    (hl : ∀ d, DecInv d →
      SameRun (loopAll cfg ⟨d, ⟨l1, bits, count⟩⟩) (loopAll cfg ⟨d, ⟨l2, bits, count⟩⟩)) :
    ∀ (segs : List (Marker × List UInt8)),
    (∀ p ∈ segs, HasSegment p.1 ∧ MarkerExists p.1 ∧ p.2.length + 2 < 65536) → ∀ d, DecInv d →
    SameRun (loopAll cfg ⟨d, ⟨segs.flatMap (fun p => markerSegment p.1 p.2) ++ l1, bits, count⟩⟩)
      (loopAll cfg ⟨d, ⟨segs.flatMap (fun p => markerSegment p.1 p.2) ++ l2, bits, count⟩⟩) := by
  intro segs
  induction segs with
  | nil => intro _ d hd; exact hl d hd
  | cons q segs ih =>
    intro hq d hd
    obtain ⟨m, payload⟩ := q
    obtain ⟨h1, h2, h3⟩ := hq (m, payload) (by simp)
    obtain ⟨r, hr⟩ := C37_exact_length m h1 cfg d bits count payload h3
    have hne : m ≠ .EOI := by rintro rfl; exact h1
    have step : ∀ l, loopAll cfg ⟨d, ⟨((m, payload) :: segs).flatMap (fun p => markerSegment p.1 p.2) ++ l,
        bits, count⟩⟩ = (doSegment cfg m ⟨d, ⟨segmentOf payload ++
          (segs.flatMap (fun p => markerSegment p.1 p.2) ++ l), bits, count⟩⟩).bind
          fun _ s => loopAll cfg s := by
      intro l
      rw [loopAll_eq hd (hwf _) (m := m) (rest := segmentOf payload ++
        (segs.flatMap (fun p => markerSegment p.1 p.2) ++ l)) (by
          rw [← marker_bytes' h2]; simp [markerSegment]) hne]
      rfl
    rw [step l1, step l2, hr, hr]
    have hs := doSegment_safe (cfg := cfg) h2 (s := ⟨d, ⟨segmentOf payload ++ [], bits, count⟩⟩) hd (hwf _)
    rw [hr] at hs
    cases r with
    | ok u d' => exact ih (fun p hp => hq p (by simp [hp])) d' hs.inv
    | fail f d' => exact .inr ⟨f, _, _, rfl, rfl, rfl⟩

/-- Equal runs give equal decodes. -/
theorem decode_sameRun {cfg : Cfg} {d : Decoder} {l1 l2 : List UInt8}
    (h : SameRun (loopAll cfg ⟨d, Biterator.new l1⟩) (loopAll cfg ⟨d, Biterator.new l2⟩)) :
    d.decode cfg l1 = d.decode cfg l2 := by
  unfold Decoder.decode decodeParser
  unfold loopAll at h
  rcases h with h | ⟨f, s1, s2, h1, h2, h3⟩
  · rw [h]
  · rw [h1, h2]
    simp only [Out.bind_fail, h3]

end Jpeg
