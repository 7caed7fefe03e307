import Verif.Proofs.ScanInv
/-!
# History invariant of the MCU loop: the restart counters
-/

namespace Jpeg
open Spec Biterator

theorem decodeRow_keeps {s s' : St} (h : decodeRow s = .ok () s') :
    ∃ coef preds eob bi, s' = ⟨{ s.dec with scanState := { s.dec.scanState with
      mcuRowCoefficients := coef, dcPredictors := preds, eobRun := eob } }, bi⟩ := by
  unfold decodeRow at h
  split at h
  · simp only at h
    split at h
    · simp only [Out.ok.injEq, true_and] at h
      exact ⟨_, _, _, _, h.symm⟩
    · simp at h
    · simp at h
  · simp at h

theorem dequantize_keeps {cfg : Cfg} {x y : Nat} {d d' : Decoder}
    (h : dequantize cfg x y d = .ok () d') :
    ∃ results, d' = { d with scanState := { d.scanState with results := results } } := by
  unfold dequantize at h
  split at h
  · simp at h
  · split at h
    · simp at h
    · simp at h
    · split at h
      · simp at h
      · simp only [Out.ok.injEq, true_and] at h
        exact ⟨_, h.symm⟩

/-- An accepted MCU: the three stages all succeeded. -/
theorem mcuStep_stages {cfg : Cfg} {produce : Bool} {y x : Nat} {s s' : St}
    (h : mcuStep cfg produce y x s = .ok () s') :
    ∃ s1 s2 results, decodeRow s = .ok () s1 ∧ restartParser cfg x y s1 = .ok () s2 ∧
      s' = { s2 with dec := { s2.dec with scanState := { s2.dec.scanState with
        results := results } } } := by
  unfold mcuStep at h
  cases e1 : decodeRow s with
  | fail f s1 => rw [e1] at h; simp [Out.bind] at h
  | ok u s1 =>
    rw [e1, Out.bind_ok] at h
    cases e2 : restartParser cfg x y s1 with
    | fail f s2 => rw [e2] at h; simp [Out.bind] at h
    | ok u s2 =>
      rw [e2, Out.bind_ok] at h
      cases produce with
      | false =>
        simp only [Bool.false_eq_true, if_false, Out.ok.injEq, true_and] at h
        exact ⟨s1, s2, s2.dec.scanState.results, rfl, e2, h.symm⟩
      | true =>
        simp only [if_true] at h
        split at h
        · rename_i d' e3
          obtain ⟨results, rfl⟩ := dequantize_keeps e3
          simp only [Out.ok.injEq, true_and] at h
          exact ⟨s1, s2, results, rfl, e2, h.symm⟩
        · simp at h

theorem mcuStep_rst {cfg : Cfg} {produce : Bool} {r k : Nat} {frame : Frame} {s s' : St}
    (hr : r < 2 ^ 16) (h : RstAt r frame k s)
    (hk : k + 1 < frame.mcuSize.width * frame.mcuSize.height)
    (e : mcuStep cfg produce (k / frame.mcuSize.width) (k % frame.mcuSize.width) s = .ok () s') :
    RstAt r frame (k + 1) s' := by
  obtain ⟨s1, s2, results, e1, e2, rfl⟩ := mcuStep_stages e
  obtain ⟨coef, preds, eob, bi, rfl⟩ := decodeRow_keeps e1
  have h1 : RstAt r frame k ⟨{ s.dec with scanState := { s.dec.scanState with
      mcuRowCoefficients := coef, dcPredictors := preds, eobRun := eob } }, bi⟩ :=
    ⟨h.interval, h.frame, h.left, h.expected⟩
  have hp := restartParser_at (cfg := cfg) hr h1 (by omega)
  by_cases hd : RstDue r (frame.mcuSize.width * frame.mcuSize.height) k
  · obtain ⟨h2, h3⟩ := hp.1 hd
    cases hm : marker bi.input with
    | error f => obtain ⟨_, h4⟩ := h2 f hm; rw [h4] at e2; simp at e2
    | ok p =>
      obtain ⟨m, rest⟩ := p
      obtain ⟨h4, h5⟩ := h3 m rest hm
      by_cases hmr : m = .RST (k / r % 8)
      · rw [h4 hmr] at e2
        simp only [Out.ok.injEq, true_and] at e2
        subst e2
        obtain ⟨_, hz⟩ := (succ_mod_div (k := k) hd.1).1 hd.2.1
        refine ⟨h.interval, h.frame, fun _ => ?_, fun _ => ?_⟩
        · show r = _; rw [hd.2.1]; rfl
        · show (k / r % 8 + 1) % 8 = _; rw [hz]; omega
      · obtain ⟨_, _, h6, _⟩ := h5 hmr; rw [h6] at e2; simp at e2
  · obtain ⟨left, h2, h3⟩ := hp.2 hd
    rw [h2] at e2
    simp only [Out.ok.injEq, true_and] at e2
    subst e2
    refine ⟨h.interval, h.frame, fun h0 => h3 hk h0, fun h0 => ?_⟩
    have hz : (k + 1) % r ≠ 0 := fun hz => hd ⟨h0, hz, hk⟩
    show s.dec.scanState.expectedRstNum = _
    rw [h.expected h0, ((succ_mod_div h0).2 hz).2]

/-- After `k` MCUs of a scan. -/
theorem mcuLoop_rst {cfg : Cfg} {produce : Bool} {r : Nat} {frame : Frame} {s0 : St}
    (hr : r < 2 ^ 16) (h : RstAt r frame 0 s0) (k : Nat) :
    ∀ s, k < frame.mcuSize.width * frame.mcuSize.height →
      mcuLoop cfg produce ((mcuList frame.mcuSize).take k) s0 = .ok () s → RstAt r frame k s := by
  induction k with
  | zero =>
    intro s _ e
    simp only [List.take_zero, mcuLoop, Out.ok.injEq, true_and] at e
    subst e; exact h
  | succ k ih =>
    intro s hk e
    have hl : (mcuList frame.mcuSize)[k]? = some (mcuCoord frame.mcuSize k) := by
      rw [mcuList_eq, List.getElem?_map, List.getElem?_range (by omega)]; rfl
    rw [List.take_add_one, hl, Option.toList_some, mcuLoop_append] at e
    cases e1 : mcuLoop cfg produce ((mcuList frame.mcuSize).take k) s0 with
    | fail f s1 => rw [e1] at e; simp [Out.bind] at e
    | ok u s1 =>
      rw [e1, Out.bind_ok] at e
      have h1 := ih s1 (by omega) e1
      simp only [mcuLoop, mcuCoord] at e
      cases e2 : mcuStep cfg produce (k / frame.mcuSize.width) (k % frame.mcuSize.width) s1 with
      | fail f s2 => rw [e2] at e; simp [Out.bind] at e
      | ok u s2 =>
        rw [e2] at e
        simp only [Out.bind_ok, Out.ok.injEq, true_and] at e
        subst e
        exact mcuStep_rst hr h1 hk e2

/-- What the start of a scan establishes. -/
theorem scanInit_ok {produce : Bool} {s s' : St} (h : scanInit produce s = .ok () s') :
    ∃ frame scan results, s.dec.frame = some frame ∧ s.dec.scan = some scan ∧
      s' = { s with dec := { s.dec with scanState := { ScanState.default with
        mcusLeftUntilRestart := s.dec.restartInterval, results := results } } } ∧
      (produce = true → results = frame.components.map allocPlane ∧
        frame.components.length ≤ MAX_COMPONENTS) := by
  unfold scanInit at h
  split at h
  · rename_i frame scan hf hs
    split at h
    · simp at h
    · simp at h
    · split at h
      · simp at h
      · simp at h
      · simp only at h
        split at h
        · split at h
          · simp at h
          · simp only [Out.ok.injEq, true_and] at h
            exact ⟨frame, scan, _, hf, hs, h.symm, fun _ => ⟨rfl, by omega⟩⟩
        · rename_i hp
          simp only [Out.ok.injEq, true_and] at h
          exact ⟨frame, scan, [], hf, hs, h.symm, fun h => absurd h hp⟩
  · simp at h

theorem scanInit_rst {produce : Bool} {s s' : St} {frame : Frame}
    (h : scanInit produce s = .ok () s') (hf : s.dec.frame = some frame) :
    RstAt s.dec.restartInterval frame 0 s' := by
  obtain ⟨_, _, _, _, _, rfl, _⟩ := scanInit_ok h
  exact ⟨rfl, hf, fun _ => by simp, fun _ => by simp [ScanState.default]⟩

/-- `marker` fails with end of input or with an error, it does not panic. -/
theorem markerAux_noPanic (l : List UInt8) : ∀ (b : Bool) (p : PanicSite),
    markerAux b l ≠ .error (.panic p) := by
  induction l with
  | nil => intro b p; cases b <;> simp [markerAux]
  | cons c l ih =>
    intro b p
    cases b
    · rw [markerAux]; exact ih _ p
    · rw [markerAux]
      split
      · exact ih _ p
      · split
        · exact ih _ p
        · split <;> simp

theorem marker_noPanic (l : List UInt8) (p : PanicSite) : marker l ≠ .error (.panic p) :=
  markerAux_noPanic l false p

end Jpeg
