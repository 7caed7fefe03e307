import Verif.Proofs.StreamRun
import Verif.Proofs.Baseline
import Verif.Proofs.Render
import Verif.Spec.StreamPanics
/-!
# What a streaming decoder keeps between calls
-/

namespace Jpeg
open Spec Biterator

/-! ## One MCU -/

theorem decodeRow_results (s : St) :
    (decodeRow s).state.dec.scanState.results = s.dec.scanState.results := by
  unfold decodeRow
  split
  · simp only
    split <;> rfl
  · rfl

theorem restartParser_keeps {cfg : Cfg} {x y : Nat} (s : St) :
    (restartParser cfg x y s).state.dec.scanState.results = s.dec.scanState.results ∧
    ∀ p s', restartParser cfg x y s = .fail (.panic p) s' → s.dec.frame = none ∨ (p = .restartUnderflow ∧
      cfg.debug = true ∧ 0 < s.dec.restartInterval ∧ s.dec.scanState.mcusLeftUntilRestart = 0 ∧ s' = s) := by
  unfold restartParser
  split
  · rename_i hr
    split
    · rename_i hn
      exact ⟨rfl, fun p s' h => .inl hn⟩
    · simp only
      generalize (s.dec.scanState.mcusLeftUntilRestart + 2 ^ 16 - 1) % 2 ^ 16 = left
      split
      · rename_i hu
        refine ⟨rfl, fun p s' h => ?_⟩
        simp only [Out.fail.injEq, Fail.panic.injEq] at h
        exact .inr ⟨h.1.symm, hu.2, hr, hu.1, h.2.symm⟩
      · split
        · split
          · rename_i f hm
            refine ⟨rfl, fun p s' h => ?_⟩
            simp only [Out.fail.injEq] at h
            rw [h.1] at hm
            exact absurd hm (marker_noPanic _ _)
          · unfold handleRestart
            split
            · simp only
              split
              · exact ⟨rfl, by simp⟩
              · exact ⟨rfl, by simp⟩
            · exact ⟨rfl, by simp⟩
        · exact ⟨rfl, by simp⟩
  · exact ⟨rfl, by simp⟩

theorem Spec.ScanPanic.onlyScan' {cfg : Cfg} {d d' : Decoder} {frame : Frame} {scan : Scan} {p : PanicSite}
    (hp : ScanPanic cfg d frame scan p) (h : OnlyScan d d') : ScanPanic cfg d' frame scan p :=
  ScanPanic.onlyScan h hp

/-- A scan of which the first MCUs are done. -/
structure MidScan (pd : Bool) (phase : Phase) (todo : List (Nat × Nat)) (s : St) (scan : Scan) (frame : Frame)
    (k : Nat) : Prop where
  hasScan : s.dec.scan = some scan
  hasFrame : s.dec.frame = some frame
  inv : DecInv s.dec
  step : StepInv s
  sequential : frame.markerIndex ≠ 2
  headers : ∀ h ∈ scan.headers, h.componentIndex < frame.components.length
  le : k ≤ frame.mcuSize.width * frame.mcuSize.height
  left : todo = (mcuList frame.mcuSize).drop k
  coefficients : phase = .restart → s.dec.scanState.mcuRowCoefficients.length = 10
  planes : pd = true → ∃ bufs : List (List (List Int)), bufs.length = k ∧
    s.dec.scanState.results = planesOf frame.mcuSize.width (quantOf s.dec.quantTables) frame.components
      (lsOf frame.components bufs)
  empty : pd = false → s.dec.scanState.results = []
  dcSet : scan.ss = 0 → anyUnset s.dec.dcTables (scan.headers.map (·.dcSel)) = .ok false
  acSet : scan.se > 1 → anyUnset s.dec.acTables (scan.headers.map (·.acSel)) = .ok false
  unfinished : pd = false → ∃ h ∈ scan.headers, ∃ w, s.dec.coefficientsFinished[h.componentIndex]? = some w ∧
    w ≠ 2 ^ 64 - 1

/-- A panic inside a scan, in the state a call ends with. -/
theorem MidScan.panics {pd : Bool} {ph : Phase} {todo : List (Nat × Nat)} {s : St} {scan : Scan} {frame : Frame}
    {k : Nat} (h : MidScan pd ph todo s scan frame k) {cfg : Cfg} {buf : List UInt8} {d : Decoder} {p : PanicSite}
    (ho : OnlyScan s.dec d) (hp : ScanPanic cfg s.dec frame scan p) : StreamPanic cfg buf d p :=
  .scan frame scan (by rw [ho.frame]; exact h.hasFrame) (by rw [ho.scan]; exact h.hasScan) (hp.onlyScan' ho)

/-- The state of a scan when only the decoder's scan state moved on. -/
theorem MidScan.move {pd : Bool} {ph ph' : Phase} {todo : List (Nat × Nat)} {s t : St} {scan : Scan} {frame : Frame}
    {k : Nat} (h : MidScan pd ph todo s scan frame k) (ho : OnlyScan s.dec t.dec) (hst : StepInv t)
    (hr : t.dec.scanState.results = s.dec.scanState.results)
    (hc : ph' = .restart → t.dec.scanState.mcuRowCoefficients.length = 10) :
    MidScan pd ph' todo t scan frame k where
  hasScan := by rw [ho.scan]; exact h.hasScan
  hasFrame := by rw [ho.frame]; exact h.hasFrame
  inv := h.inv.onlyScan ho
  step := hst
  sequential := h.sequential
  headers := h.headers
  le := h.le
  left := h.left
  coefficients := hc
  planes := by rw [hr, ho.quantTables]; exact h.planes
  empty := by rw [hr]; exact h.empty
  dcSet := by rw [ho.dcTables]; exact h.dcSet
  acSet := by rw [ho.acTables]; exact h.acSet
  unfinished := by rw [ho.finished]; exact h.unfinished

/-- The parts of a list of MCUs. -/
theorem mcuList_drop_cons {size : Dim} {k : Nat} {yx : Nat × Nat} {rest : List (Nat × Nat)}
    (h : yx :: rest = (mcuList size).drop k) :
    k < size.width * size.height ∧ yx = (k / size.width, k % size.width) ∧ rest = (mcuList size).drop (k + 1) := by
  have hl : (mcuList size).length = size.width * size.height := by rw [mcuList_eq]; simp
  have hk : k < (mcuList size).length := by
    by_contra hn
    rw [List.drop_eq_nil_iff.2 (by omega)] at h
    simp at h
  rw [List.drop_eq_getElem_cons hk, List.cons.injEq] at h
  refine ⟨by omega, ?_, h.2⟩
  rw [h.1]
  have : (mcuList size)[k]? = some (k / size.width, k % size.width) := by
    rw [mcuList_eq, List.getElem?_map, List.getElem?_range (by omega)]; rfl
  rw [List.getElem?_eq_getElem hk] at this
  exact Option.some.inj this

theorem realSel {d : Decoder} {h : ScanHeader} {p : PanicSite} (hp : SelPanic d h p) : p.Real := by
  rcases hp with ⟨rfl, -⟩ | ⟨rfl, -⟩ | ⟨rfl, -⟩ <;> exact realPanic (by simp) (by simp) (by simp)

/-- Dequantising an MCU. -/
theorem MidScan.dequantize {cfg : Cfg} {ph : Phase} {todo rest : List (Nat × Nat)} {s : St} {scan : Scan}
    {frame : Frame} {k : Nat} (h : MidScan true ph todo s scan frame k)
    (hk : k < frame.mcuSize.width * frame.mcuSize.height)
    (hrest : rest = (mcuList frame.mcuSize).drop (k + 1))
    (hc : s.dec.scanState.mcuRowCoefficients.length = 10) :
    match dequantize cfg (k % frame.mcuSize.width) (k / frame.mcuSize.width) s.dec with
    | .ok _ d => MidScan true .row rest { s with dec := d } scan frame (k + 1)
    | .fail f d => ∀ p, f = .panic p → OnlyScan s.dec d ∧ ScanPanic cfg s.dec frame scan p := by
  obtain ⟨hgeo, hne, hmi⟩ := h.inv.frame frame h.hasFrame
  obtain ⟨bufs, hbl, hbr⟩ := h.planes rfl
  obtain ⟨_, _, hmax, vmax, _, _, hsize, hcg⟩ := hgeo
  have hpg : ∀ c ∈ frame.components, PlaneGeom frame.mcuSize.width frame.mcuSize.height c := by
    intro c hc
    rw [hsize]
    exact PlaneGeom.of (hcg c hc)
  have ho := dequantize_only (cfg := cfg) (x := k % frame.mcuSize.width) (y := k / frame.mcuSize.width) (d := s.dec)
  revert ho
  unfold Jpeg.dequantize
  rw [h.hasFrame]
  simp only
  rcases codingProcess_of hmi with ⟨h2, -⟩ | ⟨c, hcp, hcne, -⟩
  · exact absurd h2 h.sequential
  · rw [hcp]
    cases c with
    | progressive => exact absurd rfl hcne
    | _ =>
      simp only
      cases e : dequantComponents cfg s.dec.quantTables (k % frame.mcuSize.width) (k / frame.mcuSize.width)
        frame.components s.dec.scanState.results s.dec.scanState.mcuRowCoefficients with
      | ok results =>
        rw [hbr, ← hbl] at e
        obtain ⟨d1, -, -⟩ := dequantBuf hpg bufs _ (by omega) e
        rintro ⟨ho, -, -⟩
        exact {
          hasScan := h.hasScan
          hasFrame := rfl
          inv := h.inv.onlyScan ho
          step := ⟨h.step.wf, h.step.eob, h.step.preds⟩
          sequential := h.sequential
          headers := h.headers
          le := hk
          left := hrest
          coefficients := by simp
          planes := fun _ => ⟨bufs ++ [s.dec.scanState.mcuRowCoefficients], by simp [hbl], d1⟩
          empty := by simp
          dcSet := by have := h.dcSet; rw [← ho.dcTables] at this; exact this
          acSet := by have := h.acSet; rw [← ho.acTables] at this; exact this
          unfinished := by simp }
      | error f =>
        rintro ⟨ho, -, -⟩ p hp
        subst hp
        refine ⟨ho, ?_⟩
        rw [hbr] at e
        have quant : ∀ chunks : List (List Int), mcuBlocks frame.components ≤ chunks.length →
            dequantComponents cfg s.dec.quantTables (k % frame.mcuSize.width)
              (k / frame.mcuSize.width) frame.components
              (planesOf frame.mcuSize.width (quantOf s.dec.quantTables) frame.components
                (lsOf frame.components bufs)) chunks = .error (.panic p) → ScanPanic cfg s.dec frame scan p := by
          intro chunks hlen he
          obtain ⟨c, hc, hr⟩ := dequantComponents_fail (quantOf s.dec.quantTables)
            (fun c q hq => quantOf_eq hq) hk frame.components (lsOf frame.components bufs) chunks _
            hpg (by simp [lsOf]) (by
              intro l hl
              simp only [lsOf, List.mem_map] at hl
              obtain ⟨i, _, rfl⟩ := hl
              simp [hbl]) hlen he
          rcases hr with ⟨h1, h2⟩ | ⟨h1, h2⟩
          · simp only [Fail.panic.injEq] at h2
            rw [h2]
            refine .quantSelector c hc ?_
            have := List.getElem?_eq_none_iff.1 h1
            rw [h.inv.q4] at this
            exact this
          · simp only [Fail.panic.injEq] at h2
            rw [h2]
            exact .missingQuant c hc h1
        by_cases hle : mcuBlocks frame.components ≤ 10
        · exact quant _ (by omega) e
        · rcases dequantComponents_more (List.replicate (mcuBlocks frame.components) []) _ _ _ _ e
            with h | h
          · simp only [Fail.panic.injEq] at h
            rw [h]
            exact .manyBlocks (by unfold mcuBlocks at hle; omega)
          · exact quant _ (by simp) h

/-- What the MCUs of a scan, started or resumed, leave behind. -/
theorem mcuResume_inv {cfg : Cfg} {pd : Bool} {scan : Scan} {frame : Frame} :
    ∀ (todo : List (Nat × Nat)) (phase : Phase) (s : St) (k : Nat), MidScan pd phase todo s scan frame k →
    match mcuResume cfg pd phase todo s with
    | .done t => MidScan pd .row [] t scan frame (frame.mcuSize.width * frame.mcuSize.height) ∧
        t.bi.input <:+ s.bi.input
    | .wait ph td t => ∃ k', MidScan pd ph td t scan frame k'
    | .failed f t => ∀ p, f = .panic p → ∀ buf, StreamPanic cfg buf t.dec p := by
  intro todo
  induction todo with
  | nil =>
    intro phase s k h
    rw [mcuResume]
    have hl : (mcuList frame.mcuSize).length = frame.mcuSize.width * frame.mcuSize.height := by
      rw [mcuList_eq]; simp
    have hk : frame.mcuSize.width * frame.mcuSize.height ≤ k := by
      have := List.drop_eq_nil_iff.1 h.left.symm
      omega
    obtain rfl : k = frame.mcuSize.width * frame.mcuSize.height := by have := h.le; omega
    exact ⟨h.move (OnlyScan.refl _) h.step rfl (by simp), List.suffix_refl _⟩
  | cons yx rest ih =>
    intro phase s k h
    obtain ⟨y, x⟩ := yx
    obtain ⟨hk, hyx, hrest⟩ := mcuList_drop_cons h.left
    simp only [Prod.mk.injEq] at hyx
    obtain ⟨rfl, rfl⟩ := hyx
    rw [mcuResume]
    -- the row
    have hrow : match (if phase = .row then decodeRow s else .ok () s) with
        | .ok _ t => MidScan pd .restart ((k / frame.mcuSize.width, k % frame.mcuSize.width) :: rest) t scan frame k ∧
            t.bi.input <:+ s.bi.input
        | .fail f t => MidScan pd .row ((k / frame.mcuSize.width, k % frame.mcuSize.width) :: rest) t scan frame k ∧
            ∀ p, f = .panic p → ∀ buf, StreamPanic cfg buf t.dec p := by
      by_cases hp : phase = .row
      · rw [if_pos hp]
        obtain ⟨a1, a2, a3, a4, a5⟩ := decodeRow_safe h.hasScan h.hasFrame h.inv.tables h.step
        have a6 := decodeRow_results s
        cases e : decodeRow s with
        | ok u t =>
          rw [e] at a1 a2 a3 a6
          exact ⟨h.move a3 a1 a6 fun _ => a4 t e, a2⟩
        | fail f t =>
          rw [e] at a1 a3 a6
          refine ⟨h.move a3 a1 a6 (by simp), ?_⟩
          intro p hp
          subst hp
          obtain ⟨hd, hm, hs⟩ := a5 p t e
          exact fun buf => h.panics a3 (selPanic_reason h.inv hm h.dcSet h.acSet hs)
      · rw [if_neg hp]
        have hp : phase = .restart := by cases phase with
          | row => exact absurd rfl hp
          | restart => rfl
        subst hp
        exact ⟨h, List.suffix_refl _⟩
    generalize (if phase = .row then decodeRow s else .ok () s) = o at hrow
    cases o with
    | fail f t =>
      simp only at hrow ⊢
      by_cases hf : f = .eof
      · rw [if_pos hf]; exact ⟨k, hrow.1⟩
      · rw [if_neg hf]; exact hrow.2
    | ok u t =>
      obtain ⟨hm, hsuf⟩ := hrow
      simp only
      obtain ⟨b1, b2, b3, b4⟩ := restartParser_safe (cfg := cfg) (x := k % frame.mcuSize.width)
        (y := k / frame.mcuSize.width) hm.step
      obtain ⟨b5, b6⟩ := restartParser_keeps (cfg := cfg) (x := k % frame.mcuSize.width)
        (y := k / frame.mcuSize.width) t
      cases e : restartParser cfg (k % frame.mcuSize.width) (k / frame.mcuSize.width) t with
      | fail f t' =>
        rw [e] at b1 b2 b3 b4 b5
        simp only [Out.state] at b1 b2 b3 b4 b5
        simp only
        by_cases hf : f = .eof
        · rw [if_pos hf]
          exact ⟨k, hm.move b3 b1 b5 fun h => by rw [b4]; exact hm.coefficients h⟩
        · rw [if_neg hf]
          intro p hp
          subst hp
          rcases b6 p t' e with hn | ⟨rfl, h1, h2, h3, rfl⟩
          · rw [hm.hasFrame] at hn; cases hn
          · exact fun buf => .restart rfl h1 h2 h3
      | ok u t' =>
        rw [e] at b1 b2 b3 b4 b5
        simp only [Out.state] at b1 b2 b3 b4 b5
        have hm' : MidScan pd .restart ((k / frame.mcuSize.width, k % frame.mcuSize.width) :: rest) t' scan frame k :=
          hm.move b3 b1 b5 fun h => by rw [b4]; exact hm.coefficients h
        simp only
        cases pd with
        | true =>
          simp only [if_true]
          have hq := hm'.dequantize (cfg := cfg) hk hrest (hm'.coefficients rfl)
          cases eq : Jpeg.dequantize cfg (k % frame.mcuSize.width) (k / frame.mcuSize.width) t'.dec with
          | fail f d => rw [eq] at hq; exact fun p hp buf => hm'.panics (hq p hp).1 (hq p hp).2
          | ok u d =>
            rw [eq] at hq
            simp only at hq ⊢
            have := ih .row _ _ hq
            revert this
            cases mcuResume cfg true .row rest { t' with dec := d } with
            | done t2 => exact fun h => ⟨h.1, h.2.trans (b2.trans hsuf)⟩
            | wait ph td t2 => exact id
            | failed f t2 => exact id
        | false =>
          simp only [Bool.false_eq_true, if_false]
          have hn : MidScan false .row rest t' scan frame (k + 1) :=
            { hm'.move (ph' := .row) (OnlyScan.refl _) hm'.step rfl (by simp) with
              le := hk
              left := hrest
              planes := by simp }
          have := ih .row _ _ hn
          revert this
          cases mcuResume cfg false .row rest t' with
          | done t2 => exact fun h => ⟨h.1, h.2.trans (b2.trans hsuf)⟩
          | wait ph td t2 => exact id
          | failed f t2 => exact id

/-- The end of a scan. -/
theorem MidScan.finish {cfg : Cfg} {pd : Bool} {ph : Phase} {todo : List (Nat × Nat)} {s : St} {scan : Scan} {frame : Frame}
    (h : MidScan pd ph todo s scan frame (frame.mcuSize.width * frame.mcuSize.height)) :
    match scanEnd s with
    | .ok _ t => DecInv t.dec ∧ t.bi.WF ∧ t.bi.input = s.bi.input
    | .fail f t => ∀ p, f = .panic p → ∀ buf, StreamPanic cfg buf t.dec p := by
  rw [scanEnd_some h.hasScan]
  cases e : takeResults scan.headers s.dec.scanState.results with
  | ok planes =>
    have hd := h.inv
    exact ⟨⟨⟨hd.tables.dc, hd.tables.ac⟩, hd.dc4, hd.ac4, hd.q4, hd.q64, hd.fin4, hd.frame, hd.interval⟩,
      h.step.wf, rfl⟩
  | error f =>
    simp only
    intro p hp
    subst hp
    cases pd with
    | false =>
      rw [h.empty rfl] at e
      match hh : scan.headers with
      | [] => rw [hh] at e; simp [takeResults] at e
      | y :: hs =>
        rw [hh] at e
        simp only [takeResults, List.getElem?_nil, Except.error.injEq, Fail.panic.injEq] at e
        rw [← e]
        obtain ⟨x, hx, w, hw, hwne⟩ := h.unfinished rfl
        exact fun buf => h.panics (OnlyScan.refl _) (.incomplete x w hx hw hwne)
    | true =>
      obtain ⟨bufs, hbl, hbr⟩ := h.planes rfl
      obtain ⟨⟨_, _, hmax, vmax, _, _, hsize, hcg⟩, -, -⟩ := h.inv.frame frame h.hasFrame
      have hpg : ∀ c ∈ frame.components, PlaneGeom frame.mcuSize.width frame.mcuSize.height c := by
        intro c hc
        rw [hsize]
        exact PlaneGeom.of (hcg c hc)
      obtain ⟨ps, hps⟩ := takeResults_ok scan.headers s.dec.scanState.results (by
        intro plane hp x hx
        rw [hbr] at hp
        obtain ⟨i, hi, hpi⟩ := List.getElem_of_mem hp
        rw [planesOf_length] at hi
        have hc : frame.components[i]? = some frame.components[i] := List.getElem?_eq_getElem hi
        have := planesOf_get (W := frame.mcuSize.width) (qf := quantOf s.dec.quantTables) (bufs := bufs) hc
        rw [List.getElem?_eq_getElem (by rw [planesOf_length]; exact hi), hpi] at this
        have := Option.some.inj this
        rw [planeOf_samples _ (by simp [hbl]) (hpg _ (List.getElem_mem hi))] at this
        rw [this] at hx
        obtain ⟨b, -, rfl⟩ := List.mem_map.1 hx
        simp) (by
        intro h' hh
        rw [hbr, planesOf_length]
        exact h.headers h' hh)
      rw [hps] at e
      simp at e

/-! ## Segments -/

theorem Spec.SegmentPanic.real {cfg : Cfg} {file : List UInt8} {p : PanicSite} (h : SegmentPanic cfg file p) :
    p.Real := by
  cases h <;> exact realPanic (by simp) (by simp) (by simp)

theorem Spec.ScanPanic.real {cfg : Cfg} {d : Decoder} {frame : Frame} {scan : Scan} {p : PanicSite}
    (h : ScanPanic cfg d frame scan p) : p.Real := by
  cases h <;> exact realPanic (by simp) (by simp) (by simp)

theorem Spec.RenderPanic.real {cfg : Cfg} {d : Decoder} {p : PanicSite} (h : RenderPanic cfg d p) : p.Real := by
  cases h <;> exact realPanic (by simp) (by simp) (by simp)

theorem Spec.StreamPanic.real {cfg : Cfg} {buf : List UInt8} {d : Decoder} {p : PanicSite}
    (h : StreamPanic cfg buf d p) : p.Real := by
  cases h with
  | segment h => exact h.real
  | scan frame scan _ _ h => exact h.real
  | render h => exact h.real
  | restart h => rw [h]; exact realPanic (by simp) (by simp) (by simp)

theorem SegSafe.stream {cfg : Cfg} {m : Marker} {s : St} {o : Out St Unit} (h : SegSafe cfg m s o) (p : PanicSite)
    (s' : St) (ho : o = .fail (.panic p) s') (pre : List UInt8) :
    StreamPanic cfg (pre ++ markerBytes m ++ s.bi.input) s'.dec p := by
  rcases h.panic p s' ho with h | ⟨-, _, _, h1, h2, h⟩
  · exact .segment (h pre)
  · exact .scan _ _ h1 h2 h

/-- The bytes in front of what the marker parser leaves. -/
theorem marker_front {l : List UInt8} {m : Marker} {rest : List UInt8} (h : marker l = .ok (m, rest)) :
    ∃ pre, l = pre ++ markerBytes m ++ rest := by
  obtain ⟨-, i, ⟨hb1, hb2, -, -⟩, -, hrest⟩ := C36_found _ _ _ h
  refine ⟨l.take i, ?_⟩
  rw [hrest]
  obtain ⟨hi1, hi1'⟩ := List.getElem?_eq_some_iff.1 hb1
  obtain ⟨hi2, hi2'⟩ := List.getElem?_eq_some_iff.1 hb2
  conv_lhs => rw [← List.take_append_drop i l, List.drop_eq_getElem_cons hi1,
    List.drop_eq_getElem_cons hi2, hi1', hi2']
  simp [markerBytes]

theorem scanInit_mid {produce : Bool} {s t : St} {scan : Scan} {frame : Frame} (h : scanInit produce s = .ok () t)
    (hscan : s.dec.scan = some scan) (hframe : s.dec.frame = some frame) (hd : DecInv s.dec) (hwf : s.bi.WF)
    (hseq : frame.markerIndex ≠ 2) (hidx : ∀ h ∈ scan.headers, h.componentIndex < frame.components.length)
    (hfin : produce = false → ∃ h ∈ scan.headers, ∃ w, s.dec.coefficientsFinished[h.componentIndex]? = some w ∧
      w ≠ 2 ^ 64 - 1) :
    MidScan produce .row (mcuList frame.mcuSize) t scan frame 0 := by
  obtain ⟨c1, c2⟩ := scanInit_checks h hscan
  obtain ⟨-, ho, hst, -⟩ := scanInit_safe (cfg := ⟨false, false⟩) (produce := produce) hscan hframe hd hwf
  rw [h] at ho
  have ho : OnlyScan s.dec t.dec := ho
  refine ⟨by rw [ho.scan]; exact hscan, by rw [ho.frame]; exact hframe, hd.onlyScan ho, hst t h, hseq, hidx,
    Nat.zero_le _, by simp, by simp, ?_, ?_, by rw [ho.dcTables]; exact c1, by rw [ho.acTables]; exact c2,
    by rw [ho.finished]; exact hfin⟩
  · rintro rfl
    obtain ⟨f, sc, results, h1, h2, rfl, h4⟩ := scanInit_ok h
    rw [hframe] at h1
    cases h1
    refine ⟨[], rfl, ?_⟩
    rw [lsOf_nil, planesOf_init]
    exact (h4 rfl).1
  · rintro rfl
    unfold scanInit at h
    rw [hscan, hframe] at h
    simp only at h
    split at h
    · cases h
    · cases h
    · split at h
      · cases h
      · cases h
      · simp only [Bool.false_eq_true, if_false, Out.ok.injEq, true_and] at h
        rw [← h]
        rfl

/-- The start of a scan. -/
theorem sosStart_mid {cfg : Cfg} {s s' : St} {pd : Bool} (hd : DecInv s.dec) (hwf : s.bi.WF)
    (h : sosStart cfg s = .ok pd s') :
    ∃ scan frame, MidScan pd .row (mcuList frame.mcuSize) s' scan frame 0 := by
  unfold sosStart at h
  cases hs : segmentBytes cfg s.bi.input with
  | error f => rw [hs] at h; cases h
  | ok r =>
    obtain ⟨payload, rest⟩ := r
    rw [hs] at h
    simp only at h
    cases h1 : sosSegment (s.setInput rest).dec.frame payload with
    | error f => rw [h1] at h; cases h
    | ok r =>
      obtain ⟨scan, unread⟩ := r
      obtain ⟨frame, comps, ss, se, ah, al, hf, -, -, -, -, -, hall, -, -⟩ := sosSegment_inv h1
      rw [h1] at h
      simp only at h
      have hidx : ∀ h ∈ scan.headers, h.componentIndex < frame.components.length := by
        intro h hh
        obtain ⟨i, hi, rfl⟩ := List.mem_iff_getElem.1 hh
        have hlen := hall.length_eq
        have := (List.forall₂_iff_get.1 hall).2 i (by omega) hi
        obtain ⟨⟨⟨c, hc, _⟩, _⟩, _⟩ := this
        exact (List.getElem?_eq_some_iff.1 hc).1
      obtain ⟨hgeo, hne, hmi⟩ := hd.frame frame hf
      cases h2 : (s.setInput rest).dec.frame with
      | none => rw [h2] at h; cases h
      | some frame' =>
        obtain rfl : frame' = frame := by rw [hf] at h2; exact (Option.some.inj h2).symm
        rw [h2] at h
        simp only at h
        rcases codingProcess_of hmi with ⟨h20, hc⟩ | ⟨c, hc, hcne, hnp⟩
        · rw [hc] at h; cases h
        · rw [hc] at h
          cases c with
          | progressive => exact absurd rfl hcne
          | baseline | sequential | lossLess =>
            simp only at h
            cases h4 : (if scan.al = 0 then
              setFinishedAll cfg (inclusiveRange scan.ss scan.se) (scan.headers.map (·.componentIndex))
                (s.setInput rest).dec.coefficientsFinished
              else .ok (s.setInput rest).dec.coefficientsFinished) with
            | error f => rw [h4] at h; cases h
            | ok fin =>
              rw [h4] at h
              simp only at h
              have hfin : fin.length = 4 ∧ ∀ w ∈ fin, w < 2 ^ 64 := by
                split at h4
                · have e1 := (setFinishedAll_safe _ _).1 _ h4
                  exact ⟨e1.trans hd.fin4.1, setFinishedAll_lt _ _ _ hd.fin4.2 h4⟩
                · simp only [Except.ok.injEq] at h4
                  rw [← h4]; exact hd.fin4
              cases h5 : allFinished fin (scan.headers.map (·.componentIndex)) with
              | error f => rw [h5] at h; cases h
              | ok b =>
                rw [h5] at h
                simp only at h
                generalize hi : scanInit b _ = o at h
                cases o with
                | fail f s => cases h
                | ok u s1 =>
                  cases h
                  refine ⟨scan, frame', scanInit_mid hi rfl ?_ ?_ hwf hnp hidx (by
                    rintro rfl
                    obtain ⟨i, hi, w, hw, hw'⟩ := (allFinished_safe _).2 h5
                    obtain ⟨x, hx, rfl⟩ := List.mem_map.1 hi
                    exact ⟨x, hx, w, hw, hw'⟩)⟩
                  · rfl
                  · exact ⟨⟨hd.tables.dc, hd.tables.ac⟩, hd.dc4, hd.ac4, hd.q4, hd.q64, hfin,
                      fun f hff => hd.frame f (hf.trans hff), hd.interval⟩

theorem sosStart_suffix {cfg : Cfg} {s s' : St} {pd : Bool} (h : sosStart cfg s = .ok pd s') :
    s'.bi.input <:+ s.bi.input := by
  unfold sosStart at h
  cases hs : segmentBytes cfg s.bi.input with
  | error f => rw [hs] at h; cases h
  | ok r =>
    obtain ⟨payload, rest⟩ := r
    have hsuf := segmentBytes_suffix hs
    rw [hs] at h
    simp only at h
    split at h
    · cases h
    · split at h
      · cases h
      · split at h
        · cases h
        · cases h
        · split at h
          · cases h
          · split at h
            · cases h
            · generalize hi : scanInit _ _ = o at h
              cases o with
              | fail f s => cases h
              | ok u s1 =>
                cases h
                obtain ⟨_, _, results, _, _, rfl, _⟩ := scanInit_ok hi
                exact hsuf

/-- What a decoder keeps between two calls. -/
def StageInv : Stage → St → Prop
  | .segments, s => DecInv s.dec ∧ s.bi.WF
  | .scan pd ph todo, s => ∃ scan frame k, MidScan pd ph todo s scan frame k

theorem scanStep_inv {cfg : Cfg} {pd : Bool} {ph : Phase} {todo : List (Nat × Nat)} {s : St} {scan : Scan}
    {frame : Frame} {k : Nat} (h : MidScan pd ph todo s scan frame k) :
    match scanStep cfg pd ph todo s with
    | .next t => StageInv .segments t ∧ t.bi.input <:+ s.bi.input
    | .wait st t => StageInv st t
    | .eoi _ => False
    | .failed f t => ∀ p, f = .panic p → ∀ buf, StreamPanic cfg buf t.dec p := by
  have hm := mcuResume_inv (cfg := cfg) todo ph s k h
  unfold scanStep
  cases e : mcuResume cfg pd ph todo s with
  | wait ph' td t =>
    rw [e] at hm
    obtain ⟨k', hm⟩ := hm
    exact ⟨scan, frame, k', hm⟩
  | failed f t => rw [e] at hm; exact hm
  | done t =>
    rw [e] at hm
    obtain ⟨hm, hs⟩ := hm
    have hf := hm.finish (cfg := cfg)
    simp only
    cases e2 : scanEnd t with
    | fail f t' => rw [e2] at hf; exact hf
    | ok u t' =>
      rw [e2] at hf
      obtain ⟨h1, h2, h3⟩ := hf
      exact ⟨⟨h1, h2⟩, by rw [h3]; exact hs⟩

theorem segmentStep_inv {cfg : Cfg} {buf : List UInt8} {s : St} (hd : DecInv s.dec) (hwf : s.bi.WF)
    (hbuf : s.bi.input <:+ buf) :
    match segmentStep cfg s with
    | .next t => StageInv .segments t ∧ t.bi.input <:+ s.bi.input ∧ t.bi.input.length < s.bi.input.length
    | .wait st t => StageInv st t
    | .eoi t => DecInv t.dec ∧ t.bi.WF
    | .failed f t => ∀ p, f = .panic p → StreamPanic cfg buf t.dec p := by
  unfold segmentStep
  cases em : marker s.bi.input with
  | error f =>
    simp only
    by_cases hf : f = .eof
    · rw [if_pos hf]; exact ⟨hd, hwf⟩
    · rw [if_neg hf]
      rintro p rfl
      exact absurd em (marker_noPanic _ _)
  | ok r =>
    obtain ⟨m, rest⟩ := r
    have hl := marker_length em
    have hms := marker_suffix em
    obtain ⟨pre, hpre⟩ : ∃ pre, buf = pre ++ markerBytes m ++ rest := by
      obtain ⟨a, ha⟩ := marker_front em
      obtain ⟨b, hb⟩ := hbuf
      exact ⟨b ++ a, by rw [← hb, ha]; simp⟩
    simp only
    by_cases h1 : m = .EOI
    · rw [if_pos h1]; exact ⟨hd, hwf⟩
    · rw [if_neg h1]
      by_cases h2 : m = .SOS
      · rw [if_pos h2]
        have hsafe := sos_safe (cfg := cfg) (s := s.setInput rest) hd hwf
        rw [sos_eq] at hsafe
        cases e : sosStart cfg (s.setInput rest) with
        | fail f s' =>
          rw [e] at hsafe
          simp only
          by_cases hf : f = .eof
          · rw [if_pos hf]; exact ⟨hsafe.inv, hsafe.wf⟩
          · rw [if_neg hf]
            rintro p rfl
            rw [hpre, h2]
            exact hsafe.stream p s' rfl pre
        | ok pd s' =>
          obtain ⟨scan, frame, hm⟩ := sosStart_mid (s := s.setInput rest) hd hwf e
          obtain ⟨-, _, _, -, -, hlen, -, -⟩ := sosStart_facts e
          have hs := scanStep_inv (cfg := cfg) hm
          simp only [hm.hasFrame]
          revert hs
          cases scanStep cfg pd .row (mcuList frame.mcuSize) s' with
          | next t =>
            rintro ⟨a, b⟩
            have hlen : s'.bi.input.length ≤ rest.length := hlen
            have := b.length_le
            exact ⟨a, b.trans ((sosStart_suffix (s := s.setInput rest) e).trans hms), by omega⟩
          | wait st t => exact id
          | eoi t => exact False.elim
          | failed f t => exact fun h p hp => h p hp buf
      · rw [if_neg h2]
        have hsafe := doSegment_safe (cfg := cfg) (C36_found _ _ _ em).1 (s := s.setInput rest) hd hwf
        cases e : doSegment cfg m (s.setInput rest) with
        | fail f s' =>
          rw [e] at hsafe
          simp only
          by_cases hf : f = .eof
          · rw [if_pos hf]; exact ⟨hsafe.inv, hsafe.wf⟩
          · rw [if_neg hf]
            rintro p rfl
            rw [hpre]
            exact hsafe.stream p s' rfl pre
        | ok u s' =>
          rw [e] at hsafe
          refine ⟨⟨hsafe.inv, hsafe.wf⟩, hsafe.suffix.trans hms, ?_⟩
          have := hsafe.suffix.length_le
          have : s'.bi.input.length ≤ rest.length := this
          omega

/-- A call: the loop bound of the model is never reached, panics are panics of the program, and what is
kept satisfies the invariant. -/
theorem codecRun_inv {cfg : Cfg} {buf : List UInt8} : ∀ (fuel : Nat) (st : Stage) (s : St), StageInv st s →
    s.bi.input <:+ buf →
    (match st with
      | .segments => s.bi.input.length + 1
      | .scan _ _ _ => s.bi.input.length + 2) ≤ fuel →
    match codecRun cfg fuel st s with
    | .pending c => StageInv c.stage c.st
    | .image _ c => StageInv c.stage c.st
    | .failed f t => ∀ p, f = .panic p → StreamPanic cfg buf t.dec p := by
  intro fuel
  induction fuel with
  | zero => intro st s _ _ h; cases st <;> simp at h
  | succ fuel ih =>
    intro st s hs hb hl
    rw [codecRun]
    have key : match stageStep cfg st s with
        | .next t => StageInv .segments t ∧ t.bi.input <:+ buf ∧ t.bi.input.length + 1 ≤ fuel
        | .wait st t => StageInv st t
        | .eoi t => DecInv t.dec ∧ t.bi.WF
        | .failed f t => ∀ p, f = .panic p → StreamPanic cfg buf t.dec p := by
      cases st with
      | segments =>
        have := segmentStep_inv (cfg := cfg) hs.1 hs.2 hb
        simp only at hl
        show match segmentStep cfg s with
          | .next t => StageInv .segments t ∧ t.bi.input <:+ buf ∧ t.bi.input.length + 1 ≤ fuel
          | .wait st t => StageInv st t
          | .eoi t => DecInv t.dec ∧ t.bi.WF
          | .failed f t => ∀ p, f = .panic p → StreamPanic cfg buf t.dec p
        revert this
        cases segmentStep cfg s with
        | next t => rintro ⟨a, b, c⟩; exact ⟨a, b.trans hb, by omega⟩
        | wait st t => exact id
        | eoi t => exact id
        | failed f t => exact id
      | scan pd ph todo =>
        obtain ⟨scan, frame, k, hm⟩ := hs
        have := scanStep_inv (cfg := cfg) hm
        simp only at hl
        show match scanStep cfg pd ph todo s with
          | .next t => StageInv .segments t ∧ t.bi.input <:+ buf ∧ t.bi.input.length + 1 ≤ fuel
          | .wait st t => StageInv st t
          | .eoi t => DecInv t.dec ∧ t.bi.WF
          | .failed f t => ∀ p, f = .panic p → StreamPanic cfg buf t.dec p
        revert this
        cases scanStep cfg pd ph todo s with
        | next t => rintro ⟨a, b⟩; have := b.length_le; exact ⟨a, b.trans hb, by omega⟩
        | wait st t => exact id
        | eoi t => exact False.elim
        | failed f t => exact fun h p hp => h p hp buf
    cases e : stageStep cfg st s with
    | next t => rw [e] at key; exact ih .segments t key.1 key.2.1 key.2.2
    | wait st' t => rw [e] at key; exact key
    | failed f t => rw [e] at key; exact key
    | eoi t =>
      rw [e] at key
      simp only
      cases eu : upsample cfg t.dec with
      | ok img => exact key
      | error f =>
        cases f with
        | panic p =>
          rintro p' h
          cases h
          exact .render (upsample_panic key.1 eu)
        | _ => exact key

end Jpeg
