import Verif.Proofs.Inv
/-!
# Every way a scan can fail
-/

namespace Jpeg
open Spec Biterator

/-- A failing loop fails in one of its steps, after the earlier ones went well. -/
theorem mcuLoop_fail {cfg : Cfg} {produce : Bool} : ∀ (l : List (Nat × Nat)) (s s' : St) (f : Fail),
    mcuLoop cfg produce l s = .fail f s' →
    ∃ k yx sk, l[k]? = some yx ∧ mcuLoop cfg produce (l.take k) s = .ok () sk ∧
      mcuStep cfg produce yx.1 yx.2 sk = .fail f s' := by
  intro l
  induction l with
  | nil => intro s s' f h; simp [mcuLoop] at h
  | cons a l ih =>
    intro s s' f h
    obtain ⟨y, x⟩ := a
    rw [mcuLoop] at h
    cases e : mcuStep cfg produce y x s with
    | fail g s1 =>
      rw [e] at h
      simp only [Out.bind_fail] at h
      exact ⟨0, (y, x), s, rfl, rfl, e.trans h⟩
    | ok u s1 =>
      rw [e, Out.bind_ok] at h
      obtain ⟨k, yx, sk, h1, h2, h3⟩ := ih s1 s' f h
      refine ⟨k + 1, yx, sk, by simpa using h1, ?_, h3⟩
      rw [List.take_succ_cons, mcuLoop, e, Out.bind_ok]
      exact h2

/-- What holds at every point of a scan. -/
structure InScan (s : St) (t : St) : Prop where
  step : StepInv t
  suffix : t.bi.input <:+ s.bi.input
  only : OnlyScan s.dec t.dec

theorem InScan.refl {s : St} (h : StepInv s) : InScan s s := ⟨h, List.suffix_refl _, rfl⟩

theorem InScan.trans {a b c : St} (h1 : InScan a b) (h2 : InScan b c) : InScan a c :=
  ⟨h2.step, h2.suffix.trans h1.suffix, h1.only.trans h2.only⟩

theorem dequantize_only {cfg : Cfg} {x y : Nat} {d : Decoder} :
    OnlyScan d (dequantize cfg x y d).state ∧
    (dequantize cfg x y d).state.scanState.eobRun = d.scanState.eobRun ∧
    (dequantize cfg x y d).state.scanState.dcPredictors = d.scanState.dcPredictors := by
  unfold dequantize
  split
  · exact ⟨rfl, rfl, rfl⟩
  · split
    · exact ⟨rfl, rfl, rfl⟩
    · exact ⟨rfl, rfl, rfl⟩
    · split <;> exact ⟨rfl, rfl, rfl⟩

theorem mcuStep_inScan {cfg : Cfg} {produce : Bool} {y x : Nat} {s : St} {scan : Scan} {frame : Frame}
    (hscan : s.dec.scan = some scan) (hframe : s.dec.frame = some frame) (hd : DecInv s.dec)
    (h : StepInv s) : InScan s (mcuStep cfg produce y x s).state := by
  obtain ⟨a1, a2, a3, -, -⟩ := decodeRow_safe hscan hframe hd.tables h
  unfold mcuStep
  cases e1 : decodeRow s with
  | fail f s1 => rw [e1] at a1 a2 a3; exact ⟨a1, a2, a3⟩
  | ok u s1 =>
    rw [e1] at a1 a2 a3
    simp only [Out.state] at a1 a2 a3
    rw [Out.bind_ok]
    have b := restartParser_safe (cfg := cfg) (x := x) (y := y) a1
    cases e2 : restartParser cfg x y s1 with
    | fail f s2 =>
      rw [e2] at b
      simp only [Out.state] at b
      exact ⟨b.1, b.2.1.trans a2, a3.trans b.2.2.1⟩
    | ok u s2 =>
      rw [e2] at b
      simp only [Out.state] at b
      obtain ⟨b1, b2, b3, -⟩ := b
      rw [Out.bind_ok]
      have h2 : InScan s s2 := ⟨b1, b2.trans a2, a3.trans b3⟩
      split
      · obtain ⟨c1, c2, c3⟩ := dequantize_only (cfg := cfg) (x := x) (y := y) (d := s2.dec)
        split
        · rename_i d' e3
          rw [e3] at c1 c2 c3
          simp only [Out.state] at c1 c2 c3
          exact ⟨⟨b1.wf, by simpa only [Out.state, c2] using b1.eob, by simpa only [Out.state, c3] using b1.preds⟩,
            h2.suffix, h2.only.trans c1⟩
        · rename_i f d' e3
          rw [e3] at c1 c2 c3
          simp only [Out.state] at c1 c2 c3
          exact ⟨⟨b1.wf, by simpa only [Out.state, c2] using b1.eob, by simpa only [Out.state, c3] using b1.preds⟩,
            h2.suffix, h2.only.trans c1⟩
      · exact h2

theorem mcuLoop_inScan {cfg : Cfg} {produce : Bool} : ∀ (l : List (Nat × Nat)) {s : St} {scan : Scan}
    {frame : Frame}, s.dec.scan = some scan → s.dec.frame = some frame → DecInv s.dec → StepInv s →
    InScan s (mcuLoop cfg produce l s).state := by
  intro l
  induction l with
  | nil => intro s scan frame _ _ _ h; exact InScan.refl h
  | cons a l ih =>
    intro s scan frame hscan hframe hd h
    obtain ⟨y, x⟩ := a
    have h1 := mcuStep_inScan (cfg := cfg) (produce := produce) (y := y) (x := x) hscan hframe hd h
    rw [mcuLoop]
    cases e : mcuStep cfg produce y x s with
    | fail f s1 => rw [e] at h1; exact h1
    | ok u s1 =>
      rw [e] at h1
      simp only [Out.state] at h1
      rw [Out.bind_ok]
      exact h1.trans (ih (by rw [h1.only.scan]; exact hscan) (by rw [h1.only.frame]; exact hframe)
        (hd.onlyScan h1.only) h1.step)

theorem codingProcess_of {f : Frame} (h : f.markerIndex ≤ 2) :
    (f.markerIndex = 2 ∧ f.codingProcess = .ok .progressive) ∨
      ∃ c, f.codingProcess = .ok c ∧ c ≠ .progressive ∧ f.markerIndex ≠ 2 := by
  unfold Frame.codingProcess
  rcases (show f.markerIndex = 0 ∨ f.markerIndex = 1 ∨ f.markerIndex = 2 by omega) with e | e | e
  · right; exact ⟨.baseline, by simp [e], by simp, by omega⟩
  · right; exact ⟨.sequential, by simp [e], by simp, by omega⟩
  · left; exact ⟨e, by simp [e]⟩

/-- A missing table, in terms of the scan header. -/
theorem selPanic_reason {cfg : Cfg} {d : Decoder} (hd : DecInv d) {frame : Frame} {scan : Scan}
    {h : ScanHeader} (hm : h ∈ scan.headers)
    (hdc : scan.ss = 0 → anyUnset d.dcTables (scan.headers.map (·.dcSel)) = .ok false)
    (hac : scan.se > 1 → anyUnset d.acTables (scan.headers.map (·.acSel)) = .ok false)
    {p : PanicSite} (hp : SelPanic d h p) : ScanPanic cfg d frame scan p := by
  have no : ∀ {α : Type} (ts : List (Option α)) (sel : List Nat), anyUnset ts sel = .ok false →
      ∀ i ∈ sel, ∃ t, ts[i]? = some (some t) := by
    intro α ts sel
    induction sel with
    | nil => intro _ i hi; simp at hi
    | cons a sel ih =>
      intro h i hi
      rw [anyUnset] at h
      split at h
      · simp at h
      · simp at h
      · rename_i t ht
        rw [List.mem_cons] at hi
        rcases hi with rfl | hi
        · exact ⟨t, ht⟩
        · exact ih h i hi
  rcases hp with ⟨rfl, h1⟩ | ⟨rfl, h1⟩ | ⟨rfl, h1⟩
  · refine .selector h hm ?_
    rcases h1 with h1 | h1
    · left; have := List.getElem?_eq_none_iff.1 h1; rw [hd.dc4] at this; exact this
    · right; have := List.getElem?_eq_none_iff.1 h1; rw [hd.ac4] at this; exact this
  · refine .missingDc h hm h1 fun h0 => ?_
    obtain ⟨t, ht⟩ := no _ _ (hdc h0) h.dcSel (List.mem_map.2 ⟨h, hm, rfl⟩)
    rw [h1] at ht; simp at ht
  · refine .missingAc h hm h1 ?_
    by_contra h0
    obtain ⟨t, ht⟩ := no _ _ (hac (by omega)) h.acSel (List.mem_map.2 ⟨h, hm, rfl⟩)
    rw [h1] at ht; simp at ht

/-- What the start of a scan checks. -/
theorem scanInit_checks {produce : Bool} {s s0 : St} (h : scanInit produce s = .ok () s0) {scan : Scan}
    (hs : s.dec.scan = some scan) :
    (scan.ss = 0 → anyUnset s.dec.dcTables (scan.headers.map (·.dcSel)) = .ok false) ∧
    (scan.se > 1 → anyUnset s.dec.acTables (scan.headers.map (·.acSel)) = .ok false) := by
  unfold scanInit at h
  rw [hs] at h
  split at h
  · rename_i frame scan' hf hs'
    obtain rfl := Option.some.inj hs'
    split at h
    · simp at h
    · simp at h
    · rename_i h1
      split at h
      · simp at h
      · simp at h
      · rename_i h2
        refine ⟨fun h0 => ?_, fun h0 => ?_⟩
        · rw [if_pos h0] at h1; exact h1
        · rw [if_pos h0] at h2; exact h2
  · simp at h

theorem anyUnset_fail {α : Type} {ts : List (Option α)} : ∀ {sel : List Nat} {f : Fail},
    anyUnset ts sel = .error f → f = .panic .index ∧ ∃ i ∈ sel, ts.length ≤ i := by
  intro sel
  induction sel with
  | nil => intro f h; simp [anyUnset] at h
  | cons a sel ih =>
    intro f h
    rw [anyUnset] at h
    split at h
    · rename_i h1
      simp only [Except.error.injEq] at h
      exact ⟨h.symm, a, by simp, List.getElem?_eq_none_iff.1 h1⟩
    · simp at h
    · obtain ⟨h1, i, h2, h3⟩ := ih h
      exact ⟨h1, i, by simp [h2], h3⟩

theorem scanInit_safe {cfg : Cfg} {produce : Bool} {s : St} {scan : Scan} {frame : Frame}
    (hscan : s.dec.scan = some scan) (hframe : s.dec.frame = some frame) (hd : DecInv s.dec) (hwf : s.bi.WF) :
    (scanInit produce s).state.bi = s.bi ∧ OnlyScan s.dec (scanInit produce s).state.dec ∧
    (∀ s0, scanInit produce s = .ok () s0 → StepInv s0) ∧
    ∀ p s', scanInit produce s = .fail (.panic p) s' → ScanPanic cfg s.dec frame scan p := by
  have i0 : ∀ p ∈ List.replicate MAX_COMPONENTS (0 : Int), IsI16 p := by
    intro p hp
    rw [List.mem_replicate] at hp
    rw [hp.2]
    unfold IsI16
    omega
  refine ⟨?_, ?_, ?_, ?_⟩
  · unfold scanInit
    rw [hscan, hframe]
    simp only
    split
    · rfl
    · rfl
    · split
      · rfl
      · rfl
      · split
        · split <;> rfl
        · rfl
  · unfold scanInit
    rw [hscan, hframe]
    simp only
    split
    · rfl
    · rfl
    · split
      · rfl
      · rfl
      · split
        · split <;> rfl
        · rfl
  · intro s0 h
    obtain ⟨_, _, results, _, _, rfl, _⟩ := scanInit_ok h
    exact ⟨hwf, by simp [ScanState.default], i0⟩
  · intro p s' h
    unfold scanInit at h
    rw [hscan, hframe] at h
    simp only at h
    split at h
    · rename_i f h1
      simp only [Out.fail.injEq] at h
      split at h1
      · obtain ⟨rfl, i, hi, hle⟩ := anyUnset_fail h1
        rw [hd.dc4] at hle
        obtain ⟨x, hx, rfl⟩ := List.mem_map.1 hi
        have := h.1
        simp only [Fail.panic.injEq] at this
        rw [← this]
        exact .selector x hx (.inl hle)
      · simp at h1
    · simp at h
    · split at h
      · rename_i f h1
        simp only [Out.fail.injEq] at h
        split at h1
        · obtain ⟨rfl, i, hi, hle⟩ := anyUnset_fail h1
          rw [hd.ac4] at hle
          obtain ⟨x, hx, rfl⟩ := List.mem_map.1 hi
          have := h.1
          simp only [Fail.panic.injEq] at this
          rw [← this]
          exact .selector x hx (.inr hle)
        · simp at h1
      · simp at h
      · split at h
        · split at h
          · rename_i h4
            simp only [Out.fail.injEq, Fail.panic.injEq] at h
            rw [← h.1]
            exact .manyComponents h4
          · simp at h
        · simp at h

/-- The planes during the loop, whatever was decoded. -/
theorem mcuLoop_planes' {cfg : Cfg} {s : St} {frame : Frame} {s0 : St} (hgeo : FrameGeometry frame)
    (hf : s.dec.frame = some frame) (h0 : scanInit true s = .ok () s0) (k : Nat) (s1 : St)
    (hk : k ≤ frame.mcuSize.width * frame.mcuSize.height)
    (h : mcuLoop cfg true ((mcuList frame.mcuSize).take k) s0 = .ok () s1) :
    ∃ bufs : List (List (List Int)), bufs.length = k ∧
        s1.dec.scanState.results = planesOf frame.mcuSize.width (quantOf s.dec.quantTables)
          frame.components (lsOf frame.components bufs) := by
  obtain ⟨-, -, -, bufs, h1, h2, -⟩ := mcuLoop_planes hgeo hf h0 k s1 hk h
  exact ⟨bufs, h1, h2⟩

/-- A step that panics. -/
theorem mcuStep_panic {cfg : Cfg} {produce : Bool} {s s0 sk : St} {scan : Scan} {frame : Frame} {k : Nat}
    (hscan : s.dec.scan = some scan) (hframe : s.dec.frame = some frame) (hd : DecInv s.dec) (hwf : s.bi.WF)
    (hnp : frame.markerIndex ≠ 2)
    (h0 : scanInit produce s = .ok () s0) (hk : k < frame.mcuSize.width * frame.mcuSize.height)
    (hl : mcuLoop cfg produce ((mcuList frame.mcuSize).take k) s0 = .ok () sk) {p : PanicSite} {s' : St}
    (h : mcuStep cfg produce (k / frame.mcuSize.width) (k % frame.mcuSize.width) sk = .fail (.panic p) s') :
    ScanPanic cfg s.dec frame scan p := by
  obtain ⟨hgeo, hne, hmi⟩ := hd.frame frame hframe
  obtain ⟨-, i2, i3, -⟩ := scanInit_safe (cfg := cfg) (produce := produce) hscan hframe hd hwf
  have i3 := i3 s0 h0
  rw [h0] at i2
  simp only [Out.state] at i2
  have hsc0 : s0.dec.scan = some scan := by rw [i2.scan]; exact hscan
  have hfr0 : s0.dec.frame = some frame := by rw [i2.frame]; exact hframe
  have hk1 := mcuLoop_inScan (cfg := cfg) (produce := produce) ((mcuList frame.mcuSize).take k) hsc0 hfr0
    (hd.onlyScan i2) i3
  rw [hl] at hk1
  simp only [Out.state] at hk1
  have honly : OnlyScan s.dec sk.dec := i2.trans hk1.only
  have hrst := mcuLoop_rst (cfg := cfg) (produce := produce) hd.interval (scanInit_rst h0 hframe) k sk hk hl
  have hscK : sk.dec.scan = some scan := by rw [honly.scan]; exact hscan
  have hfrK : sk.dec.frame = some frame := by rw [honly.frame]; exact hframe
  have hdK := hd.onlyScan honly
  obtain ⟨a1, a2, a3, a4, a5⟩ := decodeRow_safe hscK hfrK hdK.tables hk1.step
  unfold mcuStep at h
  cases e1 : decodeRow sk with
  | fail f s1 =>
    rw [e1] at h
    simp only [Out.bind_fail, Out.fail.injEq] at h
    obtain ⟨rfl, rfl⟩ := h
    obtain ⟨x, hx, hp⟩ := a5 p s1 e1
    obtain ⟨c1, c2⟩ := scanInit_checks h0 hscan
    refine selPanic_reason hd hx c1 c2 ?_
    unfold SelPanic at hp ⊢
    rw [honly.dcTables, honly.acTables] at hp
    exact hp
  | ok u s1 =>
    rw [e1] at a1 a2 a3
    simp only [Out.state] at a1 a2 a3
    rw [e1, Out.bind_ok] at h
    have hr1 : RstAt s.dec.restartInterval frame k s1 := by
      obtain ⟨coef, preds, eob, bi, rfl⟩ := decodeRow_keeps e1
      exact ⟨hrst.interval, hrst.frame, hrst.left, hrst.expected⟩
    have hres1 : s1.dec.scanState.results = sk.dec.scanState.results := by
      obtain ⟨coef, preds, eob, bi, rfl⟩ := decodeRow_keeps e1
      rfl
    cases e2 : restartParser cfg (k % frame.mcuSize.width) (k / frame.mcuSize.width) s1 with
    | fail f s2 =>
      rw [e2] at h
      simp only [Out.bind_fail, Out.fail.injEq] at h
      obtain ⟨rfl, rfl⟩ := h
      exact absurd e2 (restartParser_noPanic hd.interval hr1 hk _ _)
    | ok u s2 =>
      have b := restartParser_safe (cfg := cfg) (x := k % frame.mcuSize.width)
        (y := k / frame.mcuSize.width) a1
      rw [e2] at b
      simp only [Out.state] at b
      obtain ⟨b1, b2, b3, b4⟩ := b
      rw [e2, Out.bind_ok] at h
      split at h
      · rename_i hpr
        subst hpr
        split at h
        · simp at h
        · rename_i f d' e3
          simp only [Out.fail.injEq] at h
          obtain ⟨rfl, -⟩ := h
          have ho2 : OnlyScan s.dec s2.dec := (honly.trans a3).trans b3
          have hres2 : s2.dec.scanState.results = s1.dec.scanState.results := by
            have := restartParser_at (cfg := cfg) hd.interval hr1 hk
            by_cases hdue : RstDue s.dec.restartInterval (frame.mcuSize.width * frame.mcuSize.height) k
            · obtain ⟨h3, h4⟩ := this.1 hdue
              cases hm : marker s1.bi.input with
              | error f => obtain ⟨_, h5⟩ := h3 f hm; rw [h5] at e2; simp at e2
              | ok q =>
                obtain ⟨m, rest⟩ := q
                obtain ⟨h5, h6⟩ := h4 m rest hm
                by_cases hmr : m = .RST (k / s.dec.restartInterval % 8)
                · rw [h5 hmr] at e2
                  simp only [Out.ok.injEq, true_and] at e2
                  rw [← e2]; rfl
                · obtain ⟨_, _, h7, _⟩ := h6 hmr
                  rw [h7] at e2; simp at e2
            · obtain ⟨left, h3, _⟩ := this.2 hdue
              rw [h3] at e2
              simp only [Out.ok.injEq, true_and] at e2
              rw [← e2]
          obtain ⟨bufs, hbl, hbr⟩ := mcuLoop_planes' hgeo hframe h0 k sk (by omega) hl
          obtain ⟨_, _, hmax, vmax, _, _, hsize, hcg⟩ := hgeo
          have hpg : ∀ c ∈ frame.components, PlaneGeom frame.mcuSize.width frame.mcuSize.height c := by
            intro c hc
            rw [hsize]
            exact PlaneGeom.of (hcg c hc)
          have hcoef : s2.dec.scanState.mcuRowCoefficients.length = 10 := by rw [b4]; exact a4 s1 e1
          unfold dequantize at e3
          rw [ho2.frame, hframe] at e3
          simp only at e3
          rcases codingProcess_of hmi with ⟨h2, -⟩ | ⟨c, hc, hcne, -⟩
          · exact absurd h2 hnp
          · rw [hc] at e3
            cases c with
            | progressive => exact absurd rfl hcne
            | _ =>
              simp only at e3
              split at e3
              · rename_i g hg
                simp only [Out.fail.injEq] at e3
                obtain ⟨rfl, -⟩ := e3
                rw [ho2.quantTables, hres2, hres1, hbr] at hg
                have quant : ∀ chunks : List (List Int), mcuBlocks frame.components ≤ chunks.length →
                    dequantComponents cfg s.dec.quantTables (k % frame.mcuSize.width)
                      (k / frame.mcuSize.width) frame.components
                      (planesOf frame.mcuSize.width (quantOf s.dec.quantTables) frame.components
                        (lsOf frame.components bufs)) chunks = .error (.panic p) →
                    ScanPanic cfg s.dec frame scan p := by
                  intro chunks hlen he
                  obtain ⟨c, hc, hr⟩ := dequantComponents_fail (quantOf s.dec.quantTables)
                    (fun c q hq => quantOf_eq hq) hk frame.components (lsOf frame.components bufs) chunks _
                    hpg (by simp [lsOf]) (by
                      intro l hl
                      simp only [lsOf, List.mem_map] at hl
                      obtain ⟨i, _, rfl⟩ := hl
                      simp [hbl]) hlen he
                  rcases hr with ⟨h1, h2⟩ | ⟨h1, h2⟩
                  · simp only [Fail.panic.injEq] at h2
                    rw [h2]
                    refine .quantSelector c hc ?_
                    have := List.getElem?_eq_none_iff.1 h1
                    rw [hd.q4] at this
                    exact this
                  · simp only [Fail.panic.injEq] at h2
                    rw [h2]
                    exact .missingQuant c hc h1
                by_cases hle : mcuBlocks frame.components ≤ 10
                · exact quant _ (by omega) hg
                · rcases dequantComponents_more (List.replicate (mcuBlocks frame.components) []) _ _ _ _ hg
                    with h | h
                  · simp only [Fail.panic.injEq] at h
                    rw [h]
                    exact .manyBlocks (by unfold mcuBlocks at hle; omega)
                  · exact quant _ (by simp) h
              · simp at e3
      · simp at h

theorem takeResults_ok : ∀ (hs : List ScanHeader) (results : List (List (Option UInt8))),
    (∀ plane ∈ results, ∀ x ∈ plane, x ≠ none) → (∀ h ∈ hs, h.componentIndex < results.length) →
    ∃ planes, takeResults hs results = .ok planes := by
  intro hs
  induction hs with
  | nil => intro results _ _; exact ⟨[], rfl⟩
  | cons a hs ih =>
    intro results h hi
    rw [takeResults, List.getElem?_eq_getElem (hi a (by simp))]
    obtain ⟨p, ep, _⟩ := initPlane_all (h _ (List.getElem_mem (hi a (by simp))))
    obtain ⟨ps, e⟩ := ih (results.set a.componentIndex []) (by
      intro plane hp
      rcases List.mem_or_eq_of_mem_set hp with h' | rfl
      · exact h plane h'
      · simp) (by intro x hx; rw [List.length_set]; exact hi x (by simp [hx]))
    simp only [ep, e]
    exact ⟨_, rfl⟩

/-- A scan keeps the invariant and only panics for the reasons listed. -/
theorem decodeScan_safe {cfg : Cfg} {produce : Bool} {s : St} {scan : Scan} {frame : Frame}
    (hscan : s.dec.scan = some scan) (hframe : s.dec.frame = some frame) (hd : DecInv s.dec) (hwf : s.bi.WF)
    (hnp : frame.markerIndex ≠ 2) (hidx : ∀ h ∈ scan.headers, h.componentIndex < frame.components.length)
    (hfin : produce = false → ∃ h ∈ scan.headers, ∃ w, s.dec.coefficientsFinished[h.componentIndex]? = some w ∧
      w ≠ 2 ^ 64 - 1) :
    let o := decodeScan cfg produce s
    o.state.bi.WF ∧ o.state.bi.input <:+ s.bi.input ∧
    (∃ ss planes, o.state.dec = { s.dec with scanState := ss, planes := planes }) ∧
    ∀ p s', o = .fail (.panic p) s' → ScanPanic cfg s.dec frame scan p := by
  obtain ⟨hgeo, hne, hmi⟩ := hd.frame frame hframe
  obtain ⟨i1, i2, i3, i4⟩ := scanInit_safe (cfg := cfg) (produce := produce) hscan hframe hd hwf
  simp only
  unfold decodeScan
  have form : ∀ {d' : Decoder}, OnlyScan s.dec d' →
      ∃ ss planes, d' = { s.dec with scanState := ss, planes := planes } := by
    intro d' h
    exact ⟨d'.scanState, s.dec.planes, h⟩
  cases e0 : scanInit produce s with
  | fail f s0 =>
    rw [e0] at i1 i2
    simp only [Out.state] at i1 i2
    refine ⟨?_, ?_, form i2, ?_⟩
    · show s0.bi.WF
      rw [i1]; exact hwf
    · show s0.bi.input <:+ _
      rw [i1]
    · intro p s' h
      simp only [Out.bind_fail, Out.fail.injEq] at h
      exact i4 p s' (by rw [e0, h.1, h.2])
  | ok u s0 =>
    rw [e0] at i1 i2
    simp only [Out.state] at i1 i2
    have hsc0 : s0.dec.scan = some scan := by rw [i2.scan]; exact hscan
    have hfr0 : s0.dec.frame = some frame := by rw [i2.frame]; exact hframe
    have hk1 := mcuLoop_inScan (cfg := cfg) (produce := produce) (mcuList frame.mcuSize) hsc0 hfr0
      (hd.onlyScan i2) (i3 s0 e0)
    rw [Out.bind_ok, hfr0, hsc0]
    simp only
    cases e1 : mcuLoop cfg produce (mcuList frame.mcuSize) s0 with
    | fail f s1 =>
      rw [e1] at hk1
      simp only [Out.state] at hk1
      refine ⟨hk1.step.wf, ?_, form (i2.trans hk1.only), ?_⟩
      · show s1.bi.input <:+ _
        rw [← i1]; exact hk1.suffix
      · intro p s' h
        simp only [Out.bind_fail, Out.fail.injEq] at h
        obtain ⟨rfl, rfl⟩ := h
        obtain ⟨k, yx, sk, h1, h2, h3⟩ := mcuLoop_fail _ _ _ _ e1
        rw [mcuList_eq, List.getElem?_map] at h1
        have hk : k < frame.mcuSize.width * frame.mcuSize.height := by
          by_contra hn
          rw [List.getElem?_eq_none (by simp; omega)] at h1
          simp at h1
        rw [List.getElem?_range hk] at h1
        simp only [Option.map_some, Option.some.injEq] at h1
        subst h1
        exact mcuStep_panic hscan hframe hd hwf hnp e0 hk h2 h3
    | ok u s1 =>
      rw [e1] at hk1
      simp only [Out.state] at hk1
      have honly := i2.trans hk1.only
      rw [Out.bind_ok]
      have hsuf : s1.bi.input <:+ s.bi.input := by rw [← i1]; exact hk1.suffix
      split
      · rename_i f e2
        refine ⟨hk1.step.wf, hsuf, form honly, ?_⟩
        intro p s' h
        simp only [Out.fail.injEq] at h
        obtain ⟨rfl, rfl⟩ := h
        cases produce with
        | false =>
          obtain ⟨x, hx, w, hw, hwne⟩ := hfin rfl
          have : p = .index := by
            have hres : s1.dec.scanState.results = [] := by
              have key : ∀ (l : List (Nat × Nat)) (a b : St), mcuLoop cfg false l a = .ok () b →
                  b.dec.scanState.results = a.dec.scanState.results := by
                intro l
                induction l with
                | nil => intro a b h; simp only [mcuLoop, Out.ok.injEq, true_and] at h; rw [h]
                | cons yx l ih =>
                  intro a b h
                  obtain ⟨y, x⟩ := yx
                  rw [mcuLoop] at h
                  cases e : mcuStep cfg false y x a with
                  | fail f a1 => rw [e] at h; simp at h
                  | ok u a1 =>
                    rw [e, Out.bind_ok] at h
                    rw [ih a1 b h]
                    unfold mcuStep at e
                    cases e1 : decodeRow a with
                    | fail f c => rw [e1] at e; simp at e
                    | ok u c =>
                      rw [e1, Out.bind_ok] at e
                      obtain ⟨coef, preds, eob, bi, rfl⟩ := decodeRow_keeps e1
                      generalize hc : (⟨{ a.dec with scanState := { a.dec.scanState with
                        mcuRowCoefficients := coef, dcPredictors := preds, eobRun := eob } }, bi⟩ : St) = c at e
                      have hcr : c.dec.scanState.results = a.dec.scanState.results := by rw [← hc]
                      cases e2 : restartParser cfg x y c with
                      | fail f c2 => rw [e2] at e; simp at e
                      | ok u c2 =>
                        rw [e2, Out.bind_ok] at e
                        simp only [Bool.false_eq_true, if_false, Out.ok.injEq, true_and] at e
                        subst e
                        rw [← hcr]
                        unfold restartParser at e2
                        split at e2
                        · split at e2
                          · simp at e2
                          · simp only at e2
                            split at e2
                            · simp at e2
                            · split at e2
                              · split at e2
                                · simp at e2
                                · unfold handleRestart at e2
                                  split at e2
                                  · simp only at e2
                                    split at e2
                                    · simp at e2
                                    · simp only [Out.ok.injEq, true_and] at e2
                                      rw [← e2]; simp only [St.setInput]
                                  · simp at e2
                              · simp only [Out.ok.injEq, true_and] at e2
                                rw [← e2]
                        · simp only [Out.ok.injEq, true_and] at e2
                          rw [e2]
              rw [key _ _ _ e1]
              unfold scanInit at e0
              rw [hscan, hframe] at e0
              simp only [Bool.false_eq_true, if_false] at e0
              split at e0
              · simp at e0
              · simp at e0
              · split at e0
                · simp at e0
                · simp at e0
                · simp only [Out.ok.injEq, true_and] at e0
                  rw [← e0]; rfl
            rw [hres] at e2
            match hh : scan.headers, hx with
            | y :: hs, _ =>
              rw [hh] at e2
              simp only [takeResults, List.getElem?_nil, Except.error.injEq, Fail.panic.injEq] at e2
              exact e2.symm
          rw [this]
          exact .incomplete x w hx hw hwne
        | true =>
          obtain ⟨hall, -⟩ := C20_no_uninitialised cfg s s0 s1 frame hframe hgeo e0 e1
          have hlen : s1.dec.scanState.results.length = frame.components.length := by
            obtain ⟨bufs, -, hbr⟩ := mcuLoop_planes' (cfg := cfg) hgeo hframe e0
              (frame.mcuSize.width * frame.mcuSize.height) s1 (Nat.le_refl _) (by
                have : (mcuList frame.mcuSize).length = frame.mcuSize.width * frame.mcuSize.height := by
                  rw [mcuList_eq]; simp
                rw [← this, List.take_length]; exact e1)
            rw [hbr, planesOf_length]
          obtain ⟨ps, hps⟩ := takeResults_ok scan.headers _ hall (fun h hh => by
            rw [hlen]; exact hidx h hh)
          rw [hps] at e2
          simp at e2
      · refine ⟨hk1.step.wf, hsuf, ?_, by simp⟩
        obtain ⟨ss, pl, h⟩ := form honly
        rename_i planes _
        exact ⟨ss, planes, by simp only [Out.state, h]⟩

end Jpeg
