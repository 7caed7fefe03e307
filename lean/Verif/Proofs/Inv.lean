import Verif.Spec.Panics
import Verif.Props.Planes
import Verif.Props.Parser
/-!
# The invariant of the decoder state, and every way a scan can fail
-/

namespace Jpeg
open Spec Biterator

/-! ## The invariant -/

/-- What holds of the decoder at any time. -/
structure DecInv (d : Decoder) : Prop where
  tables : TablesOk d
  dc4 : d.dcTables.length = 4
  ac4 : d.acTables.length = 4
  q4 : d.quantTables.length = 4
  q64 : ∀ (i : Nat) q, d.quantTables[i]? = some (some q) → q.length = 64
  fin4 : d.coefficientsFinished.length = 4 ∧ ∀ w ∈ d.coefficientsFinished, w < 2 ^ 64
  frame : ∀ f, d.frame = some f → FrameGeometry f ∧ f.components ≠ [] ∧ f.markerIndex ≤ 2
  interval : d.restartInterval < 2 ^ 16

theorem DecInv.default : DecInv Decoder.default := by
  have h4 : ∀ {α : Type} (i : Nat) (t : α), (List.replicate 4 (none : Option α))[i]? = some (some t) → False := by
    intro α i t h
    rw [List.getElem?_replicate] at h
    split at h <;> simp at h
  refine ⟨⟨fun i t h => (h4 i t h).elim, fun i t h => (h4 i t h).elim⟩, rfl, rfl, rfl,
    fun i q h => (h4 i q h).elim, ⟨rfl, by simp [Decoder.default]⟩, by simp [Decoder.default],
    by simp [Decoder.default]⟩

/-- Only the scan state may differ. -/
def OnlyScan (d d' : Decoder) : Prop := d' = { d with scanState := d'.scanState }

theorem OnlyScan.refl (d : Decoder) : OnlyScan d d := rfl

theorem OnlyScan.trans {a b c : Decoder} (h1 : OnlyScan a b) (h2 : OnlyScan b c) : OnlyScan a c := by
  unfold OnlyScan at *
  rw [h2, h1]

theorem OnlyScan.mk (d : Decoder) (ss : ScanState) : OnlyScan d { d with scanState := ss } := rfl

theorem OnlyScan.dcTables {d d' : Decoder} (h : OnlyScan d d') : d'.dcTables = d.dcTables := by rw [h]
theorem OnlyScan.acTables {d d' : Decoder} (h : OnlyScan d d') : d'.acTables = d.acTables := by rw [h]
theorem OnlyScan.quantTables {d d' : Decoder} (h : OnlyScan d d') : d'.quantTables = d.quantTables := by rw [h]
theorem OnlyScan.frame {d d' : Decoder} (h : OnlyScan d d') : d'.frame = d.frame := by rw [h]
theorem OnlyScan.scan {d d' : Decoder} (h : OnlyScan d d') : d'.scan = d.scan := by rw [h]
theorem OnlyScan.finished {d d' : Decoder} (h : OnlyScan d d') :
    d'.coefficientsFinished = d.coefficientsFinished := by rw [h]
theorem OnlyScan.interval {d d' : Decoder} (h : OnlyScan d d') :
    d'.restartInterval = d.restartInterval := by rw [h]

theorem DecInv.onlyScan {d d' : Decoder} (h : OnlyScan d d') (i : DecInv d) : DecInv d' := by
  obtain ⟨⟨a, b⟩, c, d, e, f, g, h', j⟩ := i
  rw [h]
  exact ⟨⟨a, b⟩, c, d, e, f, g, h', j⟩

theorem ScanPanic.onlyScan {cfg : Cfg} {d d' : Decoder} {frame : Frame} {scan : Scan} {p : PanicSite}
    (h : OnlyScan d d') (hp : ScanPanic cfg d frame scan p) : ScanPanic cfg d' frame scan p := by
  cases hp with
  | progressive h1 => exact .progressive h1
  | componentIndex x h1 h2 => exact .componentIndex x h1 h2
  | shift h1 h2 h3 => exact .shift h1 h2 h3
  | selector x h1 h2 => exact .selector x h1 h2
  | missingDc x h1 h2 h3 => exact .missingDc x h1 (by rw [h.dcTables]; exact h2) h3
  | missingAc x h1 h2 h3 => exact .missingAc x h1 (by rw [h.acTables]; exact h2) h3
  | manyComponents h1 => exact .manyComponents h1
  | quantSelector x h1 h2 => exact .quantSelector x h1 h2
  | missingQuant x h1 h2 => exact .missingQuant x h1 (by rw [h.quantTables]; exact h2)
  | manyBlocks h1 => exact .manyBlocks h1
  | incomplete x w h1 h2 h3 => exact .incomplete x w h1 (by rw [h.finished]; exact h2) h3

/-! ## One MCU -/

/-- Why `decodeComponents` panics. -/
def SelPanic (d : Decoder) (h : ScanHeader) (p : PanicSite) : Prop :=
  (p = .index ∧ (d.dcTables[h.dcSel]? = none ∨ d.acTables[h.acSel]? = none)) ∨
  (p = .missingDc ∧ d.dcTables[h.dcSel]? = some none) ∨
  (p = .missingAc ∧ d.acTables[h.acSel]? = some none)

/-- As `McuSafe`, but with the panics of missing tables. -/
structure McuSafe2 (d : Decoder) (hs : List ScanHeader) (s : McuSt) (o : Out McuSt Unit) : Prop where
  wf : o.state.bi.WF
  suffix : o.state.bi.input <:+ s.bi.input
  eob : o.state.eobRun < 2 ^ 15
  preds : ∀ p ∈ o.state.preds, IsI16 p
  blocks : ∀ b ∈ o.state.done, b.length = 64
  doneLen : o.state.done.length ≤ MAX_BLOCKS_IN_MCU
  panic : ∀ p s', o = .fail (.panic p) s' → ∃ h ∈ hs, SelPanic d h p

theorem decodeComponents_safe2 {d : Decoder} (ht : TablesOk d) (scan : Scan)
    (comps : List Component) :
    ∀ (headers : List ScanHeader) (preds : List Int) (s : McuSt),
    (∀ p ∈ preds, IsI16 p) → s.bi.WF → s.eobRun < 2 ^ 15 →
    (∀ p ∈ s.preds, IsI16 p) → (∀ b ∈ s.done, b.length = 64) →
    s.done.length ≤ MAX_BLOCKS_IN_MCU →
    McuSafe2 d headers s (decodeComponents d scan comps headers preds s) := by
  have app : ∀ {l : List Int} {m : List Int}, (∀ p ∈ l, IsI16 p) → (∀ p ∈ m, IsI16 p) →
      ∀ p ∈ l ++ m, IsI16 p := by
    intro l m h1 h2 p hp
    rw [List.mem_append] at hp
    exact hp.elim (h1 p) (h2 p)
  have base : ∀ (headers : List ScanHeader) (preds : List Int) (s : McuSt), (∀ p ∈ preds, IsI16 p) →
      s.bi.WF → s.eobRun < 2 ^ 15 → (∀ p ∈ s.preds, IsI16 p) → (∀ b ∈ s.done, b.length = 64) →
      s.done.length ≤ MAX_BLOCKS_IN_MCU →
      McuSafe2 d headers s (.ok () { s with preds := s.preds ++ preds }) := by
    intro headers preds s hp hwf heob hsp hdl hlen
    exact ⟨hwf, List.suffix_refl _, heob, app hsp hp, hdl, hlen, by simp⟩
  induction comps with
  | nil =>
    intro headers preds s hp hwf heob hsp hdl hlen
    rw [decodeComponents]
    · exact base headers preds s hp hwf heob hsp hdl hlen
    · rintro _ _ _ _ _ _ ⟨⟩
  | cons c comps ih =>
    intro headers preds s hp hwf heob hsp hdl hlen
    cases headers with
    | nil =>
      rw [decodeComponents]
      · exact base [] preds s hp hwf heob hsp hdl hlen
      · intro c cs h hs p ps _ h; simp at h
    | cons h headers =>
      cases preds with
      | nil =>
        rw [decodeComponents]
        · exact base _ [] s hp hwf heob hsp hdl hlen
        · intro c cs h hs p ps _ _ h; simp at h
      | cons p preds =>
        have stop : ∀ q, SelPanic d h q → McuSafe2 d (h :: headers) s
            (.fail (.panic q) { s with preds := s.preds ++ p :: preds }) := by
          intro q hq
          refine ⟨hwf, List.suffix_refl _, heob, app hsp hp, hdl, hlen, ?_⟩
          intro q' s' e
          simp only [Out.fail.injEq, Fail.panic.injEq] at e
          exact ⟨h, by simp, e.1 ▸ hq⟩
        unfold decodeComponents
        cases hdc : d.dcTables[h.dcSel]? with
        | none => exact stop _ (.inl ⟨rfl, .inl hdc⟩)
        | some o =>
        cases o with
        | none => exact stop _ (.inr (.inl ⟨rfl, hdc⟩))
        | some dc =>
        cases hac : d.acTables[h.acSel]? with
        | none => exact stop _ (.inl ⟨rfl, .inr hac⟩)
        | some o =>
        cases o with
        | none => exact stop _ (.inr (.inr ⟨rfl, hac⟩))
        | some ac =>
        obtain ⟨L, counts, values, hdok⟩ := ht.dc _ _ hdc
        obtain ⟨L', counts', values', haok⟩ := ht.ac _ _ hac
        simp only
        have hb := decodeBlocks_safe hdok haok scan c.blocksPerMcu ⟨s.bi, s.eobRun, p, s.done⟩ hwf
          heob (hp p (by simp)) hdl hlen
        simp only at hb
        cases e : decodeBlocks scan dc ac c.blocksPerMcu ⟨s.bi, s.eobRun, p, s.done⟩ with
        | ok u r =>
          rw [e] at hb
          obtain ⟨h1, h2, h3, h4, h5, h6, -, -⟩ := hb
          have := ih headers preds ⟨r.bi, r.eobRun, s.preds ++ [r.dcPred], r.done⟩
            (fun p' hm => hp p' (by simp [hm])) h1 h3
            (app hsp (by intro p' hm; rw [List.mem_singleton] at hm; subst hm; exact h4)) h5 h6
          refine ⟨this.wf, this.suffix.trans h2, this.eob, this.preds, this.blocks,
            this.doneLen, ?_⟩
          intro q s' e'
          obtain ⟨h', hm, hq⟩ := this.panic q s' e'
          exact ⟨h', by simp [hm], hq⟩
        | fail f r =>
          rw [e] at hb
          obtain ⟨h1, h2, h3, h4, h5, h6, -, h8⟩ := hb
          refine ⟨h1, h2, h3, app hsp ?_, h5, h6, ?_⟩
          · intro p' hm
            simp only [List.mem_cons] at hm
            rcases hm with rfl | hm
            · exact h4
            · exact hp p' (by simp [hm])
          · intro p' s' e'
            simp only [Out.fail.injEq] at e'
            exact absurd (by rw [e'.1]) (h8 p' r)

/-- What a step inside a scan keeps. -/
structure StepInv (s : St) : Prop where
  wf : s.bi.WF
  eob : s.dec.scanState.eobRun < 2 ^ 15
  preds : ∀ p ∈ s.dec.scanState.dcPredictors, IsI16 p

theorem padBlocks_ten {l : List (List Int)} (h : l.length ≤ MAX_BLOCKS_IN_MCU) :
    (padBlocks l).length = 10 := by
  unfold padBlocks
  rw [List.length_append, List.length_replicate]
  unfold MAX_BLOCKS_IN_MCU at *
  omega

theorem decodeRow_safe {s : St} {scan : Scan} {frame : Frame} (hscan : s.dec.scan = some scan)
    (hframe : s.dec.frame = some frame) (ht : TablesOk s.dec) (h : StepInv s) :
    StepInv (decodeRow s).state ∧ (decodeRow s).state.bi.input <:+ s.bi.input ∧
    OnlyScan s.dec (decodeRow s).state.dec ∧
    (∀ s', decodeRow s = .ok () s' → s'.dec.scanState.mcuRowCoefficients.length = 10) ∧
    ∀ p s', decodeRow s = .fail (.panic p) s' → ∃ h ∈ scan.headers, SelPanic s.dec h p := by
  have hc := decodeComponents_safe2 ht scan frame.components scan.headers s.dec.scanState.dcPredictors
    ⟨s.bi, s.dec.scanState.eobRun, [], []⟩ h.preds h.wf h.eob (by simp) (by simp) (by simp)
  unfold decodeRow
  rw [hscan, hframe]
  simp only
  cases e : decodeComponents s.dec scan frame.components scan.headers s.dec.scanState.dcPredictors
      ⟨s.bi, s.dec.scanState.eobRun, [], []⟩ with
  | ok u m =>
    rw [e] at hc
    refine ⟨⟨hc.wf, hc.eob, hc.preds⟩, hc.suffix, rfl, ?_, by simp⟩
    intro s' e'
    simp only [Out.ok.injEq, true_and] at e'
    subst e'
    exact padBlocks_ten hc.doneLen
  | fail f m =>
    rw [e] at hc
    cases f with
    | panic p =>
      refine ⟨⟨hc.wf, hc.eob, hc.preds⟩, hc.suffix, rfl, by simp, ?_⟩
      intro q s' e'
      simp only [Out.fail.injEq, Fail.panic.injEq] at e'
      exact hc.panic q m (by rw [e'.1])
    | _ => exact ⟨⟨h.wf, h.eob, h.preds⟩, List.suffix_refl _, rfl, by simp, by simp⟩

theorem marker_suffix' : ∀ (l : List UInt8) (b : Bool) {m : Marker} {rest : List UInt8},
    markerAux b l = .ok (m, rest) → rest <:+ l ∧ rest.length < l.length := by
  intro l
  induction l with
  | nil => intro b m rest h; cases b <;> simp [markerAux] at h
  | cons c l ih =>
    intro b m rest h
    have wk : ∀ {b}, markerAux b l = .ok (m, rest) → rest <:+ c :: l ∧ rest.length < (c :: l).length := by
      intro b h
      obtain ⟨h1, h2⟩ := ih b h
      exact ⟨h1.trans (List.suffix_cons c l), by rw [List.length_cons]; omega⟩
    cases b
    · rw [markerAux] at h; exact wk h
    · rw [markerAux] at h
      split at h
      · exact wk h
      · split at h
        · exact wk h
        · split at h
          · simp only [Except.ok.injEq, Prod.mk.injEq] at h
            rw [← h.2]
            exact ⟨List.suffix_cons c l, by simp⟩
          · simp at h

theorem marker_suffix {l : List UInt8} {m : Marker} {rest : List UInt8}
    (h : marker l = .ok (m, rest)) : rest <:+ l := (marker_suffix' l false h).1

theorem restartParser_safe {cfg : Cfg} {x y : Nat} {s : St} (h : StepInv s) :
    StepInv (restartParser cfg x y s).state ∧
    (restartParser cfg x y s).state.bi.input <:+ s.bi.input ∧
    OnlyScan s.dec (restartParser cfg x y s).state.dec ∧
    (restartParser cfg x y s).state.dec.scanState.mcuRowCoefficients =
      s.dec.scanState.mcuRowCoefficients := by
  have i0 : ∀ p ∈ List.replicate MAX_COMPONENTS (0 : Int), IsI16 p := by
    intro p hp
    rw [List.mem_replicate] at hp
    rw [hp.2]
    unfold IsI16
    omega
  unfold restartParser
  split
  · split
    · exact ⟨h, List.suffix_refl _, rfl, rfl⟩
    · simp only
      generalize (s.dec.scanState.mcusLeftUntilRestart + 2 ^ 16 - 1) % 2 ^ 16 = left
      split
      · exact ⟨h, List.suffix_refl _, rfl, rfl⟩
      · split
        · split
          · exact ⟨⟨h.wf, h.eob, h.preds⟩, List.suffix_refl _, rfl, rfl⟩
          · rename_i m rest hm
            have hsuf := marker_suffix hm
            unfold handleRestart
            split
            · simp only
              split
              · exact ⟨⟨h.wf, h.eob, h.preds⟩, hsuf, rfl, rfl⟩
              · exact ⟨⟨⟨by simp [Out.state, Biterator.reset], by simp [Out.state, Biterator.reset]⟩,
                  by simp [Out.state], i0⟩, hsuf, rfl, rfl⟩
            · exact ⟨⟨h.wf, h.eob, h.preds⟩, hsuf, rfl, rfl⟩
        · exact ⟨⟨h.wf, h.eob, h.preds⟩, List.suffix_refl _, rfl, rfl⟩
  · exact ⟨h, List.suffix_refl _, rfl, rfl⟩

theorem restartParser_noPanic {cfg : Cfg} {r k : Nat} {frame : Frame} {s : St} (hr : r < 2 ^ 16)
    (h : RstAt r frame k s) (hk : k < frame.mcuSize.width * frame.mcuSize.height) (p : PanicSite) (s' : St) :
    restartParser cfg (k % frame.mcuSize.width) (k / frame.mcuSize.width) s ≠ .fail (.panic p) s' := by
  obtain ⟨h1, h2⟩ := restartParser_at (cfg := cfg) hr h hk
  intro e
  by_cases hd : RstDue r (frame.mcuSize.width * frame.mcuSize.height) k
  · obtain ⟨h3, h4⟩ := h1 hd
    cases hm : marker s.bi.input with
    | error f =>
      obtain ⟨s1, h5⟩ := h3 f hm
      rw [h5] at e
      simp only [Out.fail.injEq] at e
      rw [e.1] at hm
      exact marker_noPanic _ _ hm
    | ok q =>
      obtain ⟨m, rest⟩ := q
      obtain ⟨h5, h6⟩ := h4 m rest hm
      by_cases hmr : m = .RST (k / r % 8)
      · rw [h5 hmr] at e; simp at e
      · obtain ⟨_, _, h7, _⟩ := h6 hmr
        rw [h7] at e; simp at e
  · obtain ⟨left, h3, _⟩ := h2 hd
    rw [h3] at e; simp at e

/-! ## Dequantisation -/

theorem dequantCols_more {cfg : Cfg} {c : Component} {q : List Nat} {start : Nat} (more : List (List Int)) :
    ∀ (xs : List Nat) (chunks : List (List Int)) (plane : List (Option UInt8)) (f : Fail),
    dequantCols cfg c q start xs chunks plane = .error f →
    f = .panic .missingCoefficients ∨ dequantCols cfg c q start xs (chunks ++ more) plane = .error f := by
  intro xs
  induction xs with
  | nil => intro chunks plane f h; simp [dequantCols] at h
  | cons x xs ih =>
    intro chunks plane f h
    cases chunks with
    | nil => simp only [dequantCols, Except.error.injEq] at h; exact .inl h.symm
    | cons b chunks =>
      rw [dequantCols] at h
      rw [List.cons_append, dequantCols]
      split at h
      · rename_i h1; right; rw [if_pos h1]; exact h
      · rename_i h1
        rw [if_neg h1]
        split at h
        · exact .inr h
        · exact ih _ _ _ h

theorem dequantCols_more_ok {cfg : Cfg} {c : Component} {q : List Nat} {start : Nat} (more : List (List Int)) :
    ∀ (xs : List Nat) (chunks chunks' : List (List Int)) (plane plane' : List (Option UInt8)),
    dequantCols cfg c q start xs chunks plane = .ok (chunks', plane') →
    dequantCols cfg c q start xs (chunks ++ more) plane = .ok (chunks' ++ more, plane') := by
  intro xs
  induction xs with
  | nil =>
    intro chunks chunks' plane plane' h
    simp only [dequantCols, Except.ok.injEq, Prod.mk.injEq] at h ⊢
    rw [h.1, h.2]; exact ⟨rfl, rfl⟩
  | cons x xs ih =>
    intro chunks chunks' plane plane' h
    cases chunks with
    | nil => simp [dequantCols] at h
    | cons b chunks =>
      rw [dequantCols] at h
      rw [List.cons_append, dequantCols]
      split at h
      · simp at h
      · rename_i h1
        rw [if_neg h1]
        split at h
        · simp at h
        · exact ih _ _ _ _ h

theorem skipChunks_more (more : List (List Int)) : ∀ (n : Nat) (chunks : List (List Int)),
    skipChunks n chunks = .error (.panic .missingCoefficients) ∨
      ∃ chunks', skipChunks n chunks = .ok chunks' ∧ skipChunks n (chunks ++ more) = .ok (chunks' ++ more) := by
  intro n
  induction n with
  | zero => intro chunks; exact .inr ⟨chunks, rfl, rfl⟩
  | succ n ih =>
    intro chunks
    cases chunks with
    | nil => exact .inl rfl
    | cons b chunks => exact ih chunks

theorem dequantRows_more {cfg : Cfg} {c : Component} {q : List Nat} {off : Nat} (more : List (List Int)) :
    ∀ (ys : List Nat) (chunks : List (List Int)) (plane : List (Option UInt8)),
    (∀ f, dequantRows cfg c q off ys chunks plane = .error f →
      f = .panic .missingCoefficients ∨ dequantRows cfg c q off ys (chunks ++ more) plane = .error f) ∧
    ∀ chunks' plane', dequantRows cfg c q off ys chunks plane = .ok (chunks', plane') →
      dequantRows cfg c q off ys (chunks ++ more) plane = .ok (chunks' ++ more, plane') := by
  intro ys
  induction ys with
  | nil =>
    intro chunks plane
    refine ⟨fun f h => by simp [dequantRows] at h, fun chunks' plane' h => ?_⟩
    simp only [dequantRows, Except.ok.injEq, Prod.mk.injEq] at h ⊢
    rw [h.1, h.2]; exact ⟨rfl, rfl⟩
  | cons y ys ih =>
    intro chunks plane
    simp only [dequantRows]
    split
    · cases e : dequantCols cfg c q (off + y) (stepRange c.h DCT_SIZE) chunks plane with
      | error g =>
        refine ⟨fun f h => ?_, fun _ _ h => by simp at h⟩
        simp only [Except.error.injEq] at h
        subst h
        rcases dequantCols_more more _ _ _ _ e with h | h
        · exact .inl h
        · right; rw [h]
      | ok r =>
        obtain ⟨ch, pl⟩ := r
        rw [dequantCols_more_ok more _ _ _ _ _ e]
        exact ih ch pl
    · rcases skipChunks_more more c.h chunks with h | ⟨ch, h1, h2⟩
      · rw [h]
        refine ⟨fun f h' => ?_, fun _ _ h => by simp at h⟩
        simp only [Except.error.injEq] at h'
        exact .inl h'.symm
      · rw [h1, h2]; exact ih ch plane

theorem dequantComponents_more {cfg : Cfg} {qts : List (Option (List Nat))} {x y : Nat}
    (more : List (List Int)) : ∀ (cs : List Component) (planes : List (List (Option UInt8)))
    (chunks : List (List Int)) (f : Fail),
    dequantComponents cfg qts x y cs planes chunks = .error f →
    f = .panic .missingCoefficients ∨
      dequantComponents cfg qts x y cs planes (chunks ++ more) = .error f := by
  intro cs
  induction cs with
  | nil => intro planes chunks f h; simp [dequantComponents] at h
  | cons c cs ih =>
    intro planes chunks f h
    cases planes with
    | nil => simp [dequantComponents] at h
    | cons plane planes =>
      rw [dequantComponents] at h ⊢
      split at h
      · exact .inr h
      · exact .inr h
      · rename_i q hq
        have tail : ∀ (ch : List (List Int)) (pl : List (Option UInt8)),
            (match dequantComponents cfg qts x y cs planes ch with
              | .error f => .error f
              | .ok planes => .ok (pl :: planes)) = Except.error f →
            f = .panic .missingCoefficients ∨
            (match dequantComponents cfg qts x y cs planes (ch ++ more) with
              | .error f => .error f
              | .ok planes => .ok (pl :: planes)) = Except.error f := by
          intro ch pl h
          cases e2 : dequantComponents cfg qts x y cs planes ch with
          | error g =>
            rw [e2] at h
            simp only [Except.error.injEq] at h
            subst h
            rcases ih _ _ _ e2 with h | h
            · exact .inl h
            · right; rw [h]
          | ok r => rw [e2] at h; simp at h
        by_cases hle : y * c.bytesPerMcuLine + x * c.mcuSampleSize.width ≤ plane.length
        · simp only [if_pos hle] at h ⊢
          cases e : dequantRows cfg c q (y * c.bytesPerMcuLine + x * c.mcuSampleSize.width)
              (stepRange c.v (c.lineStride * DCT_SIZE)) chunks plane with
          | error g =>
            rw [e] at h
            simp only [Except.error.injEq] at h
            subst h
            rcases (dequantRows_more more _ _ _).1 _ e with h | h
            · exact .inl h
            · right; rw [h]
          | ok r =>
            obtain ⟨ch, pl⟩ := r
            rw [e] at h
            rw [(dequantRows_more more _ _ _).2 _ _ e]
            exact tail ch pl h
        · simp only [if_neg hle] at h ⊢
          rcases skipChunks_more more (c.v * c.h) chunks with h1 | ⟨ch, h1, h2⟩
          · rw [h1] at h
            simp only [Except.error.injEq] at h
            exact .inl h.symm
          · rw [h1] at h
            rw [h2]
            exact tail ch plane h

/-- Why the dequantisation fails, with enough blocks. -/
theorem dequantComponents_fail {cfg : Cfg} {W H k : Nat} {qts : List (Option (List Nat))}
    (qf : Component → List Nat) (hqf : ∀ c q, qts[c.tq]? = some (some q) → qf c = q) (hk : k < W * H) :
    ∀ (cs : List Component) (ls : List (List (List (List Int)))) (chunks : List (List Int)) (f : Fail),
    (∀ c ∈ cs, PlaneGeom W H c) →
    ls.length = cs.length → (∀ l ∈ ls, l.length = k) → mcuBlocks cs ≤ chunks.length →
    dequantComponents cfg qts (k % W) (k / W) cs (planesOf W qf cs ls) chunks = .error f →
    ∃ c ∈ cs, (qts[c.tq]? = none ∧ f = .panic .index) ∨ (qts[c.tq]? = some none ∧ f = .panic .missingQuant) := by
  intro cs
  induction cs with
  | nil =>
    intro ls chunks f _ hl _ _ h
    obtain rfl := List.length_eq_zero_iff.1 hl
    simp [dequantComponents] at h
  | cons c cs ih =>
    intro ls chunks f hg hl hk' hm h
    match ls, hl with
    | l :: ls, hl =>
      have hlk : l.length = k := hk' l (by simp)
      simp only [mcuBlocks, List.map_cons, List.sum_cons] at hm
      obtain ⟨e1, e2⟩ := dequantComponent_eq cfg (hg c (by simp)) (qf c) l chunks (by omega) (by omega)
      rw [hlk] at e1 e2
      have hpl : (planeOf W c (qf c) l).length = planeSize c := by simp [planeOf]
      simp only [planesOf, List.zipWith_cons_cons] at h
      rw [dequantComponents] at h
      cases hq : qts[c.tq]? with
      | none =>
        rw [hq] at h
        simp only [Except.error.injEq] at h
        exact ⟨c, by simp, .inl ⟨hq, h.symm⟩⟩
      | some o =>
        cases o with
        | none =>
          rw [hq] at h
          simp only [Except.error.injEq] at h
          exact ⟨c, by simp, .inr ⟨hq, h.symm⟩⟩
        | some q =>
          rw [← hqf c q hq] at hq
          rw [hq] at h
          simp only [hpl, if_pos e1, e2] at h
          split at h
          · rename_i g hg'
            simp only [Except.error.injEq] at h
            subst h
            obtain ⟨c', hc', hr⟩ := ih ls (chunks.drop (c.v * c.h)) _ (fun c hc => hg c (by simp [hc]))
              (by simpa using hl) (fun l hl => hk' l (by simp [hl]))
              (by rw [List.length_drop]; unfold mcuBlocks; omega) hg'
            exact ⟨c', by simp [hc'], hr⟩
          · simp at h

end Jpeg
