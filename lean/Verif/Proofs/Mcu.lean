import Verif.Proofs.BlockInv
import Mathlib.Data.List.Forall2
/-!
# MCU decoding
-/

namespace Jpeg
open Spec Biterator

/-! ## Inversion of the encoder -/

theorem decodeBlocks_inv {cd ca : Code} {dc : BaseTable} {ac : AcTable}
    (hdc : TableOk (codeSizes cd.counts) cd.counts cd.values dc)
    (hac : AcTableOk (codeSizes ca.counts) ca.counts ca.values ac) {scan : Scan}
    (hss : scan.ss = 0) (hse : scan.se = 63) (hal : scan.al = 0) {t : List UInt8}
    {p q : Int} {bs : List BlockData} {bits : List Bool} (hb : BlocksBits cd ca p bs bits q) :
    ∀ (w : List Bool) (bi : Biterator) (done : List (List Int)), Rep A bi (bits ++ w) t →
    done.length + bs.length ≤ MAX_BLOCKS_IN_MCU →
    ∃ bi' blocks, decodeBlocks scan dc ac bs.length ⟨bi, 0, p, done⟩ =
        .ok () ⟨bi', 0, q, done ++ blocks⟩ ∧ Rep A bi' w t ∧
      List.Forall₂ BlockData.Is bs blocks := by
  induction hb with
  | nil =>
    intro w bi done hr _
    exact ⟨bi, [], by simp [decodeBlocks], by simpa using hr, .nil⟩
  | @cons p b diff bs x y q hx hdcv _ ih =>
    intro w bi done hr hlen
    rw [List.append_assoc] at hr
    rw [List.length_cons] at hlen
    obtain ⟨bi1, coeffs, e, hr1, his⟩ := decodeBlock_inv hdc hac hss hse hal hx hr p
    obtain ⟨bi2, blocks, e2, hr2, hall⟩ := ih w bi1 (done ++ [coeffs]) hr1 (by simp; omega)
    refine ⟨bi2, coeffs :: blocks, ?_, hr2, .cons ?_ hall⟩
    · rw [List.length_cons]
      unfold decodeBlocks
      rw [if_pos (show done.length < MAX_BLOCKS_IN_MCU by omega)]
      rw [e, ← hdcv]
      simp only
      rw [e2, List.append_assoc]; rfl
    · rw [← hdcv] at his; exact his

/-- The tables selected by a scan header are those of the given codes. -/
def TablesFor (d : Decoder) (h : ScanHeader) (c : Code × Code) : Prop :=
  ∃ dc ac, d.dcTables[h.dcSel]? = some (some dc) ∧ d.acTables[h.acSel]? = some (some ac) ∧
    TableOk (codeSizes c.1.counts) c.1.counts c.1.values dc ∧
    AcTableOk (codeSizes c.2.counts) c.2.counts c.2.values ac

theorem decodeComponents_inv {d : Decoder} {scan : Scan}
    (hss : scan.ss = 0) (hse : scan.se = 63) (hal : scan.al = 0) {t : List UInt8}
    {codes : List (Code × Code)} {ps qs : List Int} {mcu : List (List BlockData)} {bits : List Bool}
    (hm : McuBits codes ps mcu bits qs) :
    ∀ (comps : List Component) (headers : List ScanHeader) (w : List Bool) (bi : Biterator)
      (prev : List Int) (done : List (List Int)),
    List.Forall₂ (TablesFor d) headers codes →
    comps.map (·.blocksPerMcu) = mcu.map List.length →
    Rep A bi (bits ++ w) t → done.length + mcu.flatten.length ≤ MAX_BLOCKS_IN_MCU →
    ∃ bi' blocks, decodeComponents d scan comps headers ps ⟨bi, 0, prev, done⟩ =
        .ok () ⟨bi', 0, prev ++ qs, done ++ blocks⟩ ∧ Rep A bi' w t ∧
      List.Forall₂ BlockData.Is mcu.flatten blocks := by
  induction hm with
  | nil =>
    intro comps headers w bi prev done ht hc hr _
    cases ht
    have : comps = [] := by simpa using hc
    subst this
    exact ⟨bi, [], by simp [decodeComponents], by simpa using hr, .nil⟩
  | @cons cd ca cs p ps bs mcu x y q qs hx _ ih =>
    intro comps headers w bi prev done ht hc hr hlen
    cases ht with
    | @cons h _ hs _ ht hts =>
    cases comps with
    | nil => simp at hc
    | cons c comps =>
    obtain ⟨dc, ac, hdc, hac, hdok, haok⟩ := ht
    rw [List.map_cons, List.map_cons, List.cons.injEq] at hc
    rw [List.append_assoc] at hr
    rw [List.flatten_cons, List.length_append] at hlen
    obtain ⟨bi1, b1, e1, hr1, hall1⟩ := decodeBlocks_inv hdok haok hss hse hal hx (y ++ w) bi done hr
      (by omega)
    have hlb : bs.length = b1.length := hall1.length_eq
    obtain ⟨bi2, b2, e2, hr2, hall2⟩ := ih comps hs w bi1 (prev ++ [q]) (done ++ b1) hts hc.2 hr1
      (by rw [List.length_append]; omega)
    refine ⟨bi2, b1 ++ b2, ?_, hr2, ?_⟩
    · unfold decodeComponents
      rw [hdc, hac]
      simp only
      rw [hc.1, e1]
      simp only
      rw [e2]
      simp
    · rw [List.flatten_cons]; exact List.rel_append hall1 hall2

theorem decodeRow_inv {s : St} {scan : Scan} {frame : Frame} (hscan : s.dec.scan = some scan)
    (hframe : s.dec.frame = some frame)
    (hss : scan.ss = 0) (hse : scan.se = 63) (hal : scan.al = 0) {t : List UInt8}
    {codes : List (Code × Code)} {qs : List Int} {mcu : List (List BlockData)} {bits w : List Bool}
    (hm : McuBits codes s.dec.scanState.dcPredictors mcu bits qs)
    (ht : List.Forall₂ (TablesFor s.dec) scan.headers codes)
    (hc : frame.components.map (·.blocksPerMcu) = mcu.map List.length)
    (hr : Rep A s.bi (bits ++ w) t) (heob : s.dec.scanState.eobRun = 0)
    (hlen : mcu.flatten.length ≤ MAX_BLOCKS_IN_MCU) :
    ∃ bi' blocks, decodeRow s = .ok () ⟨{ s.dec with scanState := { s.dec.scanState with
          dcPredictors := qs, mcuRowCoefficients := padBlocks blocks } }, bi'⟩ ∧
      Rep A bi' w t ∧ List.Forall₂ BlockData.Is mcu.flatten blocks := by
  obtain ⟨bi', blocks, e, hr', hall⟩ := decodeComponents_inv hss hse hal hm frame.components
    scan.headers w s.bi [] [] ht hc hr (by simpa using hlen)
  refine ⟨bi', blocks, ?_, hr', hall⟩
  unfold decodeRow
  rw [hscan, hframe]
  simp only [heob]
  rw [e]
  simp

/-! ## Independence of the scratch coefficients -/

theorem decodeComponents_congr {d d' : Decoder} (h1 : d.dcTables = d'.dcTables)
    (h2 : d.acTables = d'.acTables) (scan : Scan) (comps : List Component) :
    ∀ (headers : List ScanHeader) (preds : List Int) (s : McuSt),
    decodeComponents d scan comps headers preds s =
      decodeComponents d' scan comps headers preds s := by
  induction comps with
  | nil => intro headers preds s; simp only [decodeComponents]
  | cons c comps ih =>
    intro headers preds s
    cases headers with
    | nil => simp only [decodeComponents]
    | cons h headers =>
      cases preds with
      | nil => simp only [decodeComponents]
      | cons p preds => simp only [decodeComponents, h1, h2, ih]

theorem decodeRow_scratch (s : St) (m : List (List Int)) (scan : Scan) (frame : Frame)
    (hs : s.dec.scan = some scan) (hf : s.dec.frame = some frame) :
    decodeRow { s with dec := { s.dec with scanState :=
      { s.dec.scanState with mcuRowCoefficients := m } } } = decodeRow s := by
  have h := decodeComponents_congr (d := { s.dec with scanState :=
    { s.dec.scanState with mcuRowCoefficients := m } }) (d' := s.dec) rfl rfl scan
  unfold decodeRow
  simp only [hs, hf] at h ⊢
  rw [h]

/-! ## Safety -/

/-- All stored tables were built by `BaseTable::new` / `AcTable::new`. -/
structure TablesOk (d : Decoder) : Prop where
  dc : ∀ (i : Nat) t, d.dcTables[i]? = some (some t) → ∃ L counts values, TableOk L counts values t
  ac : ∀ (i : Nat) t, d.acTables[i]? = some (some t) → ∃ L counts values, AcTableOk L counts values t

/-- `i16`. -/
def IsI16 (x : Int) : Prop := -2 ^ 15 ≤ x ∧ x < 2 ^ 15

theorem decodeBlocks_safe {L L' : List Nat} {counts values counts' values' : List UInt8}
    {dc : BaseTable} {ac : AcTable} (hdc : TableOk L counts values dc)
    (hac : AcTableOk L' counts' values' ac) (scan : Scan) (n : Nat) :
    ∀ (s : RowSt), s.bi.WF → s.eobRun < 2 ^ 15 → IsI16 s.dcPred →
    (∀ b ∈ s.done, b.length = 64) → s.done.length ≤ MAX_BLOCKS_IN_MCU →
    let o := decodeBlocks scan dc ac n s
    o.state.bi.WF ∧ o.state.bi.input <:+ s.bi.input ∧ o.state.eobRun < 2 ^ 15 ∧
      IsI16 o.state.dcPred ∧ (∀ b ∈ o.state.done, b.length = 64) ∧
      o.state.done.length ≤ MAX_BLOCKS_IN_MCU ∧
      (∀ s', o = .ok () s' → s'.done.length = min (s.done.length + n) MAX_BLOCKS_IN_MCU) ∧
      ∀ p s', o ≠ .fail (.panic p) s' := by
  induction n with
  | zero =>
    intro s hwf heob hp hd hl
    refine ⟨hwf, List.suffix_refl _, heob, hp, hd, hl, ?_, by simp [decodeBlocks]⟩
    intro s' e
    simp only [decodeBlocks, Out.ok.injEq, true_and] at e
    subst e; omega
  | succ n ih =>
    intro s hwf heob hp hd hl
    unfold decodeBlocks
    by_cases hlt : s.done.length < MAX_BLOCKS_IN_MCU
    · rw [if_pos hlt]
      have hb := decodeBlock_safe hdc hac (s := ⟨s.bi, s.eobRun, s.dcPred, zeroBlock⟩) hwf
        (by simp [zeroBlock]) heob hp scan
      cases e : decodeBlock scan dc ac ⟨s.bi, s.eobRun, s.dcPred, zeroBlock⟩ with
      | ok u b =>
        rw [e] at hb
        have hd' : ∀ c ∈ s.done ++ [b.coeffs], c.length = 64 := by
          intro c hc
          rw [List.mem_append, List.mem_singleton] at hc
          rcases hc with hc | rfl
          · exact hd c hc
          · exact hb.len
        have := ih ⟨b.bi, b.eobRun, b.dcPred, s.done ++ [b.coeffs]⟩ hb.wf hb.eob hb.pred hd'
          (by simp; omega)
        obtain ⟨h1, h2, h3, h4, h5, h6, h7, h8⟩ := this
        refine ⟨h1, h2.trans hb.suffix, h3, h4, h5, h6, ?_, h8⟩
        intro s' e'
        rw [h7 s' e']
        simp only [List.length_append, List.length_singleton]
        omega
      | fail f b =>
        rw [e] at hb
        refine ⟨hb.wf, hb.suffix, hb.eob, hb.pred, ?_, ?_, by simp, ?_⟩
        · intro c hc
          simp only [Out.state, List.mem_append, List.mem_singleton] at hc
          rcases hc with hc | rfl
          · exact hd c hc
          · exact hb.len
        · simp only [Out.state, List.length_append, List.length_singleton]; omega
        · intro p s' e'
          simp only [Out.fail.injEq] at e'
          exact hb.noPanic p b (by rw [e'.1])
    · rw [if_neg hlt]
      refine ⟨hwf, List.suffix_refl _, heob, hp, hd, hl, ?_, by simp⟩
      intro s' e
      simp only [Out.ok.injEq, true_and] at e
      subst e; omega

/-- What `decode_row` guarantees for a state reached by decoding. -/
structure McuSafe (s : McuSt) (n : Nat) (o : Out McuSt Unit) : Prop where
  wf : o.state.bi.WF
  suffix : o.state.bi.input <:+ s.bi.input
  eob : o.state.eobRun < 2 ^ 15
  preds : ∀ p ∈ o.state.preds, IsI16 p
  predsLen : o.state.preds.length = n
  blocks : ∀ b ∈ o.state.done, b.length = 64
  doneLen : o.state.done.length ≤ MAX_BLOCKS_IN_MCU
  noPanic : ∀ p s', o ≠ .fail (.panic p) s'

/-- The tables selected are present. -/
def Present (d : Decoder) (h : ScanHeader) : Prop :=
  (∃ t, d.dcTables[h.dcSel]? = some (some t)) ∧ ∃ t, d.acTables[h.acSel]? = some (some t)

/-- The tables selected are present and sound. -/
def PresentOk (d : Decoder) (h : ScanHeader) : Prop :=
  ∃ dc ac, d.dcTables[h.dcSel]? = some (some dc) ∧ d.acTables[h.acSel]? = some (some ac) ∧
    (∃ L counts values, TableOk L counts values dc) ∧
    ∃ L counts values, AcTableOk L counts values ac

theorem decodeComponents_safe' {d : Decoder} (scan : Scan)
    (comps : List Component) :
    ∀ (headers : List ScanHeader) (preds : List Int) (s : McuSt),
    (∀ h ∈ headers, PresentOk d h) → (∀ p ∈ preds, IsI16 p) → s.bi.WF → s.eobRun < 2 ^ 15 →
    (∀ p ∈ s.preds, IsI16 p) → (∀ b ∈ s.done, b.length = 64) →
    s.done.length ≤ MAX_BLOCKS_IN_MCU →
    McuSafe s (s.preds.length + preds.length) (decodeComponents d scan comps headers preds s) := by
  have base : ∀ (preds : List Int) (s : McuSt), (∀ p ∈ preds, IsI16 p) → s.bi.WF →
      s.eobRun < 2 ^ 15 → (∀ p ∈ s.preds, IsI16 p) → (∀ b ∈ s.done, b.length = 64) →
      s.done.length ≤ MAX_BLOCKS_IN_MCU →
      McuSafe s (s.preds.length + preds.length) (.ok () { s with preds := s.preds ++ preds }) := by
    intro preds s hp hwf heob hsp hdl hlen
    refine ⟨hwf, List.suffix_refl _, heob, ?_, by simp [Out.state], hdl, hlen, by simp⟩
    intro p hmem
    simp only [Out.state, List.mem_append] at hmem
    exact hmem.elim (hsp p) (hp p)
  induction comps with
  | nil =>
    intro headers preds s _ hp hwf heob hsp hdl hlen
    rw [decodeComponents]
    · exact base preds s hp hwf heob hsp hdl hlen
    · rintro _ _ _ _ _ _ ⟨⟩
  | cons c comps ih =>
    intro headers preds s hpres hp hwf heob hsp hdl hlen
    cases headers with
    | nil =>
      rw [decodeComponents]
      · exact base preds s hp hwf heob hsp hdl hlen
      · intro c cs h hs p ps _ h; simp at h
    | cons h headers =>
      cases preds with
      | nil =>
        rw [decodeComponents]
        · exact base [] s hp hwf heob hsp hdl hlen
        · intro c cs h hs p ps _ _ h; simp at h
      | cons p preds =>
        obtain ⟨dc, ac, hdc, hac, ⟨L, counts, values, hdok⟩, L', counts', values', haok⟩ :=
          hpres h (by simp)
        unfold decodeComponents
        rw [hdc, hac]
        simp only
        have hb := decodeBlocks_safe hdok haok scan c.blocksPerMcu ⟨s.bi, s.eobRun, p, s.done⟩ hwf
          heob (hp p (by simp)) hdl hlen
        simp only at hb
        cases e : decodeBlocks scan dc ac c.blocksPerMcu ⟨s.bi, s.eobRun, p, s.done⟩ with
        | ok u r =>
          rw [e] at hb
          obtain ⟨h1, h2, h3, h4, h5, h6, -, -⟩ := hb
          have := ih headers preds ⟨r.bi, r.eobRun, s.preds ++ [r.dcPred], r.done⟩
            (fun h' hm => hpres h' (by simp [hm])) (fun p' hm => hp p' (by simp [hm])) h1 h3
            (by
              intro p' hm
              rw [List.mem_append, List.mem_singleton] at hm
              rcases hm with hm | rfl
              · exact hsp p' hm
              · exact h4) h5 h6
          refine ⟨this.wf, this.suffix.trans h2, this.eob, this.preds, ?_, this.blocks,
            this.doneLen, this.noPanic⟩
          rw [this.predsLen]
          simp only [List.length_append, List.length_cons, List.length_nil]
          omega
        | fail f r =>
          rw [e] at hb
          obtain ⟨h1, h2, h3, h4, h5, h6, -, h8⟩ := hb
          refine ⟨h1, h2, h3, ?_, ?_, h5, h6, ?_⟩
          · intro p' hm
            simp only [Out.state, List.mem_append, List.mem_cons] at hm
            rcases hm with hm | rfl | hm
            · exact hsp p' hm
            · exact h4
            · exact hp p' (by simp [hm])
          · simp [Out.state]
          · intro p' s' e'
            simp only [Out.fail.injEq] at e'
            exact h8 p' r (by rw [e'.1])

end Jpeg
