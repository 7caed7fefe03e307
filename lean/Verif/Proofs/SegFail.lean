import Verif.Proofs.ScanFail
import Verif.Props.Geometry
/-!
# Every way a segment can fail; the loop over the segments
-/

namespace Jpeg
open Spec Biterator

/-! ## Table and header segments -/

theorem DecInv.set_dc {d : Decoder} (h : DecInv d) {i : Nat} {t : BaseTable}
    (ht : ∃ L counts values, TableOk L counts values t) :
    DecInv { d with dcTables := d.dcTables.set i (some t) } := by
  refine ⟨⟨?_, h.tables.ac⟩, by simpa using h.dc4, h.ac4, h.q4, h.q64, h.fin4, h.frame, h.interval⟩
  intro j t' hj
  simp only [List.getElem?_set] at hj
  split at hj
  · split at hj
    · simp only [Option.some.injEq] at hj; subst hj; exact ht
    · simp at hj
  · exact h.tables.dc j t' hj

theorem DecInv.set_ac {d : Decoder} (h : DecInv d) {i : Nat} {t : AcTable}
    (ht : ∃ L counts values, AcTableOk L counts values t) :
    DecInv { d with acTables := d.acTables.set i (some t) } := by
  refine ⟨⟨h.tables.dc, ?_⟩, h.dc4, by simpa using h.ac4, h.q4, h.q64, h.fin4, h.frame, h.interval⟩
  intro j t' hj
  simp only [List.getElem?_set] at hj
  split at hj
  · split at hj
    · simp only [Option.some.injEq] at hj; subst hj; exact ht
    · simp at hj
  · exact h.tables.ac j t' hj

theorem DecInv.set_q {d : Decoder} (h : DecInv d) {i : Nat} {q : List Nat} (hq : q.length = 64) :
    DecInv { d with quantTables := d.quantTables.set i (some q) } := by
  refine ⟨⟨h.tables.dc, h.tables.ac⟩, h.dc4, h.ac4, by simpa using h.q4, ?_, h.fin4, h.frame, h.interval⟩
  intro j t' hj
  simp only [List.getElem?_set] at hj
  split at hj
  · split at hj
    · simp only [Option.some.injEq] at hj; subst hj; exact hq
    · simp at hj
  · exact h.q64 j t' hj

/-- Why a table definition panics. -/
def TablePanic (cfg : Cfg) (t : HuffmanDef) (p : PanicSite) : Prop :=
  (p = .emptyHuffman ∧ t.values = []) ∨ (p = .tooManyValues ∧ cfg.debug = true ∧ 256 < t.values.length)

theorem defineHuffman_safe {cfg : Cfg} {t : HuffmanDef} (ht : t.Ok) {d : Decoder} (hd : DecInv d) :
    DecInv (defineHuffman cfg (HuffmanDef.dht t) d).state ∧
    ∀ p d', defineHuffman cfg (HuffmanDef.dht t) d = .fail (.panic p) d' → TablePanic cfg t p := by
  obtain ⟨h1, h2, h3⟩ := ht
  have hv : t.values.length = (codeSizes t.counts).length := by rw [codeSizes_length, h3]
  have hbase : ∀ p, BaseTable.new cfg t.counts t.values = .error (.panic p) → TablePanic cfg t p := by
    intro p hp
    obtain ⟨c1, c2, c3⟩ := C06_rejection cfg t.counts t.values h2 hv
    by_cases e0 : (codeSizes t.counts).length = 0
    · rw [c1 e0] at hp
      simp only [Except.error.injEq, Fail.panic.injEq] at hp
      exact .inl ⟨hp.symm, List.length_eq_zero_iff.1 (by omega)⟩
    · by_cases e1 : 256 < (codeSizes t.counts).length
      · rw [c2 e1] at hp
        split at hp
        · rename_i hdbg
          simp only [Except.error.injEq, Fail.panic.injEq] at hp
          exact .inr ⟨hp.symm, hdbg, by omega⟩
        · simp at hp
      · by_cases e2 : KraftOk (codeSizes t.counts)
        · obtain ⟨tab, e⟩ := (C06_acceptance cfg t.counts t.values h2 hv).2 ⟨by omega, by omega, e2⟩
          rw [e] at hp; simp at hp
        · rw [c3 (by omega) (by omega) e2] at hp
          simp at hp
  unfold defineHuffman HuffmanDef.dht
  cases hac : t.ac
  · simp only [Bool.false_eq_true, if_false]
    cases e : BaseTable.new cfg t.counts t.values with
    | error f =>
      refine ⟨hd, ?_⟩
      intro p d' h
      simp only [Out.fail.injEq] at h
      exact hbase p (by rw [e, h.1])
    | ok tab =>
      refine ⟨hd.set_dc ⟨_, _, _, Accepted.ok ⟨h2, hv, e⟩⟩, by simp⟩
  · simp only [if_true]
    cases e : AcTable.new cfg t.counts t.values with
    | error f =>
      refine ⟨hd, ?_⟩
      intro p d' h
      simp only [Out.fail.injEq] at h
      rcases AcTable.new_cases cfg t.counts t.values with ⟨f', e1, e2⟩ | ⟨b, e1, e2⟩
      · rw [e2] at e
        simp only [Except.error.injEq] at e
        exact hbase p (by rw [e1, e, h.1])
      · rw [e2] at e; simp at e
    | ok tab =>
      refine ⟨hd.set_ac ⟨_, _, _, AcceptedAc.ok ⟨h2, hv, e⟩⟩, by simp⟩

theorem takeBytes_error {n : Nat} {l : List UInt8} {f : Fail} (h : takeBytes n l = .error f) : f = .eof := by
  unfold takeBytes at h
  split at h
  · simp only [Except.error.injEq] at h; exact h.symm
  · simp at h

theorem huffmanTable_noPanic {l : List UInt8} {p : PanicSite} : huffmanTable l ≠ .error (.panic p) := by
  intro h
  unfold huffmanTable at h
  cases l with
  | nil => simp [split4Bit, anyByte] at h
  | cons b l =>
    rw [split4Bit_cons] at h
    simp only at h
    split at h
    · simp at h
    · split at h
      · simp at h
      · split at h
        · rename_i f hf
          simp only [Except.error.injEq] at h
          have := takeBytes_error hf
          rw [h] at this; simp at this
        · split at h
          · rename_i f hf
            simp only [Except.error.injEq] at h
            have := takeBytes_error hf
            rw [h] at this; simp at this
          · simp at h

theorem dhtGo_safe {cfg : Cfg} : ∀ (fuel : Nat) (l : List UInt8) (d : Decoder), DecInv d → l.length < fuel →
    DecInv (dhtGo cfg fuel l d).state ∧
    ∀ p d', dhtGo cfg fuel l d = .fail (.panic p) d' →
      ∃ before t after, l = before ++ HuffmanDef.bytes t ++ after ∧ t.Ok ∧ TablePanic cfg t p := by
  intro fuel
  induction fuel with
  | zero => intro l d _ h; omega
  | succ fuel ih =>
    intro l d hd hl
    rw [dhtGo]
    split
    · exact ⟨hd, by simp⟩
    · cases e : huffmanTable l with
      | error f =>
        refine ⟨hd, ?_⟩
        intro p d' h
        simp only [Out.fail.injEq] at h
        rw [h.1] at e
        exact absurd e huffmanTable_noPanic
      | ok q =>
        obtain ⟨t, rest⟩ := q
        obtain ⟨def_, hok, rfl, rfl⟩ := huffmanTable_inv e
        obtain ⟨a1, a2⟩ := defineHuffman_safe (cfg := cfg) hok hd
        simp only
        cases e2 : defineHuffman cfg (HuffmanDef.dht def_) d with
        | fail f d1 =>
          rw [e2] at a1
          refine ⟨a1, ?_⟩
          intro p d' h
          simp only [Out.fail.injEq] at h
          exact ⟨[], def_, rest, by simp, hok, a2 p d1 (by rw [e2, h.1])⟩
        | ok u d1 =>
          rw [e2] at a1
          have := HuffmanDef.bytes_length hok
          rw [List.length_append] at hl
          obtain ⟨b1, b2⟩ := ih rest d1 a1 (by omega)
          refine ⟨b1, ?_⟩
          intro p d' h
          obtain ⟨before, t, after, h1, h2, h3⟩ := b2 p d' h
          exact ⟨def_.bytes ++ before, t, after, by rw [h1]; simp, h2, h3⟩

theorem bytesP_noPanic : ∀ (n : Nat) (l : List UInt8) (p : PanicSite), bytesP n l ≠ .error (.panic p) := by
  intro n
  induction n with
  | zero => intro l p; simp [bytesP]
  | succ n ih =>
    intro l p h
    cases l with
    | nil => simp [bytesP, anyByte] at h
    | cons b l =>
      simp only [bytesP, anyByte] at h
      split at h
      · rename_i f e
        simp only [Except.error.injEq] at h
        rw [h] at e
        exact ih l p e
      · simp at h

theorem beU16_error {l : List UInt8} {f : Fail} (h : beU16 l = .error f) : f = .eof := by
  unfold beU16 at h
  split at h
  · simp at h
  · simp only [Except.error.injEq] at h; exact h.symm

theorem wordsP_noPanic : ∀ (n : Nat) (l : List UInt8) (p : PanicSite), wordsP n l ≠ .error (.panic p) := by
  intro n
  induction n with
  | zero => intro l p; simp [wordsP]
  | succ n ih =>
    intro l p h
    rw [wordsP] at h
    split at h
    · rename_i f e
      simp only [Except.error.injEq] at h
      have := beU16_error e
      rw [h] at this; simp at this
    · split at h
      · rename_i f e
        simp only [Except.error.injEq] at h
        rw [h] at e
        exact ih _ p e
      · simp at h

theorem dqt_noPanic {l : List UInt8} {p : PanicSite} : dqt l ≠ .error (.panic p) := by
  intro h
  unfold dqt at h
  cases l with
  | nil => simp [split4Bit, anyByte] at h
  | cons b l =>
    rw [split4Bit_cons] at h
    simp only at h
    split at h
    · simp at h
    · split at h
      · simp at h
      · split at h
        · rename_i f e
          simp only [Except.error.injEq] at h
          rw [h] at e
          split at e
          · exact bytesP_noPanic _ _ _ e
          · exact wordsP_noPanic _ _ _ e
        · simp at h

theorem dqtGo_safe : ∀ (fuel : Nat) (l : List UInt8) (d : Decoder), DecInv d → l.length < fuel →
    DecInv (dqtGo fuel l d).state ∧ ∀ p d', dqtGo fuel l d ≠ .fail (.panic p) d' := by
  intro fuel
  induction fuel with
  | zero => intro l d _ h; omega
  | succ fuel ih =>
    intro l d hd hl
    rw [dqtGo]
    split
    · exact ⟨hd, by simp⟩
    · cases e : dqt l with
      | error f =>
        refine ⟨hd, ?_⟩
        intro p d' h
        simp only [Out.fail.injEq] at h
        rw [h.1] at e
        exact absurd e dqt_noPanic
      | ok q =>
        obtain ⟨⟨i, tab⟩, rest⟩ := q
        obtain ⟨t, hok, rfl, rfl, rfl⟩ := dqt_inv e
        obtain ⟨q, eq, hq⟩ := quantizationTable_ok t.values hok.2.1
        simp only [eq]
        have := QuantDef.bytes_length hok
        rw [List.length_append] at hl
        exact ih rest _ (hd.set_q hq.1) (by omega)

theorem sof_panic {cfg : Cfg} {i : Nat} {l : List UInt8} {p : PanicSite}
    (h : sof cfg i l = .error (.panic p)) : p = .noComponents ∧
    ∃ (b : UInt8) (y x : Nat) (more : List UInt8), l = b :: be16 y ++ be16 x ++ 0 :: more := by
  have hp := (C19_no_overflow i l).1 cfg p h
  refine ⟨hp, ?_⟩
  subst hp
  unfold sof at h
  simp only [bind, Except.bind] at h
  cases l with
  | nil => simp [anyByte] at h
  | cons b l1 =>
    simp only [anyByte] at h
    cases e2 : beU16 l1 with
    | error f => rw [e2] at h; have := beU16_error e2; subst this; simp at h
    | ok p2 =>
      obtain ⟨Y, l2⟩ := p2
      rw [e2] at h; simp only at h
      cases e3 : beU16 l2 with
      | error f => rw [e3] at h; have := beU16_error e3; subst this; simp at h
      | ok p3 =>
        obtain ⟨X, l3⟩ := p3
        rw [e3] at h; simp only at h
        cases l3 with
        | nil => simp at h
        | cons n l4 =>
          simp only at h
          refine ⟨b, Y, X, l4, ?_⟩
          have hn : n = 0 := by
            by_contra hn
            have h0 : 1 ≤ n.toNat := by
              by_contra h0
              exact hn (UInt8.toNat_inj.1 (by simp; omega))
            cases e5 : componentsP n.toNat l4 with
            | ok p5 =>
              obtain ⟨cs, l5⟩ := p5
              rw [e5] at h; simp only at h
              obtain ⟨hlen, hcs⟩ := componentsP_ok _ e5
              obtain ⟨H, V, hH, hV, hb⟩ := buildFrame_eq cfg i b (beU16_lt e3) (beU16_lt e2) cs
                (by intro h; rw [h] at hlen; simp at hlen; omega) (by
                  intro c hc
                  obtain ⟨_, _, _, _, rfl, hf⟩ := hcs c hc
                  exact hf)
              rw [hb] at h
              simp [pure, Except.pure] at h
            | error f =>
              rw [e5] at h
              simp only [Except.error.injEq] at h
              subst h
              -- a component parser never panics
              have hc : ∀ l p, componentP l ≠ .error (.panic p) := by
                intro l p e
                unfold componentP at e
                rcases l with _ | ⟨id, _ | ⟨b, l⟩⟩
                · simp [anyByte, bind, Except.bind] at e
                · simp [anyByte, split4Bit, bind, Except.bind] at e
                · simp only [anyByte, split4Bit, bind, Except.bind, checkSamplingFactor] at e
                  split at e
                  · rename_i h; split at h <;> simp_all
                  · split at e
                    · rename_i h; split at h <;> simp_all
                    · cases l <;> simp [pure, Except.pure] at e
              have hcs : ∀ n l p, componentsP n l ≠ .error (.panic p) := by
                intro n
                induction n with
                | zero => intro l p; simp [componentsP]
                | succ n ih =>
                  intro l p e
                  simp only [componentsP, bind, Except.bind] at e
                  split at e
                  · rename_i f hf
                    simp only [Except.error.injEq] at e
                    rw [e] at hf; exact hc _ _ hf
                  · split at e
                    · rename_i f hf
                      simp only [Except.error.injEq] at e
                      rw [e] at hf; exact ih _ _ hf
                    · simp [pure, Except.pure] at e
              exact hcs _ _ _ e5
          rw [(beU16_inv e2).2, (beU16_inv e3).2, hn]
          simp

theorem segmentBytes_error {cfg : Cfg} {l : List UInt8} {f : Fail} (h : segmentBytes cfg l = .error f) :
    f = .eof ∨ (f = .panic .segmentLen ∧ cfg.debug = true ∧ ∃ n rest, n < 2 ∧ l = be16 n ++ rest) := by
  unfold segmentBytes at h
  split at h
  · rename_i f' e
    simp only [Except.error.injEq] at h
    subst h
    exact .inl (beU16_error e)
  · rename_i n rest e
    split at h
    · rename_i hn
      split at h
      · rename_i hdbg
        simp only [Except.error.injEq] at h
        exact .inr ⟨h.symm, hdbg, n, rest, hn, (beU16_inv e).2⟩
      · exact .inl (takeBytes_error h)
    · exact .inl (takeBytes_error h)

theorem segmentBytes_suffix {cfg : Cfg} {l payload rest : List UInt8}
    (h : segmentBytes cfg l = .ok (payload, rest)) : rest <:+ l := by
  rcases segmentBytes_inv h with ⟨-, h⟩ | ⟨-, n, -, -, h⟩
  · exact ⟨_, h.symm⟩
  · exact ⟨_, h.symm⟩

/-- What every segment guarantees. -/
structure SegSafe (cfg : Cfg) (m : Marker) (s : St) (o : Out St Unit) : Prop where
  inv : DecInv o.state.dec
  wf : o.state.bi.WF
  suffix : o.state.bi.input <:+ s.bi.input
  frame : (∀ i, m ≠ .SOF i) → o.state.dec.frame = s.dec.frame
  panic : ∀ p s', o = .fail (.panic p) s' →
    (∀ pre, SegmentPanic cfg (pre ++ markerBytes m ++ s.bi.input) p) ∨
    (m = .SOS ∧ ∃ frame scan, s'.dec.frame = some frame ∧ s'.dec.scan = some scan ∧
      ScanPanic cfg s'.dec frame scan p)

theorem fileSegment_of {cfg : Cfg} {l payload rest : List UInt8} {m : Marker}
    (h : segmentBytes cfg l = .ok (payload, rest)) (pre : List UInt8) :
    FileSegment cfg (pre ++ markerBytes m ++ l) m payload := by
  rcases segmentBytes_inv h with ⟨-, h⟩ | ⟨hd, n, h1, h2, h⟩
  · exact ⟨pre, rest, .inl (by rw [h]; simp)⟩
  · exact ⟨pre, rest, .inr ⟨hd, n, h1, h2, by rw [h]; simp⟩⟩

theorem segment_safe {cfg : Cfg} {m : Marker} {body : List UInt8 → Decoder → Out Decoder Unit} {s : St}
    (hd : DecInv s.dec) (hwf : s.bi.WF)
    (hb : ∀ payload, DecInv (body payload s.dec).state ∧
      ((∀ i, m ≠ .SOF i) → (body payload s.dec).state.frame = s.dec.frame) ∧
      ∀ p d', body payload s.dec = .fail (.panic p) d' →
        ∀ file, FileSegment cfg file m payload → SegmentPanic cfg file p) :
    SegSafe cfg m s (segment cfg body s) := by
  unfold segment
  cases e : segmentBytes cfg s.bi.input with
  | error f =>
    refine ⟨hd, hwf, List.suffix_refl _, fun _ => rfl, ?_⟩
    intro p s' h
    simp only [Out.fail.injEq] at h
    rcases segmentBytes_error e with h1 | ⟨h1, hdbg, n, rest, hn, hl⟩
    · rw [h1] at h; simp at h
    · rw [h1] at h
      simp only [Fail.panic.injEq] at h
      refine .inl fun pre => ?_
      rw [← h.1]
      exact .shortLength m n pre rest hdbg hn (by rw [hl]; simp)
  | ok q =>
    obtain ⟨payload, rest⟩ := q
    simp only
    obtain ⟨b1, b0, b2⟩ := hb payload
    cases e2 : body payload s.dec with
    | ok u d =>
      rw [e2] at b1 b0
      exact ⟨b1, hwf, segmentBytes_suffix e, b0, by simp⟩
    | fail f d =>
      rw [e2] at b1 b0
      refine ⟨b1, hwf, segmentBytes_suffix e, b0, ?_⟩
      intro p s' h
      simp only [Out.fail.injEq] at h
      exact .inl fun pre => b2 p d (by rw [e2, h.1]) _ (fileSegment_of e pre)

theorem setFinished_safe {cfg : Cfg} {i : Nat} : ∀ (js fin : List Nat),
    (∀ fin', setFinished cfg i js fin = .ok fin' → fin'.length = fin.length) ∧
    ∀ f, setFinished cfg i js fin = .error f → (f = .panic .index ∧ fin.length ≤ i) ∨
      (f = .panic .shiftOverflow ∧ cfg.debug = true ∧ ∃ j ∈ js, 64 ≤ j) := by
  intro js
  induction js with
  | nil => intro fin; simp [setFinished]
  | cons j js ih =>
    intro fin
    rw [setFinished]
    cases e : fin[i]? with
    | none =>
      refine ⟨by simp, ?_⟩
      intro f h
      simp only [Except.error.injEq] at h
      exact .inl ⟨h.symm, List.getElem?_eq_none_iff.1 e⟩
    | some w =>
      simp only
      split
      · rename_i hj
        refine ⟨by simp, ?_⟩
        intro f h
        simp only [Except.error.injEq] at h
        exact .inr ⟨h.symm, hj.2, j, by simp, hj.1⟩
      · obtain ⟨h1, h2⟩ := ih (fin.set i (w ||| (1 <<< (j % 64))))
        rw [List.length_set] at h1 h2
        refine ⟨h1, ?_⟩
        intro f h
        rcases h2 f h with h | ⟨h, h', k, hk, hk'⟩
        · exact .inl h
        · exact .inr ⟨h, h', k, by simp [hk], hk'⟩

theorem setFinished_lt {cfg : Cfg} {i : Nat} : ∀ (js fin fin' : List Nat), (∀ w ∈ fin, w < 2 ^ 64) →
    setFinished cfg i js fin = .ok fin' → ∀ w ∈ fin', w < 2 ^ 64 := by
  intro js
  induction js with
  | nil => intro fin fin' h e; simp only [setFinished, Except.ok.injEq] at e; rw [← e]; exact h
  | cons j js ih =>
    intro fin fin' h e
    rw [setFinished] at e
    cases e1 : fin[i]? with
    | none => rw [e1] at e; simp at e
    | some w =>
      rw [e1] at e
      simp only at e
      split at e
      · simp at e
      · refine ih _ _ ?_ e
        intro v hv
        rcases List.mem_or_eq_of_mem_set hv with h' | rfl
        · exact h v h'
        · refine Nat.or_lt_two_pow (h w (List.mem_of_getElem? e1)) ?_
          rw [Nat.one_shiftLeft]
          exact Nat.pow_lt_pow_right (by decide) (Nat.mod_lt _ (by decide))

theorem setFinishedAll_lt {cfg : Cfg} {js : List Nat} : ∀ (is fin fin' : List Nat), (∀ w ∈ fin, w < 2 ^ 64) →
    setFinishedAll cfg js is fin = .ok fin' → ∀ w ∈ fin', w < 2 ^ 64 := by
  intro is
  induction is with
  | nil => intro fin fin' h e; simp only [setFinishedAll, Except.ok.injEq] at e; rw [← e]; exact h
  | cons i is ih =>
    intro fin fin' h e
    rw [setFinishedAll] at e
    cases e1 : setFinished cfg i js fin with
    | error f => rw [e1] at e; simp at e
    | ok fin1 =>
      rw [e1] at e
      exact ih _ _ (setFinished_lt _ _ _ h e1) e

theorem setFinishedAll_safe {cfg : Cfg} {js : List Nat} : ∀ (is fin : List Nat),
    (∀ fin', setFinishedAll cfg js is fin = .ok fin' → fin'.length = fin.length) ∧
    ∀ f, setFinishedAll cfg js is fin = .error f → (f = .panic .index ∧ ∃ i ∈ is, fin.length ≤ i) ∨
      (f = .panic .shiftOverflow ∧ cfg.debug = true ∧ ∃ j ∈ js, 64 ≤ j) := by
  intro is
  induction is with
  | nil => intro fin; simp [setFinishedAll]
  | cons i is ih =>
    intro fin
    rw [setFinishedAll]
    obtain ⟨a1, a2⟩ := setFinished_safe (cfg := cfg) (i := i) js fin
    cases e : setFinished cfg i js fin with
    | error f =>
      refine ⟨by simp, ?_⟩
      intro g h
      simp only [Except.error.injEq] at h
      subst h
      rcases a2 f e with ⟨h, h'⟩ | h
      · exact .inl ⟨h, i, by simp, h'⟩
      · exact .inr h
    | ok fin1 =>
      simp only
      obtain ⟨b1, b2⟩ := ih fin1
      have hl := a1 fin1 e
      rw [hl] at b1 b2
      refine ⟨b1, ?_⟩
      intro f h
      rcases b2 f h with ⟨h, k, hk, hk'⟩ | h
      · exact .inl ⟨h, k, by simp [hk], hk'⟩
      · exact .inr h

theorem allFinished_safe {fin : List Nat} : ∀ (is : List Nat),
    (∀ f, allFinished fin is = .error f → f = .panic .index ∧ ∃ i ∈ is, fin.length ≤ i) ∧
    (allFinished fin is = .ok false → ∃ i ∈ is, ∃ w, fin[i]? = some w ∧ w ≠ 2 ^ 64 - 1) := by
  intro is
  induction is with
  | nil => simp [allFinished]
  | cons i is ih =>
    rw [allFinished]
    cases e : fin[i]? with
    | none =>
      refine ⟨?_, by simp⟩
      intro f h
      simp only [Except.error.injEq] at h
      exact ⟨h.symm, i, by simp, List.getElem?_eq_none_iff.1 e⟩
    | some w =>
      simp only
      split
      · obtain ⟨h1, h2⟩ := ih
        refine ⟨?_, ?_⟩
        · intro f h
          obtain ⟨h, k, hk, hk'⟩ := h1 f h
          exact ⟨h, k, by simp [hk], hk'⟩
        · intro h
          obtain ⟨k, hk, hk'⟩ := h2 h
          exact ⟨k, by simp [hk], hk'⟩
      · rename_i hw
        exact ⟨by simp, fun _ => ⟨i, by simp, w, e, hw⟩⟩

theorem Spec.ScanPanic.same {cfg : Cfg} {d d' : Decoder} {frame : Frame} {scan : Scan} {p : PanicSite}
    (h1 : d'.dcTables = d.dcTables) (h2 : d'.acTables = d.acTables) (h3 : d'.quantTables = d.quantTables)
    (h4 : d'.coefficientsFinished = d.coefficientsFinished)
    (hp : ScanPanic cfg d frame scan p) : ScanPanic cfg d' frame scan p := by
  cases hp with
  | progressive h1 => exact .progressive h1
  | componentIndex x h1 h2 => exact .componentIndex x h1 h2
  | shift h1 h2 h3 => exact .shift h1 h2 h3
  | selector x h1 h2 => exact .selector x h1 h2
  | missingDc x a b c => exact .missingDc x a (by rw [h1]; exact b) c
  | missingAc x a b c => exact .missingAc x a (by rw [h2]; exact b) c
  | manyComponents h1 => exact .manyComponents h1
  | quantSelector x h1 h2 => exact .quantSelector x h1 h2
  | missingQuant x a b => exact .missingQuant x a (by rw [h3]; exact b)
  | manyBlocks h1 => exact .manyBlocks h1
  | incomplete x w a b c => exact .incomplete x w a (by rw [h4]; exact b) c

theorem sos_safe {cfg : Cfg} {s : St} (hd : DecInv s.dec) (hwf : s.bi.WF) :
    SegSafe cfg .SOS s (sos cfg s) := by
  unfold sos
  cases e : segmentBytes cfg s.bi.input with
  | error f =>
    refine ⟨hd, hwf, List.suffix_refl _, fun _ => rfl, ?_⟩
    intro p s' h
    simp only [Out.fail.injEq] at h
    rcases segmentBytes_error e with h1 | ⟨h1, hdbg, n, rest, hn, hl⟩
    · rw [h1] at h; simp at h
    · rw [h1] at h
      simp only [Fail.panic.injEq] at h
      refine .inl fun pre => ?_
      rw [← h.1]
      exact .shortLength .SOS n pre rest hdbg hn (by rw [hl]; simp)
  | ok q =>
    obtain ⟨payload, rest⟩ := q
    have hsuf := segmentBytes_suffix e
    simp only
    cases e2 : sosSegment (s.setInput rest).dec.frame payload with
    | error f =>
      refine ⟨hd, hwf, hsuf, fun _ => rfl, ?_⟩
      intro p s' h
      simp only [Out.fail.injEq] at h
      rw [h.1] at e2
      exact absurd e2 (sosSegment_noPanic _ _ _)
    | ok q =>
      obtain ⟨scan, unread⟩ := q
      obtain ⟨frame, comps, ss, se, ah, al, hf, -, -, -, -, -, hall, -, -⟩ := sosSegment_inv e2
      have hf : s.dec.frame = some frame := hf
      have hidx : ∀ h ∈ scan.headers, h.componentIndex < frame.components.length := by
        intro h hh
        obtain ⟨i, hi, rfl⟩ := List.mem_iff_getElem.1 hh
        have hlen := hall.length_eq
        have := (List.forall₂_iff_get.1 hall).2 i (by omega) hi
        obtain ⟨⟨⟨c, hc, _⟩, _⟩, _⟩ := this
        exact (List.getElem?_eq_some_iff.1 hc).1
      have hd1 : DecInv { s.dec with scan := some scan } :=
        ⟨⟨hd.tables.dc, hd.tables.ac⟩, hd.dc4, hd.ac4, hd.q4, hd.q64, hd.fin4, hd.frame, hd.interval⟩
      obtain ⟨hgeo, hne, hmi⟩ := hd.frame frame hf
      simp only [St.setInput, hf]
      have here : ∀ {f : Fail} {d1 : Decoder}, DecInv d1 → d1.frame = some frame → d1.scan = some scan →
          (∀ p, f = .panic p → ScanPanic cfg d1 frame scan p) →
          SegSafe cfg .SOS s (.fail f ⟨d1, { s.bi with input := rest }⟩) := by
        intro f d1 hd1 hf1 hs1 hp
        refine ⟨hd1, hwf, hsuf, fun _ => by simp only [Out.state, hf1, hf], ?_⟩
        intro p s' h
        simp only [Out.fail.injEq] at h
        obtain ⟨rfl, rfl⟩ := h
        exact .inr ⟨rfl, frame, scan, hf1, hs1, hp p rfl⟩
      have hmain : frame.markerIndex ≠ 2 → SegSafe cfg .SOS s
          (match (if scan.al = 0 then
              setFinishedAll cfg (inclusiveRange scan.ss scan.se)
                (scan.headers.map (·.componentIndex)) s.dec.coefficientsFinished
            else .ok s.dec.coefficientsFinished) with
          | .error f => .fail f ⟨{ s.dec with scan := some scan, frame := some frame },
              { s.bi with input := rest }⟩
          | .ok fin =>
            match allFinished fin (scan.headers.map (·.componentIndex)) with
            | .error f => .fail f ⟨{ s.dec with scan := some scan, coefficientsFinished := fin, frame := some frame },
              { s.bi with input := rest }⟩
            | .ok isFinal => decodeScan cfg isFinal
              ⟨{ s.dec with scan := some scan, coefficientsFinished := fin, frame := some frame },
                { s.bi with input := rest }⟩) := by
        intro hnp
        cases e3 : (if scan.al = 0 then
              setFinishedAll cfg (inclusiveRange scan.ss scan.se)
                (scan.headers.map (·.componentIndex)) s.dec.coefficientsFinished
            else .ok s.dec.coefficientsFinished) with
        | error f =>
          refine here (by rw [← hf]; exact hd1) rfl rfl ?_
          intro p hp
          subst hp
          split at e3
          · rename_i hal
            rcases (setFinishedAll_safe _ _).2 _ e3 with ⟨h, i, hi, hi'⟩ | ⟨h, hdbg, j, hj, hj'⟩
            · simp only [Fail.panic.injEq] at h
              rw [h]
              obtain ⟨x, hx, rfl⟩ := List.mem_map.1 hi
              rw [hd.fin4.1] at hi'
              exact .componentIndex x hx hi'
            · simp only [Fail.panic.injEq] at h
              rw [h]
              simp only [inclusiveRange, List.mem_map, List.mem_range] at hj
              obtain ⟨k, hk, rfl⟩ := hj
              exact .shift hdbg hal (by omega)
          · simp at e3
        | ok fin =>
          have hfin : fin.length = 4 ∧ ∀ w ∈ fin, w < 2 ^ 64 := by
            split at e3
            · exact ⟨by rw [(setFinishedAll_safe _ _).1 _ e3, hd.fin4.1], setFinishedAll_lt _ _ _ hd.fin4.2 e3⟩
            · simp only [Except.ok.injEq] at e3
              rw [← e3]; exact hd.fin4
          have hfl := hfin.1
          have hd2 : DecInv { s.dec with scan := some scan, coefficientsFinished := fin, frame := some frame } := by
            rw [← hf]
            exact ⟨⟨hd.tables.dc, hd.tables.ac⟩, hd.dc4, hd.ac4, hd.q4, hd.q64, hfin, hd.frame, hd.interval⟩
          simp only
          cases e4 : allFinished fin (scan.headers.map (·.componentIndex)) with
          | error f =>
            refine here hd2 rfl rfl ?_
            intro p hp
            subst hp
            obtain ⟨h, i, hi, hi'⟩ := (allFinished_safe _).1 _ e4
            simp only [Fail.panic.injEq] at h
            rw [h]
            obtain ⟨x, hx, rfl⟩ := List.mem_map.1 hi
            rw [hfl] at hi'
            exact .componentIndex x hx hi'
          | ok isFinal =>
            simp only
            obtain ⟨c1, c2, c3, c4⟩ := decodeScan_safe (cfg := cfg) (produce := isFinal)
              (s := ⟨{ s.dec with scan := some scan, coefficientsFinished := fin, frame := some frame },
                { s.bi with input := rest }⟩) (scan := scan) (frame := frame) rfl rfl hd2 hwf hnp hidx (by
                  intro hfin
                  subst hfin
                  obtain ⟨i, hi, w, hw, hw'⟩ := (allFinished_safe _).2 e4
                  obtain ⟨x, hx, rfl⟩ := List.mem_map.1 hi
                  exact ⟨x, hx, w, hw, hw'⟩)
            obtain ⟨ss1, pl, hdec⟩ := c3
            refine ⟨?_, c1, c2.trans hsuf, fun _ => by rw [hdec, hf], ?_⟩
            · rw [hdec]
              exact ⟨⟨hd2.tables.dc, hd2.tables.ac⟩, hd2.dc4, hd2.ac4, hd2.q4, hd2.q64, hd2.fin4, hd2.frame,
                hd2.interval⟩
            · intro p s' h
              have := c4 p s' h
              rw [h] at hdec
              simp only [Out.state] at hdec
              refine .inr ⟨rfl, frame, scan, by rw [hdec], by rw [hdec], ?_⟩
              exact this.same (by rw [hdec]) (by rw [hdec]) (by rw [hdec]) (by rw [hdec])
      rcases codingProcess_of hmi with ⟨h2, hc⟩ | ⟨c, hc, hcne, hnp⟩
      · rw [hc]
        simp only
        refine here (by rw [← hf]; exact hd1) rfl rfl ?_
        intro p hp
        simp only [Fail.panic.injEq] at hp
        rw [← hp]
        exact .progressive h2
      · have := hmain hnp
        rw [hc]
        cases c with
        | progressive => exact absurd rfl hcne
        | _ => exact this

theorem dhtGo_frame {cfg : Cfg} : ∀ (fuel : Nat) (l : List UInt8) (d : Decoder),
    (dhtGo cfg fuel l d).state.frame = d.frame := by
  intro fuel
  induction fuel with
  | zero => intro l d; rfl
  | succ fuel ih =>
    intro l d
    rw [dhtGo]
    split
    · rfl
    · split
      · rfl
      · have hdef : ∀ t, (defineHuffman cfg t d).state.frame = d.frame := by
          intro t
          unfold defineHuffman
          split <;> split <;> rfl
        rename_i t l' _
        have := hdef t
        split
        · rename_i e; rw [e] at this; exact this
        · rename_i e; rw [e] at this; rw [ih]; exact this

theorem dqtGo_frame : ∀ (fuel : Nat) (l : List UInt8) (d : Decoder),
    (dqtGo fuel l d).state.frame = d.frame := by
  intro fuel
  induction fuel with
  | zero => intro l d; rfl
  | succ fuel ih =>
    intro l d
    rw [dqtGo]
    split
    · rfl
    · split
      · rfl
      · split
        · rfl
        · rw [ih]

theorem doSegment_safe {cfg : Cfg} {m : Marker} (hm : MarkerExists m) {s : St} (hd : DecInv s.dec)
    (hwf : s.bi.WF) : SegSafe cfg m s (doSegment cfg m s) := by
  have skip : SegSafe cfg m s (.ok () s) := ⟨hd, hwf, List.suffix_refl _, fun _ => rfl, by simp⟩
  cases m with
  | SOI => exact skip
  | RST n => exact skip
  | COM => exact skip
  | EOI => exact skip
  | SOS => exact sos_safe hd hwf
  | SOF i =>
    refine segment_safe hd hwf fun payload => ?_
    unfold sofBody
    cases e : sof cfg i payload with
    | error f =>
      refine ⟨hd, fun h => absurd rfl (h i), ?_⟩
      intro p d' h file hfile
      simp only [Out.fail.injEq] at h
      rw [h.1] at e
      obtain ⟨rfl, b, y, x, more, rfl⟩ := sof_panic e
      exact .emptyFrame i b y x more hfile
    | ok q =>
      obtain ⟨frame, rest⟩ := q
      refine ⟨⟨⟨hd.tables.dc, hd.tables.ac⟩, hd.dc4, hd.ac4, hd.q4, hd.q64, hd.fin4, ?_, hd.interval⟩,
        fun h => absurd rfl (h i), by simp⟩
      intro f hf
      simp only [Out.state, Option.some.injEq] at hf
      subst hf
      obtain ⟨h1, h2, h3⟩ := sof_geometry e
      exact ⟨h1, h2, by rw [h3]; exact hm⟩
  | DHT =>
    refine segment_safe hd hwf fun payload => ?_
    unfold dhtBody
    obtain ⟨h1, h2⟩ := dhtGo_safe (cfg := cfg) (payload.length + 1) payload s.dec hd (by omega)
    refine ⟨h1, fun _ => dhtGo_frame _ _ _, ?_⟩
    intro p d' h file hfile
    obtain ⟨before, t, after, rfl, hok, hp⟩ := h2 p d' h
    rcases hp with ⟨rfl, hv⟩ | ⟨rfl, hdbg, hv⟩
    · exact .emptyTable before t after hok hv hfile
    · exact .bigTable before t after hdbg hok hv hfile
  | DQT =>
    refine segment_safe hd hwf fun payload => ?_
    obtain ⟨h1, h2⟩ := dqtGo_safe (payload.length + 1) payload s.dec hd (by omega)
    exact ⟨h1, fun _ => dqtGo_frame _ _ _, fun p d' h => absurd h (h2 p d')⟩
  | DRI =>
    refine segment_safe hd hwf fun payload => ?_
    unfold driBody
    cases e : beU16 payload with
    | error f =>
      refine ⟨hd, fun _ => rfl, ?_⟩
      intro p d' h
      simp only [Out.fail.injEq] at h
      have := beU16_error e
      rw [h.1] at this; simp at this
    | ok q =>
      obtain ⟨n, rest⟩ := q
      refine ⟨⟨⟨hd.tables.dc, hd.tables.ac⟩, hd.dc4, hd.ac4, hd.q4, hd.q64, hd.fin4, hd.frame, ?_⟩,
        fun _ => rfl, by simp⟩
      exact beU16_lt e
  | APP n =>
    rw [doSegment]
    split
    · refine segment_safe hd hwf fun payload => ?_
      unfold adobeBody
      cases e : appAdobe payload with
      | error f =>
        refine ⟨hd, fun _ => rfl, ?_⟩
        intro p d' h
        simp only [Out.fail.injEq] at h
        rw [h.1] at e
        exfalso
        unfold appAdobe at e
        split at e
        · rename_i f' hf
          simp only [Except.error.injEq] at e
          have := takeBytes_error hf
          rw [e] at this; simp at this
        · split at e
          · simp at e
          · split at e
            · rename_i f' hf
              simp only [Except.error.injEq] at e
              have := takeBytes_error hf
              rw [e] at this; simp at this
            · split at e
              · rename_i l f' hf
                simp only [Except.error.injEq] at e
                subst e
                unfold anyByte at hf
                split at hf <;> simp at hf
              · split at e
                · simp at e
                · split at e
                  · simp at e
                  · split at e <;> simp at e
      | ok t =>
        exact ⟨⟨⟨hd.tables.dc, hd.tables.ac⟩, hd.dc4, hd.ac4, hd.q4, hd.q64, hd.fin4, hd.frame, hd.interval⟩,
          fun _ => rfl, by simp⟩
    · exact segment_safe hd hwf fun payload => ⟨hd, fun _ => rfl, by simp⟩

/-! ## The loop -/

theorem setInput_bi (s : St) (rest : List UInt8) : (s.setInput rest).bi = { s.bi with input := rest } := rfl

theorem marker_length {l : List UInt8} {m : Marker} {rest : List UInt8} (h : marker l = .ok (m, rest)) :
    rest.length + 2 ≤ l.length := by
  obtain ⟨-, i, ⟨h1, h2, -, -⟩, -, rfl⟩ := C36_found _ _ _ h
  have := (List.getElem?_eq_some_iff.1 h2).1
  rw [List.length_drop]
  omega

/-- Fuel for one iteration per two bytes of input is enough, more changes nothing. -/
theorem segmentLoop_fuel {cfg : Cfg} : ∀ (f1 f2 : Nat) (s : St), DecInv s.dec → s.bi.WF →
    s.bi.input.length < 2 * f1 → s.bi.input.length < 2 * f2 → segmentLoop cfg f1 s = segmentLoop cfg f2 s := by
  intro f1
  induction f1 with
  | zero => intro f2 s _ _ h; omega
  | succ f1 ih =>
    intro f2 s hd hwf h1 h2
    obtain ⟨f2, rfl⟩ : ∃ k, f2 = k + 1 := ⟨f2 - 1, by omega⟩
    rw [segmentLoop, segmentLoop]
    cases e : marker s.bi.input with
    | error f => rfl
    | ok q =>
      obtain ⟨m, rest⟩ := q
      simp only
      split
      · rfl
      · have hl := marker_length e
        have hs := doSegment_safe (cfg := cfg) (C36_found _ _ _ e).1 (s := s.setInput rest) hd hwf
        cases e2 : doSegment cfg m (s.setInput rest) with
        | fail f s' => rfl
        | ok u s' =>
          rw [e2] at hs
          have := hs.suffix.length_le
          simp only [Out.state, setInput_bi] at this
          rw [Out.bind_ok, Out.bind_ok]
          exact ih f2 s' hs.inv hs.wf (by omega) (by omega)

/-- The loop keeps the invariant, and panics for the reasons given. -/
theorem segmentLoop_safe {cfg : Cfg} (file : List UInt8) : ∀ (fuel : Nat) (s : St), DecInv s.dec → s.bi.WF →
    s.bi.input.length < fuel → s.bi.input <:+ file →
    DecInv (segmentLoop cfg fuel s).state.dec ∧ (segmentLoop cfg fuel s).state.bi.WF ∧
    (segmentLoop cfg fuel s).state.bi.input <:+ s.bi.input ∧
    ∀ p s', segmentLoop cfg fuel s = .fail (.panic p) s' → SegmentPanic cfg file p ∨
      ∃ frame scan, s'.dec.frame = some frame ∧ s'.dec.scan = some scan ∧
        ScanPanic cfg s'.dec frame scan p := by
  intro fuel
  induction fuel with
  | zero => intro s _ _ h; omega
  | succ fuel ih =>
    intro s hd hwf hl hsuf
    rw [segmentLoop]
    cases e : marker s.bi.input with
    | error f =>
      refine ⟨hd, hwf, List.suffix_refl _, ?_⟩
      intro p s' h
      simp only [Out.fail.injEq] at h
      rw [h.1] at e
      exact absurd e (marker_noPanic _ _)
    | ok q =>
      obtain ⟨m, rest⟩ := q
      simp only
      have hms := marker_suffix e
      have hml := (marker_suffix' _ _ e).2
      split
      · exact ⟨hd, hwf, hms, by simp⟩
      · obtain ⟨hm, i, ⟨hb1, hb2, -, -⟩, -, hrest⟩ := C36_found _ _ _ e
        have hs := doSegment_safe (cfg := cfg) hm (s := s.setInput rest) hd hwf
        cases e2 : doSegment cfg m (s.setInput rest) with
        | fail f s' =>
          rw [e2] at hs
          refine ⟨hs.inv, hs.wf, hs.suffix.trans hms, ?_⟩
          intro p s'' h
          simp only [Out.bind_fail, Out.fail.injEq] at h
          obtain ⟨rfl, rfl⟩ := h
          rcases hs.panic p s' rfl with h | ⟨-, h⟩
          · left
            obtain ⟨pre, hpre⟩ := hsuf
            have hin : s.bi.input = s.bi.input.take i ++ markerBytes m ++ rest := by
              rw [hrest]
              obtain ⟨hi1, hi1'⟩ := List.getElem?_eq_some_iff.1 hb1
              obtain ⟨hi2, hi2'⟩ := List.getElem?_eq_some_iff.1 hb2
              conv_lhs => rw [← List.take_append_drop i s.bi.input, List.drop_eq_getElem_cons hi1,
                List.drop_eq_getElem_cons hi2, hi1', hi2']
              simp [markerBytes]
            have := h (pre ++ s.bi.input.take i)
            rw [setInput_bi] at this
            simp only at this
            rw [← hpre, hin]
            simpa using this
          · exact .inr h
        | ok u s' =>
          rw [e2] at hs
          have := hs.suffix.length_le
          simp only [Out.state, setInput_bi] at this
          have hsu := hs.suffix
          simp only [Out.state, setInput_bi] at hsu
          rw [Out.bind_ok]
          obtain ⟨c1, c2, c3, c4⟩ := ih s' hs.inv hs.wf (by omega) ((hsu.trans hms).trans hsuf)
          exact ⟨c1, c2, (c3.trans hsu).trans hms, c4⟩

end Jpeg
