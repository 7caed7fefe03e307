import Verif.Props.Block
/-!
# C15, C16: MCUs
-/

namespace Jpeg
open Spec Biterator

/-- Append bytes to the input of the reader. -/
def St.more (s : St) (l : List UInt8) : St := s.setInput (s.bi.input ++ l)

/-- What an MCU decode may not change when it fails: everything but the scratch coefficients, which
the next attempt clears. -/
def SameButScratch (s s' : St) : Prop :=
  ∃ m, s' = { s with dec := { s.dec with scanState :=
    { s.dec.scanState with mcuRowCoefficients := m } } }

/-- **C15.** A failed MCU decode (any error that is not a panic) leaves the byte position, the bit
buffer, the predictors, the EOB run and the whole decoder as they were. -/
theorem C15_no_trace (s s' : St) (f : Fail) (h : decodeRow s = .fail f s')
    (hf : ∀ p, f ≠ .panic p) : SameButScratch s s' := by
  unfold decodeRow at h
  split at h
  · rename_i scan frame hs hfr
    simp only at h
    split at h
    · simp at h
    · rename_i p m _
      simp only [Out.fail.injEq] at h
      exact absurd h.1.symm (hf p)
    · simp only [Out.fail.injEq] at h
      exact ⟨_, h.2.symm⟩
  · simp only [Out.fail.injEq] at h
    exact absurd h.1.symm (hf _)

/-- **C15** (retry). After a failure, appending any bytes and decoding again does exactly what
decoding with those bytes present from the start would have done. -/
theorem C15_retry (s s' : St) (f : Fail) (l : List UInt8) (h : decodeRow s = .fail f s')
    (hf : ∀ p, f ≠ .panic p) : decodeRow (s'.more l) = decodeRow (s.more l) := by
  obtain ⟨m, rfl⟩ := C15_no_trace s s' f h hf
  cases hs : s.dec.scan with
  | none =>
    unfold decodeRow at h
    simp only [hs, Out.fail.injEq] at h
    exact absurd h.1.symm (hf _)
  | some scan =>
    cases hfr : s.dec.frame with
    | none =>
      unfold decodeRow at h
      simp only [hs, hfr, Out.fail.injEq] at h
      exact absurd h.1.symm (hf _)
    | some frame => exact decodeRow_scratch (s.more l) m scan frame hs hfr

/-- **C15** (every failure is such a failure). When the selected tables are present and were built
from DHT definitions, and the state is a valid one, decoding an MCU never panics. -/
theorem C15_no_panic (s : St) (scan : Scan) (frame : Frame) (hs : s.dec.scan = some scan)
    (hf : s.dec.frame = some frame)
    (htab : ∀ h ∈ scan.headers, ∃ cfg cd ca dc ac, s.dec.dcTables[h.dcSel]? = some (some dc) ∧
      s.dec.acTables[h.acSel]? = some (some ac) ∧ HasTables cfg cd ca dc ac)
    (hcount : s.bi.count ≤ 64) (hbits : s.bi.bits < 2 ^ 64)
    (heob : s.dec.scanState.eobRun < 2 ^ 15) (hp : ∀ p ∈ s.dec.scanState.dcPredictors, IsI16 p) :
    ∀ p s', decodeRow s ≠ .fail (.panic p) s' := by
  intro p s' e
  have h := decodeComponents_safe' (d := s.dec) scan frame.components scan.headers
    s.dec.scanState.dcPredictors ⟨s.bi, s.dec.scanState.eobRun, [], []⟩
    (by
      intro h hm
      obtain ⟨cfg, cd, ca, dc, ac, h1, h2, h3, h4⟩ := htab h hm
      exact ⟨dc, ac, h1, h2, ⟨_, _, _, h3.ok⟩, ⟨_, _, _, h4.ok⟩⟩) hp ⟨hcount, hbits⟩ heob
    (by simp) (by simp) (by simp)
  unfold decodeRow at e
  rw [hs, hf] at e
  simp only at e
  split at e
  · simp at e
  · rename_i p' m he
    exact h.noPanic p' m he
  · rename_i f m hne he
    simp only [Out.fail.injEq] at e
    exact hne p e.1

/-! ## C16 -/

/-- The tables a scan header selects are those of the given DC and AC codes. -/
def UsesCodes (cfg : Cfg) (d : Decoder) (h : ScanHeader) (c : Code × Code) : Prop :=
  ∃ dc ac, d.dcTables[h.dcSel]? = some (some dc) ∧ d.acTables[h.acSel]? = some (some ac) ∧
    HasTables cfg c.1 c.2 dc ac

theorem UsesCodes.tables {cfg : Cfg} {d : Decoder} {h : ScanHeader} {c : Code × Code}
    (u : UsesCodes cfg d h c) : TablesFor d h c := by
  obtain ⟨dc, ac, h1, h2, h3, h4⟩ := u
  exact ⟨dc, ac, h1, h2, h3.ok, h4.ok⟩

/-- **C16.** In a full-band scan, if the pending bits start with an encoding of an MCU (per component
as many blocks as it has per MCU, at most ten in all), decoding the MCU succeeds, leaves exactly the
bits behind it pending, and the coefficient buffer holds the blocks of the first component, then of
the second, and so on, followed by zero blocks. Predictors are carried on per component, nothing
else changes. -/
theorem C16_mcu_inverse (cfg : Cfg) (s : St) (scan : Scan) (frame : Frame)
    (hs : s.dec.scan = some scan) (hf : s.dec.frame = some frame) (hss : scan.ss = 0)
    (hse : scan.se = 63) (hal : scan.al = 0) (codes : List (Code × Code)) (qs : List Int)
    (mcu : List (List BlockData)) (bits w : List Bool) (t : List UInt8)
    (hm : McuBits codes s.dec.scanState.dcPredictors mcu bits qs)
    (ht : List.Forall₂ (UsesCodes cfg s.dec) scan.headers codes)
    (hc : frame.components.map (·.blocksPerMcu) = mcu.map List.length)
    (hp : Pending s.bi (bits ++ w) t) (heob : s.dec.scanState.eobRun = 0)
    (hlen : mcu.flatten.length ≤ 10) :
    ∃ bi' blocks, decodeRow s = .ok () ⟨{ s.dec with scanState := { s.dec.scanState with
          dcPredictors := qs
          mcuRowCoefficients := blocks ++ List.replicate (10 - blocks.length) zeroBlock } }, bi'⟩ ∧
      Pending bi' w t ∧ List.Forall₂ BlockData.Is mcu.flatten blocks := by
  obtain ⟨bi', blocks, e, hr, hall⟩ := decodeRow_inv hs hf hss hse hal hm
    (ht.imp fun _ _ u => u.tables) hc (pending_iff.1 hp) heob hlen
  exact ⟨bi', blocks, e, pending_iff.2 hr, hall⟩

/-- A component with `n` blocks per MCU, other fields irrelevant here. -/
def exampleComponent (n : Nat) : Component :=
  ⟨1, n, 1, 0, n, 8 * n, ⟨8 * n, 8⟩, 64 * n, ⟨n, 1⟩, ⟨8 * n, 8⟩⟩

/-- A decoder in front of an MCU of two components (two blocks and one block). -/
def exampleSt (dc : BaseTable) (ac : AcTable) (input : List UInt8) : St :=
  ⟨{ Decoder.default with
      frame := some ⟨0, 8, 8, 16, ⟨1, 1⟩, [exampleComponent 2, exampleComponent 1]⟩
      scan := some ⟨[⟨0, 0, 0⟩, ⟨1, 0, 0⟩], 0, 63, 0, 0⟩
      dcTables := [some dc, none, none, none]
      acTables := [some ac, none, none, none] }, Biterator.new input⟩

/-- A case of C16: three blocks, the predictors of the two components end as -10 and -5. -/
example : ∃ dc ac bi' blocks,
    decodeRow (exampleSt dc ac (stuff [0x88, 0xB1, 0xA2, 0x2C, 0x68, 0x8B, 0x18] ++ [0xFF, 0xD9])) =
      .ok () ⟨{ (exampleSt dc ac []).dec with scanState := { ScanState.default with
          dcPredictors := [-10, -5, 0, 0]
          mcuRowCoefficients := blocks ++ List.replicate (10 - blocks.length) zeroBlock } }, bi'⟩ ∧
      List.Forall₂ BlockData.Is [⟨-5, exampleZz⟩, ⟨-10, exampleZz⟩, ⟨-5, exampleZz⟩] blocks := by
  obtain ⟨dc, hdc⟩ := exampleTable
  obtain ⟨ac, hac⟩ := exampleAcTable
  have hb := C13_standard_encoder _ _ _ _ _ (by decide) exampleBits_eq
  have hu : ∀ h : ScanHeader, h.dcSel = 0 → h.acSel = 0 → UsesCodes ⟨true, false⟩
      (exampleSt dc ac (stuff [0x88, 0xB1, 0xA2, 0x2C, 0x68, 0x8B, 0x18] ++ [0xFF, 0xD9])).dec h
      (exampleDc, exampleAc) :=
    fun h h1 h2 => ⟨dc, ac, by rw [h1]; rfl, by rw [h2]; rfl, hdc, hac⟩
  obtain ⟨bi', blocks, e, -, hall⟩ := C16_mcu_inverse ⟨true, false⟩
    (exampleSt dc ac (stuff [0x88, 0xB1, 0xA2, 0x2C, 0x68, 0x8B, 0x18] ++ [0xFF, 0xD9]))
    _ _ rfl rfl rfl rfl rfl [(exampleDc, exampleAc), (exampleDc, exampleAc)] [-10, -5, 0, 0]
    [[⟨-5, exampleZz⟩, ⟨-10, exampleZz⟩], [⟨-5, exampleZz⟩]] (exampleBits ++ exampleBits ++ exampleBits)
    [] [0xFF, 0xD9]
    (by
      have h1 : BlocksBits exampleDc exampleAc 0 [⟨-5, exampleZz⟩, ⟨-10, exampleZz⟩] _ (-10) :=
        .cons hb (by decide) (.cons hb (by decide) .nil)
      have h2 : BlocksBits exampleDc exampleAc 0 [⟨-5, exampleZz⟩] _ (-5) :=
        .cons hb (by decide) .nil
      have := McuBits.cons h1 (McuBits.cons h2 (McuBits.nil (ps := [0, 0])))
      show McuBits _ [0, 0, 0, 0] _ _ _
      simpa using this)
    (.cons (hu _ rfl rfl) (.cons (hu _ rfl rfl) .nil)) rfl
    (show Pending (Biterator.new (stuff [0x88, 0xB1, 0xA2, 0x2C, 0x68, 0x8B, 0x18] ++
        [0xFF, 0xD9])) _ _ from
      ⟨by decide, by decide, ⟨0xD9, [], rfl, by decide⟩,
        [0x88, 0xB1, 0xA2, 0x2C, 0x68, 0x8B, 0x18], rfl, by decide +kernel⟩) rfl (by decide)
  exact ⟨dc, ac, bi', blocks, e, hall⟩

/-- A case of C15: the input stops in the middle of the second block. -/
example : ∃ dc ac s', decodeRow (exampleSt dc ac [0x88, 0xB1, 0xA2, 0x2C]) = .fail .eof s' ∧
    SameButScratch (exampleSt dc ac [0x88, 0xB1, 0xA2, 0x2C]) s' := by
  have h : ∃ dc ac, (match decodeRow (exampleSt dc ac [0x88, 0xB1, 0xA2, 0x2C]) with
      | .fail .eof _ => true
      | _ => false) = true :=
    ⟨match BaseTable.new ⟨true, false⟩ exampleCounts exampleValues with
        | .ok t => t
        | .error _ => ⟨[], [], [], []⟩,
      match AcTable.new ⟨true, false⟩ exampleAc.counts exampleAc.values with
        | .ok t => t
        | .error _ => ⟨⟨[], [], [], []⟩, []⟩, by decide +kernel⟩
  obtain ⟨dc, ac, h⟩ := h
  cases e : decodeRow (exampleSt dc ac [0x88, 0xB1, 0xA2, 0x2C]) with
  | ok u s' => rw [e] at h; simp at h
  | fail f s' =>
    rw [e] at h
    cases f with
    | eof => exact ⟨dc, ac, s', e, C15_no_trace _ _ _ e (by simp)⟩
    | _ => simp at h

end Jpeg
