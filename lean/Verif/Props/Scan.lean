import Verif.Props.Mcu
import Verif.Proofs.ScanHist
/-!
# C17 and the scan level part of C14: restart intervals
-/

namespace Jpeg
open Spec Biterator

/-- The state in which the restart check after the `k`-th MCU of a scan runs: the scan was started,
`k` MCUs went through, and the `k`-th was entropy decoded. -/
structure AtRestartCheck (cfg : Cfg) (produce : Bool) (s : St) (frame : Frame) (k : Nat) (s2 : St) :
    Prop where
  frame_eq : s.dec.frame = some frame
  mcu : k < frame.mcuSize.width * frame.mcuSize.height
  run : ∃ s0 s1, scanInit produce s = .ok () s0 ∧
    mcuLoop cfg produce ((mcuList frame.mcuSize).take k) s0 = .ok () s1 ∧ decodeRow s1 = .ok () s2

theorem AtRestartCheck.rst {cfg : Cfg} {produce : Bool} {s s2 : St} {frame : Frame} {k : Nat}
    (hr : s.dec.restartInterval < 2 ^ 16) (h : AtRestartCheck cfg produce s frame k s2) :
    RstAt s.dec.restartInterval frame k s2 := by
  obtain ⟨s0, s1, h0, h1, h2⟩ := h.run
  have := mcuLoop_rst hr (scanInit_rst h0 h.frame_eq) k s1 h.mcu h1
  obtain ⟨_, _, _, _, rfl⟩ := decodeRow_keeps h2
  exact ⟨this.interval, this.frame, this.left, this.expected⟩

/-- **C17** (a marker is required). When `r` divides the number of MCUs read so far and there are
more to come, the decoder goes on only if the next marker is the restart marker whose number counts
the completed intervals modulo eight; it then continues behind that marker with no buffered bits,
zero predictors, no EOB run and the counter back at `r`. Any other marker is an error, and so is the
absence of a marker. -/
theorem C17_marker_required (cfg : Cfg) (produce : Bool) (s s2 : St) (frame : Frame) (k r : Nat)
    (hint : s.dec.restartInterval = r) (hr : r < 2 ^ 16)
    (h : AtRestartCheck cfg produce s frame k s2) (hpos : 0 < r) (hdvd : r ∣ k + 1)
    (hmore : k + 1 < frame.mcuSize.width * frame.mcuSize.height) :
    (∀ f, marker s2.bi.input = .error f → ∃ s3,
      restartParser cfg (k % frame.mcuSize.width) (k / frame.mcuSize.width) s2 = .fail f s3) ∧
    (∀ m rest, marker s2.bi.input = .ok (m, rest) → m ≠ .RST (((k + 1) / r - 1) % 8) → ∃ e s3,
      restartParser cfg (k % frame.mcuSize.width) (k / frame.mcuSize.width) s2 =
        .fail (.err e) s3) ∧
    (∀ rest, marker s2.bi.input = .ok (.RST (((k + 1) / r - 1) % 8), rest) →
      restartParser cfg (k % frame.mcuSize.width) (k / frame.mcuSize.width) s2 =
        .ok () ⟨{ s2.dec with scanState := { s2.dec.scanState with
          dcPredictors := [0, 0, 0, 0]
          eobRun := 0
          expectedRstNum := (k + 1) / r % 8
          mcusLeftUntilRestart := r } }, ⟨rest, 0, 0⟩⟩) := by
  subst hint
  have hz : (k + 1) % s.dec.restartInterval = 0 := Nat.mod_eq_zero_of_dvd hdvd
  have hd := ((succ_mod_div (k := k) hpos).1 hz).2
  rw [hd, Nat.add_sub_cancel]
  obtain ⟨h1, h2⟩ := (restartParser_at (cfg := cfg) hr (h.rst hr) h.mcu).1 ⟨hpos, hz, hmore⟩
  refine ⟨h1, ?_, ?_⟩
  · intro m rest hm hne
    obtain ⟨e, s3, h3, _⟩ := (h2 m rest hm).2 hne
    exact ⟨e, s3, h3⟩
  · intro rest hm
    rw [(h2 _ rest hm).1 rfl]
    unfold afterRestart
    rw [show (k / s.dec.restartInterval % 8 + 1) % 8 = (k / s.dec.restartInterval + 1) % 8 by omega]
    rfl

/-- **C17** (no marker elsewhere). Inside an interval, after the last MCU, and always when `r = 0`,
the restart check succeeds without looking at the input or touching anything but its counter. -/
theorem C17_no_marker_elsewhere (cfg : Cfg) (produce : Bool) (s s2 : St) (frame : Frame) (k r : Nat)
    (hint : s.dec.restartInterval = r) (hr : r < 2 ^ 16)
    (h : AtRestartCheck cfg produce s frame k s2)
    (hno : r = 0 ∨ ¬ r ∣ k + 1 ∨ k + 1 = frame.mcuSize.width * frame.mcuSize.height) :
    ∃ left, restartParser cfg (k % frame.mcuSize.width) (k / frame.mcuSize.width) s2 =
      .ok () { s2 with dec := { s2.dec with scanState := { s2.dec.scanState with
        mcusLeftUntilRestart := left } } } := by
  subst hint
  obtain ⟨left, e, _⟩ := (restartParser_at (cfg := cfg) hr (h.rst hr) h.mcu).2 (by
    rintro ⟨h1, h2, h3⟩
    rcases hno with h | h | h
    · omega
    · exact h (Nat.dvd_of_mod_eq_zero h2)
    · omega)
  exact ⟨left, e⟩

/-- **C17** (counter). The counter of MCUs left in the interval is never zero when it is about to be
decremented, so the check never panics, in debug builds as well as in release builds. -/
theorem C17_no_underflow (cfg : Cfg) (produce : Bool) (s s2 : St) (frame : Frame) (k r : Nat)
    (hint : s.dec.restartInterval = r) (hr : r < 2 ^ 16)
    (h : AtRestartCheck cfg produce s frame k s2) :
    (0 < r → 0 < s2.dec.scanState.mcusLeftUntilRestart ∧
      s2.dec.scanState.mcusLeftUntilRestart ≤ r) ∧
    ∀ p s3, restartParser cfg (k % frame.mcuSize.width) (k / frame.mcuSize.width) s2 ≠
      .fail (.panic p) s3 := by
  subst hint
  have hrst := h.rst hr
  constructor
  · intro h0
    rw [hrst.left h0]
    have := Nat.mod_lt k h0
    omega
  · intro p s3 e
    obtain ⟨h1, h2⟩ := restartParser_at (cfg := cfg) hr hrst h.mcu
    by_cases hd : RstDue s.dec.restartInterval (frame.mcuSize.width * frame.mcuSize.height) k
    · obtain ⟨h3, h4⟩ := h1 hd
      cases hm : marker s2.bi.input with
      | error f =>
        obtain ⟨s4, h5⟩ := h3 f hm
        rw [h5] at e
        simp only [Out.fail.injEq] at e
        rw [e.1] at hm
        exact marker_noPanic _ p hm
      | ok mr =>
        obtain ⟨m, rest⟩ := mr
        obtain ⟨h5, h6⟩ := h4 m rest hm
        by_cases hmr : m = .RST (k / s.dec.restartInterval % 8)
        · rw [h5 hmr] at e; simp at e
        · obtain ⟨_, _, h7, _⟩ := h6 hmr
          rw [h7] at e; simp at e
    · obtain ⟨left, h3, _⟩ := h2 hd
      rw [h3] at e; simp at e

/-! ## Well-formed scans -/

/-- What a well-formed scan looks like to the decoder: full band, every header with tables for the
given codes, a frame that is not progressive, a 16 bit restart interval. -/
structure ScanReady (cfg : Cfg) (d : Decoder) (scan : Scan) (frame : Frame)
    (codes : List (Code × Code)) (r : Nat) : Prop where
  scan_eq : d.scan = some scan
  frame_eq : d.frame = some frame
  band : scan.ss = 0 ∧ scan.se = 63 ∧ scan.al = 0
  tables : List.Forall₂ (UsesCodes cfg d) scan.headers codes
  process : frame.codingProcess = .ok .baseline ∨ frame.codingProcess = .ok .sequential ∨
    frame.codingProcess = .ok .lossLess
  interval : d.restartInterval = r
  range : r < 2 ^ 16
  comps : codes.length ≤ 4

theorem ScanReady.ctx {cfg : Cfg} {d : Decoder} {scan : Scan} {frame : Frame}
    {codes : List (Code × Code)} {r : Nat} (h : ScanReady cfg d scan frame codes r) :
    ScanCtx d scan frame codes r :=
  ⟨h.scan_eq, h.frame_eq, h.band.1, h.band.2.1, h.band.2.2, h.tables.imp fun _ _ u => u.tables,
    h.process, h.interval, h.range, h.comps⟩

theorem anyUnset_false {α : Type} {tables : List (Option α)} {l : List Nat}
    (h : ∀ i ∈ l, ∃ t, tables[i]? = some (some t)) : anyUnset tables l = .ok false := by
  induction l with
  | nil => rfl
  | cons i l ih =>
    obtain ⟨t, ht⟩ := h i (by simp)
    rw [anyUnset, ht]
    exact ih fun j hj => h j (by simp [hj])

theorem UsesCodes.present {cfg : Cfg} {d : Decoder} {headers : List ScanHeader}
    {codes : List (Code × Code)} (h : List.Forall₂ (UsesCodes cfg d) headers codes) :
    anyUnset d.dcTables (headers.map (·.dcSel)) = .ok false ∧
      anyUnset d.acTables (headers.map (·.acSel)) = .ok false := by
  induction h with
  | nil => exact ⟨rfl, rfl⟩
  | cons hu _ ih =>
    obtain ⟨dc, ac, h1, h2, _⟩ := hu
    constructor
    · rw [List.map_cons, anyUnset, h1]; exact ih.1
    · rw [List.map_cons, anyUnset, h2]; exact ih.2

/-- The start of a well-formed scan. -/
theorem ScanReady.init {cfg : Cfg} {d : Decoder} {scan : Scan} {frame : Frame}
    {codes : List (Code × Code)} {r : Nat} (h : ScanReady cfg d scan frame codes r) (produce : Bool)
    (hc : frame.components.length ≤ 4) (bi : Biterator) :
    scanInit produce ⟨d, bi⟩ = .ok () (mkSt d ScanState.default.mcuRowCoefficients
      (List.replicate MAX_COMPONENTS 0) 0 r
      (if produce then frame.components.map allocPlane else []) bi) := by
  unfold scanInit
  simp only [h.frame_eq, h.scan_eq, h.band.1, h.band.2.1, if_true]
  rw [(UsesCodes.present h.tables).1]
  simp only
  rw [if_pos (by omega), (UsesCodes.present h.tables).2]
  simp only
  cases produce with
  | false => simp only [Bool.false_eq_true, if_false, mkSt, h.frame_eq, h.scan_eq, h.interval]; rfl
  | true =>
    simp only [if_true, mkSt, h.frame_eq, h.scan_eq, h.interval]
    rw [if_neg (by simp [MAX_COMPONENTS]; omega)]
    rfl

/-- **C17** (well-formed scans pass). From the start of a scan whose bytes are the restart intervals
of its MCUs, separated by the cyclically numbered restart markers, all MCUs are accepted, and the
bytes behind the scan are still to come. The planes are those the coded blocks give. -/
theorem C17_wellformed_accepted (cfg : Cfg) (produce : Bool) (d : Decoder) (scan : Scan)
    (frame : Frame) (codes : List (Code × Code)) (r : Nat)
    (hready : ScanReady cfg d scan frame codes r) (hcomps : frame.components.length ≤ 4)
    (tail : List UInt8) (htail : StartsWithMarker tail) (intervals : List (List Mcu))
    (bytes : List UInt8) (hbytes : ScanBytes codes tail 0 intervals bytes)
    (hok : IntervalsOk r intervals)
    (hfit : ∀ m ∈ intervals.flatten, m.map List.length = frame.components.map (·.blocksPerMcu) ∧
      m.flatten.length ≤ 10)
    (htotal : intervals.flatten.length = frame.mcuSize.width * frame.mcuSize.height)
    (planes : List (List (Option UInt8)))
    (hplanes : dequantAll cfg produce d frame 0 intervals.flatten
      (if produce then frame.components.map allocPlane else []) = .ok planes) :
    ∃ s0 s1, scanInit produce ⟨d, ⟨bytes, 0, 0⟩⟩ = .ok () s0 ∧
      mcuLoop cfg produce (mcuList frame.mcuSize) s0 = .ok () s1 ∧
      s1.dec.scanState.results = planes ∧ scanTail s1.bi.input = some tail := by
  obtain ⟨coef', preds', exp', left', bi', e, ht, _⟩ := mcuLoop_scan (cfg := cfg)
    (produce := produce) hready.ctx htail hbytes 0 ScanState.default.mcuRowCoefficients 0 r
    (if produce then frame.components.map allocPlane else []) planes
    (fun m hm => ⟨(hfit m hm).1.symm, (hfit m hm).2⟩) (by omega) (fun _ => Nat.zero_mod r)
    (fun _ => by simp) (fun _ => rfl) (fun _ => rfl)
    (fun h => by unfold IntervalsOk at hok; rw [if_pos h] at hok; exact hok)
    (fun h => by
      unfold IntervalsOk at hok
      rw [if_neg (by omega)] at hok
      rcases hok with h | ⟨init, last, h1, h2, h3, h4⟩
      · exact ⟨[], [], h, by simp, Nat.zero_le _, by simp⟩
      · exact ⟨init, last, h1, h2, h4, fun _ => h3⟩) hplanes
  refine ⟨_, mkSt d coef' preds' exp' left' planes bi', hready.init produce hcomps ⟨bytes, 0, 0⟩, ?_,
    rfl, ht⟩
  rw [mcuList_eq, List.range_eq_range']
  rw [htotal] at e
  exact e

/-! ## C14 at scan level -/

/-- **C14** (scan start). -/
theorem C14_zero_at_scan_start (produce : Bool) (s s' : St) (h : scanInit produce s = .ok () s') :
    s'.dec.scanState.dcPredictors = [0, 0, 0, 0] ∧ s'.dec.scanState.eobRun = 0 := by
  obtain ⟨_, _, _, _, _, rfl, _⟩ := scanInit_ok h
  exact ⟨rfl, rfl⟩

/-- **C14** (restart). Whenever the restart check moves the byte position, i.e. takes a marker, the
predictors of all components are zero afterwards, and otherwise they are untouched. -/
theorem C14_zero_after_restart (cfg : Cfg) (x y : Nat) (s s' : St)
    (h : restartParser cfg x y s = .ok () s') :
    (s'.bi = s.bi ∧ s'.dec.scanState.dcPredictors = s.dec.scanState.dcPredictors) ∨
    ((∃ n rest, marker s.bi.input = .ok (.RST n, rest) ∧ s'.bi = ⟨rest, 0, 0⟩) ∧
      s'.dec.scanState.dcPredictors = [0, 0, 0, 0] ∧ s'.dec.scanState.eobRun = 0) := by
  unfold restartParser at h
  split at h
  · split at h
    · simp at h
    · simp only at h
      split at h
      · simp at h
      · split at h
        · split at h
          · simp at h
          · rename_i m rest hm
            unfold handleRestart at h
            split at h
            · simp only at h
              split at h
              · simp at h
              · simp only [Out.ok.injEq, true_and] at h
                subst h
                exact Or.inr ⟨⟨_, rest, hm, rfl⟩, rfl, rfl⟩
            · simp at h
        · simp only [Out.ok.injEq, true_and] at h
          subst h
          exact Or.inl ⟨rfl, rfl⟩
  · simp only [Out.ok.injEq, true_and] at h
    subst h
    exact Or.inl ⟨rfl, rfl⟩

/-- **C14** (per component). A block of one component never changes another component's predictor:
decoding an MCU gives component `i` the predictor that decoding its own blocks alone gives. -/
theorem C14_accumulates_over_interval (codes : List (Code × Code)) (ps qs : List Int)
    (ms : List Mcu) (bits : List Bool) (h : McusBits codes ps ms bits qs)
    (i : Nat) (hi : i < codes.length) (p : Int) (hp : ps[i]? = some p) (hp16 : IsI16 p) :
    ∃ diffs : List Int, diffs.length = (ms.flatMap fun m => m.getD i []).length ∧
      (∀ k b, (ms.flatMap fun m => m.getD i [])[k]? = some b →
        b.dc = wrap16 (p + (diffs.take (k + 1)).sum)) ∧
      qs[i]? = some (wrap16 (p + diffs.sum)) := by
  -- one component of one MCU
  have hb : ∀ {cd ca p bs x q}, BlocksBits cd ca p bs x q → IsI16 p →
      ∃ diffs : List Int, diffs.length = bs.length ∧
      (∀ k b, bs[k]? = some b → b.dc = wrap16 (p + (diffs.take (k + 1)).sum)) ∧
      q = wrap16 (p + diffs.sum) ∧ IsI16 q := by
    intro cd ca p bs x q h
    induction h with
    | @nil p =>
      intro hp
      refine ⟨[], rfl, by simp, ?_, hp⟩
      unfold wrap16 IsI16 at *; simp; omega
    | @cons p b diff bs x y q _ hdc _ ih =>
      intro hp
      have h16 : IsI16 b.dc := by rw [hdc, ← wrapI16_eq_wrap16]; exact wrapI16_range _
      obtain ⟨diffs, h1, h2, h3, h4⟩ := ih h16
      refine ⟨diff :: diffs, by simp [h1], ?_, ?_, h4⟩
      · intro k c hk
        cases k with
        | zero =>
          simp only [List.getElem?_cons_zero, Option.some.injEq] at hk
          subst hk
          simpa using hdc
        | succ k =>
          rw [List.getElem?_cons_succ] at hk
          rw [h2 k c hk, hdc, wrap16_add]
          simp [add_assoc]
      · rw [h3, hdc, wrap16_add]; simp [add_assoc]
  have hm : ∀ {codes ps m x qs}, McuBits codes ps m x qs → ∀ (i : Nat), i < codes.length → ∀ p,
      ps[i]? = some p → IsI16 p →
      ∃ diffs : List Int, diffs.length = (m.getD i []).length ∧
      (∀ k b, (m.getD i [])[k]? = some b → b.dc = wrap16 (p + (diffs.take (k + 1)).sum)) ∧
      ∃ q, qs[i]? = some q ∧ q = wrap16 (p + diffs.sum) ∧ IsI16 q := by
    intro codes ps m x qs h
    induction h with
    | nil => intro i hi; simp at hi
    | cons hbs _ ih =>
      intro i hi p hp h16
      cases i with
      | zero =>
        simp only [List.getElem?_cons_zero, Option.some.injEq] at hp
        subst hp
        obtain ⟨diffs, h1, h2, h3, h4⟩ := hb hbs h16
        exact ⟨diffs, h1, h2, _, rfl, h3, h4⟩
      | succ i =>
        exact ih i (by simpa using hi) p (by simpa using hp) h16
  induction h generalizing p with
  | nil =>
    refine ⟨[], rfl, by simp, ?_⟩
    rw [hp]
    congr 1
    unfold wrap16 IsI16 at *; simp; omega
  | @cons ps m ms x y qs rs hmcu _ ih =>
    obtain ⟨d1, h1, h2, q, h3, h4, h5⟩ := hm hmcu i hi p hp hp16
    obtain ⟨d2, g1, g2, g3⟩ := ih q h3 h5
    refine ⟨d1 ++ d2, by rw [List.flatMap_cons, List.length_append, List.length_append, h1, g1], ?_, ?_⟩
    · intro k b hk
      rw [List.flatMap_cons] at hk
      by_cases hlt : k < (m.getD i []).length
      · rw [List.getElem?_append_left hlt] at hk
        rw [h2 k b hk, List.take_append_of_le_length (by omega)]
      · rw [List.getElem?_append_right (by omega)] at hk
        rw [g2 _ b hk, h4, wrap16_add, List.take_append, List.take_of_length_le (show d1.length ≤ k + 1 by omega), h1,
          List.sum_append, add_assoc,
          show k + 1 - (m.getD i []).length = k - (m.getD i []).length + 1 by omega]
    · rw [g3, h4, wrap16_add, List.sum_append, add_assoc]

/-! ## Examples -/

/-- A decoder with two MCUs to read and restart interval one. -/
def exampleRst (dc : BaseTable) (ac : AcTable) : Decoder :=
  { Decoder.default with
    frame := some ⟨0, 8, 8, 32, ⟨2, 1⟩, [exampleComponent 2, exampleComponent 1]⟩
    scan := some ⟨[⟨0, 0, 0⟩, ⟨1, 0, 0⟩], 0, 63, 0, 0⟩
    dcTables := [some dc, none, none, none]
    acTables := [some ac, none, none, none]
    restartInterval := 1 }

/-- Three blocks' worth of data. -/
def exampleData : List UInt8 := [0x88, 0xB1, 0xA2, 0x2C, 0x68, 0x8B, 0x18]

def exampleMcu : Mcu := [[⟨-5, exampleZz⟩, ⟨-10, exampleZz⟩], [⟨-5, exampleZz⟩]]

theorem exampleMcu_bits : McuBits [(exampleDc, exampleAc), (exampleDc, exampleAc)] [0, 0] exampleMcu
    (exampleBits ++ exampleBits ++ exampleBits) [-10, -5] := by
  have hb := C13_standard_encoder _ _ _ _ _ (by decide) exampleBits_eq
  have h1 : BlocksBits exampleDc exampleAc 0 [⟨-5, exampleZz⟩, ⟨-10, exampleZz⟩] _ (-10) :=
    .cons hb (by decide) (.cons hb (by decide) .nil)
  have h2 : BlocksBits exampleDc exampleAc 0 [⟨-5, exampleZz⟩] _ (-5) :=
    .cons hb (by decide) .nil
  have := McuBits.cons h1 (McuBits.cons h2 (McuBits.nil (ps := [])))
  unfold exampleMcu
  simpa using this

theorem exampleInterval : IntervalData [(exampleDc, exampleAc), (exampleDc, exampleAc)] [exampleMcu]
    exampleData :=
  ⟨_, [false, false], _, .cons exampleMcu_bits .nil, by decide +kernel⟩

/-- A case of C17: two intervals, with a fill byte in front of RST0. -/
example : ∃ dc ac s0 s1, scanInit false ⟨exampleRst dc ac,
      ⟨stuff exampleData ++ ([0xFF] ++ 0xFF :: 0xD0 :: (stuff exampleData ++ [0xFF, 0xD9])), 0, 0⟩⟩ =
        .ok () s0 ∧
      mcuLoop ⟨true, false⟩ false (mcuList ⟨2, 1⟩) s0 = .ok () s1 ∧
      scanTail s1.bi.input = some [0xFF, 0xD9] := by
  obtain ⟨dc, hdc⟩ := exampleTable
  obtain ⟨ac, hac⟩ := exampleAcTable
  have hu : ∀ h : ScanHeader, h.dcSel = 0 → h.acSel = 0 → UsesCodes ⟨true, false⟩
      (exampleRst dc ac) h (exampleDc, exampleAc) :=
    fun h h1 h2 => ⟨dc, ac, by rw [h1]; rfl, by rw [h2]; rfl, hdc, hac⟩
  obtain ⟨s0, s1, h1, h2, -, h3⟩ := C17_wellformed_accepted ⟨true, false⟩ false (exampleRst dc ac) _ _
    [(exampleDc, exampleAc), (exampleDc, exampleAc)] 1
    ⟨rfl, rfl, ⟨rfl, rfl, rfl⟩, .cons (hu _ rfl rfl) (.cons (hu _ rfl rfl) .nil), Or.inl rfl, rfl,
      by decide, by decide⟩ (by decide) [0xFF, 0xD9] ⟨0xD9, [], rfl, by decide⟩
    [[exampleMcu], [exampleMcu]] _ (.cons 1 exampleInterval (.last exampleInterval))
    (by
      unfold IntervalsOk
      rw [if_neg (by decide)]
      exact Or.inr ⟨[[exampleMcu]], [exampleMcu], rfl, by simp, by simp, by simp⟩)
    (by
      intro m hm
      have : m = exampleMcu := by simpa using hm
      subst this
      exact ⟨rfl, by decide⟩) rfl [] (by rfl)
  exact ⟨dc, ac, s0, s1, h1, h2, h3⟩

end Jpeg
