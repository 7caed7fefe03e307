import Verif.Props.EndToEnd
import Verif.Props.Outcome
import Verif.Props.Size
import Verif.Props.Colors
/-!
# C77: segments between the scan and the end of the image; C78: files whose number of lines follows the scan
-/

namespace Jpeg
open Spec

section

variable {cfg : Cfg} {f : BaselineFile} {H V : Nat} {codes : List (Code × Code)}

/-! ## C77 -/

/-- The Adobe segments among some segments. -/
def Spec.adobes (l : List TableSegment) : List TableSegment :=
  l.filter fun | .adobe _ _ _ _ => true | _ => false

theorem adobes_quant (l : List TableSegment) : quantDefs (adobes l) = [] := by
  induction l with
  | nil => rfl
  | cons s l ih => cases s <;> simp_all [adobes, quantDefs]

theorem adobes_huffman (l : List TableSegment) : huffmanDefs (adobes l) = [] := by
  induction l with
  | nil => rfl
  | cons s l ih => cases s <;> simp_all [adobes, huffmanDefs]

theorem adobes_restart (l : List TableSegment) : restartDefs (adobes l) = [] := by
  induction l with
  | nil => rfl
  | cons s l ih => cases s <;> simp_all [adobes, restartDefs]

theorem adobes_transform (l : List TableSegment) : transformDefs (adobes l) = transformDefs l := by
  induction l with
  | nil => rfl
  | cons s l ih => cases s <;> simp_all [adobes, transformDefs]

/-- A file with further segments in front of the scan header. -/
def Spec.BaselineFile.addAfter (f : BaselineFile) (l : List TableSegment) : BaselineFile := { f with after := f.after ++ l }

theorem addAfter_tables (f : BaselineFile) (l : List TableSegment) : (f.addAfter l).tables = f.tables ++ l := by
  simp [BaselineFile.addAfter, BaselineFile.tables, BaselineFile.segments]

theorem addAfter_segments (f : BaselineFile) (l : List TableSegment) : (f.addAfter l).segments = f.segments ++ l := by
  simp [BaselineFile.addAfter, BaselineFile.segments]

theorem adobes_interval (f : BaselineFile) (l : List TableSegment) (r : Nat) :
    (f.addAfter (adobes l)).interval r = f.interval r := by
  unfold BaselineFile.interval
  rw [addAfter_segments]
  have : restartDefs (f.segments ++ adobes l) = restartDefs f.segments ++ restartDefs (adobes l) := List.flatMap_append
  rw [this, adobes_restart, List.append_nil]

theorem adobes_quantDefs (f : BaselineFile) (l : List TableSegment) :
    quantDefs (f.addAfter (adobes l)).tables = quantDefs f.tables := by
  rw [addAfter_tables, show quantDefs (f.tables ++ adobes l) = quantDefs f.tables ++ quantDefs (adobes l) from
    List.flatMap_append, adobes_quant, List.append_nil]

theorem adobes_huffmanDefs (f : BaselineFile) (l : List TableSegment) :
    huffmanDefs (f.addAfter (adobes l)).tables = huffmanDefs f.tables := by
  rw [addAfter_tables, show huffmanDefs (f.tables ++ adobes l) = huffmanDefs f.tables ++ huffmanDefs (adobes l) from
    List.flatMap_append, adobes_huffman, List.append_nil]

theorem Spec.BaselineFile.Valid.addAdobe {r : Nat} (hv : f.Valid r H V codes) {l : List TableSegment}
    (hl : ∀ s ∈ l, s.Ok) : (f.addAfter (adobes l)).Valid r H V codes := by
  refine ⟨⟨?_, hv.sof, hv.x, hv.y, hv.count, hv.ids, hv.factors, hv.hmax, hv.vmax, hv.ten, hv.single, ?_, ?_, hv.mcus,
    hv.blocks, hv.restarts⟩, hv.data⟩
  · intro s hs
    rw [addAfter_tables, List.mem_append] at hs
    rcases hs with hs | hs
    · exact hv.tables s hs
    · exact hl s (List.mem_filter.1 hs).1
  · intro c hc
    unfold BaselineFile.quantOf
    rw [adobes_quantDefs]
    exact hv.quant c hc
  · have := hv.huffman
    unfold BaselineFile.dcCode BaselineFile.acCode at this ⊢
    rw [adobes_huffmanDefs]
    exact this

/-- **C77** (part; the full claim, that what follows the last scan does not change the picture, is refuted by
`C77_violated`). Segments between the scan and the end of the image have no influence on the result (image, error or
panic), except for Adobe segments, which act as if they stood in front of the scan. -/
theorem C77_behind_partial (cfg : Cfg) (f : BaselineFile) (H V : Nat) (codes : List (Code × Code)) (d : Decoder)
    (hd : UsedDecoder d) (hh : Holds cfg d f.earlier) (hv : f.Valid (f.interval d.restartInterval) H V codes)
    (more : List TableSegment) (hm : ∀ s ∈ more, s.Ok) (k : Nat) (x : List UInt8)
    (hdata : ScanBytes codes (more.flatMap TableSegment.bytes ++ (List.replicate k 0xFF ++ markerBytes .EOI)) 0
      f.intervals x) :
    (d.decode cfg { f with data := x }.bytes).result = (d.decode cfg (f.addAfter (adobes more)).bytes).result := by
  have hv' : (f.addAfter (adobes more)).Valid ((f.addAfter (adobes more)).interval d.restartInterval) H V codes := by
    rw [adobes_interval]
    exact hv.addAdobe hm
  obtain ⟨a0, a', ai, a1, a2, a3, -, a5, a6, -, a8, a9⟩ := loopAll_behind (cfg := cfg) hd.inv hh.held hv.toLaid hm hdata
  obtain ⟨b', bi, b1, b2, b3, b4, b5, b6⟩ := loopAll_file (cfg := cfg) hd.inv
    (f := f.addAfter (adobes more)) hh.held hv'
  have b4 : b'.frame = some (fileFrame f H V) := b4
  have b6 : b'.planes = scanPlanes (ceilDiv f.x (8 * H)) b'.quantTables (fileFrame f H V).components
    f.intervals.flatten := b6
  have b3 : TablesHeld cfg f.tables b' := by
    obtain ⟨q, h1, h2⟩ := b3
    rw [adobes_quantDefs] at q
    rw [adobes_huffmanDefs] at h1 h2
    exact ⟨q, h1, h2⟩
  have hpl : a'.planes = b'.planes := by
    rw [a9, b6]
    unfold scanPlanes
    apply List.map_congr_left
    intro i _
    cases hc : (fileFrame f H V).components[i]? with
    | none => rfl
    | some c =>
      obtain ⟨k, hk, rfl⟩ := List.mem_map.1 (List.mem_of_getElem? hc)
      simp only
      rw [quantOf_unique hv a3 b3 hk]
  have htr : a'.transform = b'.transform := by
    rw [a5.color, b5, a8]
    unfold BaselineFile.transform
    rw [addAfter_segments, show transformDefs (f.segments ++ adobes more) =
      transformDefs f.segments ++ transformDefs (adobes more) from List.flatMap_append, adobes_transform,
      List.getLast?_append]
    cases (transformDefs more).getLast? <;> rfl
  have hup : upsample cfg a' = upsample cfg b' := upsample_only (a6.trans b4.symm) hpl htr
  unfold Decoder.decode decodeParser
  unfold loopAll at a1 b1
  rw [a1, b1, Out.bind_ok, Out.bind_ok]
  simp only [hup]
  cases upsample cfg b' with
  | ok image => simp [a2, b2, Out.result]
  | error x => cases x <;> simp [a2, b2, Out.result]

/-- **C77**. In particular comments, application segments, tables for a later image and a restart interval behind the
scan change nothing. -/
theorem C77_same_partial (cfg : Cfg) (f : BaselineFile) (H V : Nat) (codes : List (Code × Code)) (d : Decoder)
    (hd : UsedDecoder d) (hh : Holds cfg d f.earlier) (hv : f.Valid (f.interval d.restartInterval) H V codes)
    (more : List TableSegment) (hm : ∀ s ∈ more, s.Ok) (hno : transformDefs more = []) (k : Nat) (x : List UInt8)
    (hdata : ScanBytes codes (more.flatMap TableSegment.bytes ++ (List.replicate k 0xFF ++ markerBytes .EOI)) 0
      f.intervals x) :
    (d.decode cfg { f with data := x }.bytes).result = (d.decode cfg f.bytes).result := by
  have e : adobes more = [] := by
    rw [← adobes_transform] at hno
    apply List.eq_nil_iff_forall_not_mem.2
    intro s hs
    have h2 := (List.mem_filter.1 hs).2
    cases s with
    | adobe v a b t =>
      have : t ∈ transformDefs (adobes more) := List.mem_flatMap.2 ⟨_, hs, by simp⟩
      rw [hno] at this
      cases this
    | _ => simp at h2
  rw [C77_behind_partial cfg f H V codes d hd hh hv more hm k x hdata, e]
  simp [BaselineFile.addAfter]

/-- **C40**, behind the scan: a comment none of whose bytes look like a marker, between scan and end, changes nothing. -/
theorem C40_behind_partial (cfg : Cfg) (f : BaselineFile) (H V : Nat) (codes : List (Code × Code)) (d : Decoder)
    (hd : UsedDecoder d) (hh : Holds cfg d f.earlier) (hv : f.Valid (f.interval d.restartInterval) H V codes)
    (comment : List UInt8) (hlen : comment.length + 2 < 65536) (hno : ∀ j c, ¬ MarkerAt (segmentOf comment) j c) (k : Nat)
    (x : List UInt8)
    (hdata : ScanBytes codes (markerSegment .COM comment ++ (List.replicate k 0xFF ++ markerBytes .EOI)) 0
      f.intervals x) :
    (d.decode cfg { f with data := x }.bytes).result = (d.decode cfg f.bytes).result :=
  C77_same_partial cfg f H V codes d hd hh hv [.com comment] (by
    intro s hs
    rw [List.mem_singleton.1 hs]
    exact ⟨hlen, hno⟩) rfl k x (by simpa [TableSegment.bytes, TableSegment.marker, TableSegment.content] using hdata)

/-- **C77** (refutation). An Adobe segment behind the scan that announces the transform YCCK turns a file of four
components that decodes into one that panics. -/
theorem C77_violated (cfg : Cfg) (f : BaselineFile) (H V : Nat) (codes : List (Code × Code)) (d : Decoder)
    (hd : UsedDecoder d) (hh : Holds cfg d f.earlier) (hv : f.Valid (f.interval d.restartInterval) H V codes)
    (h4 : f.comps.length = 4) (ht : f.transform d.transform = some 0) (hr : f.Ratios H V) (hw : ¬ f.HalfWidth H V)
    (hy : f.y ≠ 0) (k : Nat) (x : List UInt8)
    (hdata : ScanBytes codes (TableSegment.bytes (.adobe 100 0 0 2) ++ (List.replicate k 0xFF ++ markerBytes .EOI)) 0
      f.intervals x) :
    (∃ image d', d.decode cfg f.bytes = .ok image d') ∧
    ∃ p d', d.decode cfg { f with data := x }.bytes = .fail (.panic p) d' := by
  have hok : ∀ s ∈ [TableSegment.adobe 100 0 0 2], s.Ok := by
    intro s hs
    rw [List.mem_singleton.1 hs]
    exact ⟨by decide, by decide⟩
  refine ⟨(C67_decodes_iff cfg f H V codes d hd hh hv).2 ⟨.inr ⟨h4, .inl ht⟩, hr, .inr hw⟩, ?_⟩
  have key := C77_behind_partial cfg f H V codes d hd hh hv [.adobe 100 0 0 2] hok k x (by simpa using hdata)
  have ho := C67_outcome cfg (f.addAfter (adobes [.adobe 100 0 0 2])) H V codes d hd hh (by
    rw [adobes_interval]
    exact hv.addAdobe hok)
  have e1 : (f.addAfter (adobes [.adobe 100 0 0 2])).transform d.transform = some 2 := by
    unfold BaselineFile.transform
    rw [addAfter_segments, show transformDefs (f.segments ++ adobes [.adobe 100 0 0 2]) =
      transformDefs f.segments ++ [2] from List.flatMap_append, List.getLast?_append]
    rfl
  have e2 : (f.addAfter (adobes [.adobe 100 0 0 2])).outcome (some 2) H V = .panic := by
    unfold BaselineFile.outcome
    have c4 : (f.addAfter (adobes [.adobe 100 0 0 2])).comps.length = 4 := h4
    rw [if_neg (by omega), if_neg (by simp), if_pos (show (f.addAfter _).Ratios H V from hr),
      if_neg (show (f.addAfter _).y ≠ 0 from hy), if_pos ⟨c4, by decide⟩]
  rw [e1, e2] at ho
  obtain ⟨p, d', e⟩ := ho
  rw [e] at key
  cases e' : d.decode cfg { f with data := x }.bytes with
  | ok i s => rw [e'] at key; simp [Out.result] at key
  | fail g s =>
    rw [e'] at key
    simp only [Out.result, Except.error.injEq] at key
    exact ⟨p, s, by rw [key]⟩

theorem tables_starts {rest : List UInt8} (h : StartsWithMarker rest) {l : List TableSegment} (hl : ∀ s ∈ l, s.Ok) :
    StartsWithMarker (l.flatMap TableSegment.bytes ++ rest) := by
  induction l with
  | nil => exact h
  | cons s l ih =>
    obtain ⟨m, r, e, hm⟩ := ih fun s hs => hl s (by simp [hs])
    rw [List.flatMap_cons, List.append_assoc]
    by_cases hf : ∃ k, s = .fill k
    · obtain ⟨k, rfl⟩ := hf
      rw [e]
      rcases k with _ | _ | k
      · exact ⟨m, r, rfl, hm⟩
      · exact ⟨0xFF, _, rfl, by decide⟩
      · exact ⟨0xFF, _, rfl, by decide⟩
    · rw [TableSegment.bytes_eq fun k e => hf ⟨k, e⟩]
      exact (MarkerFirst.segment (TableSegment.has s (hl s (by simp))).1 _ _).starts

/-- **C77** (unknown markers). A marker this decoder does not know, behind the scan or segments that follow it, makes
the file refused with an error, whatever follows. -/
theorem C77_unknown (cfg : Cfg) (f : BaselineFile) (H V : Nat) (codes : List (Code × Code)) (d : Decoder)
    (hd : UsedDecoder d) (hh : Holds cfg d f.earlier) (hv : f.Laid (f.interval d.restartInterval) H V codes)
    (more : List TableSegment) (hm : ∀ s ∈ more, s.Ok) (c : UInt8) (hc : c ≠ 0 ∧ c ≠ 0xFF)
    (hu : ∀ m, MarkerExists m → markerCode m ≠ c.toNat) (rest x : List UInt8)
    (hdata : ScanBytes codes (more.flatMap TableSegment.bytes ++ 0xFF :: c :: rest) 0 f.intervals x) :
    ∃ d', d.decode cfg { f with data := x }.bytes = .fail (.err .markerExpected) d' := by
  have hmk : marker (0xFF :: c :: rest) = .error (.err .markerExpected) := by
    refine C36_unknown_code _ 0 c ⟨rfl, rfl, hc.1, hc.2⟩ (by intro j c' hj; omega) hu
  have hst : StartsWithMarker (more.flatMap TableSegment.bytes ++ 0xFF :: c :: rest) := by
    exact tables_starts ⟨c, rest, rfl, hc.1⟩ hm
  obtain ⟨d4, bi, e4, h1, h2, h3, -⟩ := loopAll_pastScan (cfg := cfg) hd.inv hh.held hv hst hdata
  obtain ⟨s, e⟩ := loopAll_unknown (cfg := cfg) (bits := bi.bits) (count := bi.count) (fun _ => h2) hmk more hm d4 bi.input
    h3 (marker_scanTail h1)
  exact ⟨s.dec, decode_of_fail (e4.trans e)⟩

/-! ## C78 -/

/-- The first marker in `x` that is not a restart marker has the code `c`; `rest` follows it. -/
inductive Spec.FirstMarker (c : UInt8) (rest : List UInt8) : List UInt8 → Prop
  | here {data : List UInt8} (h : ∀ j m, j < data.length → ¬ MarkerAt (data ++ 0xFF :: c :: rest) j m) :
      FirstMarker c rest (data ++ 0xFF :: c :: rest)
  | restart {data more : List UInt8} {n : Nat} (hn : n < 8)
      (h : ∀ j m, j < data.length → ¬ MarkerAt (data ++ 0xFF :: UInt8.ofNat (0xD0 + n) :: more) j m)
      (hr : FirstMarker c rest more) : FirstMarker c rest (data ++ 0xFF :: UInt8.ofNat (0xD0 + n) :: more)

theorem markerAt_middle (data : List UInt8) {c : UInt8} (hc : c ≠ 0 ∧ c ≠ 0xFF) (rest : List UInt8) :
    MarkerAt (data ++ 0xFF :: c :: rest) data.length c :=
  ⟨by simp, by rw [List.getElem?_append_right (by omega)]; simp, hc.1, hc.2⟩

theorem loopAll_restarts {bits count : Nat} (hwf : ∀ l, (⟨l, bits, count⟩ : Biterator).WF) {c : UInt8}
    (hc : c ≠ 0 ∧ c ≠ 0xFF) {rest x : List UInt8} (h : FirstMarker c rest x) {d : Decoder} (hd : DecInv d) :
    (∀ m, MarkerExists m → markerCode m = c.toNat → m ≠ .EOI → loopAll cfg ⟨d, ⟨x, bits, count⟩⟩ =
      (doSegment cfg m ⟨d, ⟨rest, bits, count⟩⟩).bind fun _ s => loopAll cfg s) ∧
    (c = 0xD9 → loopAll cfg ⟨d, ⟨x, bits, count⟩⟩ = .ok () ⟨d, ⟨rest, bits, count⟩⟩) ∧
    ((∀ m, MarkerExists m → markerCode m ≠ c.toNat) →
      ∃ s, loopAll cfg ⟨d, ⟨x, bits, count⟩⟩ = .fail (.err .markerExpected) s) := by
  induction h with
  | @here data h =>
    have hat := markerAt_middle data hc rest
    have hdrop : (data ++ 0xFF :: c :: rest).drop (data.length + 2) = rest := by
      rw [List.drop_append]; simp
    refine ⟨fun m hm e hne => ?_, fun e => ?_, fun hu => ?_⟩
    · have := C36_first_marker _ _ c m hat (fun j c' hj => h j c' hj) hm e
      rw [hdrop] at this
      rw [loopAll_eq (s := ⟨d, ⟨_, bits, count⟩⟩) hd (hwf _) this hne]
      rfl
    · have := C36_first_marker _ _ c .EOI hat (fun j c' hj => h j c' hj) trivial (by rw [e]; rfl)
      rw [hdrop] at this
      rw [loopAll_eoi (s := ⟨d, ⟨_, bits, count⟩⟩) this]
      rfl
    · exact ⟨_, loopAll_error (s := ⟨d, ⟨_, bits, count⟩⟩) (C36_unknown_code _ _ c hat (fun j c' hj => h j c' hj) hu)⟩
  | @restart data more n hn h hr ih =>
    have hrst : MarkerExists (.RST n) := by show n ≤ 7; omega
    have hcode : markerCode (.RST n) = (UInt8.ofNat (0xD0 + n)).toNat := by
      rw [UInt8.toNat_ofNat']
      simp only [markerCode]
      omega
    have h0 : UInt8.ofNat (0xD0 + n) ≠ 0 ∧ UInt8.ofNat (0xD0 + n) ≠ 0xFF := by
      constructor <;> intro e <;> rw [e] at hcode <;> simp [markerCode] at hcode <;> omega
    have hat := markerAt_middle data h0 more
    have hdrop : (data ++ 0xFF :: UInt8.ofNat (0xD0 + n) :: more).drop (data.length + 2) = more := by
      rw [List.drop_append]; simp
    have := C36_first_marker _ _ _ (.RST n) hat (fun j c' hj => h j c' hj) hrst hcode
    rw [hdrop] at this
    have e : loopAll cfg ⟨d, ⟨data ++ 0xFF :: UInt8.ofNat (0xD0 + n) :: more, bits, count⟩⟩ =
        loopAll cfg ⟨d, ⟨more, bits, count⟩⟩ := by
      rw [loopAll_eq (s := ⟨d, ⟨_, bits, count⟩⟩) hd (hwf _) this (by simp)]
      rfl
    rw [e]
    exact ih

theorem scanInit_bi {pd : Bool} {d : Decoder} {b : Biterator} {s0 : St} (h : scanInit pd ⟨d, b⟩ = .ok () s0)
    (b' : Biterator) : scanInit pd ⟨d, b'⟩ = .ok () ⟨s0.dec, b'⟩ := by
  unfold scanInit at h ⊢
  split at h
  · rename_i frame scan hf hs
    split at h
    · cases h
    · cases h
    · rename_i e1
      split at h
      · cases h
      · cases h
      · rename_i e2
        simp only at hf hs e1 e2 h ⊢
        simp only [hf, hs, e1, e2]
        split at h
        · split at h
          · cases h
          · rename_i h1 h2
            rw [if_pos h1, if_neg h2]
            cases h
            simp only [hf, hs]
        · rename_i h1
          rw [if_neg h1]
          cases h
          simp only [hf, hs]
  · cases h

/-- A scan of no MCUs reads nothing. -/
theorem decodeScan_none {d : Decoder} {frame : Frame} {W : Nat} (hf : d.frame = some frame) (hs : frame.mcuSize = ⟨W, 0⟩)
    {b : Biterator} {s1 : St} (h : decodeScan cfg true ⟨d, b⟩ = .ok () s1) (b' : Biterator) :
    decodeScan cfg true ⟨d, b'⟩ = .ok () ⟨s1.dec, b'⟩ := by
  unfold decodeScan at h ⊢
  cases e : scanInit true ⟨d, b⟩ with
  | fail g s => rw [e] at h; cases h
  | ok u s0 =>
    obtain ⟨frame', scan, results, hf', hs', rfl, hr⟩ := scanInit_ok e
    rw [scanInit_bi e b']
    rw [e] at h
    rw [Out.bind_ok] at h ⊢
    have hf' : d.frame = some frame' := hf'
    have hs' : d.scan = some scan := hs'
    rw [hf] at hf'
    cases hf'
    have hl : mcuList frame.mcuSize = [] := by rw [hs]; simp [mcuList]
    simp only [hf, hs', hl, mcuLoop, Out.bind_ok] at h ⊢
    split at h
    · cases h
    · rename_i planes ep
      cases h
      rfl

theorem Spec.BaselineFile.Laid.ceil_zero {r : Nat} (hv : f.Laid r H V codes) : ceilDiv 0 (8 * V) = 0 := by
  unfold ceilDiv
  have : 1 ≤ V := by
    obtain ⟨c, hc, e⟩ := hv.vmax.2
    have := (hv.factors c hc).2.2.1
    have e : c.v = V := e
    omega
  exact Nat.div_eq_of_lt (by omega)

theorem Spec.BaselineFile.Laid.noLines {r : Nat} (hv : f.Laid r H V codes) (hy : f.y = 0) : f.intervals = [[]] := by
  have h0 : f.intervals.flatten = [] := by
    have := hv.mcus
    rw [hy] at this
    rw [hv.ceil_zero, Nat.mul_zero] at this
    exact List.length_eq_zero_iff.1 this
  have hr := hv.restarts
  unfold IntervalsOk at hr
  split at hr
  · obtain ⟨a, e⟩ := List.length_eq_one_iff.1 hr
    rw [e] at h0 ⊢
    simp at h0
    rw [h0]
  · rcases hr with hr | ⟨init, last, e, -, h1, -⟩
    · exact hr
    · rw [e, List.flatten_append] at h0
      have := (List.append_eq_nil_iff.1 h0).2
      simp at this
      rw [this] at h1
      simp at h1

/-- The run over a file with 0 lines in its frame header. -/
theorem loopAll_noLines {d : Decoder} (hd : DecInv d) (hh : TablesHeld cfg f.earlier d)
    (hv : f.Laid (f.interval d.restartInterval) H V codes) (hy : f.y = 0) (x : List UInt8) :
    ∃ d', loopAll cfg ⟨d, Biterator.new ({ f with data := x } : BaselineFile).bytes⟩ = loopAll cfg ⟨d', ⟨x, 0, 0⟩⟩ ∧
      DecInv d' ∧ d'.frame = some (fileFrame f H V) ∧ d'.transform = f.transform d.transform ∧
      d'.planes = scanPlanes (ceilDiv f.x (8 * H)) d'.quantTables (fileFrame f H V).components [] := by
  obtain ⟨d3, i3, hh3, hf3, hr3, ht3, e3⟩ := loopAll_toScan_all (cfg := cfg) hd hh hv
  obtain ⟨D, fin, hD, hready, hs⟩ := sos_start_all (cfg := cfg) hv i3 hf3 hh3 hr3
  have hi := hv.noLines hy
  have hdata : ScanBytes codes (markerBytes .EOI) 0 f.intervals (stuff [] ++ markerBytes .EOI) := by
    rw [hi]
    exact .last ⟨[], [], _, .nil, by simp [bitsOf]⟩
  obtain ⟨d4, bi, e4, -, -, h3⟩ := sos_tail (cfg := cfg) hv i3 hf3 hh3 hr3 (tail := markerBytes .EOI) (starts_eoi 0) hdata
  rw [hs] at e4
  have hframe : D.frame = some (fileFrame f H V) := by rw [hD]; exact hf3
  have hsize : (fileFrame f H V).mcuSize = ⟨ceilDiv f.x (8 * H), 0⟩ := by
    show (⟨ceilDiv f.x (8 * H), ceilDiv f.y (8 * V)⟩ : Dim) = _
    rw [hy, hv.ceil_zero]
  have e5 := (hs x).trans (decodeScan_none (cfg := cfg) hframe hsize e4 ⟨x, 0, 0⟩)
  have hsafe := doSegment_safe (cfg := cfg) (m := .SOS) trivial
    (s := ⟨d3, ⟨segmentOf (scanHeader (f.comps.map fun c => ⟨c.id, c.dc, c.ac⟩) 0 63 0 0) ++ x, 0, 0⟩⟩) i3 (wf_zero _)
  rw [doSegment, e5] at hsafe
  have hq : d4.quantTables = d3.quantTables := by rw [h3]
  have htr : d4.transform = d3.transform := by rw [h3]; rfl
  refine ⟨d4, by rw [e3 x, e5, Out.bind_ok], hsafe.1, by rw [h3]; exact hf3, htr.trans ht3, ?_⟩
  rw [hq, h3, hi]
  rfl

theorem dnl_unknown : ∀ m, MarkerExists m → markerCode m ≠ (0xDC : UInt8).toNat := by
  intro m hm
  have : (0xDC : UInt8).toNat = 0xDC := rfl
  rw [this]
  cases m <;> simp only [MarkerExists] at hm <;> simp only [markerCode] <;> omega

/-- **C78** (refutation). A frame header with 0 lines means that the number of lines follows the first scan, in a DNL
segment (T.81 B.2.2, B.2.5). Every such file is refused, whatever the data, with restart markers or without. -/
theorem C78_dnl_violated (cfg : Cfg) (f : BaselineFile) (H V : Nat) (codes : List (Code × Code)) (d : Decoder)
    (hd : UsedDecoder d) (hh : Holds cfg d f.earlier) (hv : f.Laid (f.interval d.restartInterval) H V codes)
    (hy : f.y = 0) (rest x : List UInt8) (hx : FirstMarker 0xDC rest x) :
    ∃ d', d.decode cfg { f with data := x }.bytes = .fail (.err .markerExpected) d' := by
  obtain ⟨d1, e1, h1, -⟩ := loopAll_noLines (cfg := cfg) hd.inv hh.held hv hy x
  obtain ⟨s, e⟩ := (loopAll_restarts (cfg := cfg) wf_zero (by decide) hx h1).2.2 dnl_unknown
  exact ⟨s.dec, decode_of_fail (e1.trans e)⟩

/-- **C78** (refutation). Without a DNL segment the number of lines is not known. Such a file gives an image without
pixels, whatever its data. -/
theorem C78_missing_violated (cfg : Cfg) (f : BaselineFile) (H V : Nat) (codes : List (Code × Code)) (d : Decoder)
    (hd : UsedDecoder d) (hh : Holds cfg d f.earlier) (hv : f.Laid (f.interval d.restartInterval) H V codes)
    (hy : f.y = 0) (h3 : f.comps.length = 3) (hr : f.Ratios H V) (x : List UInt8) (hx : FirstMarker 0xD9 [] x) :
    ∃ d', d.decode cfg { f with data := x }.bytes = .ok [] d' := by
  obtain ⟨d1, e1, h1, h2, -, h4⟩ := loopAll_noLines (cfg := cfg) hd.inv hh.held hv hy x
  have e2 := (loopAll_restarts (cfg := cfg) wf_zero (by decide) hx h1).2.1 rfl
  have hdec : Decoded d1 (fileFrame f H V) := by
    refine ⟨h2, hv.geometry, ?_⟩
    rw [h4, List.forall₂_iff_get]
    have hl : (scanPlanes (ceilDiv f.x (8 * H)) d1.quantTables (fileFrame f H V).components []).length =
        (fileFrame f H V).components.length := by simp [scanPlanes]
    refine ⟨hl, fun i a b => ?_⟩
    have hc := List.getElem?_eq_getElem b
    have hp := scanPlanes_get (W := ceilDiv f.x (8 * H)) (qts := d1.quantTables) (ms := []) hc
    rw [List.getElem?_eq_getElem a] at hp
    rw [List.get_eq_getElem, List.get_eq_getElem, Option.some.inj hp, planeSamples_length]
    obtain ⟨k, hk, e⟩ := List.mem_map.1 (List.getElem_mem b)
    rw [← e]
    exact planeSize_eq (fileComponent_geometry hv hk)
  obtain ⟨us, hu⟩ : ∃ us, upsamplerNew (fileFrame f H V).components ⟨f.x, f.y⟩ = .ok us := by
    rcases ratios_upsample hv with ⟨-, h⟩ | ⟨h, -⟩
    · exact h
    · exact absurd hr h
  have hc : ∃ g, chooseColorConvert (fileFrame f H V).components.length d1.colorTransform = .ok g := by
    rw [show (fileFrame f H V).components.length = 3 by simp [fileFrame, h3]]
    unfold chooseColorConvert
    split_ifs
    · exact ⟨_, rfl⟩
    · exact ⟨_, rfl⟩
  obtain ⟨g, hg⟩ := hc
  have hup := upsample_noLines (cfg := cfg) hdec hv.x.1 hy hg hu
  refine ⟨d1, ?_⟩
  have e := e1.trans e2
  unfold Decoder.decode decodeParser
  unfold loopAll at e
  rw [e, Out.bind_ok]
  simp [hup]

/-! ## Cases -/

/-- A comment and an application segment between scan and end. -/
def exampleBehind : List TableSegment := [.com [0x68, 0x69], .app 1 [1, 2], .dri 7]

theorem exampleBehind_ok : ∀ s ∈ exampleBehind, s.Ok := by
  intro s hs
  simp only [exampleBehind, List.mem_cons, List.not_mem_nil, or_false] at hs
  rcases hs with rfl | rfl | rfl
  · exact ⟨by decide, hiComment⟩
  · exact ⟨by decide, by decide⟩
  · exact ⟨by decide, by show (7 : Nat) < 65536; decide⟩

theorem exampleData_interval : IntervalData (List.replicate 3 (exampleDc, exampleAc)) [exampleMcu3] exampleData :=
  ⟨_, [false, false], _, .cons exampleMcu3_bits .nil, by decide +kernel⟩

example (cfg : Cfg) : ∃ x, ScanBytes (List.replicate 3 (exampleDc, exampleAc))
      (exampleBehind.flatMap TableSegment.bytes ++ (List.replicate 0 0xFF ++ markerBytes .EOI)) 0 exampleFile.intervals x ∧
    (Decoder.default.decode cfg { exampleFile with data := x }.bytes).result =
      (Decoder.default.decode cfg exampleFile.bytes).result :=
  ⟨_, .cons 0 exampleData_interval (.last exampleData_interval),
    C77_same_partial cfg exampleFile 1 1 _ Decoder.default .new (.nothing _) exampleFile_valid exampleBehind
      exampleBehind_ok rfl 0 _ (.cons 0 exampleData_interval (.last exampleData_interval))⟩

example (cfg : Cfg) : ∃ x d', Decoder.default.decode cfg { exampleFile with data := x }.bytes =
    .fail (.err .markerExpected) d' := by
  obtain ⟨d', h⟩ := C77_unknown cfg exampleFile 1 1 _ Decoder.default .new (.nothing _) exampleFile_valid.toLaid
    exampleBehind exampleBehind_ok 0xDC (by decide) dnl_unknown [0, 4, 0, 8] _
    (.cons 0 exampleData_interval (.last exampleData_interval))
  exact ⟨_, d', h⟩

theorem exampleData4_interval : IntervalData (List.replicate 4 (exampleDc, exampleAc)) [exampleMcuOf 4] exampleData4 :=
  ⟨_, [], List.replicate 4 (-5), .cons (by simpa using exampleMcuOf_bits 4) .nil, by decide +kernel⟩

example (cfg : Cfg) : ∃ x, (∃ image d', Decoder.default.decode cfg (exampleOf 4 0 exampleData4).bytes = .ok image d') ∧
    ∃ p d', Decoder.default.decode cfg { exampleOf 4 0 exampleData4 with data := x }.bytes = .fail (.panic p) d' :=
  ⟨_, C77_violated cfg (exampleOf 4 0 exampleData4) 1 1 _ Decoder.default .new (.nothing _)
    (example4_valid 0 (by decide)) rfl rfl (by decide) (by decide) (by decide) 0 _
    (.cons 0 exampleData4_interval (.last exampleData4_interval))⟩

/-- **C78** (a case): 8 samples wide, two data bytes with a stuffed one, a restart marker, DNL, EOI. -/
example (cfg : Cfg) : ∃ d', Decoder.default.decode cfg
    { sizedFile [0x00, 0x10] [] 8 0 with
      data := [0x12, 0xFF, 0x00, 0xFF, 0xD0, 0x34, 0xFF, 0xDC, 0x00, 0x04, 0x00, 0x08, 0xFF, 0xD9] }.bytes =
    .fail (.err .markerExpected) d' := by
  refine C78_dnl_violated cfg (sizedFile [0x00, 0x10] [] 8 0) 1 1 _ Decoder.default .new (.nothing _)
    (sizedFile_laid rfl [] (by decide) (by decide)) rfl [0x00, 0x04, 0x00, 0x08, 0xFF, 0xD9] _ ?_
  refine .restart (data := [0x12, 0xFF, 0x00]) (n := 0) (by decide) ?_ (.here (data := [0x34]) ?_)
  · rintro (_ | _ | _ | j) m hj ⟨h1, h2, h3, h4⟩ <;> simp at hj h1 h2
    · exact h3 h2.symm
    · omega
  · rintro (_ | j) m hj ⟨h1, h2, h3, h4⟩ <;> simp at hj h1

example (cfg : Cfg) : ∃ d', Decoder.default.decode cfg
    { sizedFile [0x00, 0x10] [] 8 0 with data := [0x12, 0x34, 0xFF, 0xD9] }.bytes = .ok [] d' := by
  refine C78_missing_violated cfg (sizedFile [0x00, 0x10] [] 8 0) 1 1 _ Decoder.default .new (.nothing _)
    (sizedFile_laid rfl [] (by decide) (by decide)) rfl rfl ?_ _ (.here (data := [0x12, 0x34]) ?_)
  · decide
  · rintro (_ | _ | j) m hj ⟨h1, h2, h3, h4⟩ <;> simp at hj h1
    omega

end

end Jpeg
