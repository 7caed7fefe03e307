import Verif.Proofs.Baseline
/-!
# The run of the decoder over a whole sequential file
-/

namespace Jpeg
open Spec

theorem lastWith_some {α : Type} {p : α → Bool} {l : List α} {a : α} (h : lastWith p l = some a) :
    a ∈ l ∧ p a = true := by
  unfold lastWith at h
  have := List.mem_of_getLast? h
  rwa [List.mem_filter] at this

/-- A component of the frame of a file. -/
def fileComponent (f : BaselineFile) (H V : Nat) (c : FileComponent) : Component :=
  fullComponent f.x f.y H V (rawComponent c.id c.h c.v c.tq.toNat)

/-- The frame of a file. -/
def fileFrame (f : BaselineFile) (H V : Nat) : Frame :=
  ⟨f.sof, f.precision, f.y, f.x, ⟨ceilDiv f.x (8 * H), ceilDiv f.y (8 * V)⟩, f.comps.map (fileComponent f H V)⟩

section

variable {cfg : Cfg} {f : BaselineFile} {r H V : Nat} {codes : List (Code × Code)}

theorem Spec.BaselineFile.Laid.huffmanOk (hv : f.Laid r H V codes) : ∀ t ∈ huffmanDefs f.tables, t.Ok := by
  intro t ht
  unfold huffmanDefs at ht
  obtain ⟨s, hs, ht⟩ := List.mem_flatMap.1 ht
  have := (hv.tables s hs).2
  cases s with
  | dht ts => exact (this t ht).1
  | _ => simp at ht

theorem Spec.BaselineFile.Laid.quantOk (hv : f.Laid r H V codes) : ∀ t ∈ quantDefs f.tables, t.Ok := by
  intro t ht
  unfold quantDefs at ht
  obtain ⟨s, hs, ht⟩ := List.mem_flatMap.1 ht
  have := (hv.tables s hs).2
  cases s with
  | dqt ts => exact this t ht
  | _ => simp at ht

theorem dc_uses (hv : f.Laid r H V codes) {d : Decoder} (ht : TablesHeld cfg f.tables d)
    {c : FileComponent} {code : Code} (h : f.dcCode c = some code) : c.dc < 4 ∧
    ∃ tab, d.dcTables[c.dc]? = some (some tab) ∧ Accepted cfg code.counts code.values tab := by
  unfold BaselineFile.dcCode at h
  obtain ⟨t, hl, rfl⟩ := Option.map_eq_some_iff.1 h
  obtain ⟨hm, hp⟩ := lastWith_some hl
  obtain ⟨o1, o2, o3⟩ := hv.huffmanOk t hm
  simp only [Bool.and_eq_true, beq_iff_eq] at hp
  have h4 : c.dc < 4 := by omega
  refine ⟨h4, ?_⟩
  obtain ⟨_, ht⟩ := ht.dc
  have := ht.2 c.dc h4
  rw [show (fun t : HuffmanDef => t.ac == false && t.dest == c.dc) = (fun t => !t.ac && t.dest == c.dc) by
    funext t; cases t.ac <;> rfl, hl] at this
  obtain ⟨tab, a, b⟩ := this
  exact ⟨tab, a, o2, by rw [o3, codeSizes_length], b⟩

theorem ac_uses (hv : f.Laid r H V codes) {d : Decoder} (ht : TablesHeld cfg f.tables d)
    {c : FileComponent} {code : Code} (h : f.acCode c = some code) : c.ac < 4 ∧
    ∃ tab, d.acTables[c.ac]? = some (some tab) ∧ AcceptedAc cfg code.counts code.values tab := by
  unfold BaselineFile.acCode at h
  obtain ⟨t, hl, rfl⟩ := Option.map_eq_some_iff.1 h
  obtain ⟨hm, hp⟩ := lastWith_some hl
  obtain ⟨o1, o2, o3⟩ := hv.huffmanOk t hm
  simp only [Bool.and_eq_true, beq_iff_eq] at hp
  have h4 : c.ac < 4 := by omega
  refine ⟨h4, ?_⟩
  obtain ⟨_, ht⟩ := ht.ac
  have := ht.2 c.ac h4
  rw [show (fun t : HuffmanDef => t.ac == true && t.dest == c.ac) = (fun t => t.ac && t.dest == c.ac) by
    funext t; cases t.ac <;> rfl, hl] at this
  obtain ⟨tab, a, b⟩ := this
  exact ⟨tab, a, o2, by rw [o3, codeSizes_length], b⟩

/-- The quantisation table in the slot of a component is the one the file gives it. -/
theorem quant_uses (hv : f.Laid r H V codes) {d : Decoder} (ht : TablesHeld cfg f.tables d)
    {c : FileComponent} {qv : List Nat} (h : f.quantOf c = some qv) :
    ∃ q, d.quantTables[c.tq.toNat]? = some (some q) ∧ q.length = 64 ∧
      ∀ i, i < 64 → q[zigzag i]? = qv[i]? := by
  unfold BaselineFile.quantOf at h
  obtain ⟨t, hl, rfl⟩ := Option.map_eq_some_iff.1 h
  obtain ⟨hm, hp⟩ := lastWith_some hl
  obtain ⟨o1, o2, o3⟩ := hv.quantOk t hm
  simp only [beq_iff_eq] at hp
  obtain ⟨_, ht⟩ := ht.quant
  have := ht.2 c.tq.toNat (by omega)
  rw [hl] at this
  exact this

theorem fileComponent_geometry (hv : f.Laid r H V codes) {c : FileComponent} (hc : c ∈ f.comps) :
    ComponentGeometry f.x f.y H V (fileComponent f H V c) :=
  fullComponent_geometry (hv.factors c hc)

theorem firstAt_comps {f : BaselineFile} (H V : Nat) (hids : (f.comps.map (·.id)).Nodup) {i : Nat} {c : FileComponent}
    (h : f.comps[i]? = some c) : FirstAt (fileFrame f H V).components c.id i := by
  have hcs : (fileFrame f H V).components = f.comps.map (fileComponent f H V) := rfl
  rw [hcs]
  refine ⟨⟨_, by rw [List.getElem?_map, h]; rfl, rfl⟩, ?_⟩
  intro j k hj hk
  rw [List.getElem?_map] at hk
  obtain ⟨k', hk', rfl⟩ := Option.map_eq_some_iff.1 hk
  intro he
  have he' : k'.id = c.id := he
  have hi := (List.getElem?_eq_some_iff.1 h).1
  have := (List.nodup_iff_getElem?_ne_getElem?.1 hids) j i hj (by simpa using hi)
  rw [List.getElem?_map, List.getElem?_map, h, hk'] at this
  simp only [Option.map_some] at this
  exact this (by rw [he'])

theorem codes_get (hv : f.Laid r H V codes) {i : Nat} {c : FileComponent} (h : f.comps[i]? = some c) :
    ∃ code, codes[i]? = some code ∧ f.dcCode c = some code.1 ∧ f.acCode c = some code.2 := by
  obtain ⟨hi, rfl⟩ := List.getElem?_eq_some_iff.1 h
  obtain ⟨hl, hg⟩ := List.forall₂_iff_get.1 hv.huffman
  have hi' : i < codes.length := hl ▸ hi
  exact ⟨codes[i], List.getElem?_eq_getElem hi', hg i hi hi'⟩

/-- The component list of the scan header. -/
def fileHeaders (f : BaselineFile) : List ScanHeader := f.comps.mapIdx fun i c => ⟨i, c.dc, c.ac⟩

theorem fileHeaders_index (f : BaselineFile) :
    (fileHeaders f).map (·.componentIndex) = List.range f.comps.length := by
  apply List.ext_getElem
  · simp [fileHeaders]
  · intro i h1 h2
    simp [fileHeaders]

/-- The scan header of a file, whatever follows and whatever bits are left over. -/
theorem sos_start_from (hv : f.Laid r H V codes) {d : Decoder} (hd : DecInv d)
    (hframe : d.frame = some (fileFrame f H V)) (ht : TablesHeld cfg f.tables d)
    (hr : d.restartInterval = r) :
    ∃ D fin, D = { d with scan := some ⟨fileHeaders f, 0, 63, 0, 0⟩, coefficientsFinished := fin } ∧
      ScanReady cfg D ⟨fileHeaders f, 0, 63, 0, 0⟩ (fileFrame f H V) codes r ∧
      ∀ (x : List UInt8) (bits count : Nat), sos cfg ⟨d, ⟨segmentOf (scanHeader (f.comps.map fun c => ⟨c.id, c.dc, c.ac⟩) 0 63 0 0) ++ x,
        bits, count⟩⟩ = decodeScan cfg true ⟨D, ⟨x, bits, count⟩⟩ := by
  obtain ⟨hc1, hc4⟩ := hv.count
  have hseg : sosSegment (some (fileFrame f H V)) (scanHeader (f.comps.map fun c => ⟨c.id, c.dc, c.ac⟩) 0 63 0 0) =
      .ok (⟨fileHeaders f, 0, 63, 0, 0⟩, []) := by
    have := sosSegment_ok (fr := fileFrame f H V) (comps := f.comps.map fun c => ⟨c.id, c.dc, c.ac⟩)
      (hs := fileHeaders f) 0 63 (ah := 0) (al := 0) (by decide)
      (by decide) [] (by simpa using hc1) (by simpa using hc4) (by
        rw [List.forall₂_iff_get]
        refine ⟨by simp [fileHeaders], fun i a b => ?_⟩
        have hi : i < f.comps.length := by simpa using a
        have hc := List.getElem?_eq_getElem hi
        obtain ⟨x1, -⟩ := dc_uses hv ht (codes_get hv hc).choose_spec.2.1
        obtain ⟨x2, -⟩ := ac_uses hv ht (codes_get hv hc).choose_spec.2.2
        simp only [List.get_eq_getElem, List.getElem_map, fileHeaders, List.getElem_mapIdx]
        exact ⟨firstAt_comps H V hv.ids hc, rfl, rfl, by simp only; omega, by simp only; omega⟩) (by
        rw [fileHeaders_index]
        exact List.pairwise_lt_range)
    rw [List.append_nil] at this
    exact this
  have hproc : (fileFrame f H V).codingProcess = .ok .baseline ∨ (fileFrame f H V).codingProcess = .ok .sequential := by
    have := hv.sof
    unfold Frame.codingProcess fileFrame
    simp only
    rcases (by omega : f.sof = 0 ∨ f.sof = 1) with h | h <;> rw [h] <;> simp
  obtain ⟨f4, flt⟩ := hd.fin4
  obtain ⟨fin, hset, hones, -⟩ := setFinishedAll_full (cfg := cfg) (List.range f.comps.length)
    d.coefficientsFinished (by intro j hj; rw [List.mem_range] at hj; omega) flt
  have hall := allFinished_full _ hones
  obtain ⟨D, hD⟩ : ∃ D : Decoder, D = { d with
    scan := some ⟨fileHeaders f, 0, 63, 0, 0⟩
    coefficientsFinished := fin } := ⟨_, rfl⟩
  refine ⟨D, fin, hD, ⟨by rw [hD], by rw [hD]; exact hframe, ⟨rfl, rfl, rfl⟩, by
      rw [hD, List.forall₂_iff_get]
      refine ⟨by simp [fileHeaders, hv.huffman.length_eq], fun i a b => ?_⟩
      have hi : i < f.comps.length := by simpa [fileHeaders] using a
      have hc := List.getElem?_eq_getElem hi
      obtain ⟨code, e, e1, e2⟩ := codes_get hv hc
      obtain ⟨-, t1, y1, z1⟩ := dc_uses hv ht e1
      obtain ⟨-, t2, y2, z2⟩ := ac_uses hv ht e2
      rw [List.getElem?_eq_getElem b] at e
      simp only [List.get_eq_getElem, fileHeaders, List.getElem_mapIdx, Option.some.inj e]
      exact ⟨t1, t2, y1, y2, z1, z2⟩, hproc.imp_right .inl, by rw [hD]; exact hr, hr ▸ hd.interval,
      by rw [← hv.huffman.length_eq]; exact hc4⟩, fun x bits count => ?_⟩
  unfold sos
  simp only [St.setInput]
  rw [segmentBytes_ok cfg (by simp [scanHeader, Function.comp_def]; omega)]
  simp only
  rw [hframe, hseg]
  simp only
  rcases hproc with h | h <;> rw [h] <;>
    · simp only [if_true, fileHeaders_index]
      rw [hset]
      simp only
      rw [hall, hD]
      simp only
      rw [← hframe]

/-- The scan header of a file, whatever follows. -/
theorem sos_start_all (hv : f.Laid r H V codes) {d : Decoder} (hd : DecInv d)
    (hframe : d.frame = some (fileFrame f H V)) (ht : TablesHeld cfg f.tables d)
    (hr : d.restartInterval = r) :
    ∃ D fin, D = { d with scan := some ⟨fileHeaders f, 0, 63, 0, 0⟩, coefficientsFinished := fin } ∧
      ScanReady cfg D ⟨fileHeaders f, 0, 63, 0, 0⟩ (fileFrame f H V) codes r ∧
      ∀ x : List UInt8, sos cfg ⟨d, ⟨segmentOf (scanHeader (f.comps.map fun c => ⟨c.id, c.dc, c.ac⟩) 0 63 0 0) ++ x,
        0, 0⟩⟩ = decodeScan cfg true ⟨D, ⟨x, 0, 0⟩⟩ := by
  obtain ⟨D, fin, h1, h2, h3⟩ := sos_start_from (cfg := cfg) hv hd hframe ht hr
  exact ⟨D, fin, h1, h2, fun x => h3 x 0 0⟩

theorem sos_start (hv : f.Laid r H V codes) {d : Decoder} (hd : DecInv d)
    (hframe : d.frame = some (fileFrame f H V)) (ht : TablesHeld cfg f.tables d)
    (hr : d.restartInterval = r) (x : List UInt8) :
    ∃ D fin, D = { d with scan := some ⟨fileHeaders f, 0, 63, 0, 0⟩, coefficientsFinished := fin } ∧
      ScanReady cfg D ⟨fileHeaders f, 0, 63, 0, 0⟩ (fileFrame f H V) codes r ∧
      sos cfg ⟨d, ⟨segmentOf (scanHeader (f.comps.map fun c => ⟨c.id, c.dc, c.ac⟩) 0 63 0 0) ++ x,
        0, 0⟩⟩ = decodeScan cfg true ⟨D, ⟨x, 0, 0⟩⟩ := by
  obtain ⟨D, fin, h1, h2, h3⟩ := sos_start_all hv hd hframe ht hr
  exact ⟨D, fin, h1, h2, h3 x⟩

theorem fileFrame_mem {k : Component} (hk : k ∈ (fileFrame f H V).components) :
    ∃ k' ∈ f.comps, k = fileComponent f H V k' := by
  obtain ⟨k', h1, h2⟩ := List.mem_map.1 hk
  exact ⟨k', h1, h2.symm⟩

theorem fileFrame_blocks : (fileFrame f H V).components.map (fun c => c.v * c.h) = f.comps.map fun c => c.h * c.v := by
  simp only [fileFrame, List.map_map]
  apply List.map_congr_left
  intro k _
  exact Nat.mul_comm _ _

theorem fileFrame_bpm (hv : f.Laid r H V codes) :
    ∀ c ∈ (fileFrame f H V).components, c.blocksPerMcu = c.v * c.h := by
  intro k hk
  obtain ⟨k', h1, rfl⟩ := fileFrame_mem hk
  rw [(fileComponent_geometry hv h1).blocksPerMcu, Nat.mul_comm]

theorem fileFrame_planes (hv : f.Laid r H V codes) :
    ∀ c ∈ (fileFrame f H V).components, PlaneGeom (ceilDiv f.x (8 * H)) (ceilDiv f.y (8 * V)) c := by
  intro k hk
  obtain ⟨k', h1, rfl⟩ := fileFrame_mem hk
  exact PlaneGeom.of (fileComponent_geometry hv h1)

theorem fileFrame_quant (hv : f.Laid r H V codes) {d : Decoder} (ht : TablesHeld cfg f.tables d) :
    ∀ c ∈ (fileFrame f H V).components, ∃ q, d.quantTables[c.tq]? = some (some q) := by
  intro k hk
  obtain ⟨k', h1, rfl⟩ := fileFrame_mem hk
  obtain ⟨qv, hq⟩ := hv.quant k' h1
  obtain ⟨q, h2, -⟩ := quant_uses hv ht hq
  exact ⟨q, h2⟩

theorem starts_eoi (k : Nat) : StartsWithMarker (List.replicate k 0xFF ++ markerBytes .EOI) := by
  cases k with
  | zero => exact ⟨0xD9, [], rfl, by decide⟩
  | succ k =>
    cases k with
    | zero => exact ⟨0xFF, _, rfl, by decide⟩
    | succ k => exact ⟨0xFF, _, rfl, by decide⟩

/-- The scan of a file, whatever marker ends it and whatever bits are left over, before and after. -/
theorem sos_padded (hv : f.Laid r H V codes) {d : Decoder} (hd : DecInv d)
    (hframe : d.frame = some (fileFrame f H V)) (ht : TablesHeld cfg f.tables d)
    (hr : d.restartInterval = r) {tail x : List UInt8} (htail : StartsWithMarker tail)
    {bits count : Nat}
    (hc : count ≤ 64) (hb : bits < 2 ^ 64) {pad : List Bool}
    (hdata : ScanPadded codes tail pad (bitsN count bits) 0 f.intervals x) :
    ∃ d' bi, sos cfg ⟨d, ⟨segmentOf (scanHeader (f.comps.map fun c => ⟨c.id, c.dc, c.ac⟩) 0 63 0 0) ++ x,
        bits, count⟩⟩ = .ok () ⟨d', bi⟩ ∧
      Rep True bi pad tail ∧
      d' = { d with
        scan := d'.scan
        coefficientsFinished := d'.coefficientsFinished
        scanState := d'.scanState
        planes := scanPlanes (ceilDiv f.x (8 * H)) d.quantTables (fileFrame f H V).components
          f.intervals.flatten } := by
  obtain ⟨D, fin, hD, hready, hs⟩ := sos_start_from hv hd hframe ht hr
  obtain ⟨ss, bi, e1, e2⟩ := decodeScan_after (cfg := cfg) hready
    (W := ceilDiv f.x (8 * H)) (H := ceilDiv f.y (8 * V))
    (by simp only [fileFrame, List.length_map]; exact hv.count.2)
    (by rw [fileHeaders_index]; simp [fileFrame]) rfl (fileFrame_planes hv) (fileFrame_bpm hv)
    (by rw [hD]; exact fun c hc => fileFrame_quant hv ht c hc) htail hc hb hdata hv.restarts
    (by
      intro m hm
      rw [hv.blocks m hm, fileFrame_blocks])
    (by
      rw [fileFrame_blocks]
      exact hv.ten) hv.mcus
  refine ⟨{ D with
        scanState := ss
        planes := scanPlanes (ceilDiv f.x (8 * H)) D.quantTables (fileFrame f H V).components
          f.intervals.flatten }, bi, (hs x bits count).trans e1, e2, ?_⟩
  rw [hD]

/-- The scan of a file, whatever marker ends it and whatever bits are left over from before. -/
theorem sos_after (hv : f.Laid r H V codes) {d : Decoder} (hd : DecInv d)
    (hframe : d.frame = some (fileFrame f H V)) (ht : TablesHeld cfg f.tables d)
    (hr : d.restartInterval = r) {tail x : List UInt8} (htail : StartsWithMarker tail)
    {bits count : Nat}
    (hc : count ≤ 64) (hb : bits < 2 ^ 64) (hdata : ScanBytesAfter codes tail (bitsN count bits) 0 f.intervals x) :
    ∃ d' bi, sos cfg ⟨d, ⟨segmentOf (scanHeader (f.comps.map fun c => ⟨c.id, c.dc, c.ac⟩) 0 63 0 0) ++ x,
        bits, count⟩⟩ = .ok () ⟨d', bi⟩ ∧
      scanTail bi.input = some tail ∧ bi.WF ∧
      d' = { d with
        scan := d'.scan
        coefficientsFinished := d'.coefficientsFinished
        scanState := d'.scanState
        planes := scanPlanes (ceilDiv f.x (8 * H)) d.quantTables (fileFrame f H V).components
          f.intervals.flatten } := by
  obtain ⟨pad, hp⟩ := hdata.padded
  obtain ⟨d', bi, e, h1, h2⟩ := sos_padded hv hd hframe ht hr htail hc hb hp
  exact ⟨d', bi, e, h1.tail, h1.wf, h2⟩

/-- The scan of a file, whatever marker ends it. -/
theorem sos_tail (hv : f.Laid r H V codes) {d : Decoder} (hd : DecInv d)
    (hframe : d.frame = some (fileFrame f H V)) (ht : TablesHeld cfg f.tables d)
    (hr : d.restartInterval = r) {tail x : List UInt8} (htail : StartsWithMarker tail)
    (hdata : ScanBytes codes tail 0 f.intervals x) :
    ∃ d' bi, sos cfg ⟨d, ⟨segmentOf (scanHeader (f.comps.map fun c => ⟨c.id, c.dc, c.ac⟩) 0 63 0 0) ++ x,
        0, 0⟩⟩ = .ok () ⟨d', bi⟩ ∧
      scanTail bi.input = some tail ∧ bi.WF ∧
      d' = { d with
        scan := d'.scan
        coefficientsFinished := d'.coefficientsFinished
        scanState := d'.scanState
        planes := scanPlanes (ceilDiv f.x (8 * H)) d.quantTables (fileFrame f H V).components
          f.intervals.flatten } :=
  sos_after hv hd hframe ht hr htail (by omega) (by norm_num) hdata.after

/-- The scan of a file. -/
theorem sos_wellformed (hv : f.Valid r H V codes) {d : Decoder} (hd : DecInv d)
    (hframe : d.frame = some (fileFrame f H V)) (ht : TablesHeld cfg f.tables d)
    (hr : d.restartInterval = r) :
    ∃ d' bi k, sos cfg ⟨d, ⟨segmentOf (scanHeader (f.comps.map fun c => ⟨c.id, c.dc, c.ac⟩) 0 63 0 0) ++ f.data,
        0, 0⟩⟩ = .ok () ⟨d', bi⟩ ∧
      scanTail bi.input = some (List.replicate k 0xFF ++ markerBytes .EOI) ∧ bi.WF ∧
      d' = { d with
        scan := d'.scan
        coefficientsFinished := d'.coefficientsFinished
        scanState := d'.scanState
        planes := scanPlanes (ceilDiv f.x (8 * H)) d.quantTables (fileFrame f H V).components
          f.intervals.flatten } := by
  obtain ⟨k, hdata⟩ := hv.data
  obtain ⟨d', bi, h⟩ := sos_tail hv.toLaid hd hframe ht hr (starts_eoi k) hdata
  exact ⟨d', bi, k, h⟩

/-- The frame header of a file. -/
theorem sof_file (hv : f.Laid r H V codes) (d : Decoder) (rest : List UInt8) (bits count : Nat) :
    doSegment cfg (.SOF f.sof) ⟨d, ⟨segmentOf (frameHeader f.precision f.y f.x
        (f.comps.map (·.toHeaderComponent))) ++ rest, bits, count⟩⟩ =
      .ok () ⟨{ d with frame := some (fileFrame f H V) }, ⟨rest, bits, count⟩⟩ := by
  obtain ⟨hc1, hc4⟩ := hv.count
  obtain ⟨H', V', h1, h2, h3⟩ := sof_header cfg f.sof f.precision hv.x.2 hv.y
    (f.comps.map (·.toHeaderComponent)) (by intro h; rw [List.map_eq_nil_iff] at h; simp [h] at hc1)
    (by simp; omega) (by
      intro c hc
      obtain ⟨c', hc', rfl⟩ := List.mem_map.1 hc
      exact hv.factors c' hc') []
  have e1 : H' = H := ((Largest.map (f := HeaderComponent.h)).1 h1).unique hv.hmax
  have e2 : V' = V := ((Largest.map (f := HeaderComponent.v)).1 h2).unique hv.vmax
  subst e1 e2
  rw [List.append_nil, List.map_map] at h3
  simp only [doSegment, segment, sofBody]
  rw [segmentBytes_ok cfg (by simp [frameHeader, HeaderComponent.bytes, Function.comp_def]; omega)]
  simp only
  rw [h3]
  rfl

theorem wf_zero (l : List UInt8) : (⟨l, 0, 0⟩ : Biterator).WF := new_wf l

/-- The run over a file up to the scan, whatever its data. -/
theorem loopAll_toScan_from {bits count : Nat} (hwf : ∀ l, (⟨l, bits, count⟩ : Biterator).WF) {d : Decoder} (hd : DecInv d) (hh : TablesHeld cfg f.earlier d)
    (hv : f.Laid (f.interval d.restartInterval) H V codes) :
    ∃ d', DecInv d' ∧ TablesHeld cfg f.tables d' ∧ d'.frame = some (fileFrame f H V) ∧
      d'.restartInterval = f.interval d.restartInterval ∧ d'.transform = f.transform d.transform ∧
      ∀ x, loopAll cfg ⟨d, ⟨({ f with data := x } : BaselineFile).bytes, bits, count⟩⟩ =
        (sos cfg ⟨d', ⟨segmentOf (scanHeader (f.comps.map fun c => ⟨c.id, c.dc, c.ac⟩) 0 63 0 0) ++ x,
          bits, count⟩⟩).bind fun _ s => loopAll cfg s := by
  have hb : ∀ s ∈ f.before, s.Ok := fun s hs => hv.tables s (by simp [BaselineFile.tables, BaselineFile.segments, hs])
  have ha : ∀ s ∈ f.after, s.Ok := fun s hs => hv.tables s (by simp [BaselineFile.tables, BaselineFile.segments, hs])
  have hm : MarkerExists (.SOF f.sof) := by have := hv.sof; show f.sof ≤ 2; omega
  obtain ⟨d1, t1, i1, e1⟩ := loopAll_tables_all (cfg := cfg) hwf f.before hb d hd
  have i2 := doSegment_safe (cfg := cfg) hm (s := ⟨d1, ⟨segmentOf (frameHeader f.precision f.y f.x
        (f.comps.map (·.toHeaderComponent))) ++ [], bits, count⟩⟩) i1 (hwf _)
  rw [sof_file (cfg := cfg) hv d1 [] bits count] at i2
  have i2 : DecInv { d1 with frame := some (fileFrame f H V) } := i2.1
  obtain ⟨d3, t3, i3, e3⟩ := loopAll_tables_all (cfg := cfg) hwf f.after ha _ i2
  have ht : TablesAfter cfg f.segments { d with frame := some (fileFrame f H V) } d3 := t1.setFrame.trans t3
  have hh3 : TablesHeld cfg f.tables d3 :=
    (hh.same (d' := { d with frame := some (fileFrame f H V) }) rfl rfl rfl).after ht
  have hf3 : d3.frame = some (fileFrame f H V) := by rw [t3.rest]
  refine ⟨d3, i3, hh3, hf3, by rw [ht.interval]; rfl, by rw [ht.color]; rfl, fun x => ?_⟩
  unfold BaselineFile.bytes
  simp only
  rw [loopAll_eq (m := .SOI) hd (hwf _) (marker_bytes' (m := .SOI) trivial _) (by decide)]
  simp only [St.setInput, doSegment, Out.bind_ok]
  rw [e1 _ (.segment hm _ _)]
  rw [show ∀ (c rest : List UInt8), markerSegment (.SOF f.sof) c ++ rest =
    markerBytes (.SOF f.sof) ++ (segmentOf c ++ rest) from fun c rest => by rw [markerSegment, List.append_assoc]]
  rw [loopAll_eq i1 (hwf _) (marker_bytes' hm _) (by simp)]
  simp only [St.setInput]
  rw [sof_file (cfg := cfg) hv d1, Out.bind_ok, e3 _ (.segment (m := .SOS) trivial _ _), markerSegment, List.append_assoc,
    loopAll_eq i3 (hwf _) (marker_bytes' (m := .SOS) trivial _) (by simp)]
  simp only [St.setInput, doSegment]

theorem loopAll_toScan_all {d : Decoder} (hd : DecInv d) (hh : TablesHeld cfg f.earlier d)
    (hv : f.Laid (f.interval d.restartInterval) H V codes) :
    ∃ d', DecInv d' ∧ TablesHeld cfg f.tables d' ∧ d'.frame = some (fileFrame f H V) ∧
      d'.restartInterval = f.interval d.restartInterval ∧ d'.transform = f.transform d.transform ∧
      ∀ x, loopAll cfg ⟨d, Biterator.new ({ f with data := x } : BaselineFile).bytes⟩ =
        (sos cfg ⟨d', ⟨segmentOf (scanHeader (f.comps.map fun c => ⟨c.id, c.dc, c.ac⟩) 0 63 0 0) ++ x,
          0, 0⟩⟩).bind fun _ s => loopAll cfg s :=
  loopAll_toScan_from wf_zero hd hh hv

theorem loopAll_toScan {d : Decoder} (hd : DecInv d) (hh : TablesHeld cfg f.earlier d)
    (hv : f.Laid (f.interval d.restartInterval) H V codes) (x : List UInt8) :
    ∃ d', DecInv d' ∧ TablesHeld cfg f.tables d' ∧ d'.frame = some (fileFrame f H V) ∧
      d'.restartInterval = f.interval d.restartInterval ∧ d'.transform = f.transform d.transform ∧
      loopAll cfg ⟨d, Biterator.new ({ f with data := x } : BaselineFile).bytes⟩ =
        (sos cfg ⟨d', ⟨segmentOf (scanHeader (f.comps.map fun c => ⟨c.id, c.dc, c.ac⟩) 0 63 0 0) ++ x,
          0, 0⟩⟩).bind fun _ s => loopAll cfg s := by
  obtain ⟨d', h1, h2, h3, h4, h5, h6⟩ := loopAll_toScan_all (cfg := cfg) hd hh hv
  exact ⟨d', h1, h2, h3, h4, h5, h6 x⟩

/-- The run over a file up to the marker behind the scan, whatever follows it. -/
theorem loopAll_pastScan {d : Decoder} (hd : DecInv d) (hh : TablesHeld cfg f.earlier d)
    (hv : f.Laid (f.interval d.restartInterval) H V codes) {tail x : List UInt8} (htail : StartsWithMarker tail)
    (hdata : ScanBytes codes tail 0 f.intervals x) :
    ∃ d' bi, loopAll cfg ⟨d, Biterator.new ({ f with data := x } : BaselineFile).bytes⟩ = loopAll cfg ⟨d', bi⟩ ∧
      scanTail bi.input = some tail ∧ bi.WF ∧ DecInv d' ∧ TablesHeld cfg f.tables d' ∧
      d'.frame = some (fileFrame f H V) ∧ d'.restartInterval = f.interval d.restartInterval ∧
      d'.transform = f.transform d.transform ∧
      d'.planes = scanPlanes (ceilDiv f.x (8 * H)) d'.quantTables (fileFrame f H V).components
        f.intervals.flatten := by
  obtain ⟨d3, i3, hh3, hf3, hr3, ht3, e3⟩ := loopAll_toScan (cfg := cfg) hd hh hv x
  obtain ⟨d4, bi, e4, h1, h2, h3⟩ := sos_tail (cfg := cfg) hv i3 hf3 hh3 hr3 htail hdata
  have hs := doSegment_safe (cfg := cfg) (m := .SOS) trivial
    (s := ⟨d3, ⟨segmentOf (scanHeader (f.comps.map fun c => ⟨c.id, c.dc, c.ac⟩) 0 63 0 0) ++ x, 0, 0⟩⟩) i3 (wf_zero _)
  rw [doSegment, e4] at hs
  refine ⟨d4, bi, by rw [e3, e4, Out.bind_ok], h1, h2, hs.1, hh3.same (by rw [h3]) (by rw [h3]) (by rw [h3]),
    by rw [h3]; exact hf3, by rw [h3]; exact hr3, ?_, ?_⟩
  · have e : d4.transform = d3.transform := by rw [h3]; rfl
    rw [e, ht3]
  · have hq : d4.quantTables = d3.quantTables := by rw [h3]
    rw [hq, h3]

theorem MarkerFirst.starts {l : List UInt8} (h : MarkerFirst l) : StartsWithMarker l := by
  obtain ⟨k, m, r, hm, rfl⟩ := h
  have hm0 : UInt8.ofNat (markerCode m) ≠ 0 := by
    intro e
    have e' := congrArg UInt8.toNat e
    rw [UInt8.toNat_ofNat'] at e'
    cases m <;> simp only [MarkerExists] at hm <;> simp only [markerCode] at e' <;> simp at e' <;> omega
  cases k with
  | zero => exact ⟨_, _, rfl, hm0⟩
  | succ k =>
    cases k with
    | zero => exact ⟨0xFF, _, rfl, by decide⟩
    | succ k => exact ⟨0xFF, _, rfl, by decide⟩

/-- The run over a file with further segments between the scan and the end. -/
theorem loopAll_behind {d : Decoder} (hd : DecInv d) (hh : TablesHeld cfg f.earlier d)
    (hv : f.Laid (f.interval d.restartInterval) H V codes) {more : List TableSegment} (hm : ∀ s ∈ more, s.Ok)
    {k : Nat} {x : List UInt8}
    (hdata : ScanBytes codes (more.flatMap TableSegment.bytes ++ (List.replicate k 0xFF ++ markerBytes .EOI)) 0
      f.intervals x) :
    ∃ d0 d' bi, loopAll cfg ⟨d, Biterator.new ({ f with data := x } : BaselineFile).bytes⟩ = .ok () ⟨d', bi⟩ ∧
      bi.input = [] ∧ TablesHeld cfg f.tables d0 ∧ TablesHeld cfg (f.tables ++ more) d' ∧ TablesAfter cfg more d0 d' ∧
      d'.frame = some (fileFrame f H V) ∧ d0.restartInterval = f.interval d.restartInterval ∧
      d0.transform = f.transform d.transform ∧
      d'.planes = scanPlanes (ceilDiv f.x (8 * H)) d0.quantTables (fileFrame f H V).components
        f.intervals.flatten := by
  have hend : MarkerFirst (List.replicate k 0xFF ++ markerBytes .EOI) := ⟨k, .EOI, [], trivial, by simp⟩
  have hfirst := hend.tables hm
  obtain ⟨d4, bi, e4, h1, h2, h3, h4, h5, h6, h7, h8⟩ := loopAll_pastScan (cfg := cfg) hd hh hv hfirst.starts hdata
  have hwf : ∀ l, (⟨l, bi.bits, bi.count⟩ : Biterator).WF := fun _ => h2
  obtain ⟨d5, t5, i5, e5⟩ := loopAll_tables (cfg := cfg) hwf hend more hm d4 h3
  have e6 : loopAll cfg ⟨d4, bi⟩ = loopAll cfg ⟨d4, ⟨more.flatMap TableSegment.bytes ++
      (List.replicate k 0xFF ++ markerBytes .EOI), bi.bits, bi.count⟩⟩ :=
    loopAll_found hwf hfirst (marker_scanTail h1) h3
  have e7 := loopAll_eoi (cfg := cfg) (s := ⟨d5, ⟨List.replicate k 0xFF ++ markerBytes .EOI, bi.bits, bi.count⟩⟩)
    (rest := []) (by simpa using marker_bytes (m := .EOI) trivial k [])
  refine ⟨d4, d5, ⟨[], bi.bits, bi.count⟩, e4.trans (e6.trans (e5.trans e7)), rfl, h4, h4.after t5, t5, ?_, h6, h7, ?_⟩
  · rw [t5.rest]; exact h5
  · rw [← h8, t5.rest]

/-- The run over a file. -/
theorem loopAll_file {d : Decoder} (hd : DecInv d) (hh : TablesHeld cfg f.earlier d) (hv : f.Valid (f.interval d.restartInterval) H V codes) :
    ∃ d' bi, loopAll cfg ⟨d, Biterator.new f.bytes⟩ = .ok () ⟨d', bi⟩ ∧ bi.input = [] ∧
      TablesHeld cfg f.tables d' ∧
      d'.frame = some (fileFrame f H V) ∧
      d'.transform = f.transform d.transform ∧
      d'.planes = scanPlanes (ceilDiv f.x (8 * H)) d'.quantTables (fileFrame f H V).components
        f.intervals.flatten := by
  obtain ⟨d3, i3, hh3, hf3, hr3, ht3, e3⟩ := loopAll_toScan (cfg := cfg) hd hh hv.toLaid f.data
  have e3 : loopAll cfg ⟨d, Biterator.new f.bytes⟩ = _ := e3
  rw [e3]
  obtain ⟨d4, bi, k, e4, h1, h2, h3⟩ := sos_wellformed (cfg := cfg) hv i3 hf3 hh3 hr3
  rw [e4, Out.bind_ok, loopAll_eoi (rest := []) (by
    simp only
    rw [marker_scanTail h1]
    simpa using marker_bytes (m := .EOI) trivial k [])]
  have hq : d4.quantTables = d3.quantTables := by rw [h3]
  have hfr : d4.frame = some (fileFrame f H V) := by rw [h3]; exact hf3
  refine ⟨d4, _, rfl, rfl, ?_, hfr, ?_, ?_⟩
  · exact hh3.same (by rw [h3]) (by rw [h3]) (by rw [h3])
  · have e : d4.transform = d3.transform := by rw [h3]; rfl
    rw [e, ht3]
  · rw [hq, h3]

end

end Jpeg
