import Verif.Props.SamePicture
/-!
# Tables from earlier files (C60, C61) and the precision field (C62)
-/

namespace Jpeg
open Spec

/-- The file with the tables it relies on written out in front. -/
def Spec.BaselineFile.complete (f : BaselineFile) : BaselineFile :=
  { f with earlier := [], before := f.earlier ++ f.before }

section

variable {cfg : Cfg} {f : BaselineFile} {r H V : Nat} {codes : List (Code × Code)}

theorem Spec.BaselineFile.complete_tables (f : BaselineFile) : f.complete.tables = f.tables := by
  unfold BaselineFile.complete BaselineFile.tables BaselineFile.segments
  simp

theorem Spec.BaselineFile.complete_quantOf (f : BaselineFile) (c : FileComponent) :
    f.complete.quantOf c = f.quantOf c := by
  unfold BaselineFile.quantOf
  rw [f.complete_tables]

theorem Spec.BaselineFile.Valid.complete (hv : f.Valid r H V codes) : f.complete.Valid r H V codes where
  tables := by rw [f.complete_tables]; exact hv.tables
  sof := hv.sof
  x := hv.x
  y := hv.y
  count := hv.count
  ids := hv.ids
  factors := hv.factors
  hmax := hv.hmax
  vmax := hv.vmax
  ten := hv.ten
  single := hv.single
  quant := fun c hc => by rw [f.complete_quantOf]; exact hv.quant c hc
  huffman := by
    have := hv.huffman
    unfold BaselineFile.dcCode BaselineFile.acCode at this ⊢
    rw [f.complete_tables]
    exact this
  mcus := hv.mcus
  blocks := hv.blocks
  restarts := hv.restarts
  data := hv.data

theorem Spec.SamePicture.complete (f : BaselineFile) : SamePicture f f.complete where
  x := rfl
  y := rfl
  comps := by
    show List.Forall₂ _ f.comps f.comps
    rw [List.forall₂_same]
    exact fun c _ => ⟨rfl, rfl, (f.complete_quantOf c).symm⟩
  mcus := rfl

/-- **C60**. An image that relies on tables of earlier files (the abbreviated format), on a decoder that has
decoded those, gives the result that a new decoder gives for the file with these tables written out, provided
that colour transform and restart interval in force are the same. -/
theorem C60_abbreviated (cfg : Cfg) (f : BaselineFile) (H V : Nat) (codes : List (Code × Code)) (d : Decoder)
    (hd : UsedDecoder d) (hh : Holds cfg d f.earlier)
    (ht : f.transform d.transform = f.complete.transform none)
    (hr : f.interval d.restartInterval = f.complete.interval 0)
    (hv : f.Valid (f.interval d.restartInterval) H V codes) :
    (d.decode cfg f.bytes).result = decode cfg f.complete.bytes := by
  rw [C59_same_picture cfg f f.complete (.complete f) d Decoder.default hd .new hh (.nothing _) H V H V codes codes
    hv (by rw [hr] at hv; exact hv.complete) ht]
  unfold decode
  cases Decoder.default.decode cfg f.complete.bytes <;> rfl

/-! ## C61: files with tables only -/

/-- **C61** (refutation, every file). A file for table specifications makes a new decoder panic. -/
theorem C61_violated_new (cfg : Cfg) (l : List TableSegment) (hl : ∀ s ∈ l, s.Ok) :
    decode cfg (tablesFile l) = .error (.panic .noFrame) := by
  obtain ⟨d', h1, h2⟩ := loopAll_tablesFile (cfg := cfg) hl UsedDecoder.new.inv
  have hf : d'.frame = none := by rw [h2.rest]; rfl
  unfold decode Decoder.decode decodeParser
  unfold loopAll at h1
  rw [h1, Out.bind_ok]
  simp only [upsample, hf]

/-- **C61** (refutation, every file). On a decoder that has decoded an image, a file for table specifications
(without Adobe segment) gives that image again. -/
theorem C61_violated_used (cfg : Cfg) (l : List TableSegment) (hl : ∀ s ∈ l, s.Ok) (ha : transformDefs l = [])
    (d d' : Decoder) (hd : UsedDecoder d) (file image : List UInt8) (h : d.decode cfg file = .ok image d') :
    ((d.decode cfg file).state.decode cfg (tablesFile l)).result = .ok image := by
  have hu : UsedDecoder (d.decode cfg file).state := .used cfg file hd
  have hup : upsample cfg d' = .ok image := by
    unfold Decoder.decode decodeParser at h
    cases e : segmentLoop cfg ((Biterator.new file).input.length + 1) ⟨d, Biterator.new file⟩ with
    | fail f s => rw [e] at h; cases h
    | ok u s =>
      rw [e, Out.bind_ok] at h
      cases e2 : upsample cfg s.dec with
      | ok i =>
        rw [e2] at h
        simp only at h
        split at h
        · cases h
        · cases h; exact e2
      | error f =>
        rw [e2] at h
        cases f <;> simp only at h <;> (try split at h) <;> cases h
  rw [h] at hu ⊢
  have hu : UsedDecoder d' := hu
  show (d'.decode cfg (tablesFile l)).result = _
  obtain ⟨d2, h1, h2⟩ := loopAll_tablesFile (cfg := cfg) hl hu.inv
  have hup2 : upsample cfg d2 = .ok image := by
    rw [← hup]
    refine upsample_only ?_ ?_ ?_
    · rw [h2.rest]
    · rw [h2.rest]
    · rw [h2.color, ha]; rfl
  unfold Decoder.decode decodeParser
  unfold loopAll at h1
  rw [h1, Out.bind_ok]
  simp [hup2, Out.result]

/-- **C61** (part). The tables are kept though: an image that relies on them gives the result that a new
decoder gives for the file with the tables written out.

Missing: that the file for table specifications itself gives neither a panic nor an image, see
`C61_violated_new`, `C61_violated_used`. -/
theorem C61_tables_kept_partial (cfg : Cfg) (l : List TableSegment) (hl : ∀ s ∈ l, s.Ok)
    (hr : restartDefs l = []) (ha : transformDefs l = [])
    (f : BaselineFile) (he : f.earlier = l) (H V : Nat) (codes : List (Code × Code))
    (hv : f.Valid (f.interval 0) H V codes) :
    ((Decoder.default.decode cfg (tablesFile l)).state.decode cfg f.bytes).result =
      decode cfg f.complete.bytes := by
  obtain ⟨d', h1, h2⟩ := loopAll_tablesFile (cfg := cfg) hl UsedDecoder.new.inv
  have hs := loopAll_state h1
  have e1 : d'.restartInterval = 0 := by rw [h2.interval, hr]; rfl
  have e2 : d'.transform = none := by rw [h2.color, ha]; rfl
  have e3 : f.complete.interval 0 = f.interval 0 := by
    unfold BaselineFile.interval BaselineFile.complete BaselineFile.segments
    simp only
    rw [he, List.append_assoc, restartDefs, List.flatMap_append]
    rw [restartDefs] at hr
    rw [hr]; rfl
  have e4 : f.complete.transform none = f.transform none := by
    unfold BaselineFile.transform BaselineFile.complete BaselineFile.segments
    simp only
    rw [he, List.append_assoc, transformDefs, List.flatMap_append]
    rw [transformDefs] at ha
    rw [ha]; rfl
  have hh : Holds cfg (Decoder.default.decode cfg (tablesFile l)).state ([] ++ l) := .tables .new (.nothing _) hl
  refine C60_abbreviated cfg f H V codes _ (.used cfg _ .new) (by rw [he]; exact hh) ?_ ?_ ?_
  · rw [hs, e2, e4]
  · rw [hs, e1, e3]
  · rw [hs, e1]; exact hv

/-! ## C62: precision -/

/-- **C62** (refutation, every file). The precision in the frame header makes no difference: a file of, say,
12 bits per sample is decoded as if it had 8. -/
theorem C62_violated (cfg : Cfg) (f : BaselineFile) (H V : Nat) (codes : List (Code × Code)) (d : Decoder)
    (hd : UsedDecoder d) (hh : Holds cfg d f.earlier) (hv : f.Valid (f.interval d.restartInterval) H V codes)
    (p : UInt8) :
    (d.decode cfg { f with precision := p }.bytes).result = (d.decode cfg f.bytes).result := by
  have hv' : { f with precision := p }.Valid (f.interval d.restartInterval) H V codes :=
    ⟨⟨hv.tables, hv.sof, hv.x, hv.y, hv.count, hv.ids, hv.factors, hv.hmax, hv.vmax, hv.ten, hv.single, hv.quant,
      hv.huffman, hv.mcus, hv.blocks, hv.restarts⟩, hv.data⟩
  refine C59_same_picture cfg { f with precision := p } f ⟨rfl, rfl, ?_, rfl⟩ d d hd hd hh hh H V H V codes codes hv' hv rfl
  show List.Forall₂ _ f.comps f.comps
  rw [List.forall₂_same]
  exact fun c _ => ⟨rfl, rfl, rfl⟩

/-- **C62** (part). Files of 8 bits per sample are accepted.

Missing: others are refused, see `C62_violated`. -/
theorem C62_eight_bits_partial (cfg : Cfg) (f : BaselineFile) (H V : Nat) (codes : List (Code × Code)) (d : Decoder)
    (hd : UsedDecoder d) (hh : Holds cfg d f.earlier) (_h8 : f.precision = 8) (h3 : f.comps.length = 3)
    (hct : f.transform d.transform ≠ some 0) (hv : f.Valid (f.interval d.restartInterval) H V codes)
    (hr : f.Renderable H V) : ∃ image, (d.decode cfg f.bytes).result = .ok image := by
  obtain ⟨image, d', e, -⟩ := C45_decodes cfg f H V codes d hd hh h3 hct hv hr
  exact ⟨image, by rw [e]; rfl⟩

end

/-! ## Cases -/

/-- The tables of the example. -/
def exampleTables : List TableSegment :=
  [.dqt [⟨false, 1, List.replicate 64 2⟩],
    .dht [⟨false, 0, exampleDc.counts, exampleDc.values⟩, ⟨true, 2, exampleAc.counts, exampleAc.values⟩]]

theorem exampleTables_ok : ∀ s ∈ exampleTables, s.Ok := by
  intro s hs
  refine exampleFile_valid.tables s ?_
  simp only [exampleTables, List.mem_cons, List.not_mem_nil, or_false] at hs
  rcases hs with rfl | rfl <;>
    simp [exampleFile, BaselineFile.tables, BaselineFile.segments]

/-- The example without its tables: they are in an earlier file. -/
def exampleShort : BaselineFile :=
  { exampleFile with earlier := exampleTables, before := [.fill 1], after := [.dri 1, .fill 3] }

theorem exampleShort_valid : exampleShort.Valid 1 1 1 (List.replicate 3 (exampleDc, exampleAc)) := by
  have hv := exampleFile_valid
  refine ⟨⟨?_, hv.sof, hv.x, hv.y, hv.count, hv.ids, hv.factors, hv.hmax, hv.vmax, hv.ten, hv.single, ?_,
    .cons ⟨rfl, rfl⟩ (.cons ⟨rfl, rfl⟩ (.cons ⟨rfl, rfl⟩ .nil)), hv.mcus, hv.blocks, hv.restarts⟩, hv.data⟩
  · intro s hs
    simp only [exampleShort, BaselineFile.tables, BaselineFile.segments, List.mem_append, List.mem_cons,
      List.not_mem_nil, or_false] at hs
    rcases hs with hs | rfl | rfl | rfl
    · exact exampleTables_ok s hs
    · exact ⟨by decide, trivial⟩
    · exact ⟨by decide, by show (1 : Nat) < 65536; decide⟩
    · exact ⟨by decide, trivial⟩
  · intro c hc
    simp only [exampleShort, exampleFile, List.mem_cons, List.not_mem_nil, or_false] at hc
    rcases hc with rfl | rfl | rfl <;> exact ⟨List.replicate 64 2, rfl⟩

/-- A case of C60 and C61: tables in one file, the image in another; on a new decoder the image fails. -/
example (cfg : Cfg) :
    ((Decoder.default.decode cfg (tablesFile exampleTables)).state.decode cfg exampleShort.bytes).result =
      decode cfg exampleShort.complete.bytes :=
  C61_tables_kept_partial cfg _ exampleTables_ok rfl rfl _ rfl 1 1 _ exampleShort_valid
example : (decode ⟨true, false⟩ exampleShort.complete.bytes).toOption.isSome = true ∧
    (decode ⟨true, false⟩ exampleShort.bytes).toOption = none := by decide +kernel

/-- The example with other identifiers, SOF1, 12 bits, and fill bytes. -/
def exampleOther : BaselineFile :=
  { exampleFile with
    before := .fill 4 :: exampleFile.before
    sof := 1
    precision := 12
    comps := exampleFile.comps.map fun c => { c with id := c.id + 5 } }

theorem exampleOther_valid : exampleOther.Valid 1 1 1 (List.replicate 3 (exampleDc, exampleAc)) := by
  have hv := exampleFile_valid
  refine ⟨⟨?_, by decide, hv.x, hv.y, by decide, by decide, by decide, ⟨by decide, by decide⟩,
    ⟨by decide, by decide⟩, by decide, fun _ => ⟨rfl, rfl⟩, ?_,
    .cons ⟨rfl, rfl⟩ (.cons ⟨rfl, rfl⟩ (.cons ⟨rfl, rfl⟩ .nil)), hv.mcus, hv.blocks, hv.restarts⟩, hv.data⟩
  · intro s hs
    rcases List.mem_cons.1 hs with rfl | hs
    · exact ⟨by decide, trivial⟩
    · exact hv.tables s hs
  · intro c hc
    simp only [exampleOther, exampleFile, List.map_cons, List.map_nil, List.mem_cons, List.not_mem_nil, or_false] at hc
    rcases hc with rfl | rfl | rfl <;> exact ⟨List.replicate 64 2, rfl⟩

/-- A case of C59. -/
example (cfg : Cfg) : (Decoder.default.decode cfg exampleOther.bytes).result =
    (Decoder.default.decode cfg exampleFile.bytes).result :=
  C59_same_picture cfg exampleOther exampleFile
    ⟨rfl, rfl, .cons ⟨rfl, rfl, rfl⟩ (.cons ⟨rfl, rfl, rfl⟩ (.cons ⟨rfl, rfl, rfl⟩ .nil)), rfl⟩
    _ _ .new .new (.nothing _) (.nothing _) 1 1 1 1 _ _ exampleOther_valid exampleFile_valid rfl

/-- A case of `C61_violated_used`: the example twice, though the second file has no image. -/
example (image : List UInt8) (d' : Decoder) (h : Decoder.default.decode ⟨true, false⟩ exampleFile.bytes = .ok image d') :
    ((Decoder.default.decode ⟨true, false⟩ exampleFile.bytes).state.decode ⟨true, false⟩
      [0xFF, 0xD8, 0xFF, 0xD9]).result = .ok image :=
  C61_violated_used _ [] (by simp) rfl _ d' .new _ _ h

end Jpeg
