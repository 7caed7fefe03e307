import Verif.Props.ZeroTail
import Verif.Props.Outcome
import Mathlib.Tactic.Ring
/-!
# C75: how large an image is compared with the file it comes from
-/

namespace Jpeg
open Spec

/-! ## Files without entropy coded data -/

theorem laid_sizes {f : BaselineFile} {r H V : Nat} {codes : List (Code × Code)} (hv : f.Laid r H V codes) :
    ∀ c ∈ codes, 0 < (codeSizes c.1.counts).length ∧ 0 < (codeSizes c.2.counts).length := by
  have key : ∀ (ac : Bool) (n : Nat) (code : Code),
      (lastWith (fun t => t.ac == ac && t.dest == n) (huffmanDefs f.tables)).map
        (fun t => (⟨t.counts, t.values⟩ : Code)) = some code → 0 < (codeSizes code.counts).length := by
    intro ac n code h
    obtain ⟨t, hl, rfl⟩ := Option.map_eq_some_iff.1 h
    obtain ⟨hm, hp⟩ := lastWith_some hl
    obtain ⟨s, hs, ht⟩ := List.mem_flatMap.1 hm
    have hok := (hv.tables s hs).2
    cases s with
    | dht ts =>
      obtain ⟨o, h1, -, hk⟩ := hok t ht
      rw [codeSizes_length]
      rw [o.2.2] at h1
      exact h1
    | _ => simp at ht
  intro c hc
  obtain ⟨i, hi⟩ := List.mem_iff_getElem?.1 hc
  have hlen := hv.huffman.length_eq
  have hil := (List.getElem?_eq_some_iff.1 hi).1
  have := List.forall₂_iff_get.1 hv.huffman
  have := this.2 i (by omega) hil
  rw [List.get_eq_getElem, List.get_eq_getElem, (List.getElem?_eq_some_iff.1 hi).2] at this
  generalize f.comps[(⟨i, _⟩ : Fin f.comps.length)] = fc at this
  constructor
  · refine key false fc.dc _ ?_
    rw [← this.1, BaselineFile.dcCode]
    simp
  · refine key true fc.ac _ ?_
    rw [← this.2, BaselineFile.acCode]
    simp

/-- A picture of `x` by `y` samples at full resolution, with these data. -/
def sizedFile (values data : List UInt8) (x y : Nat) : BaselineFile :=
  { readFile values data with x := x, y := y, intervals := [List.replicate (ceilDiv x 8 * ceilDiv y 8) zeroMcu] }

theorem sizedFile_laid {values : List UInt8} (hvs : values.length = 2) (data : List UInt8) {x y : Nat}
    (hx : 1 ≤ x ∧ x < 2 ^ 16) (hy : y < 2 ^ 16) :
    (sizedFile values data x y).Laid 0 1 1 (List.replicate 3 (readDcCode, readAcCode values)) := by
  have h := readFile_laid hvs data
  refine ⟨h.tables, h.sof, hx, hy, h.count, h.ids, h.factors, h.hmax, h.vmax, h.ten, h.single, h.quant, h.huffman,
    ?_, ?_, ?_⟩
  · show [List.replicate (ceilDiv x 8 * ceilDiv y 8) zeroMcu].flatten.length = _
    simp
    rfl
  · intro m hm
    have : m = zeroMcu := by
      have hm : m ∈ [List.replicate (ceilDiv x 8 * ceilDiv y 8) zeroMcu].flatten := hm
      rw [List.flatten_singleton] at hm
      exact (List.mem_replicate.1 hm).2
    rw [this]; rfl
  · unfold IntervalsOk
    rw [if_pos rfl]
    rfl

theorem sizedFile_renderable (values data : List UInt8) (x y : Nat) : (sizedFile values data x y).Renderable 1 1 := by
  have hc : ∀ c ∈ (sizedFile values data x y).comps, c.h = 1 ∧ c.v = 1 := by
    show ∀ c ∈ [(⟨⟨1, 1, 1, 0⟩, 0, 0⟩ : FileComponent), ⟨⟨2, 1, 1, 0⟩, 0, 0⟩, ⟨⟨3, 1, 1, 0⟩, 0, 0⟩], _
    decide
  intro c h
  obtain ⟨h1, h2⟩ := hc c h
  rw [h1, h2]
  refine ⟨rfl, rfl, fun h => by omega, fun h => absurd ⟨.inl rfl, .inl rfl⟩ h⟩

/-- The first code word of a code is all zeros; the symbol it stands for. -/
def FirstSymbol (c : Code) (P : Nat → Prop) : Prop := ∃ v, c.values[0]? = some v ∧ P v.toNat

/-- **C75** (an image from no data). A file laid out as the standard says, with no entropy coded data at all between the
markers, decodes to an image of the full size, if the first code words of its tables stand for a DC category and for an AC
symbol of sequential coding. -/
theorem C75_no_data (cfg : Cfg) (f : BaselineFile) (H V : Nat) (codes : List (Code × Code)) (d : Decoder)
    (hd : UsedDecoder d) (hh : Holds cfg d f.earlier) (h3 : f.comps.length = 3) (hct : f.transform d.transform ≠ some 0)
    (hv : f.Laid (f.interval d.restartInterval) H V codes) (hr : f.Renderable H V)
    (k : Nat) (hx : Chunks (List.replicate k 0xFF ++ markerBytes .EOI) 0 (List.replicate f.intervals.length []) f.data)
    (hdc : ∀ c ∈ codes, FirstSymbol c.1 (· ≤ 11))
    (hac : ∀ c ∈ codes, FirstSymbol c.2 fun v => v % 16 = 0 → v / 16 = 0 ∨ v / 16 = 15) :
    ∃ image d', d.decode cfg f.bytes = .ok image d' ∧ image.length = f.x * f.y * 3 := by
  have hf : ∀ c ∈ codes, ∃ vd va, FirstSymbols c vd va := by
    intro c hc
    obtain ⟨vd, h1, h2⟩ := hdc c hc
    obtain ⟨va, h3, h4⟩ := hac c hc
    exact ⟨vd, va, h1, h3, h2, h4, laid_sizes hv c hc⟩
  have hZ : ∀ l : List (List Mcu), ∃ Z : List (List Mcu), Z.map List.length = l.map List.length ∧
      List.Forall₂ (ReadsWithZeros codes (f.comps.map fun c => c.h * c.v)) Z (List.replicate l.length []) := by
    intro l
    induction l with
    | nil => exact ⟨[], rfl, .nil⟩
    | cons ms l ih =>
      obtain ⟨Z, h1, h2⟩ := ih
      obtain ⟨ms', rest, e⟩ := zeros_read (Laid.properAll hv) hf (f.comps.map fun c => c.h * c.v) ms.length
      have hl := (readInterval_value (laid_length hv) e).1
      refine ⟨ms' :: Z, by simp [hl, h1], .cons (.inr ⟨by simp, 1980 * (f.comps.map fun c => c.h * c.v).sum * ms.length, rest, ?_⟩) h2⟩
      rw [hl, List.nil_append]
      exact e
  obtain ⟨Z, h1, h2⟩ := hZ f.intervals
  obtain ⟨-, image, d', -, e, -, hl⟩ := C74_read_partial cfg f H V codes d hd hh h3 hct hv hr k _ hx Z h1 h2
  exact ⟨image, d', e, hl⟩

/-- **C75** (violated: the size of the image is not bounded by that of the file). For any number of samples per line and
of lines there is a file of 148 bytes that decodes to an image of that size, up to more than twelve gigabytes. -/
theorem C75_violated (cfg : Cfg) (x y : Nat) (hx : 1 ≤ x ∧ x < 2 ^ 16) (hy : y < 2 ^ 16) :
    ∃ file image d', file.length = 148 ∧ Decoder.default.decode cfg file = .ok image d' ∧ image.length = x * y * 3 := by
  obtain ⟨image, d', e, hl⟩ := C75_no_data cfg (sizedFile [0x00, 0x10] [] x y) 1 1 _ Decoder.default .new (.nothing _) rfl
    (show (none : Option Nat) ≠ some 0 by decide) (sizedFile_laid rfl [] hx hy) (sizedFile_renderable _ _ _ _) 0 .last
    (by
      intro c hc
      rw [(List.mem_replicate.1 hc).2]
      exact ⟨0, rfl, by decide⟩)
    (by
      intro c hc
      rw [(List.mem_replicate.1 hc).2]
      exact ⟨0, rfl, fun _ => .inl rfl⟩)
  exact ⟨_, image, d', by rfl, e, hl⟩

/-! ## Files with all their data -/

theorem for_length {c : Code} (h : Proper c) {sym : Nat} {b : List Bool} (hb : c.For sym b) : 1 ≤ b.length := by
  obtain ⟨k, v, hk, -, -, rfl⟩ := hb
  have := codeSizes_range h.len _ (List.getElem_mem hk)
  rw [codeWord_length hk this.2]
  exact this.1

theorem blocksBits_length {cd ca : Code} (hd : Proper cd) (ha : Proper ca) {p q : Int} {bs : List BlockData}
    {b : List Bool} (hb : BlocksBits cd ca p bs b q) : 2 * bs.length ≤ b.length := by
  induction hb with
  | nil => simp
  | @cons p b diff bs x y q hx hdc _ ih =>
    obtain ⟨hlen, b1, b2, ⟨-, w, hw, rfl⟩, k2, rfl⟩ := hx
    have h1 := for_length hd hw
    have h2 : 1 ≤ b2.length := by
      generalize b.zz = zz at hlen k2
      cases k2 with
      | done => simp at hlen
      | eob _ _ hf => exact for_length ha hf
      | zrl _ hf _ => have := for_length ha hf; simp; omega
      | coef _ _ _ hf _ => have := for_length ha hf; simp; omega
      | over _ _ _ _ _ _ hf => have := for_length ha hf; simp; omega
      | overZrl _ _ _ hf => exact for_length ha hf
    simp only [List.length_cons, List.length_append]
    omega

theorem mcuBits_length {codes : List (Code × Code)} (h : ProperAll codes) {ps qs : List Int} {m : Mcu} {b : List Bool}
    (hb : McuBits codes ps m b qs) : 2 * (m.map List.length).sum ≤ b.length := by
  induction hb with
  | nil => simp
  | @cons cd ca cs p ps bs mcu x y q qs hx _ ih =>
    obtain ⟨h1, h2⟩ := h (cd, ca) (by simp)
    have := blocksBits_length h1 h2 hx
    have := ih fun c hc => h c (by simp [hc])
    simp only [List.map_cons, List.sum_cons, List.length_append]
    omega

theorem mcusBits_length {codes : List (Code × Code)} (h : ProperAll codes) {ps qs : List Int} {ms : List Mcu}
    {b : List Bool} (hb : McusBits codes ps ms b qs) {n : Nat} (hn : ∀ m ∈ ms, n ≤ (m.map List.length).sum) :
    2 * n * ms.length ≤ b.length := by
  induction hb with
  | nil => simp
  | cons hm _ ih =>
    have h1 := mcuBits_length h hm
    have h2 := ih fun m hm => hn m (by simp [hm])
    have h3 := hn _ (.head _)
    rw [List.length_cons, List.length_append, Nat.mul_succ]
    omega

theorem stuff_length (l : List UInt8) : l.length ≤ (stuff l).length := by
  induction l with
  | nil => simp
  | cons b l ih =>
    rw [stuff]
    split <;> simp <;> omega

theorem scanBytes_length {codes : List (Code × Code)} (h : ProperAll codes) {tail : List UInt8} {j : Nat}
    {Y : List (List Mcu)} {x : List UInt8} (hs : ScanBytes codes tail j Y x) {n : Nat}
    (hn : ∀ m ∈ Y.flatten, n ≤ (m.map List.length).sum) : 2 * n * Y.flatten.length ≤ 8 * x.length := by
  have key : ∀ {ms : List Mcu} {data : List UInt8}, IntervalData codes ms data →
      (∀ m ∈ ms, n ≤ (m.map List.length).sum) → 2 * n * ms.length ≤ 8 * (stuff data).length := by
    rintro ms data ⟨bits, pad, qs, hb, e⟩ hn
    have h1 := mcusBits_length h hb hn
    have h2 := stuff_length data
    have h3 := congrArg List.length e
    rw [bitsOf_length, List.length_append] at h3
    omega
  induction hs with
  | last hi =>
    have := key hi fun m hm => hn m (by simpa using hm)
    rw [List.flatten_singleton, List.length_append]
    omega
  | cons k hi _ ih =>
    have h1 := key hi fun m hm => hn m (by simp [hm])
    have h2 := ih fun m hm => hn m (by rw [List.flatten_cons, List.mem_append]; exact .inr hm)
    rw [List.flatten_cons, List.length_append, Nat.mul_add, List.length_append, List.length_append]
    simp only [List.length_cons]
    omega

theorem le_ceilDiv_mul (a : Nat) {n : Nat} (hn : 1 ≤ n) : a ≤ ceilDiv a n * n := by
  unfold ceilDiv
  have h1 := Nat.div_add_mod (a + (n - 1)) n
  have h2 := Nat.mod_lt (a + (n - 1)) hn
  rw [Nat.mul_comm] at h1
  omega

theorem Spec.BaselineFile.Valid.size {f : BaselineFile} {r H V : Nat} {codes : List (Code × Code)}
    (hv : f.Valid r H V codes) : f.x * f.y * f.comps.length ≤ 4096 * f.data.length := by
  obtain ⟨k, hs⟩ := hv.data
  have hH : H ≤ 4 := by obtain ⟨-, c, hc, rfl⟩ := hv.hmax; exact (hv.factors c hc).2.1
  have hV : V ≤ 4 := by obtain ⟨-, c, hc, rfl⟩ := hv.vmax; exact (hv.factors c hc).2.2.2
  have hH1 : 1 ≤ H := by obtain ⟨-, c, hc, rfl⟩ := hv.hmax; exact (hv.factors c hc).1
  have hV1 : 1 ≤ V := by obtain ⟨-, c, hc, rfl⟩ := hv.vmax; exact (hv.factors c hc).2.2.1
  have hsum : ∀ l : List FileComponent, (∀ c ∈ l, 1 ≤ c.h ∧ 1 ≤ c.v) → l.length ≤ (l.map fun c => c.h * c.v).sum := by
    intro l hl
    induction l with
    | nil => simp
    | cons c l ih =>
      have h1 := ih fun c hc => hl c (by simp [hc])
      obtain ⟨h2, h3⟩ := hl c (by simp)
      have := Nat.mul_le_mul h2 h3
      simp only [List.length_cons, List.map_cons, List.sum_cons]
      omega
  have h1 := scanBytes_length (Laid.properAll hv.toLaid) hs (n := f.comps.length) fun m hm => by
    rw [hv.blocks m hm]
    exact hsum _ fun c hc => ⟨(hv.factors c hc).1, (hv.factors c hc).2.2.1⟩
  rw [hv.mcus] at h1
  have hx : f.x ≤ 32 * ceilDiv f.x (8 * H) := by
    have a := le_ceilDiv_mul f.x (n := 8 * H) (by omega)
    have b : ceilDiv f.x (8 * H) * (8 * H) ≤ ceilDiv f.x (8 * H) * 32 := Nat.mul_le_mul_left _ (by omega)
    omega
  have hy : f.y ≤ 32 * ceilDiv f.y (8 * V) := by
    have a := le_ceilDiv_mul f.y (n := 8 * V) (by omega)
    have b : ceilDiv f.y (8 * V) * (8 * V) ≤ ceilDiv f.y (8 * V) * 32 := Nat.mul_le_mul_left _ (by omega)
    omega
  have h2 := Nat.mul_le_mul hx hy
  have h3 := Nat.mul_le_mul_right f.comps.length h2
  generalize ceilDiv f.x (8 * H) = A at *
  generalize ceilDiv f.y (8 * V) = B at *
  have : 32 * A * (32 * B) * f.comps.length = 512 * (2 * f.comps.length * (A * B)) := by ring
  omega

/-- **C75** (the size is bounded for valid files). Decoding a valid file never gives an image of more than 4096 bytes for
each byte of the file.

Missing: files whose data end early (`C75_violated`). -/
theorem C75_bounded_partial (cfg : Cfg) (f : BaselineFile) (H V : Nat) (codes : List (Code × Code)) (d : Decoder)
    (hd : UsedDecoder d) (hh : Holds cfg d f.earlier) (hv : f.Valid (f.interval d.restartInterval) H V codes)
    (image : List UInt8) (d' : Decoder) (h : d.decode cfg f.bytes = .ok image d') :
    image.length ≤ 4096 * f.bytes.length := by
  have h1 := hv.size
  have h2 : f.data.length ≤ f.bytes.length := by
    unfold BaselineFile.bytes
    simp only [List.length_append]
    omega
  have h3 := C67_outcome cfg f H V codes d hd hh hv
  cases e : f.outcome (f.transform d.transform) H V with
  | image =>
    rw [e] at h3
    obtain ⟨i, d2, e2, hl⟩ := h3
    rw [h] at e2
    cases e2
    omega
  | error => rw [e] at h3; obtain ⟨i, d2, e2⟩ := h3; rw [h] at e2; cases e2
  | panic => rw [e] at h3; obtain ⟨i, d2, e2⟩ := h3; rw [h] at e2; cases e2

example (image : List UInt8) (d' : Decoder) (h : Decoder.default.decode ⟨true, false⟩ exampleFile.bytes = .ok image d') :
    image.length ≤ 4096 * exampleFile.bytes.length :=
  C75_bounded_partial ⟨true, false⟩ exampleFile 1 1 _ Decoder.default .new (.nothing _) exampleFile_valid image d' h

end Jpeg
