import Verif.Spec.Continued
import Verif.Proofs.ZeroTail
import Verif.Proofs.ShortRead
import Verif.Props.Reading
/-!
# C74: data that end early are read as if zero bits followed
-/

namespace Jpeg
open Spec

/-- The same result, or the same failure. -/
def SameResult {σ α : Type} (o o' : Out σ α) : Prop :=
  (∃ a s, o = .ok a s ∧ o' = .ok a s) ∨ ∃ f s s', o = .fail f s ∧ o' = .fail f s'

theorem SameResult.of_eq {σ α : Type} {o o' : Out σ α} (h : o' = o) : SameResult o o' := by
  subst h
  cases o' with
  | ok a s => exact .inl ⟨a, s, rfl, rfl⟩
  | fail f s => exact .inr ⟨f, s, s, rfl, rfl⟩

theorem chunks_cont {tail tail' : List UInt8} (ht : StartsWithMarker tail) (ht' : StartsWithMarker tail')
    (hm : marker tail' = marker tail) {j : Nat} {chunks chunks' : List (List UInt8)} {x x' : List UInt8}
    (h : Chunks tail j chunks x) (h' : Chunks tail' j chunks' x') (hc : List.Forall₂ Continued chunks chunks') :
    Cont x x' := by
  have key : ∀ {c c' t t' : List UInt8}, StartsWithMarker t → StartsWithMarker t' → Continued c c' →
      Split (stuff c ++ t) (stuff c' ++ t') t t' := by
    intro c c' t t' h1 h2 hc
    refine ⟨stuff c, ?_⟩
    rcases hc with rfl | ⟨hff, n, rfl⟩
    · exact ⟨0, rfl, by simp, scanTail_stuff h1 _, scanTail_stuff h2 _, .inl rfl⟩
    · refine ⟨n, rfl, ?_, scanTail_stuff h1 _, scanTail_stuff h2 _, .inr ?_⟩
      · rw [stuff_plain c hff, stuff_plain, List.append_assoc]
        intro b hb
        rcases List.mem_append.1 hb with hb | hb
        · exact hff b hb
        · rw [(List.mem_replicate.1 hb).2]; decide
      · rw [stuff_plain c hff]; exact hff
  induction h generalizing chunks' x' with
  | @last j data =>
    cases hc with
    | cons h1 h2 =>
      cases h2
      cases h' with
      | last => exact .stop (key ht ht' h1) hm
      | cons _ hr' => cases hr'
  | @cons j data rest bytes k hr ih =>
    cases hc with
    | cons h1 h2 =>
      cases h' with
      | last => cases h2; cases hr
      | cons k' hr' =>
        have hn8 : j % 8 < 8 := Nat.mod_lt _ (by omega)
        exact .rst (key (starts_rst hn8 k _) (starts_rst hn8 k' _) h1) (marker_rst hn8 k _) (marker_rst hn8 k' _)
          (ih hr' h2)

section

variable {cfg : Cfg}

/-- Runs over the rest of the file. -/
theorem loopAll_cont {x x' : List UInt8} (h : Cont x x') {d : Decoder} (hd : DecInv d) {bits count : Nat}
    (hwf : ∀ l, (⟨l, bits, count⟩ : Biterator).WF) :
    SameResult (loopAll cfg ⟨d, ⟨x, bits, count⟩⟩) (loopAll cfg ⟨d, ⟨x', bits, count⟩⟩) := by
  have same : ∀ {x x' : List UInt8}, marker x' = marker x →
      SameResult (loopAll cfg ⟨d, ⟨x, bits, count⟩⟩) (loopAll cfg ⟨d, ⟨x', bits, count⟩⟩) := by
    intro x x' e
    cases hm : marker x with
    | error f =>
      rw [loopAll_error (s := ⟨d, ⟨x, bits, count⟩⟩) hm, loopAll_error (s := ⟨d, ⟨x', bits, count⟩⟩) (e.trans hm)]
      exact .inr ⟨f, _, _, rfl, rfl⟩
    | ok r =>
      obtain ⟨m, r⟩ := r
      apply SameResult.of_eq
      by_cases hne : m = .EOI
      · subst hne
        rw [loopAll_eoi (s := ⟨d, ⟨x, bits, count⟩⟩) hm, loopAll_eoi (s := ⟨d, ⟨x', bits, count⟩⟩) (e.trans hm)]
        rfl
      · rw [loopAll_eq (s := ⟨d, ⟨x, bits, count⟩⟩) hd (hwf _) hm hne,
          loopAll_eq (s := ⟨d, ⟨x', bits, count⟩⟩) hd (hwf _) (e.trans hm) hne]
        rfl
  induction h with
  | stop hs hm => exact same (by rw [hs.left, hs.right, hm])
  | rst hs hm hm' hc ih =>
    rw [loopAll_eq (s := ⟨d, ⟨_, bits, count⟩⟩) hd (hwf _) (hs.left.trans hm) (by simp),
      loopAll_eq (s := ⟨d, ⟨_, bits, count⟩⟩) hd (hwf _) (hs.right.trans hm') (by simp)]
    exact ih

/-- The run over a file whose data are continued with zeros. -/
theorem loopAll_zeros {f : BaselineFile} {H V : Nat} {codes : List (Code × Code)} {d : Decoder} (hd : DecInv d)
    (hh : TablesHeld cfg f.earlier d) (hv : f.Laid (f.interval d.restartInterval) H V codes) {x x' : List UInt8}
    (h : Cont x x') :
    SameResult (loopAll cfg ⟨d, Biterator.new ({ f with data := x } : BaselineFile).bytes⟩)
      (loopAll cfg ⟨d, Biterator.new ({ f with data := x' } : BaselineFile).bytes⟩) := by
  obtain ⟨d3, i3, hh3, hf3, hr3, -, e3⟩ := loopAll_toScan_all (cfg := cfg) hd hh hv
  obtain ⟨D, fin, -, -, hs⟩ := sos_start_all (cfg := cfg) hv i3 hf3 hh3 hr3
  rw [e3 x, e3 x', hs x, hs x']
  have hsafe : ∀ y, SegSafe cfg .SOS ⟨d3, ⟨segmentOf (scanHeader (f.comps.map fun c => ⟨c.id, c.dc, c.ac⟩) 0 63 0 0)
      ++ y, 0, 0⟩⟩ (decodeScan cfg true ⟨D, ⟨y, 0, 0⟩⟩) := fun y => by
    rw [← hs y]
    exact doSegment_safe (cfg := cfg) (m := .SOS) trivial i3 (wf_zero _)
  have hl := decodeScan_lock sameUpToZeros_lock sameUpToZeros_marks cfg true
    (s := ⟨D, ⟨x, 0, 0⟩⟩) (s' := ⟨D, ⟨x', 0, 0⟩⟩) ⟨⟨x', 0, 0⟩, rfl, .inr ⟨rfl, rfl, h⟩⟩
  rcases hl.cases with ⟨a, u, u', e1, e2, hu⟩ | ⟨g, u, u', e1, e2⟩
  · have h1 := hsafe x
    rw [e1] at h1 ⊢
    rw [e2, Out.bind_ok, Out.bind_ok]
    obtain ⟨b, rfl, hu⟩ := hu
    rcases hu with hu | ⟨hu1, hu2, hu3⟩
    · subst hu
      exact .of_eq rfl
    · obtain ⟨ud, ⟨ui, ub, uc⟩⟩ := u
      obtain ⟨bi, bb, bc⟩ := b
      have hu1 : bb = ub := hu1
      have hu2 : bc = uc := hu2
      subst hu1 hu2
      have w : (⟨ui, bb, bc⟩ : Biterator).WF := h1.wf
      exact loopAll_cont hu3 h1.inv fun l => ⟨w.1, w.2⟩
  · rw [e1, e2]
    exact .inr ⟨g, u, u', rfl, rfl⟩

theorem decode_sameResult {d : Decoder} {b b' : List UInt8}
    (h : SameResult (loopAll cfg ⟨d, Biterator.new b⟩) (loopAll cfg ⟨d, Biterator.new b'⟩)) :
    SameResult (d.decode cfg b) (d.decode cfg b') := by
  have hdec : ∀ b, d.decode cfg b =
      match decodeParser cfg ⟨d, Biterator.new b⟩ with
      | .fail f s => .fail f s.dec
      | .ok r s =>
        if s.bi.input ≠ [] then .fail (.panic .trailing) s.dec
        else
          match r with
          | .ok image => .ok image s.dec
          | .error f => .fail f s.dec := fun _ => rfl
  rw [hdec b, hdec b']
  unfold decodeParser
  unfold loopAll at h
  rcases h with ⟨a, s, e1, e2⟩ | ⟨f, s, s', e1, e2⟩
  · rw [e1, e2]
    exact .of_eq rfl
  · rw [e1, e2]
    exact .inr ⟨f, _, _, rfl, rfl⟩

end

/-- **C74** (data that end early). Of a file laid out as the standard says, the data of restart intervals may be
replaced by the same data with zero bytes behind them (unless they contain `0xFF`): decoding gives the same image and
leaves the decoder in the same state, or fails in the same way. Whether the data are enough for the MCUs of the
interval plays no part.

Missing: data that contain `0xFF` (`C74_ff_violated`). -/
theorem C74_zeros_partial (cfg : Cfg) (f : BaselineFile) (H V : Nat) (codes : List (Code × Code)) (d : Decoder)
    (hd : UsedDecoder d) (hh : Holds cfg d f.earlier) (hv : f.Laid (f.interval d.restartInterval) H V codes)
    (k k' : Nat) (chunks chunks' : List (List UInt8)) (data' : List UInt8)
    (hx : Chunks (List.replicate k 0xFF ++ markerBytes .EOI) 0 chunks f.data)
    (hx' : Chunks (List.replicate k' 0xFF ++ markerBytes .EOI) 0 chunks' data')
    (hc : List.Forall₂ Continued chunks chunks') :
    (∃ image d2, d.decode cfg f.bytes = .ok image d2 ∧
      d.decode cfg ({ f with data := data' } : BaselineFile).bytes = .ok image d2) ∨
    ∃ g d2 d2', d.decode cfg f.bytes = .fail g d2 ∧
      d.decode cfg ({ f with data := data' } : BaselineFile).bytes = .fail g d2' := by
  have heoi : ∀ k, marker (List.replicate k 0xFF ++ markerBytes .EOI) = .ok (.EOI, []) := fun k => by
    simpa using marker_bytes (m := .EOI) trivial k []
  exact decode_sameResult (loopAll_zeros hd.inv hh.held hv
    (chunks_cont (starts_eoi k) (starts_eoi k') (by rw [heoi, heoi]) hx hx' hc))

/-! ## What the zeros are read as -/

theorem chunks_exist {tail : List UInt8} : ∀ (j : Nat) {chunks : List (List UInt8)}, chunks ≠ [] →
    ∃ x, Chunks tail j chunks x := by
  intro j chunks h
  induction chunks generalizing j with
  | nil => exact absurd rfl h
  | cons c rest ih =>
    cases rest with
    | nil => exact ⟨_, .last⟩
    | cons c' rest =>
      obtain ⟨x, hx⟩ := ih (j + 1) (by simp)
      exact ⟨_, .cons 0 hx⟩

theorem Spec.Chunks.ne_nil {tail : List UInt8} {j : Nat} {chunks : List (List UInt8)} {x : List UInt8}
    (h : Chunks tail j chunks x) : chunks ≠ [] := by
  cases h <;> simp

/-- The data, followed by enough zero bits, read as these MCUs. -/
def ReadsWithZeros (codes : List (Code × Code)) (ns : List Nat) (ms : List Mcu) (data : List UInt8) : Prop :=
  ReadsAs codes ns ms data ∨
    (∀ b ∈ data, b ≠ 0xFF) ∧ ∃ n, ReadsAs codes ns ms (data ++ List.replicate n 0)

theorem continued_of {R : List Mcu → List UInt8 → Prop} {Z : List (List Mcu)} {chunks : List (List UInt8)}
    (h : List.Forall₂ (fun ms c => R ms c ∨ (∀ b ∈ c, b ≠ 0xFF) ∧ ∃ n, R ms (c ++ List.replicate n 0)) Z chunks) :
    ∃ chunks', List.Forall₂ Continued chunks chunks' ∧ List.Forall₂ R Z chunks' := by
  induction h with
  | nil => exact ⟨[], .nil, .nil⟩
  | @cons ms c _ _ h _ ih =>
    obtain ⟨cs, h1, h2⟩ := ih
    rcases h with h | ⟨hff, n, h⟩
    · exact ⟨c :: cs, .cons (.inl rfl) h1, .cons h h2⟩
    · exact ⟨_ :: cs, .cons (.inr ⟨hff, n, rfl⟩) h1, .cons h h2⟩

/-- **C74** (the picture of data that end early). If the data of every restart interval, with enough zero bits behind
them (unless they contain `0xFF`), read as MCUs, then decoding gives an image of the full size, and it is the one of
a valid file with these MCUs: no error, and no mark where the data ended. -/
theorem C74_read_partial (cfg : Cfg) (f : BaselineFile) (H V : Nat) (codes : List (Code × Code)) (d : Decoder)
    (hd : UsedDecoder d) (hh : Holds cfg d f.earlier) (h3 : f.comps.length = 3) (hct : f.transform d.transform ≠ some 0)
    (hv : f.Laid (f.interval d.restartInterval) H V codes) (hr : f.Renderable H V)
    (k : Nat) (chunks : List (List UInt8)) (hx : Chunks (List.replicate k 0xFF ++ markerBytes .EOI) 0 chunks f.data)
    (Z : List (List Mcu)) (hl : Z.map List.length = f.intervals.map List.length)
    (hZ : List.Forall₂ (ReadsWithZeros codes (f.comps.map fun c => c.h * c.v)) Z chunks) :
    ∃ data' image d', ({ f with intervals := Z, data := data' } : BaselineFile).Valid (f.interval d.restartInterval) H V codes ∧
      d.decode cfg f.bytes = .ok image d' ∧
      d.decode cfg ({ f with data := data' } : BaselineFile).bytes = .ok image d' ∧
      image.length = f.x * f.y * 3 := by
  obtain ⟨chunks', h1, h2⟩ := continued_of hZ
  obtain ⟨data', hx'⟩ := chunks_exist (tail := List.replicate k 0xFF ++ markerBytes .EOI) 0 (chunks := chunks') (by
    intro e
    subst e
    cases h1
    exact hx.ne_nil rfl)
  have hv' : ({ f with data := data' } : BaselineFile).Laid (f.interval d.restartInterval) H V codes :=
    ⟨hv.tables, hv.sof, hv.x, hv.y, hv.count, hv.ids, hv.factors, hv.hmax, hv.vmax, hv.ten, hv.single, hv.quant,
      hv.huffman, hv.mcus, hv.blocks, hv.restarts⟩
  obtain ⟨hval, image, d', e, hlen⟩ := C71_read cfg { f with data := data' } H V codes d hd hh h3 hct hv' hr k chunks'
    hx' Z hl h2
  refine ⟨data', image, d', hval, ?_, e, hlen⟩
  rcases C74_zeros_partial cfg f H V codes d hd hh hv k k chunks chunks' data' hx hx' h1 with ⟨i2, d2, e1, e2⟩ | ⟨g, d2, d2', e1, e2⟩
  · rw [e] at e2
    cases e2
    exact e1
  · rw [e] at e2
    cases e2

/-- **C74** (refusal). If some piece of data, followed by zero bits, reads as invalid, then decoding fails with an error. -/
theorem C74_refused_partial (cfg : Cfg) (f : BaselineFile) (H V : Nat) (codes : List (Code × Code)) (d : Decoder)
    (hd : UsedDecoder d) (hh : Holds cfg d f.earlier) (hv : f.Laid (f.interval d.restartInterval) H V codes)
    (k : Nat) (chunks : List (List UInt8)) (hx : Chunks (List.replicate k 0xFF ++ markerBytes .EOI) 0 chunks f.data)
    (hlen : chunks.length = f.intervals.length) (i : Nat) (ms : List Mcu) (data : List UInt8)
    (hi : f.intervals[i]? = some ms) (hc : chunks[i]? = some data) (hff : ∀ b ∈ data, b ≠ 0xFF) (n : Nat)
    (hbad : readInterval codes (f.comps.map fun c => c.h * c.v) ms.length (data ++ List.replicate n 0) = .invalid) :
    ∃ g d2, d.decode cfg f.bytes = .fail g d2 ∧ ∀ p, g ≠ .panic p := by
  have hil := (List.getElem?_eq_some_iff.1 hc).1
  have hset : ∀ {cs : List (List UInt8)} {i : Nat} {data : List UInt8}, cs[i]? = some data → (∀ b ∈ data, b ≠ 0xFF) →
      List.Forall₂ Continued cs (cs.set i (data ++ List.replicate n 0)) := by
    intro cs
    induction cs with
    | nil => intro i data h; simp at h
    | cons c cs ih =>
      intro i data h hff
      cases i with
      | zero =>
        simp only [List.getElem?_cons_zero, Option.some.injEq] at h
        subst h
        exact .cons (.inr ⟨hff, n, rfl⟩) (List.forall₂_same.2 fun _ _ => .inl rfl)
      | succ i => exact .cons (.inl rfl) (ih (by simpa using h) hff)
  obtain ⟨data', hx'⟩ := chunks_exist (tail := List.replicate k 0xFF ++ markerBytes .EOI) 0
    (chunks := chunks.set i (data ++ List.replicate n 0)) (by
      intro e
      have := congrArg List.length e
      rw [List.length_set, List.length_nil] at this
      omega)
  have hv' : ({ f with data := data' } : BaselineFile).Laid (f.interval d.restartInterval) H V codes :=
    ⟨hv.tables, hv.sof, hv.x, hv.y, hv.count, hv.ids, hv.factors, hv.hmax, hv.vmax, hv.ten, hv.single, hv.quant,
      hv.huffman, hv.mcus, hv.blocks, hv.restarts⟩
  obtain ⟨g, d2, e, hg⟩ := C71_refused cfg { f with data := data' } H V codes d hd hh hv' k _ hx'
    (by rw [List.length_set]; exact hlen) i ms _ hi (by rw [List.getElem?_set_self hil]) hbad
  rcases C74_zeros_partial cfg f H V codes d hd hh hv k k chunks _ data' hx hx' (hset hc hff) with
    ⟨i2, d3, e1, e2⟩ | ⟨g', d3, d3', e1, e2⟩
  · rw [e] at e2
    cases e2
  · rw [e] at e2
    cases e2
    exact ⟨g, _, e1, hg⟩

/-- **C74** (nothing is missing). With enough zero bits behind them, data read as MCUs, as invalid, or run into a
reserved symbol; they do not end early. -/
theorem C74_complete (f : BaselineFile) (r H V : Nat) (codes : List (Code × Code)) (hv : f.Laid r H V codes)
    (count : Nat) (data : List UInt8) :
    ∃ N, ∀ n, N ≤ n →
      readInterval codes (f.comps.map fun c => c.h * c.v) count (data ++ List.replicate n 0) ≠ .short :=
  ⟨_, fun _ hn => (Laid.properAll hv).notShort _ _ _ hn⟩

/-- A file whose data end in the middle of its only MCU: `10 00001 0` is the block of the first component (a difference of
category 5, and the end of the block). The zeros behind it are read as the others. -/
example : ∃ data' image d', ({ readFile [0x00, 0x10] [0x82] with
      intervals := [[[[⟨-30, List.replicate 63 0⟩], [⟨0, List.replicate 63 0⟩], [⟨0, List.replicate 63 0⟩]]]], data := data' } :
        BaselineFile).Valid 0 1 1 (List.replicate 3 (readDcCode, readAcCode [0x00, 0x10])) ∧
    Decoder.default.decode ⟨true, false⟩ (readFile [0x00, 0x10] [0x82]).bytes = .ok image d' ∧
    Decoder.default.decode ⟨true, false⟩ ({ readFile [0x00, 0x10] [0x82] with data := data' } : BaselineFile).bytes =
      .ok image d' ∧ image.length = 192 :=
  C74_read_partial ⟨true, false⟩ (readFile [0x00, 0x10] [0x82]) 1 1 _ Decoder.default .new (.nothing _) rfl (by decide)
    (readFile_laid rfl _) (readFile_renderable _ _) 0 [[0x82]] (readFile_chunks _ _) _ rfl
    (.cons (.inr ⟨by decide, 1, List.replicate 4 false, by decide +kernel⟩) .nil)

/-- `11000000…` is no code word of the DC code. -/
example : ∃ g d2, Decoder.default.decode ⟨true, false⟩ (readFile [0x00, 0x10] [0xC0]).bytes = .fail g d2 ∧
    ∀ p, g ≠ .panic p :=
  C74_refused_partial ⟨true, false⟩ (readFile [0x00, 0x10] [0xC0]) 1 1 _ Decoder.default .new (.nothing _)
    (readFile_laid rfl _) 0 _ (readFile_chunks _ _) rfl 0 _ _ rfl rfl (by decide) 1 (by decide +kernel)

/-! ## Data that contain `0xFF` -/

/-- The first sample of the image that `decode` of a new decoder gives. -/
def firstSample (file : List UInt8) : Option UInt8 :=
  match Decoder.default.decode ⟨true, false⟩ file with
  | .ok image _ => image[0]?
  | .fail _ _ => none

theorem firstSample_some {file : List UInt8} {v : UInt8} (h : firstSample file = some v) :
    ∃ image d, Decoder.default.decode ⟨true, false⟩ file = .ok image d ∧ image[0]? = some v := by
  unfold firstSample at h
  cases e : Decoder.default.decode ⟨true, false⟩ file with
  | fail f d => rw [e] at h; cases h
  | ok i d => rw [e] at h; exact ⟨i, d, rfl, h⟩

set_option maxRecDepth 100000 in
/-- **C74** (violated: a byte is read twice). If the data contain `0xFF`, the zeros are followed by bytes that have been
read before: the same data with zeros behind them decode to another image. -/
theorem C74_ff_violated : ∃ (f : BaselineFile) (chunk data' : List UInt8) (image image' : List UInt8) (d d' : Decoder),
    f.Laid 0 1 1 (List.replicate 3 (readDcCode, readAcCode [0x09, 0x00])) ∧ f.Renderable 1 1 ∧
    Chunks (List.replicate 0 0xFF ++ markerBytes .EOI) 0 [chunk] f.data ∧
    Chunks (List.replicate 0 0xFF ++ markerBytes .EOI) 0 [chunk ++ List.replicate 8 0] data' ∧
    Decoder.default.decode ⟨true, false⟩ f.bytes = .ok image d ∧
    Decoder.default.decode ⟨true, false⟩ ({ f with data := data' } : BaselineFile).bytes = .ok image' d' ∧
    image ≠ image' := by
  obtain ⟨i, d, e, h⟩ := firstSample_some (v := 255)
    (show firstSample (readFile [0x09, 0x00] [0, 0, 0, 0, 0xFF, 1]).bytes = _ by decide +kernel)
  obtain ⟨i', d', e', h'⟩ := firstSample_some (v := 178)
    (show firstSample (readFile [0x09, 0x00] ([0, 0, 0, 0, 0xFF, 1] ++ List.replicate 8 0)).bytes = _ by decide +kernel)
  refine ⟨readFile [0x09, 0x00] [0, 0, 0, 0, 0xFF, 1], _, _, i, i', d, d', readFile_laid rfl _, readFile_renderable _ _,
    .last, .last, e, e', ?_⟩
  rintro rfl
  rw [h] at h'
  revert h'
  decide

end Jpeg
