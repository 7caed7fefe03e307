import Verif.Proofs.Mcu
import Verif.Proofs.Segments
import Verif.Props.Huffman
/-!
# C10 - C16: zig-zag, quantisation tables, blocks and MCUs
-/

namespace Jpeg
open Spec Biterator

/-! ## C10, C11 -/

/-- **C10.** The table lists the cells of an 8x8 block in the order of the anti-diagonal walk. -/
theorem C10_zigzag_walk (k : Nat) (h : k < 64) : UNZIGZAG[k]? = some (zigzag k) := UNZIGZAG_get k h

/-- **C10.** Each cell occurs exactly once. -/
theorem C10_bijection : UNZIGZAG.length = 64 ∧
    ∀ p, p < 64 → ∃ k : Nat, UNZIGZAG[k]? = some p ∧ ∀ j : Nat, UNZIGZAG[j]? = some p → j = k := by
  refine ⟨by decide, fun p hp => ?_⟩
  obtain ⟨k, hk, e⟩ := zigzag_surj p hp
  refine ⟨k, by rw [UNZIGZAG_get k hk, e], fun j hj => ?_⟩
  have hj64 : j < 64 := by
    have := List.getElem?_eq_some_iff.1 hj
    exact lt_of_lt_of_eq this.1 (by decide)
  rw [UNZIGZAG_get j hj64, Option.some.injEq] at hj
  exact zigzag_inj hj64 hk (hj.trans e.symm)

/-- Cells of C10: the walk starts right, then down-left; position 35 is the cell in row 7, column 0;
the last cell is 63. -/
example : UNZIGZAG[1]? = some 1 ∧ UNZIGZAG[2]? = some 8 ∧ UNZIGZAG[35]? = some 56 ∧
    UNZIGZAG[63]? = some 63 := by decide

/-- **C11** (8 bit). A DQT segment holding one 8 bit table stores its `k`-th value at the `k`-th
zig-zag cell of the named slot; other slots and everything else keep their contents. -/
theorem C11_dqt_8bit (b : UInt8) (vals : List UInt8) (d : Decoder) (hp : b.toNat / 16 = 0)
    (hid : b.toNat % 16 < 4) (hlen : vals.length = 64) :
    ∃ q, dqtBody (b :: vals) d =
        .ok () { d with quantTables := d.quantTables.set (b.toNat % 16) (some q) } ∧
      q.length = 64 ∧ ∀ k, k < 64 → q[zigzag k]? = (vals[k]?).map UInt8.toNat := by
  obtain ⟨q, hq, hl, hk⟩ := quantizationTable_ok (vals.map UInt8.toNat) (by simpa using hlen)
  refine ⟨q, ?_, hl, fun k h => by rw [hk k h, List.getElem?_map]⟩
  have hb := bytesP_append vals []
  rw [List.append_nil, hlen] at hb
  unfold dqtBody
  rw [List.length_cons, hlen]
  unfold dqtGo
  rw [if_neg (by simp)]
  unfold dqt
  rw [split4Bit_cons]
  simp only [hp]
  rw [if_neg (by omega), if_neg (by simpa [MAX_QUANTIZATION_TABLES] using hid), if_pos trivial, hb]
  simp only [hq]
  unfold dqtGo
  rw [if_pos rfl]

/-- **C11** (16 bit). Likewise for 16 bit values, stored most significant byte first. -/
theorem C11_dqt_16bit (b : UInt8) (vals : List Nat) (d : Decoder) (hp : b.toNat / 16 = 1)
    (hid : b.toNat % 16 < 4) (hlen : vals.length = 64) (hv : ∀ v ∈ vals, v < 65536) :
    ∃ q, dqtBody (b :: beWords vals) d =
        .ok () { d with quantTables := d.quantTables.set (b.toNat % 16) (some q) } ∧
      q.length = 64 ∧ ∀ k, k < 64 → q[zigzag k]? = vals[k]? := by
  obtain ⟨q, hq, hl, hk⟩ := quantizationTable_ok vals hlen
  refine ⟨q, ?_, hl, hk⟩
  have hb := wordsP_append vals hv []
  rw [List.append_nil, hlen] at hb
  have hbl : (beWords vals).length ≠ 0 := by
    cases vals with
    | nil => simp at hlen
    | cons v vals => simp [beWords]
  obtain ⟨n, hn⟩ : ∃ n, (beWords vals).length = n + 1 := ⟨_, (Nat.succ_pred_eq_of_ne_zero hbl).symm⟩
  unfold dqtBody
  rw [List.length_cons, hn]
  unfold dqtGo
  rw [if_neg (by simp)]
  unfold dqt
  rw [split4Bit_cons]
  simp only [hp]
  rw [if_neg (by omega), if_neg (by simpa [MAX_QUANTIZATION_TABLES] using hid), if_neg (by omega),
    hb]
  simp only [hq]
  unfold dqtGo
  rw [if_pos rfl]

/-- A case of C11: the values 100, 101, .. in file order; the third lands at row 1, column 0. -/
example : ∃ q, dqtBody (0x02 :: (List.range 64).map fun i => UInt8.ofNat (100 + i))
      Decoder.default = .ok () { Decoder.default with
        quantTables := [none, none, some q, none] } ∧ q[8]? = some 102 := by
  obtain ⟨q, h1, -, h3⟩ := C11_dqt_8bit 0x02 ((List.range 64).map fun i => UInt8.ofNat (100 + i))
    Decoder.default (by decide) (by decide) (by decide)
  exact ⟨q, h1, (h3 2 (by decide)).trans (by decide)⟩

/-! ## C12 -/

/-- **C12.** With accepted tables, any band and approximation, any valid reader over any bytes:
decoding a block does not panic (in particular its loop ends and no index leaves the block), the
block keeps 64 coefficients, AC positions outside `ss..=se` are not touched, position 0 and the
predictor only when `ss = 0`; the EOB run stays below `2^15`, the predictor is an `i16`, and only
input bytes from the front are taken. -/
theorem C12_block_safe (cfg : Cfg) (cd vd ca va : List UInt8) (dc : BaseTable) (ac : AcTable)
    (hdc : Accepted cfg cd vd dc) (hac : AcceptedAc cfg ca va ac) (scan : Scan) (s : BlockSt)
    (hcount : s.bi.count ≤ 64) (hbits : s.bi.bits < 2 ^ 64) (hlen : s.coeffs.length = 64)
    (heob : s.eobRun < 2 ^ 15) (hpred : IsI16 s.dcPred) :
    let o := decodeBlock scan dc ac s
    (∀ p s', o ≠ .fail (.panic p) s') ∧
    o.state.coeffs.length = 64 ∧
    (∀ k, 1 ≤ k → k < 64 → (k < scan.ss ∨ scan.se < k) →
      o.state.coeffs[zigzag k]? = s.coeffs[zigzag k]?) ∧
    (scan.ss ≠ 0 → o.state.coeffs[0]? = s.coeffs[0]? ∧ o.state.dcPred = s.dcPred) ∧
    o.state.eobRun < 2 ^ 15 ∧ IsI16 o.state.dcPred ∧
    o.state.bi.count ≤ 64 ∧ o.state.bi.bits < 2 ^ 64 ∧ o.state.bi.input <:+ s.bi.input := by
  have h := decodeBlock_safe hdc.ok hac.ok (s := s) ⟨hcount, hbits⟩ hlen heob hpred scan
  exact ⟨h.noPanic, h.len, h.band, h.dcBand, h.eob, h.pred, h.wf.1, h.wf.2, h.suffix⟩

/-- A small AC code: `0x01` = 00, `0xF0` = 01, `0x42` = 10, `0x00` = 110. -/
def exampleAc : Code := ⟨[0, 3, 1] ++ List.replicate 13 0, [0x01, 0xF0, 0x42, 0x00]⟩
/-- The DC code of T.81 table K.3. -/
def exampleDc : Code := ⟨exampleCounts, exampleValues⟩

theorem exampleAcTable : ∃ t, AcceptedAc ⟨true, false⟩ exampleAc.counts exampleAc.values t := by
  obtain ⟨t, h⟩ := (C06_acceptance_ac ⟨true, false⟩ exampleAc.counts exampleAc.values (by decide)
    (by decide)).2 ⟨by decide, by decide, by unfold KraftOk; decide⟩
  exact ⟨t, by decide, by decide, h⟩

/-- A case of C12: garbage bits and the band 6..=14. -/
example : ∃ dc ac, ∀ p s', decodeBlock ⟨[], 6, 14, 0, 3⟩ dc ac
    ⟨Biterator.new [0x93, 0x5A, 0xFF, 0x00, 0x77, 0x12, 0xFE, 0x01, 0xC4], 0, 0, zeroBlock⟩ ≠
      .fail (.panic p) s' := by
  obtain ⟨dc, hdc⟩ := exampleTable
  obtain ⟨ac, hac⟩ := exampleAcTable
  exact ⟨dc, ac, (C12_block_safe _ _ _ _ _ dc ac hdc hac _ _ (by decide) (by decide) (by decide)
    (by decide) (by unfold IsI16; decide)).1⟩

/-! ## C13 -/

/-- The tables of the decoder are those of the codes. -/
def HasTables (cfg : Cfg) (cd ca : Code) (dc : BaseTable) (ac : AcTable) : Prop :=
  Accepted cfg cd.counts cd.values dc ∧ AcceptedAc cfg ca.counts ca.values ac

/-- **C13.** Whenever the pending bits start with an encoding of a block (any admissible one, in
particular the standard one), decoding returns exactly that block in natural order, its DC value
being the prediction plus the difference, and exactly the bits behind the encoding stay pending. -/
theorem C13_block_inverse (cfg : Cfg) (cd ca : Code) (dc : BaseTable) (ac : AcTable)
    (ht : HasTables cfg cd ca dc ac) (scan : Scan) (hss : scan.ss = 0) (hse : scan.se = 63)
    (hal : scan.al = 0) (diff pred : Int) (zz : List Int) (bits w : List Bool) (t : List UInt8)
    (hb : BlockBits cd ca diff zz bits) (bi : Biterator) (hp : Pending bi (bits ++ w) t) :
    ∃ bi' coeffs, decodeBlock scan dc ac ⟨bi, 0, pred, zeroBlock⟩ =
        .ok () ⟨bi', 0, wrap16 (pred + diff), coeffs⟩ ∧
      BlockIs (wrap16 (pred + diff)) zz coeffs ∧ Pending bi' w t := by
  obtain ⟨bi', coeffs, e, hr, his⟩ := decodeBlock_inv ht.1.ok ht.2.ok hss hse hal hb
    (pending_iff.1 hp) pred
  exact ⟨bi', coeffs, e, his, pending_iff.2 hr⟩

/-- **C13** (standard encoder). The encoder of T.81 figures F.1 and F.2 produces such an encoding
whenever the tables have the codes it needs. -/
theorem C13_standard_encoder (cd ca : Code) (diff : Int) (zz : List Int) (bits : List Bool)
    (hlen : zz.length = 63) (h : encodeBlock cd ca diff zz = some bits) :
    BlockBits cd ca diff zz bits := encodeBlock_bits hlen h

/-- **C13** (completeness of the encoder). It only gives up for lack of a code: with a code for
the DC categories up to 11 and for EOB, ZRL and all (run, category) pairs with categories `1..m`,
every block with a DC difference of at most 11 bits and AC values of at most `m` bits has one
(`m = 10` for 8 bit images). -/
theorem C13_encoder_total (cd ca : Code) (diff : Int) (zz : List Int) (m : Nat) (hm : m ≤ 15)
    (hcd : ∀ c, c ≤ 11 → (cd.find c).isSome) (h00 : (ca.find 0x00).isSome)
    (hF0 : (ca.find 0xF0).isSome)
    (hca : ∀ r c, r ≤ 15 → 1 ≤ c → c ≤ m → (ca.find (16 * r + c)).isSome)
    (hdiff : category diff ≤ 11) (hzz : ∀ x ∈ zz, category x ≤ m) :
    ∃ bits, encodeBlock cd ca diff zz = some bits := by
  have hac : ∀ (l : List Int) (run : Nat), (∀ x ∈ l, category x ≤ m) →
      ∃ bs, encodeAc ca run l = some bs := by
    intro l
    induction l with
    | nil =>
      intro run _
      unfold encodeAc
      split
      · exact ⟨[], rfl⟩
      · exact Option.isSome_iff_exists.1 h00
    | cons v l ih =>
      intro run h
      unfold encodeAc
      split
      · exact ih (run + 1) fun x hx => h x (by simp [hx])
      · rename_i hv0
        rw [if_pos ((h v (by simp)).trans hm)]
        obtain ⟨bs, hbs⟩ := ih 0 fun x hx => h x (by simp [hx])
        have hv := h v (by simp)
        obtain ⟨b, hb⟩ := Option.isSome_iff_exists.1
          (hca (run % 16) (category v) (by omega) (category_pos hv0) hv)
        have hz : ∃ z, (if run < 16 then some [] else ca.find 0xF0) = some z := by
          split
          · exact ⟨[], rfl⟩
          · exact Option.isSome_iff_exists.1 hF0
        obtain ⟨z, hz⟩ := hz
        simp only [hz, hb, hbs, Option.bind_some]
        exact ⟨_, rfl⟩
  obtain ⟨b2, h2⟩ := hac zz 0 hzz
  obtain ⟨b1, h1⟩ := Option.isSome_iff_exists.1 (hcd _ hdiff)
  unfold encodeBlock encodeDc
  rw [if_pos hdiff]
  simp only [h1, h2, Option.map_some, Option.bind_some]
  exact ⟨_, rfl⟩

/-- The block of the example: DC difference -5, then 1, twenty zeros, -3, zeros. -/
def exampleZz : List Int := 1 :: List.replicate 20 0 ++ -3 :: List.replicate 41 0
/-- Its standard encoding: `100 010 | 00 1 | 01 | 10 00 | 110`. -/
def exampleBits : List Bool :=
  [true, false, false, false, true, false, false, false, true, false, true, true, false, false,
    false, true, true, false]

theorem exampleBits_eq : encodeBlock exampleDc exampleAc (-5) exampleZz = some exampleBits := by
  decide +kernel

/-- A case of C13: the encoding above, packed into bytes with padding in front of EOI. -/
example : ∃ dc ac bi' coeffs, decodeBlock ⟨[], 0, 63, 0, 0⟩ dc ac
      ⟨Biterator.new (stuff [0x88, 0xB1, 0x80] ++ [0xFF, 0xD9]), 0, 7, zeroBlock⟩ =
        .ok () ⟨bi', 0, 2, coeffs⟩ ∧ BlockIs 2 exampleZz coeffs := by
  obtain ⟨dc, hdc⟩ := exampleTable
  obtain ⟨ac, hac⟩ := exampleAcTable
  obtain ⟨bi', coeffs, e, h, -⟩ := C13_block_inverse _ exampleDc exampleAc dc ac ⟨hdc, hac⟩
    ⟨[], 0, 63, 0, 0⟩ rfl rfl rfl (-5) 7 exampleZz exampleBits [] [0xFF, 0xD9]
    (C13_standard_encoder _ _ _ _ _ (by decide) exampleBits_eq)
    (Biterator.new (stuff [0x88, 0xB1, 0x80] ++ [0xFF, 0xD9]))
    ⟨by decide, by decide, ⟨0xD9, [], rfl, by decide⟩, [0x88, 0xB1, 0x80], rfl, by decide⟩
  exact ⟨dc, ac, bi', coeffs, e, h⟩

/-! ## C14 -/

theorem wrap16_add (a b : Int) : wrap16 (wrap16 a + b) = wrap16 (a + b) := by
  unfold wrap16; omega

/-- **C14** (accumulation). Decoding `n` blocks of a component whose differences are `diffs`, from
predictor `pred`: the `k`-th block's DC coefficient is `pred` plus the first `k + 1` differences,
in 16 bit arithmetic, and so is the predictor afterwards. -/
theorem C14_dc_accumulates (cfg : Cfg) (cd ca : Code) (dc : BaseTable) (ac : AcTable)
    (ht : HasTables cfg cd ca dc ac) (scan : Scan) (hss : scan.ss = 0) (hse : scan.se = 63)
    (hal : scan.al = 0) (t : List UInt8) (blocks : List (Int × List Int × List Bool))
    (hb : ∀ x ∈ blocks, BlockBits cd ca x.1 x.2.1 x.2.2) (pred : Int) (hpred : IsI16 pred)
    (bi : Biterator) (w : List Bool)
    (hp : Pending bi ((blocks.map (·.2.2)).flatten ++ w) t) (hlen : blocks.length ≤ 10) :
    ∃ bi' done, decodeBlocks scan dc ac blocks.length ⟨bi, 0, pred, []⟩ =
        .ok () ⟨bi', 0, wrap16 (pred + (blocks.map (·.1)).sum), done⟩ ∧
      done.length = blocks.length ∧
      (∀ k b, done[k]? = some b →
        b[0]? = some (wrap16 (pred + ((blocks.map (·.1)).take (k + 1)).sum))) ∧
      Pending bi' w t := by
  have key : ∀ (blocks : List (Int × List Int × List Bool)) (pred : Int), IsI16 pred →
      (∀ x ∈ blocks, BlockBits cd ca x.1 x.2.1 x.2.2) → ∃ bs : List BlockData,
      BlocksBits cd ca pred bs (blocks.map (·.2.2)).flatten
        (wrap16 (pred + (blocks.map (·.1)).sum)) ∧ bs.length = blocks.length ∧
      ∀ k b, bs[k]? = some b → b.dc = wrap16 (pred + ((blocks.map (·.1)).take (k + 1)).sum) := by
    intro blocks
    induction blocks with
    | nil =>
      intro pred hpred _
      refine ⟨[], ?_, rfl, by simp⟩
      have : wrap16 (pred + 0) = pred := by unfold wrap16 IsI16 at *; omega
      simp only [List.map_nil, List.sum_nil, this]
      exact .nil
    | cons x xs ih =>
      intro pred hpred h
      obtain ⟨bs, h1, h2, h3⟩ := ih (wrap16 (pred + x.1))
        (by rw [← wrapI16_eq_wrap16]; exact wrapI16_range _) (fun y hy => h y (by simp [hy]))
      refine ⟨⟨wrap16 (pred + x.1), x.2.1⟩ :: bs, ?_, by simp [h2], ?_⟩
      · rw [wrap16_add] at h1
        have := BlocksBits.cons (b := ⟨wrap16 (pred + x.1), x.2.1⟩) (h x (by simp)) rfl h1
        simpa [add_assoc] using this
      · intro k b hk
        cases k with
        | zero => simp at hk; subst hk; simp
        | succ k =>
          rw [List.getElem?_cons_succ] at hk
          rw [h3 k b hk, wrap16_add, List.map_cons, List.take_succ_cons, List.sum_cons, add_assoc]
  obtain ⟨bs, h1, h2, h3⟩ := key blocks pred hpred hb
  obtain ⟨bi', done, e, hr, hall⟩ := decodeBlocks_inv ht.1.ok ht.2.ok hss hse hal h1 w bi []
    (pending_iff.1 hp) (by simp [MAX_BLOCKS_IN_MCU]; omega)
  rw [h2] at e
  refine ⟨bi', done, e, by rw [← h2, hall.length_eq], ?_, pending_iff.2 hr⟩
  intro k b hk
  have hk' : k < bs.length := by
    rw [hall.length_eq]; exact (List.getElem?_eq_some_iff.1 hk).1
  have hb' := List.getElem?_eq_some_iff.1 hk
  have := List.Forall₂.get hall hk' hb'.1
  simp only [List.get_eq_getElem] at this
  rw [hb'.2] at this
  rw [this.2.1, h3 k bs[k] (List.getElem?_eq_getElem hk')]

/-- A case of C14: three blocks, differences -5, -5, -5 from predictor 7. -/
example : ∃ dc ac bi' done, decodeBlocks ⟨[], 0, 63, 0, 0⟩ dc ac 3
      ⟨Biterator.new (stuff [0x88, 0xB1, 0xA2, 0x2C, 0x68, 0x8B, 0x18] ++ [0xFF, 0xD9]), 0, 7, []⟩ =
        .ok () ⟨bi', 0, -8, done⟩ ∧ done.length = 3 ∧
        ∀ b, done[1]? = some b → b[0]? = some (-3) := by
  obtain ⟨dc, hdc⟩ := exampleTable
  obtain ⟨ac, hac⟩ := exampleAcTable
  obtain ⟨bi', done, e, h1, h2, -⟩ := C14_dc_accumulates _ exampleDc exampleAc dc ac ⟨hdc, hac⟩
    ⟨[], 0, 63, 0, 0⟩ rfl rfl rfl [0xFF, 0xD9]
    (List.replicate 3 (-5, exampleZz, exampleBits))
    (by
      intro x hx
      rw [List.eq_of_mem_replicate hx]
      exact C13_standard_encoder _ _ _ _ _ (by decide) exampleBits_eq) 7 (by unfold IsI16; decide)
    (Biterator.new (stuff [0x88, 0xB1, 0xA2, 0x2C, 0x68, 0x8B, 0x18] ++ [0xFF, 0xD9])) []
    ⟨by decide, by decide, ⟨0xD9, [], rfl, by decide⟩, [0x88, 0xB1, 0xA2, 0x2C, 0x68, 0x8B, 0x18],
      rfl, by decide +kernel⟩ (by decide)
  exact ⟨dc, ac, bi', done, e, h1, fun b hb => h2 1 b hb⟩

end Jpeg
