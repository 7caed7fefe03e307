import Verif.Proofs.BandEncode
import Verif.Props.Block
/-!
# C73: bands, point transform and end-of-band runs
-/

namespace Jpeg
open Spec Biterator

/-- Consecutive blocks decoded with the same scan, tables, bit reader, end-of-band run and predictor. -/
inductive DecodesTo (scan : Scan) (dc : BaseTable) (ac : AcTable) :
    Biterator → Nat → Int → List (List Int) → Biterator → Nat → Int → Prop
  | nil {bi run p} : DecodesTo scan dc ac bi run p [] bi run p
  | cons {bi run p bi1 run1 p1 block blocks bi2 run2 p2} :
      decodeBlock scan dc ac ⟨bi, run, p, zeroBlock⟩ = .ok () ⟨bi1, run1, p1, block⟩ →
      DecodesTo scan dc ac bi1 run1 p1 blocks bi2 run2 p2 →
      DecodesTo scan dc ac bi run p (block :: blocks) bi2 run2 p2

/-- **C73** (one block). For any band but those with a single AC coefficient (see `C73_single_violated`), any point
transform, any end-of-band run and predictor: when the pending bits read as a block of the scan, decoding gives that
block - the coefficients of the band multiplied by `2^al`, in natural order, zeros elsewhere - together with the
predictor and the end-of-band run for the next block, and exactly the bits behind it stay pending. -/
theorem C73_band_block_partial (cfg : Cfg) (cd ca : Code) (dc : BaseTable) (ac : AcTable)
    (ht : HasTables cfg cd ca dc ac) (scan : Scan) (hse : scan.se ≤ 63) (hone : bandLength scan.ss scan.se ≠ 1)
    (p : Int) (run run' : Nat) (b : BlockData) (bits rest : List Bool) (t : List UInt8)
    (h : readBandBlock cd ca scan.ss scan.se p run bits = .value (b, run') rest) (bi : Biterator)
    (hp : Pending bi bits t) :
    ∃ bi' coeffs, decodeBlock scan dc ac ⟨bi, run, p, zeroBlock⟩ = .ok () ⟨bi', run', b.dc, coeffs⟩ ∧
      BandIs scan.ss scan.se scan.al b coeffs ∧ Pending bi' rest t := by
  obtain ⟨bi', coeffs, e, hr, hb⟩ := decodeBlock_band ht.1.ok ht.2.ok (by omega) hone h (pending_iff.1 hp)
  exact ⟨bi', coeffs, e, hb, pending_iff.2 hr⟩

/-- **C73** (refusal). Bits that do not read as a block of the scan are refused, as the end of the input or, for a DC
category above 11, with the error for that. -/
theorem C73_band_refused_partial (cfg : Cfg) (cd ca : Code) (dc : BaseTable) (ac : AcTable)
    (ht : HasTables cfg cd ca dc ac) (scan : Scan) (hse : scan.se ≤ 63) (hone : bandLength scan.ss scan.se ≠ 1)
    (p : Int) (hp16 : IsI16 p) (run : Nat) (hrun : run < 2 ^ 15) (bits : List Bool) (t : List UInt8)
    (h : readBandBlock cd ca scan.ss scan.se p run bits = .invalid) (bi : Biterator) (hp : Pending bi bits t) :
    ∃ s, decodeBlock scan dc ac ⟨bi, run, p, zeroBlock⟩ = .fail .eof s ∨
      (decodeBlock scan dc ac ⟨bi, run, p, zeroBlock⟩ = .fail (.err .dcCategory) s ∧ cd.Big) := by
  obtain ⟨f, s, hf, e⟩ := decodeBlock_band_invalid ht.1.ok ht.2.ok (by omega) hone h (pending_iff.1 hp) zeroBlock
  rcases hf with rfl | ⟨q, rfl⟩ | ⟨rfl, hb⟩
  · exact ⟨s, .inl e⟩
  · exact absurd e ((C12_block_safe cfg _ _ _ _ dc ac ht.1 ht.2 scan ⟨bi, run, p, zeroBlock⟩ hp.1 hp.2.1
      (show zeroBlock.length = 64 by decide) hrun
      hp16).1 q s)
  · exact ⟨s, .inr ⟨e, hb⟩⟩

/-- **C73** (consecutive blocks). End-of-band runs and predictors carry over from block to block as in the standard. -/
theorem C73_band_blocks_partial (cfg : Cfg) (cd ca : Code) (dc : BaseTable) (ac : AcTable)
    (ht : HasTables cfg cd ca dc ac) (scan : Scan) (hse : scan.se ≤ 63) (hone : bandLength scan.ss scan.se ≠ 1)
    (t : List UInt8) (n : Nat) (p q : Int) (run run' : Nat) (bs : List BlockData) (bits rest : List Bool)
    (h : readBandBlocks cd ca scan.ss scan.se n p run bits = .value (bs, q, run') rest) (bi : Biterator)
    (hp : Pending bi bits t) :
    ∃ blocks bi', DecodesTo scan dc ac bi run p blocks bi' run' q ∧
      List.Forall₂ (BandIs scan.ss scan.se scan.al) bs blocks ∧ Pending bi' rest t := by
  induction n generalizing p run bits bs bi with
  | zero =>
    rw [readBandBlocks] at h
    simp only [Reading.value.injEq, Prod.mk.injEq] at h
    obtain ⟨⟨rfl, rfl, rfl⟩, rfl⟩ := h
    exact ⟨[], bi, .nil, .nil, hp⟩
  | succ n ih =>
    rw [readBandBlocks] at h
    replace h := Reading.bind_value.1 h
    obtain ⟨⟨b, run1⟩, m, h1, h⟩ := h
    replace h := Reading.bind_value.1 h
    obtain ⟨⟨bs', q', run2⟩, m2, h2, h⟩ := h
    simp only [Reading.value.injEq, Prod.mk.injEq] at h
    obtain ⟨⟨rfl, rfl, rfl⟩, rfl⟩ := h
    obtain ⟨bi1, block, e1, k1, hp1⟩ :=
      C73_band_block_partial cfg cd ca dc ac ht scan hse hone p run run1 b bits m t h1 bi hp
    obtain ⟨blocks, bi2, e2, k2, hp2⟩ := ih b.dc run1 bs' m h2 bi1 hp1
    exact ⟨block :: blocks, bi2, .cons e1 e2, .cons k1 k2, hp2⟩

/-- **C73** (the encoder of the standard, figures G.3 to G.6). Blocks of an AC band of at least two coefficients, encoded
by it with end-of-band runs over as many blocks as it likes, decode to these blocks. -/
theorem C73_band_encoder_partial (cfg : Cfg) (cd ca : Code) (dc : BaseTable) (ac : AcTable)
    (ht : HasTables cfg cd ca dc ac) (scan : Scan) (hss : 1 ≤ scan.ss) (hlt : scan.ss < scan.se) (hse : scan.se ≤ 63)
    (t : List UInt8) (p : Int) (bs : List (List Int)) (hlen : ∀ b ∈ bs, b.length = scan.se + 1 - scan.ss)
    (bits rest : List Bool) (h : encodeBands ca 0 bs = some bits) (bi : Biterator) (hp : Pending bi (bits ++ rest) t) :
    ∃ blocks bi', DecodesTo scan dc ac bi 0 p blocks bi' 0 p ∧ blocks.length = bs.length ∧
      (∀ (i : Nat) (b block : List Int), bs[i]? = some b → blocks[i]? = some block → block.length = 64 ∧
        ∀ k, k < 64 → block[zigzag k]? =
          if scan.ss ≤ k ∧ k ≤ scan.se then (b[k - scan.ss]?).map fun v => wrap16 (v * 2 ^ scan.al) else some 0) ∧
      Pending bi' rest t := by
  have hbl : bandLength scan.ss scan.se = scan.se + 1 - scan.ss := by unfold bandLength bandStart; omega
  have hbst : bandStart scan.ss = scan.ss := by unfold bandStart; omega
  have hr := (encodeBands_read (cd := cd) ht.2.ok.table.proper (ss := scan.ss) (se := scan.se) (by omega)
    (by omega) p rest bs 0 bits (by decide) (by rwa [hbl]) h).1 rfl
  obtain ⟨blocks, bi', e, hf, hp'⟩ := C73_band_blocks_partial cfg cd ca dc ac ht scan hse (by omega) t _ p p 0 0 _ _ rest hr
    bi hp
  refine ⟨blocks, bi', e, by simpa using hf.length_eq.symm, ?_, hp'⟩
  intro i b block hb hblock
  have hrel := (List.forall₂_iff_get.1 hf).2 i (by
    have := (List.getElem?_eq_some_iff.1 hb).1; simpa using this) (List.getElem?_eq_some_iff.1 hblock).1
  have e1 := (List.getElem?_eq_some_iff.1 hb).2
  have e2 := (List.getElem?_eq_some_iff.1 hblock).2
  simp only [List.get_eq_getElem, List.getElem_map, e1, e2] at hrel
  obtain ⟨h64, h0, hk⟩ := hrel
  refine ⟨h64, fun k hk64 => ?_⟩
  by_cases hk0 : k = 0
  · subst hk0
    rw [if_neg (by omega), zigzag_zero, h0, if_neg (by omega)]
  · rw [hk k (by omega) hk64, hbst]

/-- A small AC code: `0x01` = 00, `0xF0` = 01, `0x42` = 10, `0x10` = 110, `0x00` = 1110. -/
def bandAc : Code := ⟨[0, 3, 1, 1] ++ List.replicate 12 0, [0x01, 0xF0, 0x42, 0x10, 0x00]⟩

theorem bandAcTable : ∃ t, AcceptedAc ⟨true, false⟩ bandAc.counts bandAc.values t := by
  obtain ⟨t, h⟩ := (C06_acceptance_ac ⟨true, false⟩ bandAc.counts bandAc.values (by decide)
    (by decide)).2 ⟨by decide, by decide, by unfold KraftOk; decide⟩
  exact ⟨t, by decide, by decide, h⟩

/-- Four blocks of the band 6..=14; the first has an end-of-band run over the next two. -/
def bandBlocks : List (List Int) :=
  [[1, 0, 0, 0, 0, 0, 0, 0, 0], [0, 0, 0, 0, 0, 0, 0, 0, 0], [0, 0, 0, 0, 0, 0, 0, 0, 0], [0, 0, 0, 0, -3, 0, 0, 0, 0]]

/-- `00 1 | 110 1 | 10 00 | 1110` -/
def bandBits : List Bool :=
  [false, false, true, true, true, false, true, true, false, false, false, true, true, true, false]

theorem bandBits_eq : encodeBands bandAc 0 bandBlocks = some bandBits := by decide +kernel

/-- A case of C73: these blocks, with point transform 3, in front of EOI. -/
example : ∃ dc ac blocks bi', DecodesTo ⟨[], 6, 14, 0, 3⟩ dc ac (Biterator.new (stuff [0x3B, 0x1C] ++ [0xFF, 0xD9])) 0 7
      blocks bi' 0 7 ∧ blocks.length = 4 ∧
    ∀ block, blocks[3]? = some block → block[zigzag 10]? = some (-24) ∧ block[zigzag 11]? = some 0 := by
  obtain ⟨dc, hdc⟩ := exampleTable
  obtain ⟨ac, hac⟩ := bandAcTable
  obtain ⟨blocks, bi', e, hl, hb, -⟩ := C73_band_encoder_partial _ exampleDc bandAc dc ac ⟨hdc, hac⟩
    ⟨[], 6, 14, 0, 3⟩ (by decide) (by decide) (by decide) [0xFF, 0xD9] 7 bandBlocks (by decide) bandBits [] bandBits_eq
    (Biterator.new (stuff [0x3B, 0x1C] ++ [0xFF, 0xD9]))
    ⟨by decide, by decide, ⟨0xD9, [], rfl, by decide⟩, [0x3B, 0x1C], rfl, by decide⟩
  refine ⟨dc, ac, blocks, bi', e, hl, fun block h => ?_⟩
  obtain ⟨-, hk⟩ := hb 3 _ block rfl h
  exact ⟨(hk 10 (by decide)).trans (by decide), (hk 11 (by decide)).trans (by decide)⟩

/-- A case of the refusal: `1111…` is no code word. -/
example : ∃ dc ac s, decodeBlock ⟨[], 6, 14, 0, 3⟩ dc ac
      ⟨Biterator.new (stuff [0xFE, 0xFF, 0x3B] ++ [0xFF, 0xD9]), 0, 0, zeroBlock⟩ = .fail .eof s := by
  obtain ⟨dc, hdc⟩ := exampleTable
  obtain ⟨ac, hac⟩ := bandAcTable
  obtain ⟨s, e | ⟨-, v, hv, h11⟩⟩ := C73_band_refused_partial _ exampleDc bandAc dc ac ⟨hdc, hac⟩ ⟨[], 6, 14, 0, 3⟩
    (by decide) (by decide) 0 (by unfold IsI16; decide) 0 (by decide) (bitsOf [0xFE, 0xFF, 0x3B]) [0xFF, 0xD9]
    (by decide +kernel) (Biterator.new (stuff [0xFE, 0xFF, 0x3B] ++ [0xFF, 0xD9]))
    ⟨by decide, by decide, ⟨0xD9, [], rfl, by decide⟩, [0xFE, 0xFF, 0x3B], rfl, by decide⟩
  · exact ⟨dc, ac, s, e⟩
  · have : ∀ v ∈ exampleDc.values, ¬ 11 < v.toNat := by decide
    exact absurd h11 (this v hv)

/-- **C73 fails for bands of a single AC coefficient** (lib.rs:1111 has `<` where `≤` is needed): whatever the tables and
the data, nothing is read and the block stays as it is. -/
theorem C73_single_skipped (scan : Scan) (dc : BaseTable) (ac : AcTable) (s : BlockSt) (hss : 1 ≤ scan.ss)
    (hse : scan.se = scan.ss) (he : s.eobRun = 0) : decodeBlock scan dc ac s = .ok () s := by
  unfold decodeBlock decodeDc
  rw [if_neg (by omega)]
  simp only [Out.bind_ok]
  rw [if_neg (by omega), if_neg (by omega)]

/-- **C73 fails**: the band 5..=5, the bits of the value 1, and a block without it. -/
theorem C73_single_violated : ∃ (cd ca : Code) (dc : BaseTable) (ac : AcTable) (bi : Biterator) (bits rest : List Bool)
    (t : List UInt8) (b : BlockData),
    HasTables ⟨true, false⟩ cd ca dc ac ∧ Pending bi bits t ∧ readBandBlock cd ca 5 5 0 0 bits = .value (b, 0) rest ∧
    ∀ s, decodeBlock ⟨[], 5, 5, 0, 0⟩ dc ac ⟨bi, 0, 0, zeroBlock⟩ = .ok () s → ¬ BandIs 5 5 0 b s.coeffs := by
  obtain ⟨dc, hdc⟩ := exampleTable
  obtain ⟨ac, hac⟩ := bandAcTable
  refine ⟨exampleDc, bandAc, dc, ac, Biterator.new (stuff [0x3B] ++ [0xFF, 0xD9]), bitsOf [0x3B],
    [true, true, false, true, true], [0xFF, 0xD9], ⟨0, [1]⟩, ⟨hdc, hac⟩,
    ⟨by decide, by decide, ⟨0xD9, [], rfl, by decide⟩, [0x3B], rfl, by decide⟩, by decide +kernel, ?_⟩
  · intro s e hb
    rw [C73_single_skipped _ _ _ _ (by decide) rfl rfl] at e
    injection e with _ e
    subst e
    have := hb.2.2 5 (by decide) (by decide)
    revert this
    decide

end Jpeg
