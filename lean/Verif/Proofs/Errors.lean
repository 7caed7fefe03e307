import Verif.Spec.Errors
import Verif.Proofs.SegFail
import Verif.Proofs.StreamTables
/-!
# What an error says about the file
-/

namespace Jpeg
open Spec

theorem marker_err {l : List UInt8} {e : ErrKind} (h : marker l = .error (.err e)) :
    e = .markerExpected ∧ ∃ pre c rest, l = pre ++ 0xFF :: c :: rest ∧ c ≠ 0 ∧ c ≠ 0xFF ∧
      ∀ m, MarkerExists m → markerCode m ≠ c.toNat := by
  have he : e = .markerExpected := by
    rcases marker_error_cases h with h | h
    · cases h
    · cases h; rfl
  refine ⟨he, ?_⟩
  by_cases hno : ∀ i c, ¬ MarkerAt l i c
  · rw [C36_no_marker l hno] at h; cases h
  · simp only [not_forall, not_not] at hno
    have hex : ∃ i, ∃ c, MarkerAt l i c := hno
    classical
    obtain ⟨c, hc⟩ := Nat.find_spec hex
    have hmin : ∀ j c', j < Nat.find hex → ¬ MarkerAt l j c' := fun j c' hj hm =>
      Nat.find_min hex hj ⟨c', hm⟩
    obtain ⟨h1, h2, h3, h4⟩ := hc
    refine ⟨l.take (Nat.find hex), c, l.drop (Nat.find hex + 1 + 1), ?_, h3, h4, ?_⟩
    · obtain ⟨hi1, hi1'⟩ := List.getElem?_eq_some_iff.1 h1
      obtain ⟨hi2, hi2'⟩ := List.getElem?_eq_some_iff.1 h2
      conv_lhs => rw [← List.take_append_drop (Nat.find hex) l, List.drop_eq_getElem_cons hi1,
        List.drop_eq_getElem_cons hi2, hi1', hi2']
    · intro m hm hmc
      rw [C36_first_marker l _ c m ⟨h1, h2, h3, h4⟩ hmin hm hmc] at h
      cases h

/-! ## Tables -/

theorem huffmanTable_err {l : List UInt8} {e : ErrKind} (h : huffmanTable l = .error (.err e)) :
    ∃ b more, l = b :: more ∧ ((e = .tableClass ∧ 2 ≤ b.toNat / 16) ∨
      (e = .dhtDestination ∧ b.toNat / 16 ≤ 1 ∧ 4 ≤ b.toNat % 16)) := by
  unfold huffmanTable at h
  cases l with
  | nil => simp [split4Bit, anyByte] at h
  | cons b l =>
    refine ⟨b, l, rfl, ?_⟩
    rw [split4Bit_cons] at h
    simp only at h
    split at h
    · next hc =>
      simp only [Except.error.injEq, Fail.err.injEq] at h
      refine .inl ⟨h.symm, ?_⟩
      unfold TableClass.new at hc
      split at hc
      · cases hc
      · cases hc
      · next h0 h1 => have a : b.toNat / 16 ≠ 0 := h0; have b : b.toNat / 16 ≠ 1 := h1; omega
    · next cls hc =>
      have hc1 : b.toNat / 16 ≤ 1 := by
        unfold TableClass.new at hc
        split at hc <;> first | omega | cases hc
      split at h
      · next hd =>
        simp only [Except.error.injEq, Fail.err.injEq] at h
        unfold MAX_HUFFMAN_TABLES at hd
        exact .inr ⟨h.symm, hc1, by omega⟩
      · split at h
        · rename_i f hf
          simp only [Except.error.injEq] at h
          have := takeBytes_error hf
          rw [h] at this; simp at this
        · split at h
          · rename_i f hf
            simp only [Except.error.injEq] at h
            have := takeBytes_error hf
            rw [h] at this; simp at this
          · simp at h

/-- The two errors about a table that is laid out as it should be. -/
def TableErr (cfg : Cfg) (t : HuffmanDef) (e : ErrKind) : Prop :=
  (e = .badHuffsize ∧ cfg.debug = false ∧ 256 < t.values.length) ∨
    (e = .badHuffCode ∧ ¬ KraftOk (codeSizes t.counts))

theorem baseTable_err {cfg : Cfg} {t : HuffmanDef} (ht : t.Ok) {e : ErrKind}
    (h : BaseTable.new cfg t.counts t.values = .error (.err e)) : TableErr cfg t e := by
  obtain ⟨h1, h2, h3⟩ := ht
  have hv : t.values.length = (codeSizes t.counts).length := by rw [codeSizes_length, h3]
  obtain ⟨c1, c2, c3⟩ := C06_rejection cfg t.counts t.values h2 hv
  by_cases z : (codeSizes t.counts).length = 0
  · rw [c1 z] at h; cases h
  by_cases b : 256 < (codeSizes t.counts).length
  · rw [c2 b] at h
    split at h
    · cases h
    · next hd =>
      cases h
      exact .inl ⟨rfl, by simpa using hd, by omega⟩
  by_cases k : KraftOk (codeSizes t.counts)
  · obtain ⟨t', ht'⟩ := (C06_acceptance cfg t.counts t.values h2 hv).2 ⟨by omega, by omega, k⟩
    rw [ht'] at h; cases h
  · rw [c3 (by omega) (by omega) k] at h
    cases h
    exact .inr ⟨rfl, k⟩

theorem defineHuffman_err {cfg : Cfg} {t : HuffmanDef} (ht : t.Ok) {d d' : Decoder} {e : ErrKind}
    (h : defineHuffman cfg (HuffmanDef.dht t) d = .fail (.err e) d') : TableErr cfg t e := by
  unfold defineHuffman at h
  split at h
  · split at h
    · next f hf =>
      simp only [Out.fail.injEq] at h
      rw [h.1] at hf
      rcases AcTable.new_cases cfg t.counts t.values with ⟨f, e1, e2⟩ | ⟨b, e1, e2⟩
      · rw [show (HuffmanDef.dht t).codeLengths = t.counts from rfl,
          show (HuffmanDef.dht t).values = t.values from rfl, e2] at hf
        simp only [Except.error.injEq] at hf
        exact baseTable_err ht (by rw [e1, hf])
      · rw [show (HuffmanDef.dht t).codeLengths = t.counts from rfl,
          show (HuffmanDef.dht t).values = t.values from rfl, e2] at hf
        cases hf
    · cases h
  · split at h
    · next f hf =>
      simp only [Out.fail.injEq] at h
      rw [h.1] at hf
      exact baseTable_err ht hf
    · cases h

theorem dhtGo_err {cfg : Cfg} {e : ErrKind} {d' : Decoder} : ∀ (fuel : Nat) (l : List UInt8) (d : Decoder),
    dhtGo cfg fuel l d = .fail (.err e) d' → ∃ ts : List HuffmanDef, (∀ t ∈ ts, t.Ok) ∧
      ((∃ b more, l = ts.flatMap HuffmanDef.bytes ++ b :: more ∧ ((e = .tableClass ∧ 2 ≤ b.toNat / 16) ∨
        (e = .dhtDestination ∧ b.toNat / 16 ≤ 1 ∧ 4 ≤ b.toNat % 16))) ∨
      ∃ t more, l = ts.flatMap HuffmanDef.bytes ++ (HuffmanDef.bytes t ++ more) ∧ t.Ok ∧ TableErr cfg t e) := by
  intro fuel
  induction fuel with
  | zero => intro l d h; cases h
  | succ fuel ih =>
    intro l d h
    rw [dhtGo] at h
    split at h
    · cases h
    · cases e1 : huffmanTable l with
      | error f =>
        rw [e1] at h
        simp only [Out.fail.injEq] at h
        rw [h.1] at e1
        obtain ⟨b, more, rfl, hb⟩ := huffmanTable_err e1
        exact ⟨[], by simp, .inl ⟨b, more, rfl, hb⟩⟩
      | ok q =>
        obtain ⟨t, rest⟩ := q
        obtain ⟨def_, hok, rfl, rfl⟩ := huffmanTable_inv e1
        rw [e1] at h
        simp only at h
        cases e2 : defineHuffman cfg (HuffmanDef.dht def_) d with
        | fail f d1 =>
          rw [e2] at h
          simp only [Out.fail.injEq] at h
          rw [h.1] at e2
          exact ⟨[], by simp, .inr ⟨def_, rest, rfl, hok, defineHuffman_err hok e2⟩⟩
        | ok u d1 =>
          rw [e2] at h
          obtain ⟨ts, hts, hr⟩ := ih _ _ h
          refine ⟨def_ :: ts, ?_, ?_⟩
          · intro t ht
            rcases List.mem_cons.1 ht with rfl | ht
            · exact hok
            · exact hts t ht
          · rcases hr with ⟨b, more, rfl, hb⟩ | ⟨t, more, rfl, ht⟩
            · exact .inl ⟨b, more, by simp, hb⟩
            · exact .inr ⟨t, more, by simp, ht⟩

theorem bytesP_error : ∀ (n : Nat) (l : List UInt8) (f : Fail), bytesP n l = .error f → f = .eof := by
  intro n
  induction n with
  | zero => intro l f h; cases h
  | succ n ih =>
    intro l f h
    cases l with
    | nil => simp only [bytesP, anyByte, Except.error.injEq] at h; exact h.symm
    | cons b l =>
      simp only [bytesP, anyByte] at h
      split at h
      · rename_i g e
        cases h
        exact ih l _ e
      · cases h

theorem wordsP_error : ∀ (n : Nat) (l : List UInt8) (f : Fail), wordsP n l = .error f → f = .eof := by
  intro n
  induction n with
  | zero => intro l f h; cases h
  | succ n ih =>
    intro l f h
    rw [wordsP] at h
    split at h
    · rename_i g e
      cases h
      exact beU16_error e
    · split at h
      · rename_i g e
        cases h
        exact ih _ _ e
      · cases h

theorem dqt_err {l : List UInt8} {e : ErrKind} (h : dqt l = .error (.err e)) :
    ∃ b more, l = b :: more ∧ ((e = .dqtPrecision ∧ 2 ≤ b.toNat / 16) ∨
      (e = .dqtDestination ∧ b.toNat / 16 ≤ 1 ∧ 4 ≤ b.toNat % 16)) := by
  unfold dqt at h
  cases l with
  | nil => simp [split4Bit, anyByte] at h
  | cons b l =>
    refine ⟨b, l, rfl, ?_⟩
    rw [split4Bit_cons] at h
    simp only at h
    split at h
    · next hp =>
      simp only [Except.error.injEq, Fail.err.injEq] at h
      exact .inl ⟨h.symm, by omega⟩
    · split at h
      · next hp hd =>
        simp only [Except.error.injEq, Fail.err.injEq] at h
        unfold MAX_QUANTIZATION_TABLES at hd
        exact .inr ⟨h.symm, by omega, by omega⟩
      · split at h
        · rename_i f e1
          simp only [Except.error.injEq] at h
          exfalso
          rw [h] at e1
          split at e1
          · cases bytesP_error _ _ _ e1
          · cases wordsP_error _ _ _ e1
        · simp at h

theorem dqtGo_err {e : ErrKind} {d' : Decoder} : ∀ (fuel : Nat) (l : List UInt8) (d : Decoder),
    dqtGo fuel l d = .fail (.err e) d' → ∃ ts : List QuantDef, (∀ t ∈ ts, t.Ok) ∧
      ∃ b more, l = ts.flatMap QuantDef.bytes ++ b :: more ∧ ((e = .dqtPrecision ∧ 2 ≤ b.toNat / 16) ∨
        (e = .dqtDestination ∧ b.toNat / 16 ≤ 1 ∧ 4 ≤ b.toNat % 16)) := by
  intro fuel
  induction fuel with
  | zero => intro l d h; cases h
  | succ fuel ih =>
    intro l d h
    rw [dqtGo] at h
    split at h
    · cases h
    · cases e1 : dqt l with
      | error f =>
        rw [e1] at h
        simp only [Out.fail.injEq] at h
        rw [h.1] at e1
        obtain ⟨b, more, rfl, hb⟩ := dqt_err e1
        exact ⟨[], by simp, b, more, rfl, hb⟩
      | ok q =>
        obtain ⟨⟨i, tab⟩, rest⟩ := q
        obtain ⟨t, hok, rfl, rfl, rfl⟩ := dqt_inv e1
        obtain ⟨q, eq, hq⟩ := quantizationTable_ok t.values hok.2.1
        rw [e1] at h
        simp only [eq] at h
        obtain ⟨ts, hts, b, more, rfl, hb⟩ := ih _ _ h
        refine ⟨t :: ts, ?_, b, more, by simp, hb⟩
        intro t' ht
        rcases List.mem_cons.1 ht with rfl | ht
        · exact hok
        · exact hts t' ht

/-! ## Headers -/

theorem split4Bit_error {l : List UInt8} {f : Fail} (h : split4Bit l = .error f) : f = .eof := by
  unfold split4Bit at h
  cases l with
  | nil => simp only [anyByte, Except.error.injEq] at h; exact h.symm
  | cons b l => simp [anyByte] at h

theorem anyByte_error {l : List UInt8} {f : Fail} (h : anyByte l = .error f) : f = .eof := by
  cases l with
  | nil => simp only [anyByte, Except.error.injEq] at h; exact h.symm
  | cons b l => simp [anyByte] at h

theorem componentP_results (l : List UInt8) :
    (∃ f, componentP l = .error f ∧ f = .eof) ∨
    (componentP l = .error (.err .samplingFactor) ∧ ∃ id hv more, l = id :: hv :: more ∧ ¬ SamplingOk hv) ∨
    ∃ c a b e rest, l = a :: b :: e :: rest ∧ componentP l = .ok (c, rest) := by
  match l with
  | [] => left; exact ⟨_, rfl, rfl⟩
  | [a] => left; exact ⟨_, rfl, rfl⟩
  | a :: b :: l =>
    unfold componentP
    simp only [anyByte, split4Bit_cons, bind, Except.bind, checkSamplingFactor, pure, Except.pure]
    by_cases h1 : b.toNat / 16 = 0 ∨ b.toNat / 16 > 4
    · right; left
      rw [if_pos h1]
      refine ⟨rfl, a, b, l, rfl, ?_⟩
      unfold SamplingOk; omega
    by_cases h2 : b.toNat % 16 = 0 ∨ b.toNat % 16 > 4
    · right; left
      rw [if_neg h1, if_pos h2]
      refine ⟨rfl, a, b, l, rfl, ?_⟩
      unfold SamplingOk; omega
    rw [if_neg h1, if_neg h2]
    cases l with
    | nil => left; exact ⟨_, rfl, rfl⟩
    | cons e rest => right; right; exact ⟨_, a, b, e, rest, rfl, rfl⟩

theorem componentsP_err {e : ErrKind} : ∀ (n : Nat) (l : List UInt8), componentsP n l = .error (.err e) →
    e = .samplingFactor ∧ ∃ (before : List UInt8) (k : Nat) (id hv : UInt8) (more : List UInt8), l = before ++ id :: hv :: more ∧ before.length = 3 * k ∧ k < n ∧
      ¬ SamplingOk hv := by
  intro n
  induction n with
  | zero => intro l h; cases h
  | succ n ih =>
    intro l h
    rw [componentsP] at h
    simp only [bind, Except.bind, pure, Except.pure] at h
    rcases componentP_results l with ⟨f, h1, rfl⟩ | ⟨h1, id, hv, more, rfl, hb⟩ | ⟨c, x, y, z, rest, rfl, h1⟩
    · rw [h1] at h; cases h
    · rw [h1] at h
      cases h
      exact ⟨rfl, [], 0, id, hv, more, rfl, rfl, by omega, hb⟩
    · rw [h1] at h
      simp only at h
      cases e2 : componentsP n rest with
      | ok q => rw [e2] at h; cases h
      | error f =>
        rw [e2] at h
        simp only [Except.error.injEq] at h
        rw [h] at e2
        obtain ⟨rfl, before, k, id, hv, more, rfl, hl, hk, hb⟩ := ih rest e2
        exact ⟨rfl, x :: y :: z :: before, k + 1, id, hv, more, by simp, by simp [hl]; omega, by omega, hb⟩

theorem fillComponents_err {cfg : Cfg} {a b c d : F32} {mcu : Dim} {e : ErrKind} : ∀ (cs : List Component),
    fillComponents cfg a b c d mcu cs ≠ .error (.err e) := by
  have hmul : ∀ x y, mulU16 cfg x y ≠ .error (.err e) := by
    intro x y h
    unfold mulU16 at h
    split at h
    · cases h
    · split at h <;> cases h
  intro cs
  induction cs with
  | nil => intro h; cases h
  | cons k cs ih =>
    intro h
    rw [fillComponents] at h
    simp only [bind, Except.bind, pure, Except.pure] at h
    cases e1 : fillComponent cfg a b c d mcu k with
    | error f =>
      rw [e1] at h
      simp only [Except.error.injEq] at h
      rw [h] at e1
      unfold fillComponent at e1
      simp only [bind, Except.bind, pure, Except.pure] at e1
      cases e2 : mulU16 cfg mcu.width k.h with
      | error g => rw [e2] at e1; simp only [Except.error.injEq] at e1; rw [e1] at e2; exact hmul _ _ e2
      | ok x =>
        rw [e2] at e1
        simp only at e1
        cases e3 : mulU16 cfg mcu.height k.v with
        | error g => rw [e3] at e1; simp only [Except.error.injEq] at e1; rw [e1] at e3; exact hmul _ _ e3
        | ok y => rw [e3] at e1; cases e1
    | ok x =>
      rw [e1] at h
      simp only at h
      cases e2 : fillComponents cfg a b c d mcu cs with
      | error f => rw [e2] at h; simp only [Except.error.injEq] at h; rw [h] at e2; exact ih e2
      | ok y => rw [e2] at h; cases h

theorem sof_err {cfg : Cfg} {i : Nat} {l : List UInt8} {e : ErrKind} (h : sof cfg i l = .error (.err e)) :
    e = .samplingFactor ∧ ∃ (p : UInt8) (y x : Nat) (n : UInt8) (before : List UInt8) (k : Nat) (id hv : UInt8)
      (more : List UInt8), l = p :: be16 y ++ be16 x ++ n :: (before ++ id :: hv :: more) ∧
        before.length = 3 * k ∧ k < n.toNat ∧ ¬ SamplingOk hv := by
  unfold sof at h
  simp only [bind, Except.bind, pure, Except.pure] at h
  cases l with
  | nil => simp [anyByte] at h
  | cons b l1 =>
    simp only [anyByte] at h
    cases e2 : beU16 l1 with
    | error f => rw [e2] at h; simp only [Except.error.injEq] at h; rw [beU16_error e2] at h; cases h
    | ok q =>
      obtain ⟨y, l2⟩ := q
      obtain ⟨hy, rfl⟩ := beU16_inv e2
      rw [e2] at h
      simp only at h
      cases e3 : beU16 l2 with
      | error f => rw [e3] at h; simp only [Except.error.injEq] at h; rw [beU16_error e3] at h; cases h
      | ok q =>
        obtain ⟨x, l3⟩ := q
        obtain ⟨hx, rfl⟩ := beU16_inv e3
        rw [e3] at h
        simp only at h
        cases l3 with
        | nil => simp at h
        | cons n l4 =>
          simp only at h
          cases e4 : componentsP n.toNat l4 with
          | error f =>
            rw [e4] at h
            simp only [Except.error.injEq] at h
            rw [h] at e4
            obtain ⟨rfl, before, k, id, hv, more, rfl, hl, hk, hb⟩ := componentsP_err _ _ e4
            exact ⟨rfl, b, y, x, n, before, k, id, hv, more, by simp, hl, hk, hb⟩
          | ok q =>
            obtain ⟨cs, rest⟩ := q
            rw [e4] at h
            simp only at h
            exfalso
            cases e5 : buildFrame cfg i b y x cs with
            | ok fr => rw [e5] at h; cases h
            | error f =>
              rw [e5] at h
              simp only [Except.error.injEq] at h
              rw [h] at e5
              unfold buildFrame at e5
              split at e5
              · simp only [bind, Except.bind, pure, Except.pure] at e5
                split at e5
                · rename_i g hg
                  simp only [Except.error.injEq] at e5
                  rw [e5] at hg
                  exact fillComponents_err _ hg
                · cases e5
              · cases e5

theorem appAdobe_err {l : List UInt8} {e : ErrKind} (h : appAdobe l = .error (.err e)) :
    (e = .adobeTag ∧ ∃ tag more, l = tag ++ more ∧ tag.length = 6 ∧ tag ≠ adobeName) ∨
    (e = .adobeTransform ∧ ∃ five b more, l = adobeName ++ (five ++ b :: more) ∧ five.length = 5 ∧ 3 ≤ b.toNat) := by
  unfold appAdobe at h
  cases e1 : takeBytes 6 l with
  | error f => rw [e1] at h; simp only [Except.error.injEq] at h; rw [takeBytes_error e1] at h; cases h
  | ok q =>
    obtain ⟨tag, l1⟩ := q
    rw [e1] at h
    simp only at h
    unfold takeBytes at e1
    split at e1
    · cases e1
    next hl =>
    simp only [Except.ok.injEq, Prod.mk.injEq] at e1
    obtain ⟨rfl, rfl⟩ := e1
    split at h
    · next hne =>
      simp only [Except.error.injEq, Fail.err.injEq] at h
      exact .inl ⟨h.symm, _, _, (List.take_append_drop 6 l).symm, by rw [List.length_take]; omega, hne⟩
    · next heq =>
      simp only [not_not] at heq
      have hl' : l = adobeName ++ l.drop 6 := by
        conv_lhs => rw [← List.take_append_drop 6 l, heq]
        rfl
      cases e2 : takeBytes 5 (l.drop 6) with
      | error f => rw [e2] at h; simp only [Except.error.injEq] at h; rw [takeBytes_error e2] at h; cases h
      | ok q =>
        obtain ⟨five, l2⟩ := q
        rw [e2] at h
        simp only at h
        unfold takeBytes at e2
        split at e2
        · cases e2
        next hl5 =>
        simp only [Except.ok.injEq, Prod.mk.injEq] at e2
        obtain ⟨rfl, e2⟩ := e2
        cases l2 with
        | nil => simp [anyByte] at h
        | cons b more =>
          simp only [anyByte] at h
          split at h
          · cases h
          split at h
          · cases h
          split at h
          · cases h
          next h0 h1 h2 =>
          simp only [Except.error.injEq, Fail.err.injEq] at h
          refine .inr ⟨h.symm, (l.drop 6).take 5, b, more, ?_, by rw [List.length_take]; omega, ?_⟩
          · rw [← e2, List.take_append_drop]; exact hl'
          · have a0 : b.toNat ≠ 0 := fun hb => h0 (UInt8.toNat_inj.1 hb)
            have a1 : b.toNat ≠ 1 := fun hb => h1 (UInt8.toNat_inj.1 hb)
            have a2 : b.toNat ≠ 2 := fun hb => h2 (UInt8.toNat_inj.1 hb)
            omega

end Jpeg
