import Verif.Proofs.HuffDecode
/-!
# The fast AC table
-/

namespace Jpeg
open Spec Biterator

theorem natOfBits_take (b : List Bool) (n : Nat) :
    natOfBits (b.take n) = natOfBits b / 2 ^ (b.length - n) := by
  have e : natOfBits b = natOfBits (b.take n) * 2 ^ (b.length - n) + natOfBits (b.drop n) := by
    conv_lhs => rw [← List.take_append_drop n b]
    rw [natOfBits_append]; simp
  have hlt : natOfBits (b.drop n) < 2 ^ (b.length - n) := by
    have := natOfBits_lt (b.drop n); simpa using this
  rw [e, Nat.add_comm, Nat.add_mul_div_right _ _ (by positivity), Nat.div_eq_of_lt hlt, Nat.zero_add]

theorem natOfBits_drop (b : List Bool) (n : Nat) :
    natOfBits (b.drop n) = natOfBits b % 2 ^ (b.length - n) := by
  have e : natOfBits b = natOfBits (b.take n) * 2 ^ (b.length - n) + natOfBits (b.drop n) := by
    conv_lhs => rw [← List.take_append_drop n b]
    rw [natOfBits_append]; simp
  have hlt : natOfBits (b.drop n) < 2 ^ (b.length - n) := by
    have := natOfBits_lt (b.drop n); simpa using this
  rw [e, Nat.add_comm, Nat.add_mul_mod_self_right, Nat.mod_eq_of_lt hlt]

/-- huffman.rs:181-183: the additional bits inside the 8 bit window. -/
theorem unextended_eq (b : List Bool) (hb : b.length = 8) (size mag : Nat) (hm : 1 ≤ mag)
    (hsm : size + mag ≤ 8) :
    (((natOfBits b) <<< size) &&& ((1 <<< 8) - 1)) >>> (8 - mag) =
      natOfBits ((b.drop size).take mag) := by
  rw [natOfBits_take, natOfBits_drop, List.length_drop, hb,
    Nat.one_shiftLeft, Nat.and_two_pow_sub_one_eq_mod, Nat.shiftRight_eq_div_pow, Nat.shiftLeft_eq]
  have e1 : (2 : Nat) ^ 8 = 2 ^ (8 - size) * 2 ^ size := by rw [← pow_add]; congr 1; omega
  have e2 : (2 : Nat) ^ (8 - mag) = 2 ^ (8 - size - mag) * 2 ^ size := by
    rw [← pow_add]; congr 1; omega
  rw [e1, Nat.mul_mod_mul_right, e2, Nat.mul_div_mul_right _ _ (by positivity)]

/-- The shape of an AC table. -/
structure AcTableOk (L : List Nat) (counts : List UInt8) (values : List UInt8) (t : AcTable) :
    Prop where
  table : TableOk L counts values t.table
  acLut : t.acLut = t.table.lut.mapIdx acEntry

theorem runSize_split {r m : Nat} (hm : m < 16) :
    (((r <<< 4) ||| m) >>> 4 = r) ∧ ((r <<< 4) ||| m) &&& 0x0f = m := by
  constructor
  · rw [Nat.shiftRight_or_distrib, Nat.shiftLeft_shiftRight]
    have : m >>> 4 = 0 := by rw [Nat.shiftRight_eq_div_pow]; omega
    simp [this]
  · have h : (0x0f : Nat) = 2 ^ 4 - 1 := rfl
    rw [h, Nat.and_two_pow_sub_one_eq_mod, Nat.or_mod_two_pow, Nat.shiftLeft_eq,
      Nat.mul_mod_left, Nat.zero_or, Nat.mod_eq_of_lt hm]

/-- The fast path against the ordinary path, from a state with at least 16 bits. -/
theorem decodeFastAc_cases {L : List Nat} {counts values : List UInt8} {t : AcTable}
    (ht : AcTableOk L counts values t) {s : Biterator} (hwf : s.WF) (h16 : 16 ≤ s.count) :
    (∃ b s1 v s2, t.table.decodeInner s (natOfBits (s.buf.take 8)) = .ok b s1 ∧
      1 ≤ b.toNat &&& 0x0f ∧ s1.receiveExtend (b.toNat &&& 0x0f) = .ok v s2 ∧
      t.decodeFastAc s = .ok (.fast v (b.toNat >>> 4)) s2) ∨
    t.decodeFastAc s =
      (t.table.decodeInner s (natOfBits (s.buf.take 8))).bind fun b s => .ok (.normal b) s := by
  have hens : s.ensure16 = .ok () s := by
    unfold Biterator.ensure16; rw [if_neg (by omega)]
  obtain ⟨e8, hw⟩ := peek_window h16
  unfold AcTable.decodeFastAc
  rw [hens, Out.bind_ok, show LUT_BITS = 8 from rfl, peekBits_ok hwf (by omega) (by omega) (by omega)]
  simp only [Out.ofExcept_ok, Out.bind_ok]
  set w := natOfBits (s.buf.take 16) with hwdef
  have hfast : ∀ (v : UInt8) (size : Nat), t.table.lut[natOfBits (s.buf.take 8)]? = some (v, size) →
      t.acLut[natOfBits (s.buf.take 8)]? = some (acEntry (natOfBits (s.buf.take 8)) (v, size)) := by
    intro v size h
    rw [ht.acLut, List.getElem?_mapIdx, h]; rfl
  rcases lut_cases ht.table w hw with ⟨k, v, hk, h8, hv, _, _, h5⟩ | ⟨_, h2⟩
  · rw [← e8] at h5
    rw [hfast v _ h5]
    simp only [acEntry]
    have hLk := (ht.table.getRange hk).1
    by_cases hc : v.toNat &&& 0x0f > 0 ∧ L[k] + (v.toNat &&& 0x0f) ≤ LUT_BITS
    · left
      rw [if_pos hc]
      set m := v.toNat &&& 0x0f with hm
      obtain ⟨hm0, hm8⟩ := hc
      rw [show LUT_BITS = 8 from rfl] at hm8
      obtain ⟨r1, r2⟩ := runSize_split (r := v.toNat >>> 4) (m := L[k] + m) (by omega)
      have hne : (v.toNat >>> 4) <<< 4 ||| (L[k] + m) ≠ 0 := by
        intro h; rw [h] at r2; simp at r2; omega
      refine ⟨v, { s with count := s.count - L[k] }, ?_⟩
      refine ⟨extend (natOfBits ((s.buf.drop L[k]).take m)) m,
        { s with count := s.count - L[k] - m }, ?_, ?_, ?_, ?_⟩
      · unfold BaseTable.decodeInner
        rw [h5]
        simp only [if_pos (show L[k] > 0 by omega)]
        rw [consumeBits_ok (by omega)]; rfl
      · omega
      · unfold Biterator.receiveExtend Biterator.nextBits
        have hc1 : ({ s with count := s.count - L[k] } : Biterator).count = s.count - L[k] := rfl
        have hwf1 : ({ s with count := s.count - L[k] } : Biterator).WF :=
          ⟨by have := hwf.1; show s.count - L[k] ≤ 64; omega, hwf.2⟩
        rw [if_neg (by rw [hc1]; omega), Out.bind_ok,
          peekBits_ok hwf1 (by omega) (by rw [hc1]; omega) (by omega)]
        simp only [Out.ofExcept_ok, Out.bind_ok]
        rw [consumeBits_ok (by rw [hc1]; omega), buf_drop s _ (by omega)]
        rfl
      · simp only [r1, r2]
        rw [if_pos hne, consumeBits_ok (by omega), Out.bind_ok]
        have hb8 : (s.buf.take 8).length = 8 := by simp [buf_length]; omega
        have hu := unextended_eq (s.buf.take 8) hb8 L[k] m (by omega) hm8
        have hdt : ((s.buf.take 8).drop L[k]).take m = (s.buf.drop L[k]).take m := by
          rw [List.drop_take, List.take_take]; congr 1; omega
        rw [hdt] at hu
        rw [show LUT_BITS = 8 from rfl, hu, Nat.sub_sub]
    · right
      rw [if_neg hc]
      simp
  · right
    rw [← e8] at h2
    rw [hfast _ _ h2]
    simp [acEntry]

/-- The fast path and the ordinary path agree, from any state. -/
theorem decodeFastAc_eq {L : List Nat} {counts values : List UInt8} {t : AcTable}
    (ht : AcTableOk L counts values t) {s : Biterator} (hwf : s.WF) :
    (∃ b s1 v s2, t.table.decode s = .ok b s1 ∧
      1 ≤ b.toNat &&& 0x0f ∧ s1.receiveExtend (b.toNat &&& 0x0f) = .ok v s2 ∧
      t.decodeFastAc s = .ok (.fast v (b.toNat >>> 4)) s2) ∨
    t.decodeFastAc s = (t.table.decode s).bind fun b s => .ok (.normal b) s := by
  have hs := ensure16_safe hwf
  cases he : s.ensure16 with
  | fail f s1 =>
    right
    simp [AcTable.decodeFastAc, BaseTable.decode, he]
  | ok u s1 =>
    have hwf1 : s1.WF := by have := hs.1.wf; rwa [he] at this
    have h16 := hs.2 s1 he
    have hdec : t.table.decode s = t.table.decodeInner s1 (natOfBits (s1.buf.take 8)) := by
      unfold BaseTable.decode
      rw [he, Out.bind_ok, show LUT_BITS = 8 from rfl,
        peekBits_ok hwf1 (by omega) (by omega) (by omega)]
      rfl
    have hens : s1.ensure16 = .ok () s1 := by
      unfold Biterator.ensure16; rw [if_neg (by omega)]
    have hfast : t.decodeFastAc s = t.decodeFastAc s1 := by
      unfold AcTable.decodeFastAc
      rw [he, hens]
    rw [hdec, hfast]
    exact decodeFastAc_cases ht hwf1 h16

theorem decodeFastAc_safe {L : List Nat} {counts values : List UInt8} {t : AcTable}
    (ht : AcTableOk L counts values t) {s : Biterator} (hwf : s.WF) : Safe s (t.decodeFastAc s) := by
  have hd := BaseTable.decode_safe ht.table hwf
  rcases decodeFastAc_eq ht hwf with ⟨b, s1, v, s2, e1, hm, e2, e⟩ | e
  · rw [e1] at hd
    have h15 : b.toNat &&& 0x0f ≤ 15 := Nat.and_le_right
    have hr : Safe s1 (s1.receiveExtend (b.toNat &&& 0x0f)) := by
      unfold Biterator.receiveExtend
      exact (nextBits_safe hd.wf hm (by omega)).bind fun _ _ _ h => Safe.ok h _
    rw [e2] at hr
    rw [e]
    exact ⟨hr.wf, by simp, hr.suffix.trans hd.suffix⟩
  · rw [e]
    exact hd.bind fun _ _ _ h => Safe.ok h _

theorem AcTable.new_cases (cfg : Cfg) (counts values : List UInt8) :
    (∃ f, BaseTable.new cfg counts values = .error f ∧ AcTable.new cfg counts values = .error f) ∨
    ∃ t, BaseTable.new cfg counts values = .ok t ∧
      AcTable.new cfg counts values = .ok ⟨t, t.lut.mapIdx acEntry⟩ := by
  unfold AcTable.new
  cases h : BaseTable.new cfg counts values with
  | error f => exact Or.inl ⟨f, rfl, rfl⟩
  | ok t => exact Or.inr ⟨t, rfl, rfl⟩

end Jpeg
