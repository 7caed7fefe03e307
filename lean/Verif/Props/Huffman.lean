import Verif.Proofs.FastAc
import Verif.Proofs.Reads
/-!
# C04, C06, C07, C08, C09: Huffman tables and the reader they drive
-/

namespace Jpeg
open Spec Biterator

/-- A table obtained from a DHT definition: 16 code counts and as many values as they announce. -/
def Accepted (cfg : Cfg) (counts values : List UInt8) (t : BaseTable) : Prop :=
  counts.length = 16 ∧ values.length = (codeSizes counts).length ∧
    BaseTable.new cfg counts values = .ok t

/-- Likewise for an AC table. -/
def AcceptedAc (cfg : Cfg) (counts values : List UInt8) (t : AcTable) : Prop :=
  counts.length = 16 ∧ values.length = (codeSizes counts).length ∧
    AcTable.new cfg counts values = .ok t

/-- **C06.** With 16 counts and matching values, a table is accepted exactly when it has between 1
and 256 codes and its Kraft sum is at most one. -/
theorem C06_acceptance (cfg : Cfg) (counts values : List UInt8) (hlen : counts.length = 16)
    (hv : values.length = (codeSizes counts).length) :
    (∃ t, BaseTable.new cfg counts values = .ok t) ↔
      1 ≤ (codeSizes counts).length ∧ (codeSizes counts).length ≤ 256 ∧
        KraftOk (codeSizes counts) := by
  constructor
  · rintro ⟨t, h⟩
    have h256 : values.length ≤ 256 := by
      by_contra hgt
      unfold BaseTable.new at h
      split at h
      · simp at h
      · rw [huffsize_eq, if_neg (by omega)] at h
        simp at h
    obtain ⟨c1, c2, c3⟩ := BaseTable.new_cases cfg counts values hlen (by omega) h256
    have hne : codeSizes counts ≠ [] := by
      intro he; rw [c1 he] at h; simp at h
    refine ⟨List.length_pos_iff.2 hne, by omega, ?_⟩
    unfold KraftOk
    by_contra hk
    rw [c2 hne (by omega)] at h
    simp at h
  · rintro ⟨h1, h2, h3⟩
    obtain ⟨t, e, _⟩ := (BaseTable.new_cases cfg counts values hlen (by omega) (by omega)).2.2
      (List.length_pos_iff.1 h1) h3
    exact ⟨t, e⟩

/-- **C06** (rejections). The three ways of being rejected: no code at all panics; more than 256
codes is an error (in a build with debug assertions a panic); a Kraft sum above one is an error. -/
theorem C06_rejection (cfg : Cfg) (counts values : List UInt8) (hlen : counts.length = 16)
    (hv : values.length = (codeSizes counts).length) :
    ((codeSizes counts).length = 0 →
      BaseTable.new cfg counts values = .error (.panic .emptyHuffman)) ∧
    (256 < (codeSizes counts).length → BaseTable.new cfg counts values =
      if cfg.debug then .error (.panic .tooManyValues) else .error (.err .badHuffsize)) ∧
    (1 ≤ (codeSizes counts).length → (codeSizes counts).length ≤ 256 →
      ¬ KraftOk (codeSizes counts) →
      BaseTable.new cfg counts values = .error (.err .badHuffCode)) := by
  refine ⟨fun h => ?_, fun h => ?_, fun h1 h2 h3 => ?_⟩
  · exact (BaseTable.new_cases cfg counts values hlen (by omega) (by omega)).1
      (List.length_eq_zero_iff.1 h)
  · unfold BaseTable.new
    rw [huffsize_eq, if_neg (show ¬ (codeSizes counts).length ≤ 256 by omega)]
    by_cases hd : cfg.debug
    · rw [if_pos ⟨hd, by omega⟩, if_pos hd]
    · rw [if_neg (by simp [hd]), if_neg hd]
  · exact (BaseTable.new_cases cfg counts values hlen (by omega) (by omega)).2.1
      (List.length_pos_iff.1 h1) (by unfold KraftOk at h3; omega)

/-- Luminance DC table of T.81 table K.3, as a running example. -/
def exampleCounts : List UInt8 := [0, 1, 5, 1, 1, 1, 1, 1, 1, 0, 0, 0, 0, 0, 0, 0]
def exampleValues : List UInt8 := [0, 1, 2, 3, 4, 5, 6, 7, 8, 9, 10, 11]

/-- A case of C06, acceptance. -/
example : ∃ t, BaseTable.new ⟨true, false⟩ exampleCounts exampleValues = .ok t :=
  (C06_acceptance ⟨true, false⟩ exampleCounts exampleValues (by decide) (by decide)).2
    ⟨by decide, by decide, by unfold KraftOk; decide⟩

/-- A case of C06, rejection: three codes of length one. -/
example : BaseTable.new ⟨true, false⟩ (3 :: List.replicate 15 0) [1, 2, 3] =
    .error (.err .badHuffCode) :=
  (C06_rejection ⟨true, false⟩ (3 :: List.replicate 15 0) [1, 2, 3] (by decide) (by decide)).2.2
    (by decide) (by decide) (by unfold KraftOk; decide)

theorem Accepted.ok {cfg : Cfg} {counts values : List UInt8} {t : BaseTable}
    (h : Accepted cfg counts values t) : TableOk (codeSizes counts) counts values t := by
  obtain ⟨hlen, hv, he⟩ := h
  obtain ⟨h1, h2, h3⟩ := (C06_acceptance cfg counts values hlen hv).1 ⟨t, he⟩
  obtain ⟨t', e, ht⟩ := (BaseTable.new_cases cfg counts values hlen (by omega) (by omega)).2.2
    (List.length_pos_iff.1 h1) h3
  rw [he] at e; injection e with e; subst e; exact ht

theorem AcceptedAc.ok {cfg : Cfg} {counts values : List UInt8} {t : AcTable}
    (h : AcceptedAc cfg counts values t) : AcTableOk (codeSizes counts) counts values t := by
  obtain ⟨hlen, hv, he⟩ := h
  rcases AcTable.new_cases cfg counts values with ⟨f, e1, e2⟩ | ⟨b, e1, e2⟩
  · rw [e2] at he; simp at he
  · rw [e2] at he; injection he with he; subst he
    exact ⟨Accepted.ok ⟨hlen, hv, e1⟩, rfl⟩

/-- An AC table is accepted exactly when the plain table is. -/
theorem C06_acceptance_ac (cfg : Cfg) (counts values : List UInt8) (hlen : counts.length = 16)
    (hv : values.length = (codeSizes counts).length) :
    (∃ t, AcTable.new cfg counts values = .ok t) ↔
      1 ≤ (codeSizes counts).length ∧ (codeSizes counts).length ≤ 256 ∧
        KraftOk (codeSizes counts) := by
  rw [← C06_acceptance cfg counts values hlen hv]
  rcases AcTable.new_cases cfg counts values with ⟨f, e1, e2⟩ | ⟨b, e1, e2⟩ <;> simp [e1, e2]

/-- **C07** (match). With an accepted table and at least 16 bits in the buffer, if the buffer starts
with the canonical code word of symbol `k` then decoding returns value `k` and takes exactly the
bits of that code word. -/
theorem C07_decode_match (cfg : Cfg) (counts values : List UInt8) (t : BaseTable)
    (hacc : Accepted cfg counts values t) (s : Biterator) (hcount : s.count ≤ 64)
    (hbits : s.bits < 2 ^ 64) (h16 : 16 ≤ s.count) (k : Nat) (hk : k < (codeSizes counts).length)
    (hp : codeWord (codeSizes counts) k <+: bitsN s.count s.bits) :
    ∃ v, values[k]? = some v ∧
      t.decode s = .ok v { s with count := s.count - (codeWord (codeSizes counts) k).length } := by
  have ht := hacc.ok
  have hwf : s.WF := ⟨hcount, hbits⟩
  obtain ⟨v, hv, e⟩ := (decodeInner_hit ht hwf h16).of_prefix ht h16 hk hp
  refine ⟨v, hv, ?_⟩
  have hle := (ht.getRange hk).2
  rw [codeWord_length hk hle]
  unfold BaseTable.decode Biterator.ensure16
  rw [if_neg (by omega), Out.bind_ok, show LUT_BITS = 8 from rfl,
    peekBits_ok hwf (by omega) (by omega) (by omega)]
  simp only [Out.ofExcept_ok, Out.bind_ok]
  rw [e, consumeBits_ok (by omega)]; rfl

/-- **C07** (no match). If no code word is a beginning of the buffer, decoding fails and takes
nothing. -/
theorem C07_decode_nomatch (cfg : Cfg) (counts values : List UInt8) (t : BaseTable)
    (hacc : Accepted cfg counts values t) (s : Biterator) (hcount : s.count ≤ 64)
    (hbits : s.bits < 2 ^ 64) (h16 : 16 ≤ s.count)
    (hp : ∀ k, k < (codeSizes counts).length →
      ¬ codeWord (codeSizes counts) k <+: bitsN s.count s.bits) :
    t.decode s = .fail .unit s := by
  have ht := hacc.ok
  have hwf : s.WF := ⟨hcount, hbits⟩
  have hb : (s.buf.take 16).length = 16 := by simp [buf_length]; omega
  unfold BaseTable.decode Biterator.ensure16
  rw [if_neg (by omega), Out.bind_ok, show LUT_BITS = 8 from rfl,
    peekBits_ok hwf (by omega) (by omega) (by omega)]
  simp only [Out.ofExcept_ok, Out.bind_ok]
  rcases decodeInner_hit ht hwf h16 with ⟨k, v, hk, hv, h1, h2, e⟩ | ⟨_, e⟩
  · exfalso
    apply hp k hk
    exact ((codeWord_prefix_iff ht.sorted ht.range ht.kraft hk _ hb).2 ⟨h1, h2⟩).trans
      (List.take_prefix _ _)
  · exact e

/-- **C07** (prefix code). At most one code word of an accepted table begins any bit string. -/
theorem C07_prefix_free (cfg : Cfg) (counts values : List UInt8) (t : BaseTable)
    (hacc : Accepted cfg counts values t) (b : List Bool) (j k : Nat)
    (hj : j < (codeSizes counts).length) (hk : k < (codeSizes counts).length)
    (h1 : codeWord (codeSizes counts) j <+: b) (h2 : codeWord (codeSizes counts) k <+: b) :
    j = k := by
  have ht := hacc.ok
  -- extend `b` with zeros to 16 bits
  have hext : ∀ i, i < (codeSizes counts).length → codeWord (codeSizes counts) i <+: b →
      codeWord (codeSizes counts) i <+: (b ++ zeros 16).take 16 := by
    intro i hi h
    rw [List.prefix_take_iff]
    exact ⟨h.trans (List.prefix_append _ _), by
      rw [codeWord_length hi (ht.getRange hi).2]; exact (ht.getRange hi).2⟩
  have hl : ((b ++ zeros 16).take 16).length = 16 := by simp
  obtain ⟨a1, a2⟩ := (codeWord_prefix_iff ht.sorted ht.range ht.kraft hj _ hl).1 (hext j hj h1)
  obtain ⟨b1, b2⟩ := (codeWord_prefix_iff ht.sorted ht.range ht.kraft hk _ hl).1 (hext k hk h2)
  exact slot_unique a1 a2 b1 b2

/-- **C07** (on a stream). In front of any data and marker, at any buffer level: if the pending bits
start with the code word of symbol `k`, value `k` is returned and exactly the remaining bits stay
pending. -/
theorem C07_decode_stream (cfg : Cfg) (counts values : List UInt8) (t : BaseTable)
    (hacc : Accepted cfg counts values t) (s : Biterator) (data tail : List UInt8)
    (w : List Bool) (k : Nat) (sizes : List Nat)
    (hcount : s.count ≤ 64) (hbits : s.bits < 2 ^ 64) (htail : StartsWithMarker tail)
    (hinput : s.input = stuff data ++ tail) (hk : k < (codeSizes counts).length)
    (hp : bitsN s.count s.bits ++ bitsOf data = codeWord (codeSizes counts) k ++ w)
    (hs : ∀ n ∈ sizes, 1 ≤ n ∧ n ≤ 16) (hsum : sizes.sum ≤ w.length) :
    ∃ v s', values[k]? = some v ∧ t.decode s = .ok v s' ∧
      ∃ s'', reads sizes s' = .ok (chop sizes w) s'' := by
  have hr : Rep False s (codeWord (codeSizes counts) k ++ w) tail := by
    refine ⟨⟨hcount, hbits⟩, by rw [hinput, scanTail_stuff htail], ?_, False.elim⟩
    rw [view, hinput, unstuff_stuff htail, ← hp]
    exact List.prefix_append _ _
  obtain ⟨v, s', hv, e, hr'⟩ := hr.decode hacc.ok hk
  obtain ⟨s'', e', _⟩ := reads_rep hr' sizes hs hsum
  exact ⟨v, s', hv, e, s'', e'⟩

/-- The example table is accepted. -/
theorem exampleTable : ∃ t, Accepted ⟨true, false⟩ exampleCounts exampleValues t := by
  obtain ⟨t, h⟩ := (C06_acceptance ⟨true, false⟩ exampleCounts exampleValues (by decide)
    (by decide)).2 ⟨by decide, by decide, by unfold KraftOk; decide⟩
  exact ⟨t, by decide, by decide, h⟩

/-- A case of C07: `1110…` is symbol 6 (value 6, four bits); nine ones match nothing. -/
example : ∃ t, Accepted ⟨true, false⟩ exampleCounts exampleValues t ∧
    t.decode ⟨[], 0b1110_0000_0000_0001, 16⟩ = .ok 6 ⟨[], 0b1110_0000_0000_0001, 12⟩ ∧
    t.decode ⟨[], 0xFFFF, 16⟩ = .fail .unit ⟨[], 0xFFFF, 16⟩ := by
  obtain ⟨t, h⟩ := exampleTable
  refine ⟨t, h, ?_, ?_⟩
  · obtain ⟨v, hv, e⟩ := C07_decode_match _ _ _ t h ⟨[], 0b1110_0000_0000_0001, 16⟩ (by decide)
      (by decide) (by decide) 6 (by decide) (by decide)
    have : v = 6 := by
      have h6 : exampleValues[6]? = some 6 := by decide
      rw [h6] at hv; exact (Option.some.inj hv).symm
    rw [e, this]; rfl
  · exact C07_decode_nomatch _ _ _ t h ⟨[], 0xFFFF, 16⟩ (by decide) (by decide) (by decide)
      (by decide)

/-- **C08.** For every accepted table and every buffer of at least 16 bits, decoding through the
lookup table is the same as searching the code lengths from one upwards with no lookup table. -/
theorem C08_lut_irrelevant (cfg : Cfg) (counts values : List UInt8) (t : BaseTable)
    (hacc : Accepted cfg counts values t) (s : Biterator) (hcount : s.count ≤ 64)
    (hbits : s.bits < 2 ^ 64) (h16 : 16 ≤ s.count) :
    t.decode s = searchGo t (natOfBits ((bitsN s.count s.bits).take 16)) 16 0 s := by
  have ht := hacc.ok
  have hwf : s.WF := ⟨hcount, hbits⟩
  unfold BaseTable.decode Biterator.ensure16
  rw [if_neg (by omega), Out.bind_ok, show LUT_BITS = 8 from rfl,
    peekBits_ok hwf (by omega) (by omega) (by omega)]
  simp only [Out.ofExcept_ok, Out.bind_ok]
  exact (decodeInner_hit ht hwf h16).unique (search_from_one ht s _)

/-- A case of C08. -/
example : ∃ t, Accepted ⟨true, false⟩ exampleCounts exampleValues t ∧
    t.decode ⟨[], 0xE001, 16⟩ = searchGo t 0xE001 16 0 ⟨[], 0xE001, 16⟩ := by
  obtain ⟨t, h⟩ := exampleTable
  exact ⟨t, h, C08_lut_irrelevant _ _ _ t h ⟨[], 0xE001, 16⟩ (by decide) (by decide) (by decide)⟩

/-- **C09.** From every valid state on every input, the fast AC decoder either does what Huffman
decoding followed by `receive_extend` of the low nibble does (same value, same run, same remaining
state), or hands out the plain symbol, or fails exactly like the ordinary path. -/
theorem C09_fast_ac_irrelevant (cfg : Cfg) (counts values : List UInt8) (t : AcTable)
    (hacc : AcceptedAc cfg counts values t) (s : Biterator) (hcount : s.count ≤ 64)
    (hbits : s.bits < 2 ^ 64) :
    (∀ v run s2, t.decodeFastAc s = .ok (.fast v run) s2 →
      ∃ b s1, t.table.decode s = .ok b s1 ∧ run = b.toNat / 16 ∧ 1 ≤ b.toNat % 16 ∧
        s1.receiveExtend (b.toNat % 16) = .ok v s2) ∧
    (∀ b s1, t.decodeFastAc s = .ok (.normal b) s1 → t.table.decode s = .ok b s1) ∧
    (∀ f s1, t.decodeFastAc s = .fail f s1 ↔ t.table.decode s = .fail f s1) := by
  have h15 : ∀ b : UInt8, b.toNat &&& 0x0f = b.toNat % 16 := fun b =>
    Nat.and_two_pow_sub_one_eq_mod b.toNat 4
  have h4 : ∀ b : UInt8, b.toNat >>> 4 = b.toNat / 16 := fun b => Nat.shiftRight_eq_div_pow _ _
  rcases decodeFastAc_eq hacc.ok ⟨hcount, hbits⟩ with ⟨b, s1, v, s2, e1, hm, e2, e⟩ | e
  · refine ⟨?_, ?_, ?_⟩
    · intro v' run s2' h
      rw [e] at h; injection h with h hs; injection h with hv hr
      subst hs; subst hv; subst hr
      exact ⟨b, s1, e1, h4 b, by rw [← h15]; exact hm, by rw [← h15]; exact e2⟩
    · intro b' s' h; rw [e] at h; simp at h
    · intro f s'; rw [e, e1]; simp
  · refine ⟨?_, ?_, ?_⟩
    · intro v run s2 h
      rw [e] at h
      cases hd : t.table.decode s with
      | ok b s1 => rw [hd] at h; simp at h
      | fail f s1 => rw [hd] at h; simp at h
    · intro b s1 h
      rw [e] at h
      cases hd : t.table.decode s with
      | ok b' s1' => rw [hd] at h; simp at h; simp [h]
      | fail f s1 => rw [hd] at h; simp at h
    · intro f s1
      rw [e]
      cases hd : t.table.decode s with
      | ok b' s1' => simp
      | fail f s1 => simp

/-- A case of C09: an AC table with the symbols `0x01` (code 0) and `0x12` (code 10); on the bits
`0 1 …` the fast path answers value 1, run 0. -/
example : ∃ t, AcceptedAc ⟨true, false⟩ (1 :: 1 :: List.replicate 14 0) [0x01, 0x12] t ∧
    ∃ b s1, t.table.decode ⟨[], 0x4000, 16⟩ = .ok b s1 ∧ (0 : Nat) = b.toNat / 16 ∧
      1 ≤ b.toNat % 16 ∧ s1.receiveExtend (b.toNat % 16) = .ok 1 ⟨[], 0x4000, 14⟩ := by
  have hacc : AcceptedAc ⟨true, false⟩ (1 :: 1 :: List.replicate 14 0) [0x01, 0x12]
      (match AcTable.new ⟨true, false⟩ (1 :: 1 :: List.replicate 14 0) [0x01, 0x12] with
        | .ok t => t
        | .error _ => ⟨⟨[], [], [], []⟩, []⟩) := ⟨by decide, by decide, by decide +kernel⟩
  exact ⟨_, hacc, (C09_fast_ac_irrelevant _ _ _ _ hacc ⟨[], 0x4000, 16⟩ (by decide)
    (by decide)).1 1 0 ⟨[], 0x4000, 14⟩ (by decide +kernel)⟩

/-! ## C04 -/

/-- The operations the decoder performs on a reader, each with the state it leaves, successful or
not. `skip` stands for everything done to the underlying byte stream by the marker and segment
parsers. -/
inductive Op
  | next (n : Nat)
  | fill
  | huff (cfg : Cfg) (counts values : List UInt8) (t : BaseTable)
  | fastAc (cfg : Cfg) (counts values : List UInt8) (t : AcTable)
  | reset
  | skip (n : Nat)

/-- Requests are for 1 to 16 bits, tables are accepted ones. -/
def Op.Valid : Op → Prop
  | .next n => 1 ≤ n ∧ n ≤ 16
  | .huff cfg counts values t => Accepted cfg counts values t
  | .fastAc cfg counts values t => AcceptedAc cfg counts values t
  | _ => True

/-- Running an operation, forgetting its value. -/
def Op.run (s : Biterator) : Op → Out Biterator Unit
  | .next n => (s.nextBits n).bind fun _ s => .ok () s
  | .fill => s.fillBits
  | .huff _ _ _ t => (t.decode s).bind fun _ s => .ok () s
  | .fastAc _ _ _ t => (t.decodeFastAc s).bind fun _ s => .ok () s
  | .reset => .ok () s.reset
  | .skip n => .ok () { s with input := s.input.drop n }

/-- The reader states reachable from a fresh reader over `input`. -/
inductive Reachable (input : List UInt8) : Biterator → Prop
  | new : Reachable input (Biterator.new input)
  | step {s : Biterator} {op : Op} : Reachable input s → op.Valid →
      Reachable input (op.run s).state

theorem Op.safe {s : Biterator} (hwf : s.WF) {op : Op} (h : op.Valid) : Safe s (op.run s) := by
  cases op with
  | next n => exact (nextBits_safe hwf h.1 (by have := h.2; omega)).bind fun _ _ _ h => Safe.ok h _
  | fill => exact (fillBits_safe hwf).1
  | huff cfg counts values t =>
    exact (BaseTable.decode_safe (Accepted.ok h) hwf).bind fun _ _ _ h => Safe.ok h _
  | fastAc cfg counts values t =>
    exact (decodeFastAc_safe (AcceptedAc.ok h) hwf).bind fun _ _ _ h => Safe.ok h _
  | reset =>
    exact ⟨⟨by simp [Op.run, Out.state, Biterator.reset], by
      simp [Op.run, Out.state, Biterator.reset]⟩, by simp [Op.run], List.suffix_refl _⟩
  | skip n => exact ⟨hwf, by simp [Op.run], List.drop_suffix _ _⟩

/-- **C04.** In every state reachable over any bytes by any sequence of the operations the decoder
performs (failed ones included): at most 64 bits are buffered in a 64 bit word, the next operation
does not panic (no underflow of the bit count, no shift by 64 or more, no index out of range), and
a successful refill leaves at least 57 bits. -/
theorem C04_reader_arithmetic (input : List UInt8) (s : Biterator) (h : Reachable input s) :
    s.count ≤ 64 ∧ s.bits < 2 ^ 64 ∧
    (∀ op : Op, op.Valid → ∀ p s', op.run s ≠ .fail (.panic p) s') ∧
    (∀ s', s.fillBits = .ok () s' → 57 ≤ s'.count) ∧
    s.input <:+ input := by
  have key : s.WF ∧ s.input <:+ input := by
    induction h with
    | new => exact ⟨⟨by simp [Biterator.new], by simp [Biterator.new]⟩, List.suffix_refl _⟩
    | step _ hv ih =>
      have := Op.safe ih.1 hv
      exact ⟨this.wf, this.suffix.trans ih.2⟩
  exact ⟨key.1.1, key.1.2, fun op hv => (Op.safe key.1 hv).noPanic, (fillBits_safe key.1).2.2, key.2⟩

/-- A case of C04: after nine requests a full buffer of 64 bits has been seen and used. -/
example : Reachable [1, 2, 3, 4, 5, 6, 7, 8, 9] ⟨[9], 0x0102030405060708, 64⟩ := by
  have := Reachable.step (op := .fill) (Reachable.new (input := [1, 2, 3, 4, 5, 6, 7, 8, 9])) trivial
  exact this

end Jpeg
