import Verif.Proofs.Reads
import Mathlib.Data.List.Forall2
import Verif.Model.BitStream
import Verif.Spec.BitStream
/-!
# C79: the bit reader as a stream of booleans
-/

namespace Jpeg
open Spec Biterator

/-- A parser using the stream interface of the reader: `uncons`, `checkpoint`, `reset`. -/
def BitOp.exec : List BitOp → Biterator → List Checkpoint → Out Biterator (List Bool)
  | [], s, _ => .ok [] s
  | .next :: ops, s, marks =>
    s.uncons.bind fun b s => (exec ops s marks).bind fun bs s => .ok (b :: bs) s
  | .mark :: ops, s, marks => exec ops s (s.checkpoint :: marks)
  | .back i :: ops, s, marks =>
    match marks[i]? with
    | none => .fail .unit s
    | some c => exec ops (s.resetTo c) marks

theorem Rep.uncons {s : Biterator} {b : Bool} {v : List Bool} {t : List UInt8}
    (h : Rep A s (b :: v) t) : ∃ s', s.uncons = .ok b s' ∧ Rep A s' v t := by
  obtain ⟨s', e, h'⟩ := h.next (n := 1) (by omega) (by simp) (by omega)
  refine ⟨s', ?_, h'⟩
  unfold Biterator.uncons
  rw [e]
  cases b <;> rfl

theorem exec_rep (ops : List BitOp) : ∀ {s : Biterator} {v : List Bool} {t : List UInt8}
    {marks : List (List Bool)} {cps : List Checkpoint} {bs : List Bool}, Rep A s v t →
    List.Forall₂ (fun c w => ∀ s : Biterator, Rep A (s.resetTo c) w t) cps marks →
    BitOp.run ops v marks = some bs → ∃ s', BitOp.exec ops s cps = .ok bs s' := by
  induction ops with
  | nil =>
    intro s v t marks cps bs h hm hr
    cases hr
    exact ⟨s, rfl⟩
  | cons op ops ih =>
    intro s v t marks cps bs h hm hr
    cases op with
    | next =>
      cases v with
      | nil => cases hr
      | cons b v =>
        simp only [BitOp.run, Option.map_eq_some_iff] at hr
        obtain ⟨bs, hr, rfl⟩ := hr
        obtain ⟨s1, e1, h1⟩ := h.uncons
        obtain ⟨s2, e2⟩ := ih h1 hm hr
        exact ⟨s2, by simp only [BitOp.exec, e1, Out.bind_ok, e2]⟩
    | mark =>
      exact ih h (List.Forall₂.cons (fun _ => h) hm) hr
    | back i =>
      simp only [BitOp.run] at hr
      cases hi : marks[i]? with
      | none => rw [hi] at hr; cases hr
      | some w =>
        rw [hi] at hr
        have hl := hm.length_eq
        obtain ⟨hlt, rfl⟩ := List.getElem?_eq_some_iff.1 hi
        have hlt' : i < cps.length := by omega
        obtain ⟨s', e⟩ := ih (s := s.resetTo cps[i]) (hm.get hlt' hlt s) hm hr
        refine ⟨s', ?_⟩
        simp only [BitOp.exec, List.getElem?_eq_getElem hlt', e]

/-- **C79** (refinement). In front of a marker, whatever a parser does with the reader through its
stream interface, taking single bits, remembering positions and going back to them, it sees the list
of the buffered bits, the bits of the data and eight zero bits. -/
theorem C79_stream_of_bits_partial (s : Biterator) (data t : List UInt8) (ops : List BitOp)
    (bs : List Bool) (hcount : s.count ≤ 64) (hbits : s.bits < 2 ^ 64) (ht : StartsWithMarker t)
    (hinput : s.input = stuff data ++ t)
    (hrun : BitOp.run ops (bitsN s.count s.bits ++ bitsOf data ++ zeros 8) [] = some bs) :
    ∃ s', BitOp.exec ops s [] = .ok bs s' := by
  have hr : Rep False s (bitsN s.count s.bits ++ bitsOf data ++ zeros 8) t := by
    refine ⟨⟨hcount, hbits⟩, by rw [hinput, scanTail_stuff ht], ?_, False.elim⟩
    rw [view, hinput, unstuff_stuff ht]
    exact List.prefix_refl _
  exact exec_rep ops hr List.Forall₂.nil hrun

/-- A case of C79: three bits are read twice, the second time behind a refill. -/
example : ∃ s', BitOp.exec [.next, .mark, .next, .next, .mark, .next, .back 1, .next, .next, .next,
      .next, .next, .next, .next, .next, .back 0, .next]
      (⟨[0xFF, 0x00, 0x2A, 0xFF, 0xD9], 5, 3⟩ : Biterator) [] =
    .ok [true, false, true, true, false, true, true, true, true, true, true, true, true] s' :=
  C79_stream_of_bits_partial ⟨[0xFF, 0x00, 0x2A, 0xFF, 0xD9], 5, 3⟩ [0xFF, 0x2A] [0xFF, 0xD9] _ _
    (by decide) (by decide) ⟨0xD9, [], rfl, by decide⟩ rfl (by decide)

/-- `n` bits one after the other. -/
def unconses : Nat → Biterator → Out Biterator (List Bool)
  | 0, s => .ok [] s
  | n + 1, s => s.uncons.bind fun b s => (unconses n s).bind fun bs s => .ok (b :: bs) s

theorem Rep.unconses {s : Biterator} {t : List UInt8} (n : Nat) {v : List Bool}
    (h : Rep A s v t) (hn : n ≤ v.length) :
    ∃ s', unconses n s = .ok (v.take n) s' ∧ Rep A s' (v.drop n) t := by
  induction n generalizing s v with
  | zero => exact ⟨s, rfl, h⟩
  | succ n ih =>
    cases v with
    | nil => simp at hn
    | cons b v =>
      obtain ⟨s1, e1, h1⟩ := h.uncons
      obtain ⟨s2, e2, h2⟩ := ih h1 (by simpa using hn)
      exact ⟨s2, by simp only [Jpeg.unconses, e1, Out.bind_ok, e2, List.take_succ_cons], h2⟩

/-- **C79** (single bits and groups). `n` single bits are the binary digits of what `next_bits(n)`
returns, and both readers go on with the same bits. -/
theorem C79_groups_partial (s : Biterator) (data t : List UInt8) (n : Nat) (sizes : List Nat)
    (hcount : s.count ≤ 64) (hbits : s.bits < 2 ^ 64) (ht : StartsWithMarker t)
    (hinput : s.input = stuff data ++ t) (h1 : 1 ≤ n) (h16 : n ≤ 16)
    (hs : ∀ n ∈ sizes, 1 ≤ n ∧ n ≤ 16)
    (hsum : n + sizes.sum ≤ s.count + 8 * data.length + 8) :
    ∃ v vs s₁ s₂ s₁' s₂', s.nextBits n = .ok v s₁ ∧ unconses n s = .ok (bitsN n v) s₂ ∧
      reads sizes s₁ = .ok vs s₁' ∧ reads sizes s₂ = .ok vs s₂' := by
  generalize hv : bitsN s.count s.bits ++ bitsOf data ++ zeros 8 = v at *
  have hl : v.length = s.count + 8 * data.length + 8 := by simp [← hv, bitsOf_length]; omega
  have hr : Rep False s v t := by
    refine ⟨⟨hcount, hbits⟩, by rw [hinput, scanTail_stuff ht], ?_, False.elim⟩
    rw [view, hinput, unstuff_stuff ht, ← hv]
    exact List.prefix_refl _
  obtain ⟨s₁, e₁, r₁⟩ := hr.next (n := n) h1 (by omega) (by omega)
  obtain ⟨s₂, e₂, r₂⟩ := hr.unconses n (by omega)
  obtain ⟨s₁', e₁', _⟩ := reads_rep r₁ sizes hs (by simp; omega)
  obtain ⟨s₂', e₂', _⟩ := reads_rep r₂ sizes hs (by simp; omega)
  refine ⟨_, _, s₁, s₂, s₁', s₂', e₁, ?_, e₁', e₂'⟩
  rw [e₂]
  have hlen : (v.take n).length = n := by simp; omega
  have := bitsN_natOfBits (v.take n)
  rw [hlen] at this
  rw [this]

/-- A case of C79 (groups): ten bits across a refill and a stuffed byte. -/
example : ∃ v vs s₁ s₂ s₁' s₂',
    (⟨[0x12, 0xFF, 0x00, 0xFF, 0xD9], 1, 2⟩ : Biterator).nextBits 10 = .ok v s₁ ∧
    unconses 10 ⟨[0x12, 0xFF, 0x00, 0xFF, 0xD9], 1, 2⟩ = .ok (bitsN 10 v) s₂ ∧
    reads [4, 11] s₁ = .ok vs s₁' ∧ reads [4, 11] s₂ = .ok vs s₂' :=
  C79_groups_partial ⟨[0x12, 0xFF, 0x00, 0xFF, 0xD9], 1, 2⟩ [0x12, 0xFF] [0xFF, 0xD9] 10 [4, 11]
    (by decide) (by decide) ⟨0xD9, [], rfl, by decide⟩ rfl (by decide) (by decide) (by decide)
    (by decide)

/-- `n` attempts to take a bit: what each of them returned, `none` for "end of input". -/
def attempts : Nat → Biterator → List (Option Bool)
  | 0, _ => []
  | n + 1, s =>
    match s.uncons with
    | .ok b s => some b :: attempts n s
    | .fail .eof s => none :: attempts n s
    | .fail _ _ => []

theorem attempts_buf {s : Biterator} (hwf : s.WF) : ∀ (n k : Nat), n = s.count →
    attempts (n + k) s = s.buf.map some ++ attempts k ⟨s.input, s.bits, 0⟩ := by
  intro n
  induction n generalizing s with
  | zero =>
    intro k hn
    obtain ⟨input, bits, count⟩ := s
    simp only at hn
    subst hn
    simp [buf, bitsN]
  | succ n ih =>
    intro k hn
    have hb := buf_drop s 1 (by omega)
    have e : s.uncons = .ok (s.bits.testBit n) { s with count := s.count - 1 } := by
      unfold Biterator.uncons nextBits
      rw [if_neg (by omega), Out.bind_ok, peekBits_ok hwf (le_refl 1) (by omega) (by omega)]
      simp only [Out.ofExcept_ok, Out.bind_ok, consumeBits_ok (s := s) (n := 1) (by omega),
        Out.mapErr_ok, buf, ← hn, bitsN, List.take_succ_cons, List.take_zero]
      cases s.bits.testBit n <;> rfl
    have e2 : n + 1 + k = (n + k) + 1 := by omega
    rw [e2]
    have hwf' : ({ s with count := s.count - 1 } : Biterator).WF :=
      ⟨by have := hwf.1; show s.count - 1 ≤ 64; omega, hwf.2⟩
    simp only [attempts, e]
    rw [ih hwf' k (by simp [← hn]), hb]
    simp [buf, ← hn, bitsN]

theorem fillLoop_bytes (cp : Biterator) (l : List UInt8) : ∀ (a : List UInt8) (bits count : Nat),
    count + 8 * a.length ≤ 64 → bits < 2 ^ 64 →
    ∃ bits', fillLoop cp (stuff a ++ l) bits count = fillLoop cp l bits' (count + 8 * a.length) ∧
      bits' < 2 ^ 64 ∧ bitsN (count + 8 * a.length) bits' = bitsN count bits ++ bitsOf a := by
  intro a
  induction a with
  | nil => intro bits count _ hb; exact ⟨bits, by simp [stuff], hb, by simp⟩
  | cons b a ih =>
    intro bits count hc hb
    simp only [List.length_cons] at hc
    have hlt : (((bits <<< 8) % 2 ^ 64) ||| b.toNat) < 2 ^ 64 :=
      Nat.or_lt_two_pow (Nat.mod_lt _ (by positivity)) (lt_of_lt_of_le b.toNat_lt (by decide))
    obtain ⟨bits', e, hb', hv⟩ := ih _ (count + 8) (by omega) hlt
    have e1 : count + 8 * (b :: a).length = count + 8 + 8 * a.length := by simp; omega
    rw [e1]
    refine ⟨bits', ?_, hb', ?_⟩
    · rw [← e]
      by_cases h : b = 0xFF
      · subst h
        rw [fillLoop.eq_def]
        simp [stuff, show ¬ 56 < count by omega]
      · conv_lhs => rw [fillLoop.eq_def]
        simp [stuff, h, show ¬ 56 < count by omega]
    · rw [hv, bitsN_push count bits b.toNat (by omega) b.toNat_lt, bitsOf_cons, List.append_assoc]

theorem fill_full (a : List UInt8) (l : List UInt8) (bits : Nat) (hb : bits < 2 ^ 64)
    (ha : a.length = 8) : ∃ s, (⟨stuff a ++ l, bits, 0⟩ : Biterator).fillBits = .ok () s ∧ s.WF ∧
      s.input = l ∧ s.count = 64 ∧ s.buf = bitsOf a := by
  obtain ⟨bits', e, hb', hv⟩ := fillLoop_bytes ⟨stuff a ++ l, bits, 0⟩ l a bits 0 (by omega) hb
  refine ⟨⟨l, bits', 64⟩, ?_, ⟨le_refl _, hb'⟩, rfl, rfl, ?_⟩
  · unfold fillBits
    simp only
    rw [e, fillLoop.eq_def]
    simp [ha]
  · simpa [buf, ha, bitsN] using hv

theorem fill_short (a : List UInt8) (bits : Nat) (hb : bits < 2 ^ 64) (ha : a.length < 8) :
    ∃ s, (⟨stuff a, bits, 0⟩ : Biterator).fillBits = .fail .unit s ∧ s.WF ∧
      s.input = [] ∧ s.count = 8 * a.length ∧ s.buf = bitsOf a := by
  obtain ⟨bits', e, hb', hv⟩ := fillLoop_bytes ⟨stuff a, bits, 0⟩ [] a bits 0 (by omega) hb
  simp only [List.append_nil, Nat.zero_add] at e hv
  refine ⟨⟨[], bits', 8 * a.length⟩, ?_, ⟨by simp only; omega, hb'⟩, rfl, rfl, ?_⟩
  · unfold fillBits
    simp only
    rw [e, fillLoop.eq_def]
    simp [show ¬ 56 < 8 * a.length by omega]
  · simpa [buf, bitsN] using hv

theorem attempts_fill {s s' : Biterator} (hc : s.count = 0) (h : s.fillBits = .ok () s')
    (h' : 1 ≤ s'.count) (k : Nat) : attempts (k + 1) s = attempts (k + 1) s' := by
  have : s.uncons = s'.uncons := by
    unfold Biterator.uncons nextBits
    rw [if_pos (by omega), if_neg (by omega), h]
  simp only [attempts, this]

theorem attempts_fail {s s' : Biterator} (hc : s.count = 0) (h : s.fillBits = .fail .unit s')
    (k : Nat) : attempts (k + 1) s = none :: attempts k s' := by
  have : s.uncons = .fail .eof s' := by
    unfold Biterator.uncons nextBits
    rw [if_pos (by omega), h]
    rfl
  simp only [attempts, this]

theorem attempts_empty (bits : Nat) : ∀ k, attempts k ⟨[], bits, 0⟩ = List.replicate k none := by
  intro k
  induction k with
  | zero => rfl
  | succ k ih =>
    rw [attempts_fail rfl (s' := ⟨[], bits, 0⟩) (by unfold fillBits; rw [fillLoop.eq_def]; simp),
      ih, List.replicate_succ]

theorem stuff_append (a b : List UInt8) : stuff (a ++ b) = stuff a ++ stuff b := by
  induction a with
  | nil => rfl
  | cons x a ih => simp only [List.cons_append, stuff, ih]; split <;> rfl

theorem attempts_data : ∀ (n : Nat) (data : List UInt8) (bits k : Nat), data.length / 8 = n →
    bits < 2 ^ 64 → attempts (8 * data.length + 1 + k) ⟨stuff data, bits, 0⟩ =
      (bitsOf (data.take (8 * n))).map some ++ [none] ++
      (bitsOf (data.drop (8 * n))).map some ++ List.replicate k none := by
  intro n
  induction n with
  | zero =>
    intro data bits k hn hb
    obtain ⟨s, e, hwf, hi, hc, hv⟩ := fill_short data bits hb (by omega)
    have e1 : 8 * data.length + 1 + k = (s.count + k) + 1 := by omega
    rw [e1, attempts_fail rfl e, attempts_buf hwf s.count k rfl, hv, hi, attempts_empty]
    simp
  | succ n ih =>
    intro data bits k hn hb
    have hl : 8 ≤ data.length := by omega
    have h8 : (data.take 8).length = 8 := by simp; omega
    have hsplit : stuff data = stuff (data.take 8) ++ stuff (data.drop 8) := by
      rw [← stuff_append, List.take_append_drop]
    obtain ⟨s, e, hwf, hi, hc, hv⟩ := fill_full (data.take 8) (stuff (data.drop 8)) bits hb h8
    rw [← hsplit] at e
    have e1 : 8 * data.length + 1 + k = (8 * data.length + k) + 1 := by omega
    rw [e1, attempts_fill rfl e (by omega)]
    have e2 : 8 * data.length + k + 1 = s.count + (8 * (data.drop 8).length + 1 + k) := by
      simp; omega
    rw [e2, attempts_buf hwf s.count _ rfl, hv, hi,
      ih (data.drop 8) s.bits k (by simp; omega) hwf.2, List.drop_drop]
    have e3 : data.take (8 * (n + 1)) = data.take 8 ++ (data.drop 8).take (8 * n) := by
      rw [← List.take_add]; congr 1; omega
    have e4 : 8 + 8 * n = 8 * (n + 1) := by omega
    rw [e3, bitsOf_append, e4]
    simp

/-- **C79** (the end, exactly). Without a marker behind the data: the buffered bits and those of all
full groups of eight data bytes are delivered, then "end of input" is reported, once, then the bits
of the remaining up to seven bytes are delivered, and then "end of input" for ever. -/
theorem C79_end_partial (s : Biterator) (data : List UInt8) (k : Nat) (hcount : s.count ≤ 64)
    (hbits : s.bits < 2 ^ 64) (hinput : s.input = stuff data) :
    attempts (s.count + 8 * data.length + 1 + k) s =
      (bitsN s.count s.bits ++ bitsOf (data.take (8 * (data.length / 8)))).map some ++ [none] ++
      (bitsOf (data.drop (8 * (data.length / 8)))).map some ++ List.replicate k none := by
  have e1 : s.count + 8 * data.length + 1 + k = s.count + (8 * data.length + 1 + k) := by omega
  rw [e1, attempts_buf ⟨hcount, hbits⟩ s.count _ rfl, hinput, attempts_data _ data s.bits k rfl hbits]
  simp [buf]

/-- **C79** (nothing lost). Whoever goes on asking gets every bit of the data once and in order. -/
theorem C79_nothing_lost_partial (s : Biterator) (data : List UInt8) (k : Nat)
    (hcount : s.count ≤ 64) (hbits : s.bits < 2 ^ 64) (hinput : s.input = stuff data) :
    (attempts (s.count + 8 * data.length + 1 + k) s).filterMap id =
      bitsN s.count s.bits ++ bitsOf data := by
  rw [C79_end_partial s data k hcount hbits hinput]
  have h : bitsOf data = bitsOf (data.take (8 * (data.length / 8))) ++
      bitsOf (data.drop (8 * (data.length / 8))) := by rw [← bitsOf_append, List.take_append_drop]
  rw [h]
  simp [List.filterMap_append, List.filterMap_map, Function.comp_def]

/-- **C79 is false at the end of the input.** Whenever the number of data bytes is no multiple of
eight, "end of input" is reported although bits are left, and the very next attempt delivers one of
them. -/
theorem C79_end_violated (s : Biterator) (data : List UInt8) (hcount : s.count ≤ 64)
    (hbits : s.bits < 2 ^ 64) (hinput : s.input = stuff data) (h8 : data.length % 8 ≠ 0) :
    ∃ i b, (attempts (s.count + 8 * data.length + 1) s)[i]? = some none ∧
      (attempts (s.count + 8 * data.length + 1) s)[i + 1]? = some (some b) := by
  have h := C79_end_partial s data 0 hcount hbits hinput
  rw [Nat.add_zero] at h
  rw [h]
  generalize hA : (bitsN s.count s.bits ++ bitsOf (data.take (8 * (data.length / 8)))).map some = A
  have hl : 0 < (bitsOf (data.drop (8 * (data.length / 8)))).length := by
    rw [bitsOf_length, List.length_drop]; omega
  obtain ⟨b, bs, hb⟩ := List.exists_cons_of_length_pos hl
  refine ⟨A.length, b, ?_, ?_⟩
  · simp
  · rw [hb]; simp

/-- A case of C79 (the end): two buffered bits and nine data bytes, one of them stuffed. -/
example : attempts 76 (⟨stuff [1, 2, 3, 0xFF, 5, 6, 7, 8, 0x80], 3, 2⟩ : Biterator) =
    ([true, true] ++ bitsOf [1, 2, 3, 0xFF, 5, 6, 7, 8]).map some ++ [none] ++
      [some true, some false, some false, some false, some false, some false, some false,
        some false] ++ [none] :=
  C79_end_partial ⟨stuff [1, 2, 3, 0xFF, 5, 6, 7, 8, 0x80], 3, 2⟩
    [1, 2, 3, 0xFF, 5, 6, 7, 8, 0x80] 1 (by decide) (by decide) rfl

example : ([1, 2, 3, 0xFF, 5, 6, 7, 8, 0x80] : List UInt8).length % 8 ≠ 0 := by decide

end Jpeg
