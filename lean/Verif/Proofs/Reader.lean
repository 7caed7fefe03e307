import Verif.Proofs.Bits
/-!
# The bit reader refines a list of bits
-/

namespace Jpeg
open Spec

theorem bitsOf_cons (b : UInt8) (l : List UInt8) : bitsOf (b :: l) = bitsN 8 b.toNat ++ bitsOf l := by
  simp [bitsOf]

theorem bitsOf_append (a b : List UInt8) : bitsOf (a ++ b) = bitsOf a ++ bitsOf b := by
  simp [bitsOf]

@[simp] theorem bitsOf_nil : bitsOf [] = [] := rfl

theorem bitsOf_length (l : List UInt8) : (bitsOf l).length = 8 * l.length := by
  induction l with
  | nil => rfl
  | cons b l ih => rw [bitsOf_cons]; simp [ih]; omega

theorem unstuff_cons_ne {b : UInt8} (h : b ≠ 0xFF) (l : List UInt8) :
    unstuff (b :: l) = b :: unstuff l := by
  cases l with
  | nil => simp [unstuff, h]
  | cons z rest => simp [unstuff, h]

theorem scanTail_cons_ne {b : UInt8} (h : b ≠ 0xFF) (l : List UInt8) :
    scanTail (b :: l) = scanTail l := by
  cases l with
  | nil => simp [scanTail]
  | cons z rest => simp [scanTail, h]

@[simp] theorem unstuff_ff0 (l : List UInt8) : unstuff (0xFF :: 0 :: l) = 0xFF :: unstuff l := by
  simp [unstuff]
@[simp] theorem scanTail_ff0 (l : List UInt8) : scanTail (0xFF :: 0 :: l) = scanTail l := by
  simp [scanTail]
theorem unstuff_marker {m : UInt8} (h : m ≠ 0) (l : List UInt8) : unstuff (0xFF :: m :: l) = [] := by
  simp [unstuff, h]
theorem scanTail_marker {m : UInt8} (h : m ≠ 0) (l : List UInt8) :
    scanTail (0xFF :: m :: l) = some (0xFF :: m :: l) := by
  simp [scanTail, h]

theorem unstuff_stuff {t : List UInt8} (ht : StartsWithMarker t) (data : List UInt8) :
    unstuff (stuff data ++ t) = data := by
  obtain ⟨m, rest, rfl, hm⟩ := ht
  induction data with
  | nil => simp [stuff, unstuff, hm]
  | cons b data ih =>
    by_cases hb : b = 0xFF
    · subst hb; simp [stuff, ih]
    · simp only [stuff, hb, if_false, List.cons_append]
      rw [unstuff_cons_ne hb, ih]

theorem scanTail_stuff {t : List UInt8} (ht : StartsWithMarker t) (data : List UInt8) :
    scanTail (stuff data ++ t) = some t := by
  obtain ⟨m, rest, rfl, hm⟩ := ht
  induction data with
  | nil => simp [stuff, scanTail, hm]
  | cons b data ih =>
    by_cases hb : b = 0xFF
    · subst hb; simp [stuff, ih]
    · simp only [stuff, hb, if_false, List.cons_append]
      rw [scanTail_cons_ne hb, ih]

/-- Induction principle following the byte structure of entropy coded data. -/
theorem stuffed_induction {motive : List UInt8 → Prop} (nil : motive [])
    (ffEnd : motive [0xFF])
    (marker : ∀ m rest, m ≠ 0 → motive (0xFF :: m :: rest))
    (stuffed : ∀ rest, motive rest → motive (0xFF :: 0 :: rest))
    (byte : ∀ b rest, b ≠ 0xFF → motive rest → motive (b :: rest)) :
    ∀ l, motive l := by
  intro l
  induction h : l.length using Nat.strong_induction_on generalizing l with
  | _ n ih =>
    match l, h with
    | [], _ => exact nil
    | [b], h =>
      by_cases hb : b = 0xFF
      · subst hb; exact ffEnd
      · exact byte b [] hb nil
    | b :: z :: rest, h =>
      by_cases hb : b = 0xFF
      · subst hb
        by_cases hz : z = 0
        · subst hz
          exact stuffed rest (ih _ (by simp at h ⊢; omega) rest rfl)
        · exact marker z rest hz
      · exact byte b _ hb (ih _ (by simp at h ⊢; omega) _ rfl)

theorem scanTail_suffix {l t : List UInt8} (h : scanTail l = some t) : t <:+ l := by
  induction l using stuffed_induction with
  | nil => simp [scanTail] at h
  | ffEnd => simp [scanTail] at h
  | marker m rest hm => rw [scanTail_marker hm] at h; simp at h; subst h; exact List.suffix_refl _
  | stuffed rest ih =>
    rw [scanTail_ff0] at h
    exact (ih h).trans ⟨[0xFF, 0], rfl⟩
  | byte b rest hb ih =>
    rw [scanTail_cons_ne hb] at h
    exact (ih h).trans (List.suffix_cons _ _)

theorem scanTail_starts {l t : List UInt8} (h : scanTail l = some t) : StartsWithMarker t := by
  induction l using stuffed_induction with
  | nil => simp [scanTail] at h
  | ffEnd => simp [scanTail] at h
  | marker m rest hm =>
    rw [scanTail_marker hm] at h; simp at h; subst h; exact ⟨m, rest, rfl, hm⟩
  | stuffed rest ih => rw [scanTail_ff0] at h; exact ih h
  | byte b rest hb ih => rw [scanTail_cons_ne hb] at h; exact ih h

/-- Dropping bytes in front of the marker does not change where the marker is. -/
theorem scanTail_drop {l t : List UInt8} (h : scanTail l = some t) (j : Nat)
    (hj : j + t.length ≤ l.length) : scanTail (l.drop j) = some t := by
  induction l using stuffed_induction generalizing j with
  | nil => simp [scanTail] at h
  | ffEnd => simp [scanTail] at h
  | marker m rest hm =>
    rw [scanTail_marker hm] at h; simp at h; subst h
    have : j = 0 := by simp at hj; omega
    subst this; simp [scanTail, hm]
  | stuffed rest ih =>
    rw [scanTail_ff0] at h
    match j with
    | 0 => simpa using h
    | 1 =>
      simp only [List.drop_succ_cons, List.drop_zero]
      rw [scanTail_cons_ne (by decide)]; exact h
    | j + 2 =>
      simp only [List.drop_succ_cons]
      exact ih h j (by simp at hj; omega)
  | byte b rest hb ih =>
    rw [scanTail_cons_ne hb] at h
    match j with
    | 0 => simpa [scanTail_cons_ne hb] using h
    | j + 1 =>
      simp only [List.drop_succ_cons]
      exact ih h j (by simp at hj; omega)

/-- The marker parser skips entropy coded data. -/
theorem marker_scanTail {l t : List UInt8} (h : scanTail l = some t) : marker l = marker t := by
  unfold marker
  induction l using stuffed_induction with
  | nil => simp [scanTail] at h
  | ffEnd => simp [scanTail] at h
  | marker m rest hm => rw [scanTail_marker hm] at h; simp at h; subst h; rfl
  | stuffed rest ih =>
    rw [scanTail_ff0] at h
    rw [← ih h]
    simp [markerAux]
  | byte b rest hb ih =>
    rw [scanTail_cons_ne hb] at h
    rw [← ih h]
    have hb' : (b == 0xFF) = false := by simpa using hb
    simp [markerAux, hb']

namespace Biterator

/-- Well-formed reader: 64 bit buffer, at most 64 valid bits. -/
def WF (s : Biterator) : Prop := s.count ≤ 64 ∧ s.bits < 2 ^ 64

/-- The buffered bits. -/
def buf (s : Biterator) : List Bool := bitsN s.count s.bits

/-- All data bits still to come: buffered ones, then those of the input up to the marker. -/
def view (s : Biterator) : List Bool := s.buf ++ bitsOf (unstuff s.input)

theorem buf_length (s : Biterator) : s.buf.length = s.count := by simp [buf]

end Biterator

open Biterator

theorem padZeros_spec (fuel bits count : Nat) (hc : count ≤ 64) (hb : bits < 2 ^ 64)
    (hf : 57 ≤ count + 8 * fuel) :
    ∃ n, (padZeros fuel bits count).2 = count + n ∧ 57 ≤ count + n ∧ count + n ≤ 64 ∧
      (padZeros fuel bits count).1 < 2 ^ 64 ∧
      bitsN (count + n) (padZeros fuel bits count).1 = bitsN count bits ++ zeros n := by
  induction fuel generalizing bits count with
  | zero => exact ⟨0, rfl, by omega, by omega, hb, by simp [padZeros, zeros]⟩
  | succ fuel ih =>
    unfold padZeros
    by_cases h : count ≤ 56
    · rw [if_pos h]
      obtain ⟨n, h1, h2, h3, h4, h5⟩ :=
        ih ((bits <<< 8) % 2 ^ 64) (count + 8) (by omega) (Nat.mod_lt _ (by positivity)) (by omega)
      refine ⟨8 + n, by rw [h1]; omega, by omega, by omega, h4, ?_⟩
      rw [← Nat.add_assoc, h5, bitsN_pushZero _ _ (by omega), zeros_add, List.append_assoc]
    · rw [if_neg h]
      exact ⟨0, rfl, by omega, by omega, hb, by simp [zeros]⟩

/-- The refill loop, from any point of its execution, when a marker follows. -/
theorem fillLoop_spec (cp : Biterator) (t : List UInt8) (input : List UInt8) :
    ∀ (bits count k : Nat) (pre : List UInt8),
    scanTail cp.input = some t → cp.input = pre ++ input → k ≤ pre.length →
    count = cp.count + 8 * k → count ≤ 64 → bits < 2 ^ 64 →
    scanTail input = some t →
    ∃ s', fillLoop cp input bits count = .ok () s' ∧ WF s' ∧ 57 ≤ s'.count ∧
      scanTail s'.input = some t ∧
      (s'.view = bitsN count bits ++ bitsOf (unstuff input) ∨
        ∃ n, 8 ≤ n ∧ s'.buf = bitsN count bits ++ bitsOf (unstuff input) ++ zeros n) := by
  induction input using stuffed_induction with
  | nil => intro _ _ _ _ _ _ _ _ _ _ h; simp [scanTail] at h
  | ffEnd => intro _ _ _ _ _ _ _ _ _ _ h; simp [scanTail] at h
  | marker m rest hm =>
    intro bits count k pre hcp hpre hk hcount h64 hbits ht
    unfold fillLoop
    by_cases h : 56 < count
    · rw [if_pos h]
      exact ⟨_, rfl, ⟨h64, hbits⟩, h, ht, Or.inl rfl⟩
    · rw [if_neg h]
      have hk' : (count + 8 - 8 - cp.count + 7) / 8 = k := by omega
      have hlen : ¬ cp.input.length < k := by rw [hpre]; simp; omega
      have hb : (((bits <<< 8) % 2 ^ 64) ||| (0xFF : UInt8).toNat) < 2 ^ 64 :=
        Nat.or_lt_two_pow (Nat.mod_lt _ (by positivity)) (by decide)
      have hclr := bitsN_clear count bits (0xFF : UInt8).toNat (by omega) (by decide)
      obtain ⟨n, h1, h2, h3, h4, h5⟩ := padZeros_spec 8
        ((((bits <<< 8) % 2 ^ 64) ||| (0xFF : UInt8).toNat) &&& (2 ^ 64 - 1 - 0xFF)) (count + 8)
        (by omega) (lt_of_le_of_lt Nat.and_le_left hb) (by omega)
      simp only [if_true, hm, ne_eq, not_false_eq_true, hk', if_neg hlen]
      refine ⟨_, rfl, ⟨?_, h4⟩, ?_, ?_, Or.inr ⟨8 + n, by omega, ?_⟩⟩
      · simp only [h1]; omega
      · simp only [h1]; omega
      · apply scanTail_drop hcp
        have := (scanTail_suffix ht).length_le
        rw [hpre]; simp at this ⊢; omega
      · simp only [buf, h1, h5, hclr, unstuff_marker hm, zeros_add, bitsOf_nil, List.append_nil,
          List.append_assoc]
  | stuffed rest ih =>
    intro bits count k pre hcp hpre hk hcount h64 hbits ht
    unfold fillLoop
    by_cases h : 56 < count
    · rw [if_pos h]
      exact ⟨_, rfl, ⟨h64, hbits⟩, h, ht, Or.inl rfl⟩
    · rw [if_neg h]
      have hb : (((bits <<< 8) % 2 ^ 64) ||| (0xFF : UInt8).toNat) < 2 ^ 64 :=
        Nat.or_lt_two_pow (Nat.mod_lt _ (by positivity)) (by decide)
      simp only [if_true, ne_eq, not_true_eq_false, if_false]
      obtain ⟨s', e, hwf, h57, htail, hv⟩ := ih (((bits <<< 8) % 2 ^ 64) ||| (0xFF : UInt8).toNat)
        (count + 8) (k + 1) (pre ++ [0xFF, 0]) hcp (by rw [hpre]; simp) (by simp; omega)
        (by omega) (by omega) hb (by simpa using ht)
      refine ⟨s', e, hwf, h57, htail, ?_⟩
      rw [bitsN_push count bits (0xFF : UInt8).toNat (by omega) (by decide)] at hv
      rw [unstuff_ff0, bitsOf_cons]
      simpa [List.append_assoc] using hv
  | byte b rest hb0 ih =>
    intro bits count k pre hcp hpre hk hcount h64 hbits ht
    unfold fillLoop
    by_cases h : 56 < count
    · rw [if_pos h]
      exact ⟨_, rfl, ⟨h64, hbits⟩, h, ht, Or.inl rfl⟩
    · rw [if_neg h]
      have hb : (((bits <<< 8) % 2 ^ 64) ||| b.toNat) < 2 ^ 64 :=
        Nat.or_lt_two_pow (Nat.mod_lt _ (by positivity))
          (lt_of_lt_of_le b.toNat_lt (by decide))
      simp only [hb0, if_false]
      obtain ⟨s', e, hwf, h57, htail, hv⟩ := ih (((bits <<< 8) % 2 ^ 64) ||| b.toNat)
        (count + 8) (k + 1) (pre ++ [b]) hcp (by rw [hpre]; simp) (by simp; omega)
        (by omega) (by omega) hb (by rwa [scanTail_cons_ne hb0] at ht)
      refine ⟨s', e, hwf, h57, htail, ?_⟩
      rw [bitsN_push count bits b.toNat (by omega) b.toNat_lt] at hv
      rw [unstuff_cons_ne hb0, bitsOf_cons]
      simpa [List.append_assoc] using hv

/-- A refill in front of a marker succeeds, keeps the pending bits (possibly adding at least eight
zero bits behind the last data bit) and does not lose the marker. -/
theorem fillBits_spec {s : Biterator} {t : List UInt8} (hwf : s.WF)
    (ht : scanTail s.input = some t) :
    ∃ s', s.fillBits = .ok () s' ∧ s'.WF ∧ 57 ≤ s'.count ∧ scanTail s'.input = some t ∧
      (s'.view = s.view ∨ ∃ n, 8 ≤ n ∧ s'.buf = s.view ++ zeros n) := by
  unfold fillBits
  obtain ⟨s', h⟩ := fillLoop_spec s t s.input s.bits s.count 0 [] ht rfl (by simp) (by simp)
    hwf.1 hwf.2 ht
  exact ⟨s', h⟩

/-! ## Peek, consume, read -/

theorem peekBits_ok {s : Biterator} {n : Nat} (hwf : s.WF) (h1 : 1 ≤ n) (hn : n ≤ s.count)
    (h63 : n ≤ 63) : s.peekBits n = .ok (natOfBits (s.buf.take n)) := by
  have hc := hwf.1
  unfold peekBits
  rw [if_neg (by omega), if_neg (by omega)]
  congr 1
  have e : s.count = n + (s.count - n) := by omega
  have : s.buf.take n = bitsN n (s.bits >>> (s.count - n)) := by
    unfold buf
    conv_lhs => rw [e]
    rw [bitsN_add, List.take_left' (by simp)]
  rw [this, natOfBits_bitsN, Nat.one_shiftLeft, Nat.and_two_pow_sub_one_eq_mod]

theorem consumeBits_ok {s : Biterator} {n : Nat} (hn : n ≤ s.count) :
    s.consumeBits n = .ok () { s with count := s.count - n } := by
  unfold consumeBits; rw [if_neg (by omega)]

theorem buf_drop (s : Biterator) (n : Nat) (hn : n ≤ s.count) :
    ({ s with count := s.count - n } : Biterator).buf = s.buf.drop n := by
  simp only [buf]
  conv_rhs => rw [show s.count = n + (s.count - n) by omega]
  rw [bitsN_add, List.drop_left' (by simp)]

theorem view_drop (s : Biterator) (n : Nat) (hn : n ≤ s.count) :
    ({ s with count := s.count - n } : Biterator).view = s.view.drop n := by
  simp only [view]
  rw [buf_drop s n hn, List.drop_append_of_le_length (by simpa [buf_length] using hn)]

/-- Reader state `s` still has the bits `v` to deliver and the rest `t` of the input behind it. With `A` their
number is, up to whole bytes, that of the buffered bits. -/
structure Rep (A : Prop) (s : Biterator) (v : List Bool) (t : List UInt8) : Prop where
  wf : s.WF
  tail : scanTail s.input = some t
  pre : v <+: s.view ++ zeros 8
  aligned : A → s.count % 8 = v.length % 8

theorem padZeros_aligned (fuel : Nat) : ∀ bits count, (padZeros fuel bits count).2 % 8 = count % 8 := by
  induction fuel with
  | zero => intro bits count; rfl
  | succ fuel ih =>
    intro bits count
    rw [padZeros]
    split
    · rw [ih]; omega
    · rfl

theorem fillLoop_aligned (cp : Biterator) : ∀ (input : List UInt8) (bits count : Nat) (s' : Biterator),
    fillLoop cp input bits count = .ok () s' → s'.count % 8 = count % 8 := by
  intro input
  induction input using stuffed_induction with
  | nil =>
    intro bits count s' h
    unfold fillLoop at h
    split at h <;> cases h; rfl
  | ffEnd =>
    intro bits count s' h
    unfold fillLoop at h
    split at h
    · cases h; rfl
    · simp only [if_true] at h; cases h
  | marker m rest hm =>
    intro bits count s' h
    unfold fillLoop at h
    split at h
    · cases h; rfl
    · simp only [if_true, ne_eq, hm, not_false_eq_true] at h
      split at h
      · cases h
      · cases h
        simp only
        rw [padZeros_aligned]; omega
  | stuffed rest ih =>
    intro bits count s' h
    unfold fillLoop at h
    split at h
    · cases h; rfl
    · simp only [if_true, ne_eq, not_true_eq_false, if_false] at h
      rw [ih _ _ _ h]; omega
  | byte b rest hb ih =>
    intro bits count s' h
    unfold fillLoop at h
    split at h
    · cases h; rfl
    · simp only [if_neg hb] at h
      rw [ih _ _ _ h]; omega

theorem fillBits_aligned {s s' : Biterator} (h : s.fillBits = .ok () s') : s'.count % 8 = s.count % 8 :=
  fillLoop_aligned s _ _ _ _ h

/-- A refill preserves the representation. -/
theorem Rep.fill {s : Biterator} {v : List Bool} {t : List UInt8} (h : Rep A s v t) :
    ∃ s', s.fillBits = .ok () s' ∧ Rep A s' v t ∧ 57 ≤ s'.count := by
  obtain ⟨s', e, hwf, h57, ht, hv⟩ := fillBits_spec h.wf h.tail
  refine ⟨s', e, ⟨hwf, ht, ?_, fun a => (fillBits_aligned e).trans (h.aligned a)⟩, h57⟩
  rcases hv with hv | ⟨n, hn, hb⟩
  · rw [hv]; exact h.pre
  · refine h.pre.trans ?_
    rw [view.eq_1 s', hb]
    obtain ⟨k, rfl⟩ := Nat.exists_eq_add_of_le hn
    rw [zeros_add]
    simp only [List.append_assoc]
    rw [← List.append_assoc]
    exact List.prefix_append _ _

theorem Rep.take_buf {s : Biterator} {v : List Bool} {t : List UInt8} (h : Rep A s v t) {n : Nat}
    (hn : n ≤ v.length) (hc : n ≤ s.count) : s.buf.take n = v.take n := by
  obtain ⟨w, hw⟩ := h.pre
  have : (s.view ++ zeros 8).take n = v.take n := by
    rw [← hw, List.take_append_of_le_length hn]
  rw [← this, view, List.append_assoc, List.take_append_of_le_length (by simpa [buf_length] using hc)]

theorem Rep.consume {s : Biterator} {v : List Bool} {t : List UInt8} (h : Rep A s v t) {n : Nat}
    (hn : n ≤ v.length) (hc : n ≤ s.count) :
    Rep A { s with count := s.count - n } (v.drop n) t := by
  refine ⟨⟨by have := h.wf.1; show s.count - n ≤ 64; omega, h.wf.2⟩, h.tail, ?_, fun a => by
    have := h.aligned a; rw [List.length_drop]; show (s.count - n) % 8 = _; omega⟩
  rw [view_drop s n hc]
  obtain ⟨w, hw⟩ := h.pre
  refine ⟨w, ?_⟩
  rw [← List.drop_append_of_le_length hn, hw, List.drop_append_of_le_length]
  simp [view, buf_length]; omega

theorem Rep.next {s : Biterator} {v : List Bool} {t : List UInt8} (h : Rep A s v t) {n : Nat}
    (h1 : 1 ≤ n) (hn : n ≤ v.length) (h16 : n ≤ 57) :
    ∃ s', s.nextBits n = .ok (natOfBits (v.take n)) s' ∧ Rep A s' (v.drop n) t := by
  unfold nextBits
  obtain ⟨s1, e1, hr, hc⟩ : ∃ s1, (if s.count < n then s.fillBits else .ok () s) = .ok () s1 ∧
      Rep A s1 v t ∧ n ≤ s1.count := by
    by_cases hlt : s.count < n
    · rw [if_pos hlt]
      obtain ⟨s1, e, hr, h57⟩ := h.fill
      exact ⟨s1, e, hr, by omega⟩
    · rw [if_neg hlt]; exact ⟨s, rfl, h, by omega⟩
  rw [e1, Out.bind_ok, peekBits_ok hr.wf h1 hc (by omega)]
  simp only [Out.ofExcept_ok, Out.bind_ok, consumeBits_ok hc, hr.take_buf hn hc]
  exact ⟨_, rfl, hr.consume hn hc⟩

/-- The value of a read in front of a marker, in every state: the pending data bits, then zeros. -/
theorem nextBits_value {s : Biterator} {t : List UInt8} (hwf : s.WF)
    (ht : scanTail s.input = some t) {n : Nat} (h1 : 1 ≤ n) (h57 : n ≤ 57) :
    ∃ s', s.nextBits n = .ok (natOfBits ((s.view ++ zeros n).take n)) s' ∧ s'.WF ∧
      scanTail s'.input = some t ∧
      (s.view ++ zeros 8).drop n <+: s'.view ++ zeros 8 := by
  unfold nextBits
  obtain ⟨s1, e1, hwf1, ht1, hc, hb, hp⟩ : ∃ s1,
      (if s.count < n then s.fillBits else .ok () s) = .ok () s1 ∧ s1.WF ∧
      scanTail s1.input = some t ∧ n ≤ s1.count ∧
      s1.buf.take n = (s.view ++ zeros n).take n ∧ s.view ++ zeros 8 <+: s1.view ++ zeros 8 := by
    by_cases hlt : s.count < n
    · rw [if_pos hlt]
      have hr : Rep False s (s.view ++ zeros 8) t := ⟨hwf, ht, List.prefix_refl _, False.elim⟩
      obtain ⟨s1, e, hr', _⟩ := hr.fill
      obtain ⟨s1', e', hwf1, h57', ht1, hv⟩ := fillBits_spec hwf ht
      rw [e] at e'; injection e' with _ e'; subst e'
      refine ⟨s1, e, hwf1, ht1, by omega, ?_, hr'.pre⟩
      rcases hv with hv | ⟨k, hk, hb⟩
      · rw [← hv, view, List.append_assoc,
          List.take_append_of_le_length (by rw [buf_length]; omega)]
      · rw [hb]
        have hl : s.view.length + k = s1.count := by
          rw [← buf_length s1, hb]; simp
        by_cases hn : n ≤ k
        · obtain ⟨j, rfl⟩ := Nat.exists_eq_add_of_le hn
          rw [zeros_add, ← List.append_assoc, List.take_append_of_le_length (by simp)]
        · obtain ⟨j, rfl⟩ := Nat.exists_eq_add_of_le (show k ≤ n by omega)
          rw [zeros_add, ← List.append_assoc,
            List.take_append_of_le_length (l₂ := zeros j) (by simp; omega)]
    · rw [if_neg hlt]
      refine ⟨s, rfl, hwf, ht, by omega, ?_, List.prefix_refl _⟩
      rw [view, List.append_assoc, List.take_append_of_le_length (by rw [buf_length]; omega)]
  rw [e1, Out.bind_ok, peekBits_ok hwf1 h1 hc (by omega)]
  simp only [Out.ofExcept_ok, Out.bind_ok, consumeBits_ok hc, hb]
  refine ⟨_, rfl, ⟨by have := hwf1.1; show s1.count - n ≤ 64; omega, hwf1.2⟩, ht1, ?_⟩
  rw [view_drop s1 n hc]
  obtain ⟨w, hw⟩ := hp
  by_cases hn : n ≤ (s.view ++ zeros 8).length
  · refine ⟨w, ?_⟩
    rw [← List.drop_append_of_le_length hn, hw, List.drop_append_of_le_length]
    simp [view, buf_length]; omega
  · rw [List.drop_eq_nil_of_le (by omega)]
    exact List.nil_prefix

/-- What is left after a read, for the next `k` bits: no limit on how far past the data it goes. -/
theorem nextBits_rest {s s' : Biterator} {t : List UInt8} (hwf : s.WF)
    (ht : scanTail s.input = some t) {n k v : Nat} (h1 : 1 ≤ n) (hnk : n + k ≤ 57)
    (e : s.nextBits n = .ok v s') :
    (s'.view ++ zeros k).take k = ((s.view ++ zeros (n + k)).drop n).take k := by
  have fin : ∀ s1 : Biterator, s1.WF → n ≤ s1.count →
      ((Out.ofExcept (s1.peekBits n) s1).bind fun v s =>
          (s.consumeBits n).bind fun _ s => .ok v s) = .ok v s' →
      s' = { s1 with count := s1.count - n } := by
    intro s1 hwf1 hc e
    rw [peekBits_ok hwf1 h1 hc (by omega)] at e
    simp only [Out.ofExcept_ok, Out.bind_ok, consumeBits_ok hc] at e
    injection e with _ e
    exact e.symm
  have same : ∀ s1 : Biterator, n ≤ s1.count →
      ((({ s1 with count := s1.count - n } : Biterator).view ++ zeros k).take k) =
        ((s1.view ++ zeros (n + k)).drop n).take k := by
    intro s1 hc
    have hl : n ≤ s1.view.length := by simp [view, buf_length]; omega
    rw [view_drop s1 n hc, List.drop_append_of_le_length hl, List.take_append, List.take_append]
    congr 1
    simp only [zeros, List.take_replicate]
    congr 1; omega
  unfold nextBits at e
  by_cases hlt : s.count < n
  · rw [if_pos hlt] at e
    obtain ⟨s1, e1, hwf1, h57, ht1, hv⟩ := fillBits_spec hwf ht
    rw [e1, Out.bind_ok] at e
    rw [fin s1 hwf1 (by omega) e]
    rcases hv with hv | ⟨m, hm, hb⟩
    · rw [same s1 (by omega), hv]
    · have hlen : s1.buf.length = s1.count := buf_length s1
      rw [view_drop s1 n (by omega), view, List.drop_append_of_le_length (by omega),
        List.append_assoc, List.take_append_of_le_length (by simp; omega), hb]
      have hl : s.view.length + m = s1.count := by rw [← hlen, hb]; simp
      rw [List.take_drop, List.take_drop]
      congr 1
      rw [List.take_append, List.take_append]
      congr 1
      simp only [zeros, List.take_replicate]
      congr 1; omega
  · rw [if_neg hlt, Out.bind_ok] at e
    rw [fin s hwf (by omega) e, same s (by omega)]

/-! ## Any input at all -/

/-- What any operation of the reader guarantees: the state stays well-formed, whatever happens, no
panic occurs and bytes are only ever taken from the front. -/
structure Safe {α : Type} (s : Biterator) (o : Out Biterator α) : Prop where
  wf : o.state.WF
  noPanic : ∀ p s', o ≠ .fail (.panic p) s'
  suffix : o.state.input <:+ s.input

theorem fillLoop_safe (cp : Biterator) (input : List UInt8) :
    ∀ (bits count : Nat), cp.count ≤ count → input <:+ cp.input → count ≤ 64 → bits < 2 ^ 64 →
    (fillLoop cp input bits count).state.WF ∧
    (∀ f s', fillLoop cp input bits count = .fail f s' → f = .unit) ∧
    (fillLoop cp input bits count).state.input <:+ cp.input ∧
    (∀ s', fillLoop cp input bits count = .ok () s' → 57 ≤ s'.count) := by
  have pushB : ∀ (bits : Nat) (b : UInt8), (((bits <<< 8) % 2 ^ 64) ||| b.toNat) < 2 ^ 64 :=
    fun bits b => Nat.or_lt_two_pow (Nat.mod_lt _ (by positivity))
      (lt_of_lt_of_le b.toNat_lt (by decide))
  induction input using stuffed_induction with
  | nil =>
    intro bits count _ hs h64 hb
    unfold fillLoop
    by_cases h : 56 < count
    · simp only [if_pos h]
      exact ⟨⟨h64, hb⟩, by simp, hs, by simp; omega⟩
    · simp only [if_neg h]
      exact ⟨⟨h64, hb⟩, by simp, hs, by simp⟩
  | ffEnd =>
    intro bits count _ hs h64 hb
    unfold fillLoop
    by_cases h : 56 < count
    · simp only [if_pos h]
      exact ⟨⟨h64, hb⟩, by simp, hs, by simp; omega⟩
    · simp only [if_neg h, if_true]
      exact ⟨⟨by simp only [Out.state]; omega, pushB _ _⟩, by simp, List.nil_suffix, by simp⟩
  | marker m rest hm =>
    intro bits count _ hs h64 hb
    unfold fillLoop
    by_cases h : 56 < count
    · simp only [if_pos h]
      exact ⟨⟨h64, hb⟩, by simp, hs, by simp; omega⟩
    · simp only [if_neg h, if_true, ne_eq, hm, not_false_eq_true]
      split
      · exact ⟨⟨by simp only [Out.state]; omega, pushB _ _⟩, by simp, List.nil_suffix, by simp⟩
      · obtain ⟨n, h1, h2, h3, h4, h5⟩ := padZeros_spec 8
          ((((bits <<< 8) % 2 ^ 64) ||| (0xFF : UInt8).toNat) &&& (2 ^ 64 - 1 - 0xFF)) (count + 8)
          (by omega) (lt_of_le_of_lt Nat.and_le_left (pushB _ _)) (by omega)
        refine ⟨⟨?_, h4⟩, by simp, List.drop_suffix _ _, ?_⟩
        · simp only [Out.state, h1]; omega
        · rintro s' e
          injection e with _ e
          subst e
          simp only [h1]; omega
  | stuffed rest ih =>
    intro bits count hc hs h64 hb
    unfold fillLoop
    by_cases h : 56 < count
    · simp only [if_pos h]
      exact ⟨⟨h64, hb⟩, by simp, hs, by simp; omega⟩
    · simp only [if_neg h, if_true, ne_eq, not_true_eq_false, if_false]
      exact ih _ _ (by omega) (List.IsSuffix.trans ⟨[0xFF, 0], rfl⟩ hs)
        (by omega) (pushB _ _)
  | byte b rest hb0 ih =>
    intro bits count hc hs h64 hb
    unfold fillLoop
    by_cases h : 56 < count
    · simp only [if_pos h]
      exact ⟨⟨h64, hb⟩, by simp, hs, by simp; omega⟩
    · simp only [if_neg h, hb0, if_false]
      exact ih _ _ (by omega) ((List.suffix_cons _ _).trans hs) (by omega) (pushB _ _)

theorem fillBits_safe {s : Biterator} (hwf : s.WF) :
    Safe s s.fillBits ∧ (∀ f s', s.fillBits = .fail f s' → f = .unit) ∧
      ∀ s', s.fillBits = .ok () s' → 57 ≤ s'.count := by
  obtain ⟨h1, h2, h3, h4⟩ := fillLoop_safe s s.input s.bits s.count (le_refl _)
    (List.suffix_refl _) hwf.1 hwf.2
  exact ⟨⟨h1, fun p s' e => by simpa using h2 _ _ e, h3⟩, h2, h4⟩

theorem Safe.bind {α β : Type} {s : Biterator} {o : Out Biterator α}
    {k : α → Biterator → Out Biterator β} (h : Safe s o)
    (hk : ∀ a s', o = .ok a s' → s'.WF → Safe s' (k a s')) : Safe s (o.bind k) := by
  cases o with
  | ok a s' =>
    have := hk a s' rfl h.wf
    exact ⟨this.wf, this.noPanic, this.suffix.trans h.suffix⟩
  | fail f s' => exact ⟨h.wf, fun p s'' e => h.noPanic p s'' (by simpa using e), h.suffix⟩

theorem Safe.ok {α : Type} {s : Biterator} (h : s.WF) (a : α) : Safe s (.ok a s) :=
  ⟨h, by simp, List.suffix_refl _⟩

theorem Safe.unit {α : Type} {s : Biterator} (h : s.WF) : Safe (α := α) s (.fail .unit s) :=
  ⟨h, by simp, List.suffix_refl _⟩

theorem consumeBits_safe {s : Biterator} (hwf : s.WF) {n : Nat} (hn : n ≤ s.count) :
    Safe s (s.consumeBits n) := by
  rw [consumeBits_ok hn]
  exact ⟨⟨by have := hwf.1; show s.count - n ≤ 64; omega, hwf.2⟩, by simp, List.suffix_refl _⟩

theorem peekBits_safe {s : Biterator} (hwf : s.WF) {n : Nat} (h1 : 1 ≤ n) (h63 : n ≤ 63)
    (hn : n ≤ s.count) : Safe s (Out.ofExcept (s.peekBits n) s) := by
  rw [peekBits_ok hwf h1 hn h63]
  exact Safe.ok hwf _

theorem nextBits_safe {s : Biterator} (hwf : s.WF) {n : Nat} (h1 : 1 ≤ n) (h57 : n ≤ 57) :
    Safe s (s.nextBits n) := by
  unfold nextBits
  by_cases h : s.count < n
  · rw [if_pos h]
    refine (fillBits_safe hwf).1.bind fun _ s1 e1 hwf1 => ?_
    have hc := (fillBits_safe hwf).2.2 s1 e1
    refine (peekBits_safe hwf1 h1 (by omega) (by omega)).bind fun v s2 e2 hwf2 => ?_
    rw [peekBits_ok hwf1 h1 (by omega) (by omega)] at e2
    injection e2 with e2a e2b; subst e2b
    refine (consumeBits_safe hwf2 (by omega)).bind fun _ s3 _ hwf3 => Safe.ok hwf3 _
  · rw [if_neg h, Out.bind_ok]
    refine (peekBits_safe hwf h1 (by omega) (by omega)).bind fun v s2 e2 hwf2 => ?_
    rw [peekBits_ok hwf h1 (by omega) (by omega)] at e2
    injection e2 with e2a e2b; subst e2b
    refine (consumeBits_safe hwf2 (by omega)).bind fun _ s3 _ hwf3 => Safe.ok hwf3 _

/-! ## The bytes behind the marker do not matter -/

/-- Two readers at the same place of the same entropy coded data, with different bytes from the
marker on. -/
def SameData (s₁ s₂ : Biterator) (t₁ t₂ : List UInt8) : Prop :=
  ∃ x, s₁ = ⟨x ++ t₁, s₁.bits, s₁.count⟩ ∧ s₂ = ⟨x ++ t₂, s₁.bits, s₁.count⟩ ∧
    scanTail (x ++ t₁) = some t₁ ∧ scanTail (x ++ t₂) = some t₂

theorem fillLoop_tail (cp₁ cp₂ : Biterator) (t₁ t₂ x : List UInt8) :
    ∀ (bits count k : Nat) (y : List UInt8),
    cp₁.input = y ++ x ++ t₁ → cp₂.input = y ++ x ++ t₂ → cp₁.count = cp₂.count →
    scanTail cp₁.input = some t₁ → scanTail cp₂.input = some t₂ →
    k ≤ y.length → count = cp₁.count + 8 * k →
    scanTail (x ++ t₁) = some t₁ → scanTail (x ++ t₂) = some t₂ →
    ∃ s₁ s₂, fillLoop cp₁ (x ++ t₁) bits count = .ok () s₁ ∧
      fillLoop cp₂ (x ++ t₂) bits count = .ok () s₂ ∧ SameData s₁ s₂ t₁ t₂ := by
  induction x using stuffed_induction with
  | nil =>
    intro bits count k y h1 h2 hcc hc1 hc2 hk hcount ht1 ht2
    obtain ⟨m₁, r₁, rfl, hm₁⟩ := scanTail_starts ht1
    obtain ⟨m₂, r₂, rfl, hm₂⟩ := scanTail_starts ht2
    unfold fillLoop
    by_cases h : 56 < count
    · simp only [if_pos h]
      exact ⟨_, _, rfl, rfl, [], rfl, rfl, ht1, ht2⟩
    · have hk1 : (count + 8 - 8 - cp₁.count + 7) / 8 = k := by omega
      have hl1 : ¬ cp₁.input.length < k := by rw [h1]; simp; omega
      have hl2 : ¬ cp₂.input.length < k := by rw [h2]; simp; omega
      simp only [if_neg h, List.nil_append, if_true, ne_eq, hm₁, hm₂, not_false_eq_true, ← hcc, hk1,
        if_neg hl1, if_neg hl2]
      have e1 : cp₁.input.drop k = y.drop k ++ 0xFF :: m₁ :: r₁ := by
        rw [h1, List.append_nil, List.drop_append_of_le_length hk]
      have e2 : cp₂.input.drop k = y.drop k ++ 0xFF :: m₂ :: r₂ := by
        rw [h2, List.append_nil, List.drop_append_of_le_length hk]
      refine ⟨_, _, rfl, rfl, y.drop k, ?_, ?_, ?_, ?_⟩
      · simp only [e1]
      · simp only [e2]
      · rw [← e1]; apply scanTail_drop hc1; rw [h1]; simp; omega
      · rw [← e2]; apply scanTail_drop hc2; rw [h2]; simp; omega
  | ffEnd =>
    intro bits count k y h1 h2 hcc hc1 hc2 hk hcount ht1 ht2
    obtain ⟨m₁, r₁, rfl, hm₁⟩ := scanTail_starts ht1
    simp [scanTail] at ht1
  | marker m rest hm =>
    intro bits count k y h1 h2 hcc hc1 hc2 hk hcount ht1 ht2
    simp only [List.cons_append] at ht1
    rw [scanTail_marker hm] at ht1
    have := congrArg (fun o => (o.getD []).length) ht1
    simp at this; omega
  | stuffed rest ih =>
    intro bits count k y h1 h2 hcc hc1 hc2 hk hcount ht1 ht2
    simp only [List.cons_append] at ht1 ht2 ⊢
    unfold fillLoop
    by_cases h : 56 < count
    · simp only [if_pos h]
      exact ⟨_, _, rfl, rfl, 0xFF :: 0 :: rest, rfl, rfl, ht1, ht2⟩
    · simp only [if_neg h, if_true, ne_eq, not_true_eq_false, if_false]
      rw [scanTail_ff0] at ht1 ht2
      exact ih _ _ (k + 1) (y ++ [0xFF, 0]) (by rw [h1]; simp) (by rw [h2]; simp) hcc hc1 hc2
        (by simp; omega) (by omega) ht1 ht2
  | byte b rest hb0 ih =>
    intro bits count k y h1 h2 hcc hc1 hc2 hk hcount ht1 ht2
    simp only [List.cons_append] at ht1 ht2 ⊢
    unfold fillLoop
    by_cases h : 56 < count
    · simp only [if_pos h]
      exact ⟨_, _, rfl, rfl, b :: rest, rfl, rfl, ht1, ht2⟩
    · simp only [if_neg h, hb0, if_false]
      rw [scanTail_cons_ne hb0] at ht1 ht2
      exact ih _ _ (k + 1) (y ++ [b]) (by rw [h1]; simp) (by rw [h2]; simp) hcc hc1 hc2
        (by simp; omega) (by omega) ht1 ht2

theorem fillBits_tail {s₁ s₂ : Biterator} {t₁ t₂ : List UInt8} (h : SameData s₁ s₂ t₁ t₂) :
    ∃ s₁' s₂', s₁.fillBits = .ok () s₁' ∧ s₂.fillBits = .ok () s₂' ∧ SameData s₁' s₂' t₁ t₂ := by
  obtain ⟨x, e1, e2, h1, h2⟩ := h
  have i1 : s₁.input = x ++ t₁ := by rw [e1]
  have i2 : s₂.input = x ++ t₂ := by rw [e2]
  have b2 : s₂.bits = s₁.bits := by rw [e2]
  have c2 : s₂.count = s₁.count := by rw [e2]
  unfold fillBits
  rw [b2, c2, i1, i2]
  exact fillLoop_tail s₁ s₂ t₁ t₂ x s₁.bits s₁.count 0 [] (by simp [i1]) (by simp [i2]) c2.symm
    (by rw [i1]; exact h1) (by rw [i2]; exact h2) (by simp) (by simp) h1 h2

/-- Reads of two readers at the same place of the same data, differing from the marker on. -/
theorem nextBits_tail {s₁ s₂ : Biterator} {t₁ t₂ : List UInt8} (h : SameData s₁ s₂ t₁ t₂)
    (hwf : s₁.WF) {n : Nat} (hn1 : 1 ≤ n) (hn : n ≤ 57) :
    ∃ v s₁' s₂', s₁.nextBits n = .ok v s₁' ∧ s₂.nextBits n = .ok v s₂' ∧ s₁'.WF ∧
      SameData s₁' s₂' t₁ t₂ := by
  have key : ∀ {s₁ s₂ : Biterator}, SameData s₁ s₂ t₁ t₂ → s₁.WF → n ≤ s₁.count →
      ∃ v s₁' s₂',
        ((Out.ofExcept (s₁.peekBits n) s₁).bind fun v s =>
          (s.consumeBits n).bind fun _ s => .ok v s) = .ok v s₁' ∧
        ((Out.ofExcept (s₂.peekBits n) s₂).bind fun v s =>
          (s.consumeBits n).bind fun _ s => .ok v s) = .ok v s₂' ∧ s₁'.WF ∧
        SameData s₁' s₂' t₁ t₂ := by
    rintro s₁ s₂ ⟨x, e1, e2, h1, h2⟩ hwf hc
    have hwf2 : s₂.WF := by rw [e2]; exact hwf
    have hc2 : n ≤ s₂.count := by rw [e2]; exact hc
    have hb : s₂.buf = s₁.buf := by rw [e2]; rfl
    rw [peekBits_ok hwf hn1 hc (by omega), peekBits_ok hwf2 hn1 hc2 (by omega), hb]
    simp only [Out.ofExcept_ok, Out.bind_ok, consumeBits_ok hc, consumeBits_ok hc2]
    refine ⟨_, _, _, rfl, rfl, ⟨by have := hwf.1; show s₁.count - n ≤ 64; omega, hwf.2⟩, x, ?_, ?_,
      h1, h2⟩
    · rw [e1]
    · rw [e2]
  unfold nextBits
  have hc : s₂.count = s₁.count := by obtain ⟨x, e1, e2, _⟩ := h; rw [e2]
  by_cases hlt : s₁.count < n
  · rw [if_pos hlt, if_pos (by omega)]
    obtain ⟨s₁', s₂', e1, e2, h'⟩ := fillBits_tail h
    rw [e1, e2, Out.bind_ok, Out.bind_ok]
    have hs := fillBits_safe hwf
    have hwf' : s₁'.WF := by have := hs.1.wf; rwa [e1] at this
    exact key h' hwf' (by have := hs.2.2 _ e1; omega)
  · rw [if_neg hlt, if_neg (by omega), Out.bind_ok, Out.bind_ok]
    exact key h hwf (by omega)

/-! ## Zero bits for ever -/

/-- With no stuffed byte left the refill that meets the marker puts the reader in front of it. -/
theorem fillLoop_plain (cp : Biterator) (t x : List UInt8) (hx : ∀ b ∈ x, b ≠ 0xFF)
    (ht : StartsWithMarker t) :
    ∀ (bits count k : Nat) (y : List UInt8),
    cp.input = y ++ x ++ t → k = y.length → count = cp.count + 8 * k → count ≤ 64 → bits < 2 ^ 64 →
    ∃ s x', fillLoop cp (x ++ t) bits count = .ok () s ∧ s.input = x' ++ t ∧
      (∀ b ∈ x', b ≠ 0xFF) ∧ s.WF ∧ 57 ≤ s.count ∧
      (s.view = bitsN count bits ++ bitsOf x ∨
        s.input = t ∧ ∃ n, s.buf = bitsN count bits ++ bitsOf x ++ zeros n) := by
  obtain ⟨m, r, rfl, hm⟩ := ht
  induction x with
  | nil =>
    intro bits count k y h1 hk hcount h64 hb
    unfold fillLoop
    by_cases h : 56 < count
    · simp only [if_pos h]
      exact ⟨_, [], rfl, rfl, by simp, ⟨h64, hb⟩, h, Or.inl (by simp [view, buf, unstuff, hm])⟩
    · have hk1 : (count + 8 - 8 - cp.count + 7) / 8 = k := by omega
      have hl1 : ¬ cp.input.length < k := by rw [h1]; simp; omega
      have hbb : (((bits <<< 8) % 2 ^ 64) ||| (0xFF : UInt8).toNat) < 2 ^ 64 :=
        Nat.or_lt_two_pow (Nat.mod_lt _ (by positivity)) (by decide)
      have hclr := bitsN_clear count bits (0xFF : UInt8).toNat (by omega) (by decide)
      obtain ⟨n, g1, g2, g3, g4, g5⟩ := padZeros_spec 8
        ((((bits <<< 8) % 2 ^ 64) ||| (0xFF : UInt8).toNat) &&& (2 ^ 64 - 1 - 0xFF)) (count + 8)
        (by omega) (lt_of_le_of_lt Nat.and_le_left hbb) (by omega)
      simp only [if_neg h, List.nil_append, if_true, ne_eq, hm, not_false_eq_true, hk1, if_neg hl1]
      have e1 : cp.input.drop k = 0xFF :: m :: r := by
        rw [h1, List.append_nil, List.drop_left' hk.symm]
      refine ⟨_, [], rfl, by simp [e1], by simp, ⟨?_, g4⟩, ?_, Or.inr ⟨e1, 8 + n, ?_⟩⟩
      · simp only [g1]; omega
      · simp only [g1]; omega
      · simp only [buf, g1, g5, hclr, zeros_add, bitsOf_nil, List.append_nil, List.append_assoc]
  | cons b x ih =>
    intro bits count k y h1 hk hcount h64 hb
    have hb0 : b ≠ 0xFF := hx b (by simp)
    have hx' : ∀ c ∈ x, c ≠ 0xFF := fun c hc => hx c (by simp [hc])
    simp only [List.cons_append]
    unfold fillLoop
    by_cases h : 56 < count
    · simp only [if_pos h]
      refine ⟨_, b :: x, rfl, rfl, hx, ⟨h64, hb⟩, h, Or.inl ?_⟩
      have : ∀ l : List UInt8, (∀ c ∈ l, c ≠ 0xFF) → unstuff (l ++ 0xFF :: m :: r) = l := by
        intro l hl
        induction l with
        | nil => simp [unstuff, hm]
        | cons c l ihl =>
          rw [List.cons_append, unstuff_cons_ne (hl c (by simp)), ihl fun d hd => hl d (by simp [hd])]
      simp only [view, buf]
      rw [← List.cons_append, this _ hx]
    · simp only [if_neg h, hb0, if_false]
      have hbb : (((bits <<< 8) % 2 ^ 64) ||| b.toNat) < 2 ^ 64 :=
        Nat.or_lt_two_pow (Nat.mod_lt _ (by positivity))
          (lt_of_lt_of_le b.toNat_lt (by decide))
      have := ih hx' (((bits <<< 8) % 2 ^ 64) ||| b.toNat) (count + 8) (k + 1) (y ++ [b])
        (by rw [h1]; simp) (by simp; omega) (by omega) (by omega) hbb
      rw [bitsN_push count bits b.toNat (by omega) b.toNat_lt] at this
      rw [bitsOf_cons]
      simpa [List.append_assoc] using this

end Jpeg
