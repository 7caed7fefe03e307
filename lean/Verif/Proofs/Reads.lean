import Verif.Proofs.Extend
/-!
# Sequences of reads
-/

namespace Jpeg
open Spec Biterator

/-- A client issuing the requests `sizes` one after the other (`next_bits` each time). -/
def reads : List Nat → Biterator → Out Biterator (List Nat)
  | [], s => .ok [] s
  | n :: rest, s =>
    (s.nextBits n).bind fun v s => (reads rest s).bind fun vs s => .ok (v :: vs) s

theorem reads_rep {s : Biterator} {v : List Bool} {t : List UInt8} (h : Rep A s v t)
    (sizes : List Nat) (hs : ∀ n ∈ sizes, 1 ≤ n ∧ n ≤ 16) (hsum : sizes.sum ≤ v.length) :
    ∃ s', reads sizes s = .ok (chop sizes v) s' ∧ Rep A s' (v.drop sizes.sum) t := by
  induction sizes generalizing s v with
  | nil => exact ⟨s, rfl, by simpa using h⟩
  | cons n rest ih =>
    simp only [List.sum_cons] at hsum
    obtain ⟨hn1, hn16⟩ := hs n (by simp)
    obtain ⟨s1, e1, h1⟩ := h.next hn1 (by omega) (by omega)
    obtain ⟨s2, e2, h2⟩ := ih h1 (fun m hm => hs m (by simp [hm])) (by simp; omega)
    refine ⟨s2, ?_, ?_⟩
    · simp only [reads, e1, Out.bind_ok, e2, chop]
    · simpa [List.drop_drop] using h2

theorem reads_any {s : Biterator} {t : List UInt8} (hwf : s.WF) (ht : scanTail s.input = some t)
    (sizes : List Nat) (hs : ∀ n ∈ sizes, 1 ≤ n ∧ n ≤ 16) :
    ∃ vs s', reads sizes s = .ok vs s' ∧ s'.WF ∧ scanTail s'.input = some t := by
  induction sizes generalizing s with
  | nil => exact ⟨[], s, rfl, hwf, ht⟩
  | cons n rest ih =>
    obtain ⟨hn1, hn16⟩ := hs n (by simp)
    obtain ⟨s1, e1, hwf1, ht1, _⟩ := nextBits_value hwf ht hn1 (by omega)
    obtain ⟨vs, s2, e2, hwf2, ht2⟩ := ih hwf1 ht1 (fun m hm => hs m (by simp [hm]))
    exact ⟨_ :: vs, s2, by simp only [reads, e1, Out.bind_ok, e2]; rfl, hwf2, ht2⟩

theorem reads_tail {s₁ s₂ : Biterator} {t₁ t₂ : List UInt8} (hwf : s₁.WF)
    (h : SameData s₁ s₂ t₁ t₂) (sizes : List Nat) (hs : ∀ n ∈ sizes, 1 ≤ n ∧ n ≤ 16) :
    ∃ vs s₁' s₂', reads sizes s₁ = .ok vs s₁' ∧ reads sizes s₂ = .ok vs s₂' := by
  induction sizes generalizing s₁ s₂ with
  | nil => exact ⟨[], _, _, rfl, rfl⟩
  | cons n rest ih =>
    obtain ⟨hn1, hn16⟩ := hs n (by simp)
    obtain ⟨v, a, b, ea, eb, hwf', h'⟩ := nextBits_tail h hwf hn1 (by omega)
    obtain ⟨vs, c, d, ec, ed⟩ := ih hwf' h' (fun m hm => hs m (by simp [hm]))
    exact ⟨v :: vs, c, d, by simp only [reads, ea, Out.bind_ok, ec],
      by simp only [reads, eb, Out.bind_ok, ed]⟩

theorem stuff_plain (x : List UInt8) (hx : ∀ b ∈ x, b ≠ 0xFF) : stuff x = x := by
  induction x with
  | nil => rfl
  | cons b x ih =>
    simp only [stuff, if_neg (hx b (by simp)), ih fun c hc => hx c (by simp [hc])]

theorem zeros_take (n m : Nat) : (zeros n).take m = zeros (min m n) := by simp [zeros]
theorem zeros_drop (n m : Nat) : (zeros n).drop m = zeros (n - m) := by simp [zeros]

theorem take_zeros_ext (l : List Bool) {n m N : Nat} (hm : n ≤ m) (hN : n ≤ N) :
    (l ++ zeros m).take n = (l ++ zeros N).take n := by
  rw [List.take_append, List.take_append, zeros_take, zeros_take]
  congr 2; omega

/-- `chop` only looks at as many bits as it needs. -/
theorem chop_zeros (sizes : List Nat) (l : List Bool) {m N : Nat} (hm : sizes.sum ≤ m)
    (hN : sizes.sum ≤ N) : chop sizes (l ++ zeros m) = chop sizes (l ++ zeros N) := by
  induction sizes generalizing l m N with
  | nil => rfl
  | cons n rest ih =>
    simp only [List.sum_cons] at hm hN
    simp only [chop]
    congr 1
    · rw [take_zeros_ext l (by omega : n ≤ m) (by omega : n ≤ N)]
    · rw [List.drop_append, List.drop_append, zeros_drop, zeros_drop]
      exact ih _ (by omega) (by omega)

theorem reads_plain {s : Biterator} {x t : List UInt8} (hwf : s.WF) (hx : ∀ b ∈ x, b ≠ 0xFF)
    (ht : StartsWithMarker t) (hi : s.input = x ++ t) (sizes : List Nat)
    (hs : ∀ n ∈ sizes, 1 ≤ n ∧ n ≤ 16) :
    ∃ s', reads sizes s = .ok (chop sizes (s.buf ++ bitsOf x ++ zeros sizes.sum)) s' := by
  induction sizes generalizing s x with
  | nil => exact ⟨s, rfl⟩
  | cons n rest ih =>
    obtain ⟨hn1, hn16⟩ := hs n (by simp)
    have hrest : ∀ m ∈ rest, 1 ≤ m ∧ m ≤ 16 := fun m hm => hs m (by simp [hm])
    -- the state just before the bits are taken
    obtain ⟨s1, x1, e1, hi1, hx1, hwf1, hc1, k, hv1⟩ : ∃ s1 x1,
        (if s.count < n then s.fillBits else .ok () s) = .ok () s1 ∧ s1.input = x1 ++ t ∧
        (∀ b ∈ x1, b ≠ 0xFF) ∧ s1.WF ∧ n ≤ s1.count ∧
        ∃ k, s1.buf ++ bitsOf x1 = s.buf ++ bitsOf x ++ zeros k := by
      by_cases hlt : s.count < n
      · rw [if_pos hlt]
        obtain ⟨s1, x1, e, h1, h2, h3, h4, h5⟩ := fillLoop_plain s t x hx ht s.bits s.count 0 []
          (by simpa using hi) rfl (by simp) hwf.1 hwf.2
        refine ⟨s1, x1, by rw [fillBits, hi]; exact e, h1, h2, h3, by omega, ?_⟩
        have hu : unstuff s1.input = x1 := by
          rw [h1, ← stuff_plain x1 h2]; rw [unstuff_stuff ht, stuff_plain x1 h2]
        rcases h5 with h5 | ⟨h5, k, h6⟩
        · refine ⟨0, ?_⟩
          simp only [view, hu] at h5
          rw [h5]; simp [buf, zeros]
        · refine ⟨k, ?_⟩
          have : x1 = [] := by
            have := congrArg List.length (h1.symm.trans h5)
            simp at this; exact this
          rw [this, h6]; simp [buf]
      · rw [if_neg hlt]
        exact ⟨s, x, rfl, hi, hx, hwf, by omega, 0, by simp [zeros]⟩
    have hval : s1.buf.take n = (s.buf ++ bitsOf x ++ zeros (n :: rest).sum).take n := by
      have h1 : s1.buf.take n = (s1.buf ++ bitsOf x1).take n := by
        rw [List.take_append_of_le_length (by rw [buf_length]; exact hc1)]
      have h2 : (s1.buf ++ bitsOf x1).take n = (s1.buf ++ bitsOf x1 ++ zeros n).take n := by
        rw [List.take_append_of_le_length (l₁ := s1.buf ++ bitsOf x1) (by simp [buf_length]; omega)]
      rw [h1, h2, hv1, List.append_assoc, ← zeros_add]
      apply take_zeros_ext <;> simp
    obtain ⟨s2, e2⟩ := ih (s := { s1 with count := s1.count - n }) (x := x1)
      ⟨by have := hwf1.1; show s1.count - n ≤ 64; omega, hwf1.2⟩ hx1 hi1 hrest
    refine ⟨s2, ?_⟩
    simp only [reads, nextBits, e1, Out.bind_ok, peekBits_ok hwf1 hn1 hc1 (by omega),
      Out.ofExcept_ok, consumeBits_ok hc1, e2, chop, hval]
    congr 2
    rw [buf_drop s1 n hc1, ← List.drop_append_of_le_length (by rw [buf_length]; exact hc1), hv1]
    generalize s.buf ++ bitsOf x = l
    rw [List.drop_append, zeros_drop, List.append_assoc, ← zeros_add, List.drop_append, zeros_drop]
    apply chop_zeros
    · omega
    · have : (n :: rest).sum = n + rest.sum := by simp
      omega

/-- Every position in front of a marker is in front of some stuffed data and that marker. -/
theorem eq_stuff_unstuff {l t : List UInt8} (h : scanTail l = some t) :
    l = stuff (unstuff l) ++ t := by
  induction l using stuffed_induction with
  | nil => simp [scanTail] at h
  | ffEnd => simp [scanTail] at h
  | marker m rest hm =>
    rw [scanTail_marker hm] at h; simp at h; subst h; simp [unstuff_marker hm, stuff]
  | stuffed rest ih =>
    rw [scanTail_ff0] at h
    rw [unstuff_ff0]
    simp only [stuff, if_true, List.cons_append, ← ih h]
  | byte b rest hb ih =>
    rw [scanTail_cons_ne hb] at h
    rw [unstuff_cons_ne hb]
    simp only [stuff, if_neg hb, List.cons_append, ← ih h]

/-- The bits `v` are the next ones to be delivered: the reader is valid, its input is the
byte-stuffed form of some data followed by `t`, which starts with a marker, and `v` is the beginning
of the buffered bits, then the bits of the data, then (up to eight) zeros. -/
def Pending (s : Biterator) (v : List Bool) (t : List UInt8) : Prop :=
  s.count ≤ 64 ∧ s.bits < 2 ^ 64 ∧ StartsWithMarker t ∧
    ∃ data, s.input = stuff data ++ t ∧
      v <+: bitsN s.count s.bits ++ bitsOf data ++ zeros 8

theorem pending_iff {s : Biterator} {v : List Bool} {t : List UInt8} :
    Pending s v t ↔ Rep False s v t := by
  constructor
  · rintro ⟨h1, h2, ht, data, hi, hp⟩
    refine ⟨⟨h1, h2⟩, by rw [hi, scanTail_stuff ht], ?_, False.elim⟩
    rw [view, hi, unstuff_stuff ht]
    exact hp
  · rintro ⟨⟨h1, h2⟩, ht, hp, -⟩
    exact ⟨h1, h2, scanTail_starts ht, unstuff s.input, eq_stuff_unstuff ht, hp⟩

end Jpeg
