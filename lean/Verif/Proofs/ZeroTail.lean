import Verif.Proofs.Lockstep
import Verif.Proofs.Reads
/-!
# Data that ends early are data that go on with zeros
-/

namespace Jpeg
open Spec Biterator

/-- The same data in front of the markers at `t` and `t'`; in `x'` followed by zero bytes, which may only be if no byte
of the data is `0xFF`. -/
def Split (x x' t t' : List UInt8) : Prop :=
  ∃ a n, x = a ++ t ∧ x' = a ++ (List.replicate n 0 ++ t') ∧ scanTail x = some t ∧ scanTail x' = some t' ∧
    (n = 0 ∨ ∀ b ∈ a, b ≠ 0xFF)

/-- The same scan data, up to zero bytes at the end of restart intervals without `0xFF`. -/
inductive Cont : List UInt8 → List UInt8 → Prop
  | stop {x x' t t' : List UInt8} : Split x x' t t' → marker t' = marker t → Cont x x'
  | rst {x x' t t' y y' : List UInt8} {m : Nat} : Split x x' t t' → marker t = .ok (.RST m, y) →
      marker t' = .ok (.RST m, y') → Cont y y' → Cont x x'

/-! ## Refilling -/

theorem padZeros_fuel : ∀ (f g b c : Nat), 56 < c + 8 * f → 56 < c + 8 * g → padZeros f b c = padZeros g b c := by
  intro f
  induction f with
  | zero =>
    intro g b c h1 h2
    cases g with
    | zero => rfl
    | succ g => rw [padZeros, padZeros, if_neg (by omega)]
  | succ f ih =>
    intro g b c h1 h2
    cases g with
    | zero => rw [padZeros, padZeros, if_neg (by omega)]
    | succ g =>
      rw [padZeros, padZeros]
      split
      · exact ih g _ _ (by omega) (by omega)
      · rfl

/-- Clearing the byte of the marker leaves what a zero byte would have given. -/
theorem clear_byte (b : Nat) : ((((b <<< 8) % 2 ^ 64) ||| 0xFF) &&& (2 ^ 64 - 1 - 0xFF)) = (b <<< 8) % 2 ^ 64 := by
  have e1 : (2 ^ 64 - 1 - 0xFF : Nat) = (2 ^ 56 - 1) <<< 8 := by decide
  have e2 : (0xFF : Nat) = 2 ^ 8 - 1 := by decide
  rw [e1, e2]
  apply Nat.eq_of_testBit_eq
  intro i
  simp only [Nat.testBit_and, Nat.testBit_or, Nat.testBit_mod_two_pow, Nat.testBit_shiftLeft, Nat.testBit_two_pow_sub_one]
  by_cases h : 8 ≤ i
  · by_cases h2 : i < 64
    · simp [h, h2, show ¬ i < 8 by omega, show i - 8 < 56 by omega]
    · simp [h, h2, show ¬ i - 8 < 56 by omega]
  · simp [h]

/-- Refilling from zero bytes in front of a marker. -/
theorem fillLoop_zeroBytes (cp : Biterator) {t : List UInt8} (ht : StartsWithMarker t) : ∀ (n bits count k : Nat)
    (y : List UInt8), cp.input = y ++ (List.replicate n 0 ++ t) → k = y.length → count = cp.count + 8 * k →
    ∃ n', fillLoop cp (List.replicate n 0 ++ t) bits count =
      .ok () ⟨List.replicate n' 0 ++ t, (padZeros 8 bits count).1, (padZeros 8 bits count).2⟩ := by
  obtain ⟨m, r, rfl, hm⟩ := ht
  intro n
  induction n with
  | zero =>
    intro bits count k y hcp hk hc
    unfold fillLoop
    by_cases h : 56 < count
    · rw [if_pos h]
      refine ⟨0, ?_⟩
      rw [padZeros, if_neg (by omega)]
    · have hk1 : (count + 8 - 8 - cp.count + 7) / 8 = k := by omega
      have hl : ¬ cp.input.length < k := by rw [hcp]; simp; omega
      simp only [if_neg h, List.replicate_zero, List.nil_append, if_true, ne_eq, hm, not_false_eq_true, hk1, if_neg hl]
      refine ⟨0, ?_⟩
      have e1 : cp.input.drop k = 0xFF :: m :: r := by
        rw [hcp, List.drop_left' hk.symm]; rfl
      have e2 := clear_byte bits
      have e3 : ((0xFF : UInt8).toNat) = 0xFF := by decide
      rw [e1, e3, e2]
      have e4 : padZeros 8 bits count = padZeros 8 ((bits <<< 8) % 2 ^ 64) (count + 8) := by
        rw [padZeros, if_pos (by omega)]
        exact padZeros_fuel _ _ _ _ (by omega) (by omega)
      rw [e4]
      rfl
  | succ n ih =>
    intro bits count k y hcp hk hc
    unfold fillLoop
    by_cases h : 56 < count
    · rw [if_pos h]
      refine ⟨n + 1, ?_⟩
      rw [padZeros, if_neg (by omega)]
    · simp only [if_neg h, List.replicate_succ, List.cons_append, show ¬ (0 : UInt8) = 0xFF by decide, if_false]
      obtain ⟨n', e⟩ := ih ((bits <<< 8) % 2 ^ 64) (count + 8) (k + 1) (y ++ [0])
        (by rw [hcp, List.replicate_succ]; simp) (by simp; omega) (by omega)
      refine ⟨n', ?_⟩
      have e3 : ((0 : UInt8).toNat) = 0 := by decide
      rw [e3, Nat.or_zero, e]
      have e4 : padZeros 8 bits count = padZeros 8 ((bits <<< 8) % 2 ^ 64) (count + 8) := by
        rw [padZeros, if_pos (by omega)]
        exact padZeros_fuel _ _ _ _ (by omega) (by omega)
      rw [e4]

/-- Refilling from data without `0xFF` in front of a marker, and in front of zero bytes and a marker. -/
theorem fillLoop_zeroTail (cp cp' : Biterator) {t t' : List UInt8} (ht : StartsWithMarker t)
    (ht' : StartsWithMarker t') (hcc : cp'.count = cp.count) (n : Nat) : ∀ (a : List UInt8), (∀ b ∈ a, b ≠ 0xFF) →
    ∀ (bits count k : Nat) (y : List UInt8), cp.input = y ++ (a ++ t) →
    cp'.input = y ++ (a ++ (List.replicate n 0 ++ t')) → k = y.length → count = cp.count + 8 * k →
    ∃ a' n' b c, (∀ b ∈ a', b ≠ 0xFF) ∧ fillLoop cp (a ++ t) bits count = .ok () ⟨a' ++ t, b, c⟩ ∧
      fillLoop cp' (a ++ (List.replicate n 0 ++ t')) bits count = .ok () ⟨a' ++ (List.replicate n' 0 ++ t'), b, c⟩ := by
  intro a
  induction a with
  | nil =>
    intro _ bits count k y hcp hcp' hk hc
    obtain ⟨n'', e2⟩ := fillLoop_zeroBytes cp' ht' n bits count k y hcp' hk (by omega)
    by_cases h : 56 < count
    · have e1 : fillLoop cp ([] ++ t) bits count = .ok () ⟨[] ++ t, bits, count⟩ := by
        unfold fillLoop; rw [if_pos h]
      have e2 : fillLoop cp' ([] ++ (List.replicate n 0 ++ t')) bits count =
          .ok () ⟨[] ++ (List.replicate n 0 ++ t'), bits, count⟩ := by
        unfold fillLoop; rw [if_pos h]
      exact ⟨[], n, bits, count, by simp, e1, e2⟩
    · refine ⟨[], n'', _, _, by simp, ?_, e2⟩
      obtain ⟨m, r, rfl, hm⟩ := ht
      unfold fillLoop
      have hk1 : (count + 8 - 8 - cp.count + 7) / 8 = k := by omega
      have hl : ¬ cp.input.length < k := by rw [hcp]; simp; omega
      simp only [if_neg h, List.nil_append, if_true, ne_eq, hm, not_false_eq_true, hk1, if_neg hl]
      have e1 : cp.input.drop k = 0xFF :: m :: r := by
        rw [hcp, List.drop_left' hk.symm]; rfl
      have e2 := clear_byte bits
      have e3 : ((0xFF : UInt8).toNat) = 0xFF := by decide
      rw [e1, e3, e2]
      have e4 : padZeros 8 bits count = padZeros 8 ((bits <<< 8) % 2 ^ 64) (count + 8) := by
        rw [padZeros, if_pos (by omega)]
        exact padZeros_fuel _ _ _ _ (by omega) (by omega)
      rw [e4]
  | cons b a ih =>
    intro ha bits count k y hcp hcp' hk hc
    simp only [List.cons_append]
    unfold fillLoop
    by_cases h : 56 < count
    · rw [if_pos h, if_pos h]
      exact ⟨b :: a, n, bits, count, ha, rfl, rfl⟩
    · have hb : ¬ b = 0xFF := ha b (by simp)
      simp only [if_neg h, hb, if_false]
      exact ih (fun c hc => ha c (by simp [hc])) _ _ (k + 1) (y ++ [b]) (by rw [hcp]; simp)
        (by rw [hcp']; simp) (by simp; omega) (by omega)

theorem scanTail_plain {t : List UInt8} (ht : StartsWithMarker t) {a : List UInt8} (ha : ∀ b ∈ a, b ≠ 0xFF) :
    scanTail (a ++ t) = some t := by
  have := scanTail_stuff ht a
  rwa [stuff_plain a ha] at this

theorem fillBits_split {s s' : Biterator} {t t' : List UInt8} (hb : s'.bits = s.bits) (hc : s'.count = s.count)
    (h : Split s.input s'.input t t') : ∃ u u', s.fillBits = .ok () u ∧ s'.fillBits = .ok () u' ∧
      u'.bits = u.bits ∧ u'.count = u.count ∧ Split u.input u'.input t t' := by
  obtain ⟨a, n, e1, e2, h1, h2, h3⟩ := h
  rcases h3 with rfl | h3
  · have hs : SameData s s' t t' := by
      refine ⟨a, ?_, ?_, ?_, ?_⟩
      · rw [← e1]
      · rw [← hb, ← hc]
        rw [show a ++ t' = s'.input by rw [e2]; simp]
      · rw [← e1]; exact h1
      · rw [show a ++ t' = s'.input by rw [e2]; simp]; exact h2
    obtain ⟨u, u', k1, k2, y, k3, k4, k5, k6⟩ := fillBits_tail hs
    refine ⟨u, u', k1, k2, by rw [k4], by rw [k4], y, 0, by rw [k3], by rw [k4]; simp, ?_, ?_, .inl rfl⟩
    · rw [k3]; exact k5
    · rw [k4]; exact k6
  · have ht := scanTail_starts h1
    have ht' := scanTail_starts h2
    obtain ⟨a', n', b, c, k1, k2, k3⟩ := fillLoop_zeroTail s s' ht ht' hc n a h3 s.bits s.count 0 []
      (by simpa using e1) (by simpa using e2) rfl (by omega)
    refine ⟨⟨a' ++ t, b, c⟩, ⟨a' ++ (List.replicate n' 0 ++ t'), b, c⟩, by rw [fillBits, e1]; exact k2, by rw [fillBits, e2, hb, hc]; exact k3, rfl, rfl, a', n', rfl, rfl,
      scanTail_plain ht k1, ?_, .inr k1⟩
    rw [← List.append_assoc]
    refine scanTail_plain ht' fun x hx => ?_
    rcases List.mem_append.1 hx with hx | hx
    · exact k1 x hx
    · rw [(List.mem_replicate.1 hx).2]; decide

/-! ## The relation -/

/-- Readers in front of the same data, up to zero bytes at the end of restart intervals, with the same buffer. -/
def SameUpToZeros (s s' : Biterator) : Prop :=
  s = s' ∨ s'.bits = s.bits ∧ s'.count = s.count ∧ Cont s.input s'.input

theorem Agree.refl_of {R : Biterator → Biterator → Prop} (h : ∀ s, R s s) {α : Type} (o : Out Biterator α) :
    Agree R o o := by
  cases o with
  | ok a s => exact ⟨rfl, s, rfl, h s⟩
  | fail f s => exact rfl

theorem sameUpToZeros_lock : Lock SameUpToZeros where
  bits := by rintro s s' (rfl | ⟨h, -, -⟩) <;> simp [*]
  count := by rintro s s' (rfl | ⟨-, h, -⟩) <;> simp [*]
  drop := by
    rintro s s' (rfl | ⟨h1, h2, h3⟩) n
    · exact .inl rfl
    · exact .inr ⟨h1, rfl, h3⟩
  fill := by
    rintro s s' (rfl | ⟨h1, h2, h3⟩)
    · exact Agree.refl_of (fun _ => .inl rfl) _
    · generalize hx : s.input = x at h3
      generalize hx' : s'.input = x' at h3
      cases h3 with
      | stop hs hm =>
        rw [← hx, ← hx'] at hs
        obtain ⟨u, u', k1, k2, k3, k4, k5⟩ := fillBits_split h1 h2 hs
        rw [k1, k2]
        exact ⟨rfl, u', rfl, .inr ⟨k3, k4, .stop k5 hm⟩⟩
      | rst hs hm hm' hc =>
        rw [← hx, ← hx'] at hs
        obtain ⟨u, u', k1, k2, k3, k4, k5⟩ := fillBits_split h1 h2 hs
        rw [k1, k2]
        exact ⟨rfl, u', rfl, .inr ⟨k3, k4, .rst k5 hm hm' hc⟩⟩

theorem Split.left {x x' t t' : List UInt8} (h : Split x x' t t') : marker x = marker t := by
  obtain ⟨a, n, e1, e2, h1, h2, h3⟩ := h
  exact marker_scanTail h1

theorem Split.right {x x' t t' : List UInt8} (h : Split x x' t t') : marker x' = marker t' := by
  obtain ⟨a, n, e1, e2, h1, h2, h3⟩ := h
  exact marker_scanTail h2

/-- What is found behind the data. -/
theorem Cont.marker {x x' : List UInt8} (h : Cont x x') :
    Jpeg.marker x' = Jpeg.marker x ∨
      ∃ m y y', Jpeg.marker x = .ok (.RST m, y) ∧ Jpeg.marker x' = .ok (.RST m, y') ∧ Cont y y' := by
  cases h with
  | stop hs hm => exact .inl (by rw [hs.left, hs.right, hm])
  | rst hs hm hm' hc => exact .inr ⟨_, _, _, hs.left.trans hm, hs.right.trans hm', hc⟩

theorem sameUpToZeros_marks : Marks SameUpToZeros := by
  have same : ∀ e : Except Fail (Marker × List UInt8),
      (match e, e with
        | .ok (m, r), .ok (m', r') =>
          (m' = m ∧ SameUpToZeros ⟨r, 0, 0⟩ ⟨r', 0, 0⟩) ∨ ((∀ n, m ≠ .RST n) ∧ ∀ n, m' ≠ .RST n)
        | .error f, .error f' => f' = f
        | _, _ => False) := by
    intro e
    cases e with
    | error f => rfl
    | ok r => obtain ⟨m, r⟩ := r; exact .inl ⟨rfl, .inl rfl⟩
  rintro s s' (rfl | ⟨-, -, h⟩)
  · exact same _
  · rcases h.marker with h | ⟨m, y, y', h1, h2, h3⟩
    · rw [h]; exact same _
    · rw [h1, h2]
      exact .inl ⟨rfl, .inr ⟨rfl, rfl, h3⟩⟩

end Jpeg
