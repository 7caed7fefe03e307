import Verif.Model.Biterator
import Verif.Model.Marker
import Verif.Spec.Bits
import Mathlib.Tactic.Ring
import Mathlib.Tactic.Linarith
/-!
# Lemmas about bit lists and the bit reader
-/

namespace Jpeg
open Spec

@[simp] theorem bitsN_length (n x : Nat) : (bitsN n x).length = n := by
  induction n with
  | zero => rfl
  | succ n ih => simp [bitsN, ih]

theorem bitsN_getElem? (n x i : Nat) (h : i < n) :
    (bitsN n x)[i]? = some (x.testBit (n - 1 - i)) := by
  induction n generalizing i with
  | zero => omega
  | succ n ih =>
    cases i with
    | zero => simp [bitsN]
    | succ i =>
      simp only [bitsN, List.getElem?_cons_succ]
      rw [ih i (by omega)]
      congr 2; omega

theorem bitsN_ext {n : Nat} {l : List Bool} {x : Nat} (hl : l.length = n)
    (h : ∀ i, i < n → l[i]? = some (x.testBit (n - 1 - i))) : l = bitsN n x := by
  apply List.ext_getElem?
  intro i
  by_cases hi : i < n
  · rw [h i hi, bitsN_getElem? n x i hi]
  · rw [List.getElem?_eq_none (by omega), List.getElem?_eq_none (by simp; omega)]

theorem bitsN_congr {n x y : Nat} (h : ∀ i, i < n → x.testBit i = y.testBit i) :
    bitsN n x = bitsN n y := by
  induction n with
  | zero => rfl
  | succ n ih =>
    simp only [bitsN]
    rw [h n (by omega), ih (fun i hi => h i (by omega))]

theorem bitsN_add (n m x : Nat) : bitsN (n + m) x = bitsN n (x >>> m) ++ bitsN m x := by
  induction n with
  | zero => simp [bitsN]
  | succ n ih =>
    have : n + 1 + m = (n + m) + 1 := by omega
    rw [this]
    simp only [bitsN, ih, List.cons_append, Nat.testBit_shiftRight]
    congr 2; omega

@[simp] theorem bitsN_zero (n : Nat) : bitsN n 0 = zeros n := by
  induction n with
  | zero => rfl
  | succ n ih => simp [bitsN, ih, zeros, List.replicate_succ]

theorem bitsN_mod (n k x : Nat) (h : n ≤ k) : bitsN n (x % 2 ^ k) = bitsN n x := by
  apply bitsN_congr
  intro i hi
  simp [Nat.testBit_mod_two_pow, show i < k by omega]

theorem foldl_bits (l : List Bool) (a : Nat) :
    l.foldl (fun a b => 2 * a + b.toNat) a = a * 2 ^ l.length + natOfBits l := by
  unfold natOfBits
  induction l generalizing a with
  | nil => simp
  | cons b l ih =>
    simp only [List.foldl_cons, List.length_cons]
    rw [ih, ih (2 * 0 + b.toNat)]
    ring

theorem natOfBits_append (a b : List Bool) :
    natOfBits (a ++ b) = natOfBits a * 2 ^ b.length + natOfBits b := by
  conv_lhs => unfold natOfBits
  rw [List.foldl_append, foldl_bits b]
  rfl

@[simp] theorem natOfBits_nil : natOfBits [] = 0 := rfl

theorem natOfBits_cons (b : Bool) (l : List Bool) :
    natOfBits (b :: l) = b.toNat * 2 ^ l.length + natOfBits l := by
  have := natOfBits_append [b] l
  simpa [natOfBits] using this

theorem natOfBits_lt (l : List Bool) : natOfBits l < 2 ^ l.length := by
  induction l with
  | nil => simp
  | cons b l ih =>
    rw [natOfBits_cons]
    simp only [List.length_cons, pow_succ]
    cases b <;> simp <;> omega

theorem natOfBits_bitsN (n x : Nat) : natOfBits (bitsN n x) = x % 2 ^ n := by
  induction n with
  | zero => simp [bitsN, Nat.mod_one]
  | succ n ih =>
    simp only [bitsN]
    rw [natOfBits_cons, ih, bitsN_length]
    rw [Nat.testBit_eq_decide_div_mod_eq]
    have h := Nat.div_add_mod x (2 ^ n)
    have h2 : x % 2 ^ (n + 1) = 2 ^ n * (x / 2 ^ n % 2) + x % 2 ^ n := by
      rw [pow_succ]
      rw [Nat.mod_mul]; ring
    rw [h2]
    rcases Nat.mod_two_eq_zero_or_one (x / 2 ^ n) with h0 | h0 <;> simp [h0]

theorem bitsN_natOfBits (l : List Bool) : bitsN l.length (natOfBits l) = l := by
  induction l with
  | nil => rfl
  | cons b l ih =>
    simp only [List.length_cons, bitsN]
    have hlt := natOfBits_lt l
    congr 1
    · rw [natOfBits_cons, Nat.testBit_eq_decide_div_mod_eq]
      cases b
      · simp [Nat.div_eq_of_lt hlt]
      · have : (2 ^ l.length + natOfBits l) / 2 ^ l.length = 1 := by
          rw [Nat.add_div_left _ (by positivity), Nat.div_eq_of_lt hlt]
        simp [this]
    · conv_rhs => rw [← ih]
      rw [← bitsN_mod l.length l.length (natOfBits (b :: l)) (le_refl _), natOfBits_cons,
        ← bitsN_mod l.length l.length (natOfBits l) (le_refl _)]
      congr 1
      rw [Nat.mul_add_mod_self_right]

theorem natOfBits_inj {a b : List Bool} (hl : a.length = b.length)
    (h : natOfBits a = natOfBits b) : a = b := by
  rw [← bitsN_natOfBits a, ← bitsN_natOfBits b, hl, h]

@[simp] theorem natOfBits_zeros (n : Nat) : natOfBits (zeros n) = 0 := by
  rw [← bitsN_zero, natOfBits_bitsN]; simp

@[simp] theorem zeros_length (n : Nat) : (zeros n).length = n := by simp [zeros]

theorem zeros_add (a b : Nat) : zeros (a + b) = zeros a ++ zeros b := by
  simp [zeros]

/-- Appending a byte to the buffer. -/
theorem bitsN_push (n bits b : Nat) (hn : n + 8 ≤ 64) (hb : b < 256) :
    bitsN (n + 8) (((bits <<< 8) % 2 ^ 64) ||| b) = bitsN n bits ++ bitsN 8 b := by
  rw [bitsN_add]
  congr 1
  · apply bitsN_congr
    intro i hi
    simp only [Nat.testBit_shiftRight, Nat.testBit_or, Nat.testBit_mod_two_pow,
      Nat.testBit_shiftLeft]
    have h1 : 8 + i < 64 := by omega
    have h2 : 8 + i ≥ 8 := by omega
    have h3 : b.testBit (8 + i) = false := by
      apply Nat.testBit_lt_two_pow
      calc b < 2 ^ 8 := hb
        _ ≤ 2 ^ (8 + i) := Nat.pow_le_pow_right (by omega) (by omega)
    have h4 : 8 + i - 8 = i := by omega
    simp [h1, h3, h4]
  · apply bitsN_congr
    intro i hi
    simp only [Nat.testBit_or, Nat.testBit_mod_two_pow, Nat.testBit_shiftLeft]
    have : ¬ (8 ≤ i) := by omega
    simp [this]

theorem bitsN_pushZero (n bits : Nat) (hn : n + 8 ≤ 64) :
    bitsN (n + 8) ((bits <<< 8) % 2 ^ 64) = bitsN n bits ++ zeros 8 := by
  have := bitsN_push n bits 0 hn (by omega)
  simpa using this

/-- Clearing the last byte (`&= !0xFF`). -/
theorem bitsN_clear (n bits b : Nat) (hn : n + 8 ≤ 64) (hb : b < 256) :
    bitsN (n + 8) ((((bits <<< 8) % 2 ^ 64) ||| b) &&& (2 ^ 64 - 1 - 0xFF)) =
      bitsN n bits ++ zeros 8 := by
  have hm : (2 ^ 64 - 1 - 0xFF : Nat) = (2 ^ 56 - 1) <<< 8 := by decide
  rw [hm, bitsN_add]
  congr 1
  · apply bitsN_congr
    intro i hi
    simp only [Nat.testBit_shiftRight, Nat.testBit_or, Nat.testBit_and, Nat.testBit_mod_two_pow,
      Nat.testBit_shiftLeft, Nat.testBit_two_pow_sub_one]
    have h1 : 8 + i < 64 := by omega
    have h2 : 8 + i ≥ 8 := by omega
    have h3 : b.testBit (8 + i) = false := by
      apply Nat.testBit_lt_two_pow
      calc b < 2 ^ 8 := hb
        _ ≤ 2 ^ (8 + i) := Nat.pow_le_pow_right (by omega) (by omega)
    have h4 : 8 + i - 8 = i := by omega
    have h5 : i < 56 := by omega
    simp [h1, h3, h4, h5]
  · rw [← bitsN_zero]
    apply bitsN_congr
    intro i hi
    simp only [Nat.testBit_and, Nat.testBit_shiftLeft, Nat.zero_testBit]
    have : ¬ (8 ≤ i) := by omega
    simp [this]

end Jpeg
