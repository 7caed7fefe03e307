import Verif.Proofs.ZigZag
import Verif.Model.Parser
import Mathlib.Tactic.NormNum
/-!
# Small parsers of segment contents
-/

namespace Jpeg
open Spec

theorem split4Bit_cons (b : UInt8) (l : List UInt8) :
    split4Bit (b :: l) = .ok ((b.toNat / 16, b.toNat % 16), l) := by
  unfold split4Bit anyByte
  simp only
  rw [Nat.shiftRight_eq_div_pow, show (0x0F : Nat) = 2 ^ 4 - 1 from rfl,
    Nat.and_two_pow_sub_one_eq_mod]

theorem bytesP_append (vals rest : List UInt8) :
    bytesP vals.length (vals ++ rest) = .ok (vals.map UInt8.toNat, rest) := by
  induction vals with
  | nil => rfl
  | cons b vals ih =>
    rw [List.length_cons, List.cons_append]
    simp [bytesP, anyByte, ih]

/-- Big endian 16 bit words. -/
def beWords : List Nat → List UInt8
  | [] => []
  | w :: ws => UInt8.ofNat (w / 256) :: UInt8.ofNat (w % 256) :: beWords ws

theorem ofNat_toNat {n : Nat} (h : n < 256) : (UInt8.ofNat n).toNat = n := by
  rw [UInt8.toNat_ofNat']; exact Nat.mod_eq_of_lt h

theorem wordsP_append (vals : List Nat) (hv : ∀ v ∈ vals, v < 65536) (rest : List UInt8) :
    wordsP vals.length (beWords vals ++ rest) = .ok (vals, rest) := by
  induction vals with
  | nil => rfl
  | cons w vals ih =>
    have hw := hv w (by simp)
    rw [List.length_cons]
    simp only [beWords, List.cons_append, wordsP, beU16, ih fun v h => hv v (by simp [h])]
    rw [ofNat_toNat (by omega), ofNat_toNat (by omega)]
    have : w / 256 * 256 + w % 256 = w := by omega
    rw [this]

theorem quantizationTable_ok (table : List Nat) (hlen : table.length = 64) :
    ∃ q, quantizationTable table = .ok q ∧ q.length = 64 ∧
      ∀ k, k < 64 → q[zigzag k]? = table[k]? :=
  quantGo_ok table hlen 64 0 _ rfl (by simp) (by intro i hi; omega)

theorem bytesP_length : ∀ (n : Nat) (l : List UInt8) (t : List Nat) (r : List UInt8),
    bytesP n l = .ok (t, r) → t.length = n ∧ l.length = r.length + n := by
  intro n
  induction n with
  | zero => intro l t r h; simp [bytesP] at h; simp [← h.1, h.2]
  | succ n ih =>
    intro l t r h
    cases l with
    | nil => simp [bytesP, anyByte] at h
    | cons b l =>
      simp only [bytesP, anyByte] at h
      cases hb : bytesP n l with
      | error f => rw [hb] at h; simp at h
      | ok p =>
        obtain ⟨bs, l'⟩ := p
        rw [hb] at h
        simp only [Except.ok.injEq, Prod.mk.injEq] at h
        obtain ⟨rfl, rfl⟩ := h
        have := ih l bs l' hb
        simp; omega

theorem wordsP_length : ∀ (n : Nat) (l : List UInt8) (t : List Nat) (r : List UInt8),
    wordsP n l = .ok (t, r) → t.length = n ∧ l.length = r.length + 2 * n := by
  intro n
  induction n with
  | zero => intro l t r h; simp [wordsP] at h; simp [← h.1, h.2]
  | succ n ih =>
    intro l t r h
    match l with
    | [] => simp [wordsP, beU16] at h
    | [_] => simp [wordsP, beU16] at h
    | a :: b :: l =>
      simp only [wordsP, beU16] at h
      cases hb : wordsP n l with
      | error f => rw [hb] at h; simp at h
      | ok p =>
        obtain ⟨bs, l'⟩ := p
        rw [hb] at h
        simp only [Except.ok.injEq, Prod.mk.injEq] at h
        obtain ⟨rfl, rfl⟩ := h
        have := ih l bs l' hb
        simp; omega

end Jpeg
