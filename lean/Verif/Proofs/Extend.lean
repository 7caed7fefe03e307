import Verif.Proofs.Reader
import Verif.Spec.Magnitude
import Mathlib.Tactic.NormNum
import Mathlib.Tactic.IntervalCases
/-!
# `extend` is T.81 EXTEND
-/

namespace Jpeg
open Spec

theorem sshiftRight31 (x : BitVec 32) :
    x.sshiftRight 31 = if x.toInt < 0 then BitVec.allOnes 32 else 0#32 := by
  apply BitVec.eq_of_toInt_eq
  rw [BitVec.toInt_sshiftRight, Int.shiftRight_eq_div_pow]
  have h1 := BitVec.toInt_lt (x := x)
  have h2 := BitVec.le_toInt (x := x)
  norm_num at h1 h2
  split
  · have : BitVec.toInt (BitVec.allOnes 32) = -1 := by decide
    rw [this]; norm_num; omega
  · have : BitVec.toInt (0#32) = 0 := by decide
    rw [this]; norm_num; omega

/-- The branch free `extend` is the EXTEND procedure. -/
theorem extend_eq (v t : Nat) (h1 : 1 ≤ t) (h15 : t ≤ 15) (hv : v < 2 ^ t) :
    extend v t = extendT81 v t := by
  have hneg : ∀ (k : Nat), k < 2 ^ 15 → v < 2 ^ 15 →
      ((BitVec.ofNat 32 v - BitVec.ofNat 32 k).toInt < 0 ↔ v < k) := by
    intro k hk hv
    rw [BitVec.toInt_eq_toNat_cond, BitVec.toNat_sub]
    simp only [BitVec.toNat_ofNat]
    norm_num at *
    split <;> omega
  have hv15 : v < 2 ^ 15 := lt_of_lt_of_le hv (Nat.pow_le_pow_right (by omega) h15)
  have hk15 : 2 ^ (t - 1) < 2 ^ 15 := Nat.pow_lt_pow_right (by omega) (by omega)
  have hvt : 1#32 <<< (t - 1) = BitVec.ofNat 32 (2 ^ (t - 1)) := by
    interval_cases t <;> rfl
  unfold extend extendT81
  simp only [hvt, sshiftRight31, hneg _ hk15 hv15]
  by_cases h : v < 2 ^ (t - 1)
  · rw [if_pos h, if_pos (by exact_mod_cast h), BitVec.allOnes_and]
    have hM : BitVec.allOnes 32 <<< t + 1#32 = BitVec.ofNat 32 (2 ^ 32 - 2 ^ t + 1) := by
      interval_cases t <;> rfl
    rw [hM, BitVec.toInt_eq_toNat_cond]
    simp only [BitVec.toNat_setWidth, BitVec.toNat_add, BitVec.toNat_ofNat]
    interval_cases t <;> norm_num at * <;> split <;> omega
  · rw [if_neg h, if_neg (by exact_mod_cast h), BitVec.zero_and, BitVec.add_zero,
      BitVec.toInt_eq_toNat_cond]
    simp only [BitVec.toNat_setWidth, BitVec.toNat_ofNat]
    norm_num at *
    split <;> omega

theorem category_pos {v : Int} (h : v ≠ 0) : 1 ≤ category v := by simp [category, h]

theorem category_bounds {v : Int} (h : v ≠ 0) :
    2 ^ (category v - 1) ≤ v.natAbs ∧ v.natAbs < 2 ^ category v := by
  have h0 : v.natAbs ≠ 0 := by omega
  simp only [category, h, if_false, Nat.add_sub_cancel]
  exact ⟨Nat.log2_self_le h0, Nat.lt_log2_self⟩

@[simp] theorem additional_length (v : Int) : (additional v).length = category v := by
  simp [additional]

theorem extendT81_additional {v : Int} (h : v ≠ 0) :
    extendT81 (natOfBits (additional v)) (category v) = v := by
  obtain ⟨h1, h2⟩ := category_bounds h
  have hp := category_pos h
  have e : (2 : Nat) ^ category v = 2 * 2 ^ (category v - 1) := by
    rw [← Nat.pow_succ']; congr 1; omega
  have ez : ((2 : Int) ^ category v) = ((2 ^ category v : Nat) : Int) := by norm_cast
  have ez1 : ((2 : Int) ^ (category v - 1)) = ((2 ^ (category v - 1) : Nat) : Int) := by norm_cast
  unfold extendT81 additional
  rw [natOfBits_bitsN, ez, ez1]
  generalize (2 : Nat) ^ category v = P at *
  generalize (2 : Nat) ^ (category v - 1) = Q at *
  by_cases hv : 0 < v
  · rw [if_pos hv, Nat.mod_eq_of_lt (by omega), if_neg (by omega)]; omega
  · rw [if_neg hv, Nat.mod_eq_of_lt (by omega), if_pos (by omega)]; omega

theorem extend_additional {v : Int} (h : v ≠ 0) (h15 : category v ≤ 15) :
    extend (natOfBits (additional v)) (category v) = v := by
  rw [extend_eq _ _ (category_pos h) h15, extendT81_additional h]
  have := natOfBits_lt (additional v)
  simpa using this

/-- `receive_extend` on a stream that starts with the additional bits of `v`. -/
theorem Rep.receiveExtend {s : Biterator} {w : List Bool} {t : List UInt8} {v : Int} (hv : v ≠ 0)
    (h15 : category v ≤ 15) (h : Rep A s (additional v ++ w) t) :
    ∃ s', s.receiveExtend (category v) = .ok v s' ∧ Rep A s' w t := by
  obtain ⟨s', e, hr⟩ := h.next (n := category v) (category_pos hv) (by simp) (by omega)
  refine ⟨s', ?_, ?_⟩
  · rw [Biterator.receiveExtend, e, Out.bind_ok, List.take_left' (by simp),
      extend_additional hv h15]
  · rwa [List.drop_left' (by simp)] at hr

end Jpeg
