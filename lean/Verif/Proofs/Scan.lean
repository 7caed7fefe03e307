import Verif.Proofs.Mcu
import Verif.Proofs.Reads
import Verif.Model.Scan
/-!
# The MCU loop and the restart protocol
-/

namespace Jpeg
open Spec Biterator

/-! ## MCU coordinates -/

/-- Coordinates `(y, x)` of the `k`-th MCU. -/
def mcuCoord (size : Dim) (k : Nat) : Nat × Nat := (k / size.width, k % size.width)

theorem mcuList_eq (size : Dim) :
    mcuList size = (List.range (size.width * size.height)).map (mcuCoord size) := by
  obtain ⟨w, h⟩ := size
  unfold mcuList mcuCoord
  simp only
  induction h with
  | zero => simp
  | succ h ih =>
    rw [List.range_succ, List.flatMap_append, ih, Nat.mul_succ, List.range_add, List.map_append]
    congr 1
    simp only [List.flatMap_cons, List.flatMap_nil, List.append_nil, List.map_map]
    apply List.map_congr_left
    intro x hx
    have hx : x < w := by simpa using hx
    simp only [Function.comp]
    rw [Nat.mul_add_div (by omega), Nat.div_eq_of_lt hx, Nat.mul_add_mod, Nat.mod_eq_of_lt hx]
    simp

theorem isLast_iff {size : Dim} {k : Nat} (hk : k < size.width * size.height) :
    (k % size.width = size.width - 1 ∧ k / size.width = size.height - 1) ↔
      k + 1 = size.width * size.height := by
  obtain ⟨w, h⟩ := size
  simp only at *
  have hw : 0 < w := by
    rcases Nat.eq_zero_or_pos w with h0 | h0
    · subst h0; simp at hk
    · exact h0
  have hdm := Nat.div_add_mod k w
  have hm := Nat.mod_lt k hw
  have hd : k / w < h := Nat.div_lt_of_lt_mul hk
  have hh : 0 < h := lt_of_le_of_lt (Nat.zero_le _) hd
  constructor
  · rintro ⟨h1, h2⟩
    rw [h2, h1] at hdm
    obtain ⟨h', rfl⟩ : ∃ h', h = h' + 1 := ⟨h - 1, by omega⟩
    rw [Nat.add_sub_cancel] at hdm
    rw [Nat.mul_succ]; omega
  · intro he
    obtain ⟨h', rfl⟩ : ∃ h', h = h' + 1 := ⟨h - 1, by omega⟩
    rw [Nat.mul_succ] at he
    have : k / w = h' := by
      apply Nat.div_eq_of_lt_le
      · rw [Nat.mul_comm]; omega
      · rw [Nat.mul_comm, Nat.mul_succ]; omega
    rw [this] at hdm
    constructor <;> omega

/-! ## Restart protocol -/

/-- Where the restart counters stand after `k` MCUs with restart interval `r`. -/
structure RstAt (r : Nat) (frame : Frame) (k : Nat) (s : St) : Prop where
  interval : s.dec.restartInterval = r
  frame : s.dec.frame = some frame
  left : 0 < r → s.dec.scanState.mcusLeftUntilRestart = r - k % r
  expected : 0 < r → s.dec.scanState.expectedRstNum = k / r % 8

/-- The MCU after which a restart marker is due: the interval is full and MCUs are still to come. -/
def RstDue (r total k : Nat) : Prop := 0 < r ∧ (k + 1) % r = 0 ∧ k + 1 < total

/-- The state after a restart marker. -/
def afterRestart (r k : Nat) (s : St) (rest : List UInt8) : St :=
  ⟨{ s.dec with scanState := { s.dec.scanState with
      dcPredictors := List.replicate MAX_COMPONENTS 0
      eobRun := 0
      expectedRstNum := (k / r % 8 + 1) % 8
      mcusLeftUntilRestart := r } }, ⟨rest, 0, 0⟩⟩

theorem succ_mod_div {r k : Nat} (h : 0 < r) :
    ((k + 1) % r = 0 → k % r = r - 1 ∧ (k + 1) / r = k / r + 1) ∧
    ((k + 1) % r ≠ 0 → (k + 1) % r = k % r + 1 ∧ (k + 1) / r = k / r) := by
  have hdm := Nat.div_add_mod k r
  have hm := Nat.mod_lt k h
  by_cases he : k % r = r - 1
  · have : k + 1 = r * (k / r + 1) := by rw [Nat.mul_succ]; omega
    constructor
    · intro _
      refine ⟨he, ?_⟩
      rw [this, Nat.mul_div_cancel_left _ h]
    · intro hne
      rw [this, Nat.mul_mod_right] at hne; omega
  · have e1 : (k + 1) % r = k % r + 1 := by
      have : k + 1 = r * (k / r) + (k % r + 1) := by omega
      rw [this, Nat.mul_add_mod, Nat.mod_eq_of_lt (by omega)]
    have e2 : (k + 1) / r = k / r := by
      have : k + 1 = r * (k / r) + (k % r + 1) := by omega
      rw [this, Nat.mul_add_div h, Nat.div_eq_of_lt (show k % r + 1 < r by omega), Nat.add_zero]
    constructor
    · intro h0; omega
    · intro _; exact ⟨e1, e2⟩

theorem restartParser_at {cfg : Cfg} {r k : Nat} {frame : Frame} {s : St}
    (hr : r < 2 ^ 16) (h : RstAt r frame k s)
    (hk : k < frame.mcuSize.width * frame.mcuSize.height) :
    (RstDue r (frame.mcuSize.width * frame.mcuSize.height) k →
      (∀ f, marker s.bi.input = .error f → ∃ s',
        restartParser cfg (k % frame.mcuSize.width) (k / frame.mcuSize.width) s = .fail f s') ∧
      ∀ m rest, marker s.bi.input = .ok (m, rest) →
        (m = .RST (k / r % 8) →
          restartParser cfg (k % frame.mcuSize.width) (k / frame.mcuSize.width) s =
            .ok () (afterRestart r k s rest)) ∧
        (m ≠ .RST (k / r % 8) → ∃ e s',
          restartParser cfg (k % frame.mcuSize.width) (k / frame.mcuSize.width) s =
            .fail (.err e) s' ∧ (e = .wrongRst ∨ e = .notRst))) ∧
    (¬ RstDue r (frame.mcuSize.width * frame.mcuSize.height) k →
      ∃ left, restartParser cfg (k % frame.mcuSize.width) (k / frame.mcuSize.width) s =
        .ok () { s with dec := { s.dec with scanState := { s.dec.scanState with
          mcusLeftUntilRestart := left } } } ∧
        (k + 1 < frame.mcuSize.width * frame.mcuSize.height → 0 < r → left = r - (k + 1) % r)) := by
  by_cases hr0 : 0 < r
  · have hleft := h.left hr0
    have hexp := h.expected hr0
    have hm := Nat.mod_lt k hr0
    obtain ⟨e1, e2⟩ := succ_mod_div (k := k) hr0
    have hw : (r - k % r + 2 ^ 16 - 1) % 2 ^ 16 = r - k % r - 1 := by
      rw [show r - k % r + 2 ^ 16 - 1 = (r - k % r - 1) + 2 ^ 16 by omega, Nat.add_mod_right,
        Nat.mod_eq_of_lt (by omega)]
    constructor
    · rintro ⟨_, hz, hlt⟩
      have hp : (r - k % r - 1 = 0) ∧ ¬ (k % frame.mcuSize.width = frame.mcuSize.width - 1 ∧
          k / frame.mcuSize.width = frame.mcuSize.height - 1) := by
        refine ⟨by have := (e1 hz).1; omega, ?_⟩
        rw [isLast_iff hk]; omega
      refine ⟨?_, ?_⟩
      · intro f hmk
        unfold restartParser
        rw [if_pos (by rw [h.interval]; exact hr0), h.frame]
        simp only [hleft, hexp]
        rw [if_neg (by omega), hw, if_pos hp, hmk]
        exact ⟨_, rfl⟩
      · intro m rest hmk
        have hgo : restartParser cfg (k % frame.mcuSize.width) (k / frame.mcuSize.width) s =
            handleRestart m ⟨{ s.dec with scanState := { s.dec.scanState with
              mcusLeftUntilRestart := r - k % r - 1 } }, { s.bi with input := rest }⟩ := by
          unfold restartParser
          rw [if_pos (by rw [h.interval]; exact hr0), h.frame]
          simp only [hleft]
          rw [if_neg (by omega), hw, if_pos hp, hmk]
          rfl
        constructor
        · rintro rfl
          rw [hgo]
          unfold handleRestart
          simp only [hexp, ne_eq, not_true, if_false]
          simp only [Biterator.reset, afterRestart, h.interval]
        · intro hne
          rw [hgo]
          unfold handleRestart
          cases m with
          | RST n =>
            simp only [hexp]
            rw [if_pos (by intro hn; exact hne (by rw [hn]))]
            exact ⟨_, _, rfl, Or.inl rfl⟩
          | _ => exact ⟨_, _, rfl, Or.inr rfl⟩
    · intro hnd
      have hp : ¬ ((r - k % r - 1 = 0) ∧
          ¬ (k % frame.mcuSize.width = frame.mcuSize.width - 1 ∧
          k / frame.mcuSize.width = frame.mcuSize.height - 1)) := by
        rintro ⟨h0, hl⟩
        rw [isLast_iff hk] at hl
        apply hnd
        refine ⟨hr0, ?_, by omega⟩
        by_contra hz
        have := Nat.mod_lt (k + 1) hr0
        have := (e2 hz).1; omega
      refine ⟨r - k % r - 1, ?_, ?_⟩
      · unfold restartParser
        rw [if_pos (by rw [h.interval]; exact hr0), h.frame]
        simp only [hleft]
        rw [if_neg (by omega), hw, if_neg hp]
      · intro hlt _
        have hz : (k + 1) % r ≠ 0 := fun hz => hnd ⟨hr0, hz, hlt⟩
        have := (e2 hz).1; omega
  · constructor
    · rintro ⟨h0, _⟩; omega
    · intro _
      refine ⟨s.dec.scanState.mcusLeftUntilRestart, ?_, fun _ h => absurd h hr0⟩
      unfold restartParser
      rw [if_neg (by rw [h.interval]; omega)]

end Jpeg
