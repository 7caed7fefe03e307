import Verif.Proofs.Band
/-!
# The encoder of the standard for bands, read back
-/

namespace Jpeg
open Spec Biterator

/-- Put `pre` in front of the coefficients. -/
def Spec.Reading.after (pre : List Int) (r : Reading (List Int × Nat)) : Reading (List Int × Nat) :=
  r.bind fun x rest => .value (pre ++ x.1, x.2) rest

theorem after_nil (r : Reading (List Int × Nat)) : r.after [] = r := by
  cases r <;> rfl

theorem after_after (a b : List Int) (r : Reading (List Int × Nat)) : (r.after b).after a = r.after (a ++ b) := by
  cases r <;> simp [Spec.Reading.after, Reading.bind]

theorem readBand_zrl {c : Code} (h : Proper c) {z : List Bool} (hz : c.For 0xF0 z) {m : Nat} (hm : 1 ≤ m)
    (w : List Bool) : readBand c (16 + m) (z ++ w) = (readBand c m w).after (List.replicate 16 0) := by
  obtain ⟨k, rfl⟩ : ∃ k, m = k + 1 := ⟨m - 1, by omega⟩
  rw [show 16 + (k + 1) = (16 + k) + 1 by omega, readBand, h.read hz]
  simp only [Reading.bind]
  rw [if_pos (by decide), if_pos (by decide), if_neg (by omega), show 16 + k + 1 - 16 = k + 1 by omega]
  rfl

theorem readBand_zrls {c : Code} (h : Proper c) {z : List Bool} (hz : c.For 0xF0 z) {m : Nat} (hm : 1 ≤ m)
    (w : List Bool) : ∀ q, readBand c (16 * q + m) ((List.replicate q z).flatten ++ w) =
      (readBand c m w).after (List.replicate (16 * q) 0)
  | 0 => by simp [after_nil]
  | q + 1 => by
    rw [show 16 * (q + 1) + m = 16 + (16 * q + m) by ring, List.replicate_succ, List.flatten_cons, List.append_assoc,
      readBand_zrl h hz (by omega), readBand_zrls h hz hm w q, after_after, List.replicate_append_replicate,
      show 16 + 16 * q = 16 * (q + 1) by ring]

theorem readBand_coef {c : Code} (h : Proper c) {r m : Nat} {v : Int} {b : List Bool} (hv : v ≠ 0)
    (hc : category v ≤ 15) (hb : c.For (16 * r + category v) b) (w : List Bool) :
    readBand c (r + 1 + m) (b ++ (additional v ++ w)) = (readBand c m w).after (List.replicate r 0 ++ [v]) := by
  have hp := category_pos hv
  rw [show r + 1 + m = (r + m) + 1 by omega, readBand, h.read hb]
  simp only [Reading.bind]
  rw [if_neg (by omega), show (16 * r + category v) % 16 = category v by omega, receiveExtend_additional hv]
  simp only [Reading.bind]
  rw [show (16 * r + category v) / 16 = r by omega, if_neg (by omega), show r + m - r = m by omega]
  unfold Spec.Reading.after Reading.bind
  simp [List.append_assoc]

theorem encodeCoefs_read {c : Code} (h : Proper c) (l : List Int) : ∀ (run : Nat) (bits : List Bool) (z : Bool),
    encodeCoefs c run l = some (bits, z) → ∃ k pre, List.replicate run 0 ++ l = pre ++ List.replicate k 0 ∧
      (z = true ↔ 0 < k) ∧
      ∀ rest, readBand c (run + l.length) (bits ++ rest) = (readBand c k rest).after pre := by
  induction l with
  | nil =>
    intro run bits z e
    unfold encodeCoefs at e
    injection e with e
    simp only [Prod.mk.injEq] at e
    obtain ⟨rfl, rfl⟩ := e
    exact ⟨run, [], by simp, by simp, fun rest => by simp [after_nil]⟩
  | cons v l ih =>
    intro run bits z e
    unfold encodeCoefs at e
    split at e
    · rename_i h0
      obtain ⟨k, pre, h1, h2, h3⟩ := ih (run + 1) bits z e
      refine ⟨k, pre, ?_, h2, ?_⟩
      · rw [← h1, h0, List.replicate_succ', List.append_assoc]; rfl
      · intro rest
        rw [List.length_cons, show run + (l.length + 1) = run + 1 + l.length by omega]
        exact h3 rest
    · rename_i h0
      split at e
      · rename_i hcat
        rw [Option.bind_eq_some_iff] at e
        obtain ⟨x, hx, e⟩ := e
        rw [Option.bind_eq_some_iff] at e
        obtain ⟨b, hb, e⟩ := e
        rw [Option.bind_eq_some_iff] at e
        obtain ⟨⟨bs, z'⟩, hbs, e⟩ := e
        injection e with e
        simp only [Prod.mk.injEq] at e
        obtain ⟨rfl, rfl⟩ := e
        obtain ⟨k, pre, h1, h2, h3⟩ := ih 0 bs z' hbs
        refine ⟨k, List.replicate run 0 ++ v :: pre, by simpa using h1, h2, ?_⟩
        intro rest
        have hrun := Nat.div_add_mod run 16
        have key : ∀ w, readBand c (run + 1 + l.length) ((List.replicate (run / 16) x).flatten ++ w) =
            (readBand c (run % 16 + 1 + l.length) w).after (List.replicate (16 * (run / 16)) 0) := by
          intro w
          by_cases h16 : run < 16
          · rw [Nat.div_eq_of_lt h16, Nat.mod_eq_of_lt h16]
            simp [after_nil]
          · rw [if_neg h16] at hx
            have := readBand_zrls h (Code.find_for hx) (m := run % 16 + 1 + l.length) (by omega) w (run / 16)
            rw [← this]
            congr 1
            omega
        rw [List.length_cons, show run + (l.length + 1) = run + 1 + l.length by omega, List.append_assoc,
          List.append_assoc, List.append_assoc, key, readBand_coef h h0 hcat (Code.find_for hb), after_after]
        have h3' := h3 rest
        rw [Nat.zero_add] at h3'
        rw [h3', after_after]
        congr 1
        rw [← List.append_assoc, List.replicate_append_replicate, hrun]
        simp
      · simp at e

theorem encodeRun_read {c : Code} (h : Proper c) {run : Nat} (h1 : 1 ≤ run) (h2 : run ≤ 0x7FFF) {x : List Bool}
    (e : encodeRun c run = some x) {k : Nat} (hk : 1 ≤ k) (rest : List Bool) :
    readBand c k (x ++ rest) = .value (List.replicate k 0, run - 1) rest := by
  obtain ⟨k, rfl⟩ : ∃ j, k = j + 1 := ⟨k - 1, by omega⟩
  unfold encodeRun at e
  rw [if_neg (by omega), Option.map_eq_some_iff] at e
  obtain ⟨b, hb, rfl⟩ := e
  have hlog : run.log2 < 15 := (Nat.log2_lt (by omega)).2 (by omega)
  have hlo : 2 ^ run.log2 ≤ run := Nat.log2_self_le (by omega)
  have hhi : run < 2 ^ (run.log2 + 1) := Nat.lt_log2_self
  rw [pow_succ] at hhi
  rw [readBand, List.append_assoc, h.read (Code.find_for hb)]
  simp only [Reading.bind]
  have hd : 16 * run.log2 / 16 = run.log2 := by omega
  rw [if_pos (by omega), hd, if_neg (by omega), if_neg (by simp), List.take_left' (by simp), List.drop_left' (by simp),
    natOfBits_bitsN, Nat.mod_eq_of_lt (by omega), show 2 ^ run.log2 + (run - 2 ^ run.log2) - 1 = run - 1 by omega]

/-- Blocks that are all outside of DC. -/
theorem readBandBlocks_cons {cd ca : Code} {ss se : Nat} (hss : ss ≠ 0) (hn : 1 ≤ bandLength ss se) (p : Int)
    (n run : Nat) (bits : List Bool) :
    readBandBlocks cd ca ss se (n + 1) p run bits =
      if 0 < run then (readBandBlocks cd ca ss se n p (run - 1) bits).bind fun bs rest =>
        .value (⟨p, List.replicate (bandLength ss se) 0⟩ :: bs.1, bs.2) rest
      else (readBand ca (bandLength ss se) bits).bind fun l m =>
        (readBandBlocks cd ca ss se n p l.2 m).bind fun bs rest => .value (⟨p, l.1⟩ :: bs.1, bs.2) rest := by
  rw [readBandBlocks]
  unfold readBandBlock
  rw [if_neg hss]
  simp only [Reading.bind]
  rw [if_neg (by omega)]
  by_cases hr : 0 < run
  · rw [if_pos hr, if_pos hr]
  · rw [if_neg hr, if_neg hr]
    cases readBand ca (bandLength ss se) bits <;> rfl

theorem encodeBands_read {cd ca : Code} (h : Proper ca) {ss se : Nat} (hss : ss ≠ 0) (hn : 1 ≤ bandLength ss se)
    (p : Int) (rest : List Bool) (bs : List (List Int)) : ∀ (run : Nat) (bits : List Bool), run < 0x7FFF →
    (∀ b ∈ bs, b.length = bandLength ss se) → encodeBands ca run bs = some bits →
    (run = 0 → readBandBlocks cd ca ss se bs.length p 0 (bits ++ rest) = .value (bs.map (⟨p, ·⟩), p, 0) rest) ∧
    (1 ≤ run → ∃ j m, run - 1 ≤ j ∧ (∀ k, 1 ≤ k → readBand ca k (bits ++ rest) = .value (List.replicate k 0, j) m) ∧
      readBandBlocks cd ca ss se bs.length p (j - (run - 1)) m = .value (bs.map (⟨p, ·⟩), p, 0) rest) := by
  induction bs with
  | nil =>
    intro run bits hr _ e
    unfold encodeBands at e
    constructor
    · rintro rfl
      unfold encodeRun at e
      rw [if_pos rfl] at e
      injection e with e
      subst e
      rfl
    · intro h1
      refine ⟨run - 1, rest, Nat.le_refl _, fun k hk => encodeRun_read h h1 (by omega) e hk rest, ?_⟩
      rw [Nat.sub_self]; rfl
  | cons b bs ih =>
    intro run bits hr hl e
    have hlb := hl b (by simp)
    have hl' : ∀ b ∈ bs, b.length = bandLength ss se := fun b hb => hl b (by simp [hb])
    rw [List.length_cons, List.map_cons]
    unfold encodeBands at e
    split at e
    · rename_i hz
      have hbz : b = List.replicate (bandLength ss se) 0 := by
        rw [← hlb]; exact List.eq_replicate_iff.2 ⟨rfl, hz⟩
      split at e
      · rename_i h7
        rw [Option.bind_eq_some_iff] at e
        obtain ⟨x, hx, e⟩ := e
        rw [Option.bind_eq_some_iff] at e
        obtain ⟨y, hy, e⟩ := e
        injection e with e
        subst e
        have ih0 := (ih 0 y (by omega) hl' hy).1 rfl
        refine ⟨by omega, fun h1 => ⟨run, y ++ rest, by omega, ?_, ?_⟩⟩
        · intro k hk
          have := encodeRun_read h (by omega) (by omega) hx hk (y ++ rest)
          rw [List.append_assoc, this]
          rfl
        · rw [show run - (run - 1) = 1 by omega, readBandBlocks_cons hss hn, if_pos (by omega), ih0, hbz]
          rfl
      · obtain ⟨j, m, h1, h2, h3⟩ := (ih (run + 1) bits (by omega) hl' e).2 (by omega)
        rw [Nat.add_sub_cancel] at h1 h3
        constructor
        · rintro rfl
          rw [readBandBlocks_cons hss hn, if_neg (by omega), h2 _ hn]
          simp only [Reading.bind]
          rw [Nat.sub_zero] at h3
          rw [h3, ← hbz]
        · intro hr1
          refine ⟨j, m, by omega, h2, ?_⟩
          rw [readBandBlocks_cons hss hn, if_pos (by omega), show j - (run - 1) - 1 = j - run by omega, h3, ← hbz]
          rfl
    · rename_i hz
      rw [Option.bind_eq_some_iff] at e
      obtain ⟨x, hx, e⟩ := e
      rw [Option.bind_eq_some_iff] at e
      obtain ⟨⟨y, zs⟩, hy, e⟩ := e
      rw [Option.bind_eq_some_iff] at e
      obtain ⟨w, hw, e⟩ := e
      injection e with e
      subst e
      obtain ⟨k, pre, h1, h2, h3⟩ := encodeCoefs_read h b 0 y zs hy
      have key : readBandBlocks cd ca ss se (bs.length + 1) p 0 (y ++ (w ++ rest)) =
          .value (⟨p, b⟩ :: bs.map (⟨p, ·⟩), p, 0) rest := by
        have h3' := h3 (w ++ rest)
        rw [Nat.zero_add, hlb] at h3'
        rw [List.replicate_zero, List.nil_append] at h1
        rw [readBandBlocks_cons hss hn, if_neg (by omega), h3']
        simp only at hw
        cases zs with
        | false =>
          have hk : k = 0 := by
            by_contra hk
            have := h2.2 (by omega)
            simp at this
          subst hk
          have ih0 := (ih 0 w (by omega) hl' hw).1 rfl
          rw [readBand]
          simp only [Spec.Reading.after, Reading.bind, ih0]
          rw [List.replicate_zero] at h1
          rw [← h1]
        | true =>
          have hk := h2.1 rfl
          obtain ⟨j, m, -, e2, e3⟩ := (ih 1 w (by omega) hl' hw).2 (by omega)
          rw [e2 k hk]
          simp only [Spec.Reading.after, Reading.bind]
          rw [show j - (1 - 1) = j by omega] at e3
          rw [e3, ← h1]
      constructor
      · rintro rfl
        unfold encodeRun at hx
        rw [if_pos rfl] at hx
        injection hx with hx
        subst hx
        rw [List.nil_append, List.append_assoc]
        exact key
      · intro hr1
        refine ⟨run - 1, y ++ (w ++ rest), Nat.le_refl _, ?_, ?_⟩
        · intro k hk
          rw [List.append_assoc, List.append_assoc]
          exact encodeRun_read h hr1 (by omega) hx hk _
        · rw [Nat.sub_self]
          exact key

end Jpeg
