import Verif.Proofs.Segments
import Verif.Spec.File
import Mathlib.Tactic.IntervalCases
/-!
# Lemmas about the marker and segment parsers
-/

namespace Jpeg
open Spec

/-! ## Markers -/

theorem MarkerAt_cons {b : UInt8} {l : List UInt8} {i : Nat} {c : UInt8} :
    MarkerAt (b :: l) (i + 1) c ↔ MarkerAt l i c := by
  simp [MarkerAt]

theorem MarkerAt_zero {b : UInt8} {l : List UInt8} {c : UInt8} :
    MarkerAt (b :: l) 0 c ↔ b = 0xFF ∧ l[0]? = some c ∧ c ≠ 0 ∧ c ≠ 0xFF := by
  simp [MarkerAt]

/-- What `satisfy_map` makes of a code. -/
def codeResult (c : UInt8) (rest : List UInt8) : Except Fail (Marker × List UInt8) :=
  match markerOfByte c with
  | some m => .ok (m, rest)
  | none => .error (.err .markerExpected)

theorem markerAux_first : ∀ (l : List UInt8) (b : Bool) (i : Nat) (c : UInt8),
    MarkerAt (if b then 0xFF :: l else l) i c →
    (∀ j c', j < i → ¬ MarkerAt (if b then 0xFF :: l else l) j c') →
    markerAux b l = codeResult c ((if b then 0xFF :: l else l).drop (i + 2)) := by
  intro l
  induction l with
  | nil =>
    intro b i c h _
    cases b
    · simp [MarkerAt] at h
    · cases i <;> simp [MarkerAt] at h
  | cons x l ih =>
    intro b i c h hno
    cases b
    · simp only [Bool.false_eq_true, if_false] at h hno ⊢
      rw [markerAux]
      by_cases hx : x = 0xFF
      · subst hx
        rw [beq_self_eq_true]
        exact ih true i c (by simpa using h) (by simpa using hno)
      · rw [show (x == 0xFF) = false by simp [hx]]
        cases i with
        | zero => exact absurd (MarkerAt_zero.1 h).1 hx
        | succ i =>
          rw [List.drop_succ_cons]
          exact ih false i c (by simpa using MarkerAt_cons.1 h)
            (fun j c' hj hm => hno (j + 1) c' (by omega) (MarkerAt_cons.2 (by simpa using hm)))
    · simp only [if_true] at h hno ⊢
      rw [markerAux]
      by_cases hx : x = 0xFF
      · subst hx
        rw [if_pos rfl]
        cases i with
        | zero => exact absurd (MarkerAt_zero.1 h).2 (by simp; tauto)
        | succ i =>
          rw [List.drop_succ_cons]
          exact ih true i c (by simpa using MarkerAt_cons.1 h)
            (fun j c' hj hm => hno (j + 1) c' (by omega) (MarkerAt_cons.2 (by simpa using hm)))
      · rw [if_neg hx]
        by_cases h0 : x = 0
        · subst h0
          rw [if_pos rfl]
          match i with
          | 0 => exact absurd (MarkerAt_zero.1 h).2 (by simp; tauto)
          | 1 => exact absurd (MarkerAt_zero.1 (MarkerAt_cons.1 h)).1 (by decide)
          | i + 2 =>
            rw [List.drop_succ_cons, List.drop_succ_cons]
            exact ih false i c (by simpa using MarkerAt_cons.1 (MarkerAt_cons.1 h))
              (fun j c' hj hm => hno (j + 2) c' (by omega)
                (MarkerAt_cons.2 (MarkerAt_cons.2 (by simpa using hm))))
        · rw [if_neg h0]
          have hat : MarkerAt (0xFF :: x :: l) 0 x := by simp [MarkerAt, h0, hx]
          cases i with
          | zero =>
            have hc : x = c := by simpa using (MarkerAt_zero.1 h).2.1
            subst hc
            rfl
          | succ i => exact absurd hat (hno 0 x (by omega))

theorem markerAux_none : ∀ (l : List UInt8) (b : Bool),
    (∀ j c, ¬ MarkerAt (if b then 0xFF :: l else l) j c) → markerAux b l = .error .eof := by
  intro l
  induction l with
  | nil => intro b _; cases b <;> rfl
  | cons x l ih =>
    intro b hno
    cases b
    · simp only [Bool.false_eq_true, if_false] at hno
      rw [markerAux]
      apply ih
      intro j c hm
      by_cases hx : x = 0xFF
      · subst hx; exact hno j c (by simpa using hm)
      · rw [show (x == 0xFF) = false by simp [hx]] at hm
        exact hno (j + 1) c (MarkerAt_cons.2 (by simpa using hm))
    · simp only [if_true] at hno
      rw [markerAux]
      by_cases hx : x = 0xFF
      · subst hx
        rw [if_pos rfl]
        apply ih
        intro j c hm
        exact hno (j + 1) c (MarkerAt_cons.2 (by simpa using hm))
      · rw [if_neg hx]
        by_cases h0 : x = 0
        · rw [if_pos h0]
          apply ih
          intro j c hm
          exact hno (j + 2) c (MarkerAt_cons.2 (MarkerAt_cons.2 (by simpa using hm)))
        · exact absurd (by simp [MarkerAt, h0, hx]) (hno 0 x)

theorem markerOfByte_spec (b : UInt8) (m : Marker) :
    markerOfByte b = some m ↔ MarkerExists m ∧ markerCode m = b.toNat := by
  constructor
  · intro h
    unfold markerOfByte at h
    simp only at h
    repeat' split at h
    all_goals first
      | (cases h; done)
      | (cases h
         refine ⟨?_, ?_⟩
         · first | trivial | (simp only [MarkerExists]; omega)
         · simp only [markerCode]; omega)
  · rintro ⟨h1, h2⟩
    unfold markerOfByte
    rw [← h2]
    cases m <;> simp only [MarkerExists] at h1
    case SOF i => interval_cases i <;> rfl
    case RST i => interval_cases i <;> rfl
    case APP i => interval_cases i <;> rfl
    all_goals rfl

theorem markerCode_lt {m : Marker} (h : MarkerExists m) : markerCode m < 255 ∧ 0 < markerCode m := by
  cases m <;> simp only [MarkerExists] at h <;> simp only [markerCode] <;> omega

theorem UInt8.ofNat_eq_iff {n : Nat} (h : n < 256) (b : UInt8) : UInt8.ofNat n = b ↔ n = b.toNat := by
  constructor
  · rintro rfl; exact (ofNat_toNat h).symm
  · rintro rfl; simp

theorem marker_bytes {m : Marker} (h : MarkerExists m) (k : Nat) (rest : List UInt8) :
    marker (List.replicate k 0xFF ++ markerBytes m ++ rest) = .ok (m, rest) := by
  have hlt := markerCode_lt h
  have hne : ∀ n, n < 256 → markerCode m ≠ n → UInt8.ofNat (markerCode m) ≠ UInt8.ofNat n := by
    intro n hn hne e
    rw [UInt8.ofNat_eq_iff (by omega), ofNat_toNat hn] at e
    exact hne e
  have hres : markerOfByte (UInt8.ofNat (markerCode m)) = some m :=
    (markerOfByte_spec _ _).2 ⟨h, (ofNat_toNat (by omega)).symm⟩
  have hne1 : UInt8.ofNat (markerCode m) ≠ 0xFF := hne 255 (by omega) (by omega)
  have hne0 : UInt8.ofNat (markerCode m) ≠ 0 := hne 0 (by omega) (by omega)
  have htrue : markerAux true (UInt8.ofNat (markerCode m) :: rest) = .ok (m, rest) := by
    rw [markerAux, if_neg hne1, if_neg hne0, hres]
  unfold marker markerBytes
  have hfill : ∀ (k : Nat) (l : List UInt8),
      markerAux true (List.replicate k 0xFF ++ 0xFF :: l) = markerAux true l := by
    intro k l
    induction k with
    | zero => rw [List.replicate_zero, List.nil_append, markerAux, if_pos rfl]
    | succ k ih => rw [List.replicate_succ, List.cons_append, markerAux, if_pos rfl, ih]
  cases k with
  | zero =>
    simp only [List.replicate_zero, List.nil_append, List.cons_append]
    rw [markerAux, beq_self_eq_true, htrue]
  | succ k =>
    simp only [List.replicate_succ, List.cons_append, List.append_assoc, List.nil_append]
    rw [markerAux, beq_self_eq_true, hfill, htrue]

/-! ## Segments -/

theorem beU16_be16 {n : Nat} (h : n < 65536) (rest : List UInt8) :
    beU16 (be16 n ++ rest) = .ok (n, rest) := by
  simp only [be16, List.cons_append, List.nil_append, beU16]
  rw [ofNat_toNat (by omega), ofNat_toNat (by omega)]
  have : n / 256 * 256 + n % 256 = n := by omega
  rw [this]

theorem beU16_inv {l rest : List UInt8} {n : Nat} (h : beU16 l = .ok (n, rest)) :
    n < 65536 ∧ l = be16 n ++ rest := by
  match l with
  | [] => simp [beU16] at h
  | [_] => simp [beU16] at h
  | a :: b :: l =>
    simp only [beU16, Except.ok.injEq, Prod.mk.injEq] at h
    obtain ⟨rfl, rfl⟩ := h
    have ha := a.toNat_lt; have hb := b.toNat_lt
    refine ⟨by omega, ?_⟩
    unfold be16
    rw [show (a.toNat * 256 + b.toNat) / 256 = a.toNat by omega,
      show (a.toNat * 256 + b.toNat) % 256 = b.toNat by omega]
    simp

theorem takeBytes_append (p rest : List UInt8) : takeBytes p.length (p ++ rest) = .ok (p, rest) := by
  simp [takeBytes]

theorem takeBytes_inv {n : Nat} {l p rest : List UInt8} (h : takeBytes n l = .ok (p, rest)) :
    l = p ++ rest ∧ p.length = n := by
  unfold takeBytes at h
  split at h
  · simp at h
  · simp only [Except.ok.injEq, Prod.mk.injEq] at h
    obtain ⟨rfl, rfl⟩ := h
    simp; omega

theorem segmentBytes_ok (cfg : Cfg) {payload : List UInt8} (h : payload.length + 2 < 65536)
    (rest : List UInt8) : segmentBytes cfg (segmentOf payload ++ rest) = .ok (payload, rest) := by
  unfold segmentBytes segmentOf
  rw [List.append_assoc, beU16_be16 h]
  simp only
  rw [if_neg (by omega), Nat.add_sub_cancel, takeBytes_append]

theorem segmentBytes_inv {cfg : Cfg} {l payload rest : List UInt8}
    (h : segmentBytes cfg l = .ok (payload, rest)) :
    (payload.length + 2 < 65536 ∧ l = segmentOf payload ++ rest) ∨
      (cfg.debug = false ∧ ∃ n, n < 2 ∧ payload.length = 65534 + n ∧ l = be16 n ++ payload ++ rest) := by
  unfold segmentBytes at h
  cases hb : beU16 l with
  | error f => rw [hb] at h; simp at h
  | ok p =>
    obtain ⟨n, l'⟩ := p
    obtain ⟨hn, rfl⟩ := beU16_inv hb
    rw [hb] at h
    simp only at h
    split at h
    · split at h
      · simp at h
      · obtain ⟨rfl, hl⟩ := takeBytes_inv h
        refine Or.inr ⟨by simp_all, n, by omega, by omega, by simp⟩
    · obtain ⟨rfl, hl⟩ := takeBytes_inv h
      refine Or.inl ⟨by omega, ?_⟩
      unfold segmentOf
      rw [show payload.length + 2 = n by omega, List.append_assoc]

end Jpeg
