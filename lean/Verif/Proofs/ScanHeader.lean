import Verif.Proofs.Parser
import Verif.Spec.File
/-!
# Lemmas about the scan header parser
-/

namespace Jpeg
open Spec

/-- `i` is the first position of the identifier in the frame. -/
def FirstAt (cs : List Component) (id : UInt8) (i : Nat) : Prop :=
  (∃ c, cs[i]? = some c ∧ c.id = id) ∧ ∀ (j : Nat) (c : Component), j < i → cs[j]? = some c → c.id ≠ id

theorem findComponent_iff (id : UInt8) : ∀ (cs : List Component) (i : Nat),
    findComponent id cs = some i ↔ FirstAt cs id i := by
  intro cs
  induction cs with
  | nil => intro i; simp [findComponent, FirstAt]
  | cons c cs ih =>
    intro i
    rw [findComponent]
    split
    · rename_i h
      constructor
      · intro e; injection e with e; subst e
        exact ⟨⟨c, by simp, h⟩, by intro j c' hj; omega⟩
      · rintro ⟨h1, h2⟩
        cases i with
        | zero => rfl
        | succ i => exact absurd h (h2 0 c (by omega) (by simp))
    · rename_i h
      cases i with
      | zero =>
        simp only [Option.map_eq_some_iff, Nat.add_eq_zero_iff, one_ne_zero, and_false, exists_false,
          false_iff]
        rintro ⟨⟨c', e, hc⟩, _⟩
        simp at e; subst e; exact h hc
      | succ i =>
        simp only [Option.map_eq_some_iff, Nat.add_right_cancel_iff, exists_eq_right]
        rw [ih i]
        constructor
        · rintro ⟨⟨c', e, hc⟩, h2⟩
          refine ⟨⟨c', by simpa using e, hc⟩, ?_⟩
          intro j c'' hj e'
          cases j with
          | zero => simp at e'; subst e'; exact h
          | succ j => exact h2 j c'' (by omega) (by simpa using e')
        · rintro ⟨⟨c', e, hc⟩, h2⟩
          refine ⟨⟨c', by simpa using e, hc⟩, ?_⟩
          intro j c'' hj e'
          exact h2 (j + 1) c'' (by omega) (by simpa using e')

theorem findComponent_none {id : UInt8} : ∀ {cs : List Component},
    findComponent id cs = none ↔ ∀ c ∈ cs, c.id ≠ id := by
  intro cs
  induction cs with
  | nil => simp [findComponent]
  | cons c cs ih =>
    rw [findComponent]
    split
    · rename_i h; simp [h]
    · rename_i h; simp [ih, h]

/-- The header of one component agrees with what the scan header says. -/
def HeaderOk (cs : List Component) (c : ScanComponent) (h : ScanHeader) : Prop :=
  FirstAt cs c.id h.componentIndex ∧ h.dcSel = c.dc ∧ h.acSel = c.ac ∧ c.dc < 16 ∧ c.ac < 16

theorem selNibbles {a b : Nat} (ha : a < 16) (hb : b < 16) :
    (UInt8.ofNat (a * 16 + b)).toNat / 16 = a ∧ (UInt8.ofNat (a * 16 + b)).toNat % 16 = b := by
  rw [ofNat_toNat (by omega)]; omega

theorem selNibbles_inv (b : UInt8) : b = UInt8.ofNat (b.toNat / 16 * 16 + b.toNat % 16) := by
  rw [show b.toNat / 16 * 16 + b.toNat % 16 = b.toNat by omega]; simp

/-- The indices are above the last one and increase. -/
def Increasing (m : Option Nat) (hs : List ScanHeader) : Prop :=
  (∀ k, m = some k → ∀ h ∈ hs, k < h.componentIndex) ∧
    (hs.map (·.componentIndex)).Pairwise (· < ·)

theorem Increasing.cons_iff {m : Option Nat} {h : ScanHeader} {hs : List ScanHeader} :
    Increasing m (h :: hs) ↔
      (∀ k, m = some k → k < h.componentIndex) ∧ Increasing (some h.componentIndex) hs := by
  unfold Increasing
  constructor
  · rintro ⟨h1, h2⟩
    rw [List.map_cons, List.pairwise_cons] at h2
    refine ⟨fun k hk => h1 k hk h (by simp), ?_, h2.2⟩
    intro k hk x hx
    injection hk with hk; subst hk
    exact h2.1 _ (List.mem_map_of_mem hx)
  · rintro ⟨h1, h2, h3⟩
    refine ⟨?_, ?_⟩
    · intro k hk x hx
      rcases List.mem_cons.1 hx with rfl | hx
      · exact h1 k hk
      · exact Nat.lt_trans (h1 k hk) (h2 _ rfl x hx)
    · rw [List.map_cons, List.pairwise_cons]
      refine ⟨?_, h3⟩
      intro a ha
      obtain ⟨x, hx, rfl⟩ := List.mem_map.1 ha
      exact h2 _ rfl x hx

theorem scanHeadersP_ok (fr : Frame) : ∀ (comps : List ScanComponent) (hs : List ScanHeader)
    (m : Option Nat) (rest : List UInt8), List.Forall₂ (HeaderOk fr.components) comps hs →
    Increasing m hs →
    scanHeadersP (some fr) comps.length m
      ((comps.flatMap fun c => [c.id, UInt8.ofNat (c.dc * 16 + c.ac)]) ++ rest) =
      .ok (hs, rest) := by
  intro comps
  induction comps with
  | nil => intro hs m rest h _; cases h; rfl
  | cons c comps ih =>
    intro hs m rest h hi
    cases h with
    | @cons _ x _ hs hx hrest =>
      obtain ⟨h1, h2, h3, h4, h5⟩ := hx
      rw [Increasing.cons_iff] at hi
      rw [List.flatMap_cons, List.length_cons]
      simp only [List.cons_append, List.nil_append]
      rw [scanHeadersP]
      simp only [anyByte, split4Bit_cons]
      rw [(selNibbles h4 h5).1, (selNibbles h4 h5).2, (findComponent_iff _ _ _).2 h1]
      simp only
      have key := ih hs _ rest hrest hi.2
      cases m with
      | none => simp only [key, ← h2, ← h3]
      | some k =>
        have := hi.1 k rfl
        simp only
        rw [if_neg (show ¬ x.componentIndex < k by omega),
          if_neg (show ¬ x.componentIndex = k by omega)]
        simp only [key, ← h2, ← h3]

theorem scanHeadersP_inv (frame : Option Frame) : ∀ (n : Nat) (m : Option Nat)
    (l rest : List UInt8) (hs : List ScanHeader), scanHeadersP frame n m l = .ok (hs, rest) →
    0 < n → ∃ fr comps, frame = some fr ∧ comps.length = n ∧
      l = (comps.flatMap fun c => [c.id, UInt8.ofNat (c.dc * 16 + c.ac)]) ++ rest ∧
      List.Forall₂ (HeaderOk fr.components) comps hs ∧ Increasing m hs := by
  intro n
  induction n with
  | zero => intro m l rest hs _ h; omega
  | succ n ih =>
    intro m l rest hs h _
    match l with
    | [] => simp [scanHeadersP, anyByte] at h
    | [_] => simp [scanHeadersP, anyByte, split4Bit] at h
    | id :: b :: l =>
      rw [scanHeadersP] at h
      simp only [anyByte, split4Bit_cons] at h
      cases frame with
      | none => simp at h
      | some fr =>
        simp only at h
        cases hf : findComponent id fr.components with
        | none => rw [hf] at h; simp at h
        | some i =>
          rw [hf] at h
          simp only at h
          split at h
          · simp at h
          · rename_i hm
            cases hr : scanHeadersP (some fr) n (some i) l with
            | error f => rw [hr] at h; simp at h
            | ok p =>
              obtain ⟨hs', l'⟩ := p
              rw [hr] at h
              simp only [Except.ok.injEq, Prod.mk.injEq] at h
              obtain ⟨rfl, rfl⟩ := h
              have hmk : ∀ k, m = some k → k < i := by
                rintro k rfl
                simp only at hm
                split at hm
                · simp at hm
                · split at hm
                  · simp at hm
                  · omega
              have hb := b.toNat_lt
              have hok : HeaderOk fr.components ⟨id, b.toNat / 16, b.toNat % 16⟩
                  ⟨i, b.toNat / 16, b.toNat % 16⟩ :=
                ⟨(findComponent_iff _ _ _).1 hf, rfl, rfl, by simp only; omega, by simp only; omega⟩
              rcases Nat.eq_zero_or_pos n with rfl | hn
              · simp only [scanHeadersP, Except.ok.injEq, Prod.mk.injEq] at hr
                obtain ⟨rfl, rfl⟩ := hr
                refine ⟨fr, [⟨id, b.toNat / 16, b.toNat % 16⟩], rfl, rfl, ?_, .cons hok .nil, ?_⟩
                · simp only [List.flatMap_cons, List.flatMap_nil, List.append_nil, List.cons_append,
                    List.nil_append]
                  rw [← selNibbles_inv]
                · rw [Increasing.cons_iff]
                  exact ⟨hmk, by simp [Increasing]⟩
              · obtain ⟨fr', comps, e, hl, rfl, hall, hi⟩ := ih _ l l' hs' hr hn
                injection e with e; subst e
                refine ⟨fr, ⟨id, b.toNat / 16, b.toNat % 16⟩ :: comps, rfl, by simp [hl], ?_,
                  .cons hok hall, Increasing.cons_iff.2 ⟨hmk, hi⟩⟩
                simp only [List.flatMap_cons, List.cons_append, List.nil_append]
                rw [← selNibbles_inv]

theorem scanHeadersP_noPanic (frame : Option Frame) : ∀ (n : Nat) (m : Option Nat)
    (l : List UInt8) (p : PanicSite), scanHeadersP frame n m l ≠ .error (.panic p) := by
  intro n
  induction n with
  | zero => intro m l p; simp [scanHeadersP]
  | succ n ih =>
    intro m l p h
    match l with
    | [] => simp [scanHeadersP, anyByte] at h
    | [_] => simp [scanHeadersP, anyByte, split4Bit] at h
    | id :: b :: l =>
      rw [scanHeadersP] at h
      simp only [anyByte, split4Bit_cons] at h
      cases frame with
      | none => simp at h
      | some fr =>
        simp only at h
        cases hf : findComponent id fr.components with
        | none => rw [hf] at h; simp at h
        | some i =>
          rw [hf] at h
          simp only at h
          split at h
          · simp at h
          · cases hr : scanHeadersP (some fr) n (some i) l with
            | error f =>
              rw [hr] at h
              simp only [Except.error.injEq] at h
              exact ih _ _ p (h ▸ hr)
            | ok q => rw [hr] at h; simp at h

theorem sosSegment_noPanic (frame : Option Frame) (l : List UInt8) (p : PanicSite) :
    sosSegment frame l ≠ .error (.panic p) := by
  intro h
  unfold sosSegment at h
  cases l with
  | nil => simp [anyByte] at h
  | cons n l =>
    simp only [anyByte] at h
    split at h
    · simp at h
    · cases hr : scanHeadersP frame n.toNat none l with
      | error f =>
        rw [hr] at h
        simp only [Except.error.injEq] at h
        exact scanHeadersP_noPanic _ _ _ _ p (h ▸ hr)
      | ok q =>
        obtain ⟨hs, l⟩ := q
        rw [hr] at h
        simp only at h
        match l with
        | [] => simp at h
        | [_] => simp at h
        | [_, _] => simp [split4Bit, anyByte] at h
        | _ :: _ :: b :: l => simp only [split4Bit_cons] at h; cases h

theorem sosSegment_ok {fr : Frame} {comps : List ScanComponent} {hs : List ScanHeader}
    (ss se : UInt8) {ah al : Nat} (hah : ah < 16) (hal : al < 16) (rest : List UInt8)
    (h1 : 1 ≤ comps.length) (h4 : comps.length ≤ 4)
    (hh : List.Forall₂ (HeaderOk fr.components) comps hs)
    (hi : (hs.map (·.componentIndex)).Pairwise (· < ·)) :
    sosSegment (some fr) (scanHeader comps ss se ah al ++ rest) =
      .ok (⟨hs, ss.toNat, se.toNat, ah, al⟩, rest) := by
  unfold sosSegment scanHeader
  simp only [List.cons_append, List.append_assoc, anyByte]
  rw [ofNat_toNat (by omega), if_neg (by unfold MAX_COMPONENTS; omega),
    scanHeadersP_ok fr comps hs none _ hh ⟨by simp, hi⟩]
  simp only [List.nil_append, split4Bit_cons]
  rw [(selNibbles hah hal).1, (selNibbles hah hal).2]

theorem sosSegment_inv {frame : Option Frame} {l rest : List UInt8} {scan : Scan}
    (h : sosSegment frame l = .ok (scan, rest)) :
    ∃ fr comps ss se ah al, frame = some fr ∧ ah < 16 ∧ al < 16 ∧ 1 ≤ comps.length ∧
      comps.length ≤ 4 ∧ l = scanHeader comps ss se ah al ++ rest ∧
      List.Forall₂ (HeaderOk fr.components) comps scan.headers ∧
      (scan.headers.map (·.componentIndex)).Pairwise (· < ·) ∧
      scan = ⟨scan.headers, ss.toNat, se.toNat, ah, al⟩ := by
  unfold sosSegment at h
  cases l with
  | nil => simp [anyByte] at h
  | cons n l =>
    simp only [anyByte] at h
    split at h
    · simp at h
    · rename_i hn
      have hn : 1 ≤ n.toNat ∧ n.toNat ≤ 4 := by unfold MAX_COMPONENTS at hn; omega
      cases hr : scanHeadersP frame n.toNat none l with
      | error f => rw [hr] at h; simp at h
      | ok q =>
        obtain ⟨hs, l1⟩ := q
        rw [hr] at h
        simp only at h
        obtain ⟨fr, comps, rfl, hlen, rfl, hall, hi⟩ := scanHeadersP_inv frame _ _ _ _ _ hr (by omega)
        match l1 with
        | [] => simp at h
        | [_] => simp at h
        | [_, _] => simp [split4Bit, anyByte] at h
        | a :: b :: c :: l2 =>
          simp only [split4Bit_cons, Except.ok.injEq, Prod.mk.injEq] at h
          obtain ⟨rfl, rfl⟩ := h
          have hc := c.toNat_lt
          refine ⟨fr, comps, a, b, c.toNat / 16, c.toNat % 16, rfl, by omega, by omega, by omega,
            by omega, ?_, hall, hi.2, rfl⟩
          unfold scanHeader
          rw [← selNibbles_inv, hlen]
          simp

end Jpeg
