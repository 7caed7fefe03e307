import Verif.Proofs.StreamRun
import Verif.Proofs.Mcu
import Verif.Spec.Baseline
/-!
# End of band runs and the values of a table; invariants along a run
-/

namespace Jpeg
open HasInput HasLen Spec

theorem searchGo_mem (t : BaseTable) (bits : Nat) : ∀ (fuel i : Nat) (s s' : Biterator) (b : UInt8),
    searchGo t bits fuel i s = .ok b s' → b ∈ t.values := by
  intro fuel
  induction fuel with
  | zero => intro i s s' b h; cases h
  | succ fuel ih =>
    intro i s s' b h
    rw [searchGo] at h
    cases hm : t.maxCode[i]? with
    | none => rw [hm] at h; cases h
    | some m =>
      rw [hm] at h
      simp only at h
      split at h
      · cases hc : s.consumeBits (i + 1) with
        | fail f s1 => rw [hc] at h; cases h
        | ok u s1 =>
          rw [hc, Out.bind_ok] at h
          cases ho : t.valOffset[i]? with
          | none => rw [ho] at h; cases h
          | some off =>
            rw [ho] at h
            simp only at h
            split at h
            · cases h
            · generalize hv : t.values[(((bits >>> (15 - i) : Nat) : Int) + off).toNat]? = v at h
              cases v with
              | none => cases h
              | some v => cases h; exact List.mem_of_getElem? hv
      · exact ih _ _ _ _ h

theorem decodeInner_mem {L : List Nat} {counts values : List UInt8} {t : BaseTable}
    (ht : TableOk L counts values t) {s s' : Biterator} {n : Nat} {b : UInt8}
    (h : t.decodeInner s n = .ok b s') : b ∈ t.values := by
  unfold BaseTable.decodeInner at h
  cases hl : t.lut[n]? with
  | none => rw [hl] at h; cases h
  | some e =>
    obtain ⟨value, size⟩ := e
    rw [hl] at h
    simp only at h
    split at h
    · next hsz =>
      have hb : value = b := by
        cases hc : s.consumeBits size with
        | fail f s1 => rw [hc] at h; cases h
        | ok u s1 => rw [hc] at h; cases h; rfl
      subst hb
      have hn : n < 256 := by
        have := (List.getElem?_eq_some_iff.1 hl).1
        rw [ht.lut.1] at this
        exact this
      rcases ht.lut.2 n hn with ⟨k, v, hk, -, hv, -, -, e⟩ | ⟨-, e⟩
      · rw [hl] at e
        cases e
        have := ht.vals k hk
        rw [hv] at this
        exact List.mem_of_getElem? this
      · rw [hl] at e
        cases e
        omega
    · cases hp : s.peekBits 16 with
      | error f => rw [hp] at h; cases h
      | ok w =>
        rw [hp] at h
        exact searchGo_mem _ _ _ _ _ _ _ h

theorem EobRunTable.values {L : List Nat} {counts values : List UInt8} {t : AcTable}
    (ht : AcTableOk L counts values t) (h : EobRunTable t) : HasEobRun t.table.values := by
  obtain ⟨s, b, s', hd, h1, h2, h3⟩ := h
  have e2 : b.toNat >>> 4 = b.toNat / 16 := Nat.shiftRight_eq_div_pow _ 4
  have e1 : b.toNat &&& 0x0f = b.toNat % 16 := Nat.and_two_pow_sub_one_eq_mod _ 4
  refine ⟨b, ?_, by omega, by omega, by omega⟩
  unfold AcTable.decodeFastAc at hd
  cases he : s.ensure16 with
  | fail f s1 => rw [he] at hd; cases hd
  | ok u s1 =>
    rw [he, Out.bind_ok] at hd
    cases hp : s1.peekBits LUT_BITS with
    | error f => rw [hp] at hd; cases hd
    | ok n =>
      rw [hp, Out.ofExcept_ok, Out.bind_ok] at hd
      cases hl : t.acLut[n]? with
      | none => rw [hl] at hd; cases hd
      | some e =>
        obtain ⟨value, rs⟩ := e
        rw [hl] at hd
        simp only at hd
        split at hd
        · generalize s1.consumeBits (rs &&& 15) = o at hd
          cases o with
          | fail f s2 => cases hd
          | ok u s2 => cases hd
        · cases hi : t.table.decodeInner s1 n with
          | fail f s2 => rw [hi] at hd; cases hd
          | ok c s2 =>
            rw [hi] at hd
            cases hd
            exact decodeInner_mem ht.table hi

/-! ## Along a run -/

theorem Visits.inv {cfg : Cfg} {s u : St} (h : Visits cfg s u) (hd : DecInv s.dec) (hwf : s.bi.WF) :
    DecInv u.dec ∧ u.bi.WF := by
  induction h with
  | refl s => exact ⟨hd, hwf⟩
  | @step s t u m rest hm hne hds h ih =>
    have hs := doSegment_safe (cfg := cfg) (C36_found _ _ _ hm).1 (s := s.setInput rest) hd hwf
    rw [hds] at hs
    exact ih hs.inv hs.wf

/-- The run is deterministic. -/
theorem Visits.cases_step {cfg : Cfg} {s t u : St} {m : Marker} {rest : List UInt8}
    (h : Visits cfg s u) (hm : marker s.bi.input = .ok (m, rest))
    (hd : m ≠ .EOI → doSegment cfg m (s.setInput rest) = .ok () t) : u = s ∨ Visits cfg t u := by
  cases h with
  | refl => exact .inl rfl
  | @step _ t' _ m' rest' hm' hne hd' h' =>
    rw [hm] at hm'
    cases hm'
    rw [hd hne] at hd'
    cases hd'
    exact .inr h'

theorem Visits.eoi {cfg : Cfg} {s u : St} {rest : List UInt8}
    (h : Visits cfg s u) (hm : marker s.bi.input = .ok (.EOI, rest)) : u = s := by
  cases h with
  | refl => rfl
  | @step _ t' _ m' rest' hm' hne hd' h' =>
    rw [hm] at hm'
    cases hm'
    exact absurd rfl hne

end Jpeg
