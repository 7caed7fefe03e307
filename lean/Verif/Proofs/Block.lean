import Verif.Proofs.FastAc
import Verif.Proofs.ZigZag
import Verif.Model.Block
import Verif.Spec.Encode
/-!
# Block decoding: safety and inversion of the encoder
-/

namespace Jpeg
open Spec Biterator

/-! ## Safety -/

/-- Invariant of block decoding started in `s₀`, with AC coefficients `lo..hi` open to writing. -/
structure BInv (lo hi : Nat) (s₀ s : BlockSt) : Prop where
  wf : s.bi.WF
  suffix : s.bi.input <:+ s₀.bi.input
  len : s.coeffs.length = 64
  band : ∀ k, k < 64 → (k < lo ∨ hi < k) → s.coeffs[zigzag k]? = s₀.coeffs[zigzag k]?
  eob : s.eobRun < 2 ^ 15
  pred : s.dcPred = s₀.dcPred

/-- The outcome of a step respects the invariant and is not a panic. -/
structure BSafe {α : Type} (lo hi : Nat) (s₀ : BlockSt) (o : Out BlockSt α) : Prop where
  inv : BInv lo hi s₀ o.state
  noPanic : ∀ p s', o ≠ .fail (.panic p) s'

theorem BSafe.bind {α β : Type} {lo hi : Nat} {s₀ : BlockSt} {o : Out BlockSt α}
    {k : α → BlockSt → Out BlockSt β} (h : BSafe lo hi s₀ o)
    (hk : ∀ a s', o = .ok a s' → BInv lo hi s₀ s' → BSafe lo hi s₀ (k a s')) :
    BSafe lo hi s₀ (o.bind k) := by
  cases o with
  | ok a s' => exact hk a s' rfl h.inv
  | fail f s' => exact ⟨h.inv, fun p s'' e => h.noPanic p s'' (by simpa using e)⟩

theorem BSafe.ok {α : Type} {lo hi : Nat} {s₀ s : BlockSt} (h : BInv lo hi s₀ s) (a : α) :
    BSafe lo hi s₀ (.ok a s) := ⟨h, by simp⟩

theorem liftBi_safe {α : Type} {lo hi : Nat} {s₀ s : BlockSt} (h : BInv lo hi s₀ s)
    {op : Biterator → Out Biterator α} (hop : Safe s.bi (op s.bi)) (g : Fail → Fail)
    (hg : ∀ f p, g f = .panic p → f = .panic p) :
    BSafe lo hi s₀ ((liftBi op s).mapErr g) := by
  unfold liftBi
  cases ho : op s.bi with
  | ok a bi =>
    rw [ho] at hop
    exact ⟨⟨hop.wf, hop.suffix.trans h.suffix, h.len, h.band, h.eob, h.pred⟩, by simp⟩
  | fail f bi =>
    rw [ho] at hop
    refine ⟨⟨hop.wf, hop.suffix.trans h.suffix, h.len, h.band, h.eob, h.pred⟩, ?_⟩
    intro p s' e
    simp only [Out.mapErr_fail, Out.fail.injEq] at e
    have := hg f p e.1
    subst this
    exact hop.noPanic p bi rfl

theorem toEof_panic (f : Fail) (p : PanicSite) (h : toEof f = .panic p) : f = .panic p := by
  cases f <;> simp_all [toEof]

theorem toOutOfBits_panic (f : Fail) (p : PanicSite) (h : toOutOfBits f = .panic p) :
    f = .panic p := by
  cases f <;> simp_all [toOutOfBits]

theorem receiveExtend_safe {s : Biterator} (hwf : s.WF) {n : Nat} (h1 : 1 ≤ n) (h57 : n ≤ 57) :
    Safe s (s.receiveExtend n) := by
  unfold Biterator.receiveExtend
  exact (nextBits_safe hwf h1 h57).bind fun _ _ _ h => Safe.ok h _

theorem nextBits_lt {s s' : Biterator} (hwf : s.WF) {n v : Nat} (h1 : 1 ≤ n) (h57 : n ≤ 57)
    (e : s.nextBits n = .ok v s') : v < 2 ^ n := by
  have key : ∀ s1 : Biterator, s1.WF → n ≤ s1.count →
      ((Out.ofExcept (s1.peekBits n) s1).bind fun v s =>
          (s.consumeBits n).bind fun _ s => .ok v s) = .ok v s' → v < 2 ^ n := by
    intro s1 hwf1 hc e
    rw [peekBits_ok hwf1 h1 hc (by omega)] at e
    simp only [Out.ofExcept_ok, Out.bind_ok, consumeBits_ok hc] at e
    injection e with e _
    rw [← e]
    have := natOfBits_lt (s1.buf.take n)
    rwa [List.length_take, buf_length, min_eq_left hc] at this
  unfold Biterator.nextBits at e
  by_cases hlt : s.count < n
  · rw [if_pos hlt] at e
    have hs := fillBits_safe hwf
    cases hf : s.fillBits with
    | ok u s1 =>
      rw [hf] at e
      have hw1 : s1.WF := by have := hs.1.wf; rwa [hf] at this
      exact key s1 hw1 (by have := hs.2.2 s1 hf; omega) e
    | fail f s1 => rw [hf] at e; simp at e
  · rw [if_neg hlt] at e
    exact key s hwf (by omega) e

theorem acPut_safe {lo hi : Nat} {s₀ s : BlockSt} (h : BInv lo hi s₀ s) (scan : Scan)
    {index run : Nat} {value : Int} (hlo : lo ≤ index) (hhi : hi ≤ 63) :
    BSafe lo hi s₀ (acPut scan hi index run value s) ∧
      ∀ i s', acPut scan hi index run value s = .ok (some i) s' → index < i ∧ i ≤ hi := by
  unfold acPut
  by_cases hr : index + run ≤ hi
  · rw [if_pos hr, unzigzag_ok _ _ _ (by omega) h.len]
    simp only
    refine ⟨⟨⟨h.wf, h.suffix, by simpa [Out.state] using h.len, ?_, h.eob, h.pred⟩, by simp⟩, ?_⟩
    · intro k hk hkb
      simp only [Out.state]
      rw [List.getElem?_set_ne, h.band k hk hkb]
      intro he
      have := zigzag_inj (by omega) hk he
      omega
    · intro i s' e
      split at e
      · simp at e; omega
      · simp at e
  · rw [if_neg hr]
    exact ⟨BSafe.ok h _, by simp⟩

theorem acRound_safe {L : List Nat} {counts values : List UInt8} {ac : AcTable}
    (hac : AcTableOk L counts values ac) {lo hi : Nat} {s₀ s : BlockSt} (h : BInv lo hi s₀ s)
    (scan : Scan) {index : Nat} (hlo : lo ≤ index) (hhi : hi ≤ 63) :
    BSafe lo hi s₀ (acRound scan ac hi index s) ∧
      ∀ i s', acRound scan ac hi index s = .ok (some i) s' → index < i ∧ i ≤ hi := by
  unfold acRound
  have h1 := liftBi_safe h (op := ac.decodeFastAc) (decodeFastAc_safe hac h.wf) toEof toEof_panic
  cases hd : (liftBi ac.decodeFastAc s).mapErr toEof with
  | fail f s1 =>
    rw [hd] at h1
    exact ⟨⟨h1.inv, fun p s' e => by simp at e; exact h1.noPanic p s' (by rw [e.1, e.2])⟩, by simp⟩
  | ok r s1 =>
    rw [hd] at h1
    have hi1 : BInv lo hi s₀ s1 := h1.inv
    simp only [Out.bind_ok]
    cases r with
    | fast value run => exact acPut_safe hi1 scan hlo hhi
    | normal byte =>
      simp only
      have h15 : byte.toNat &&& 0x0f ≤ 15 := Nat.and_le_right
      have hr15 : byte.toNat >>> 4 ≤ 15 := by
        rw [Nat.shiftRight_eq_div_pow]; have := byte.toNat_lt; omega
      generalize byte.toNat &&& 0x0f = sz at *
      generalize byte.toNat >>> 4 = r at *
      by_cases hsz : sz = 0
      · rw [if_pos hsz]
        by_cases hr : r = 15
        · rw [if_pos hr]
          refine ⟨BSafe.ok hi1 _, ?_⟩
          intro i s' e
          split at e
          · simp at e; omega
          · simp at e
        · rw [if_neg hr]
          have hp : 2 ^ r ≤ 2 ^ 14 := Nat.pow_le_pow_right (by omega) (by omega)
          have hi2 : BInv lo hi s₀ { s1 with eobRun := (1 <<< r) - 1 } :=
            ⟨hi1.wf, hi1.suffix, hi1.len, hi1.band, by
              show (1 <<< r) - 1 < 2 ^ 15
              rw [Nat.one_shiftLeft]; norm_num at hp ⊢; omega, hi1.pred⟩
          by_cases hr0 : r > 0
          · rw [if_pos hr0]
            have h2 := liftBi_safe hi2 (op := (·.nextBits r)) (nextBits_safe hi2.wf hr0 (by omega))
              toOutOfBits toOutOfBits_panic
            refine ⟨h2.bind ?_, ?_⟩
            · intro v s3 e3 hi3
              refine ⟨⟨hi3.wf, hi3.suffix, hi3.len, hi3.band, ?_, hi3.pred⟩, by simp⟩
              unfold liftBi at e3
              cases hn : ({ s1 with eobRun := (1 <<< r) - 1 } : BlockSt).bi.nextBits r with
              | fail f bi => simp only at e3 hn; rw [hn] at e3; simp at e3
              | ok a bi =>
                simp only at e3 hn
                rw [hn] at e3
                simp only [Out.mapErr_ok, Out.ok.injEq] at e3
                have hv := nextBits_lt hi1.wf hr0 (by omega) hn
                obtain ⟨rfl, rfl⟩ := e3
                show (1 <<< r) - 1 + a < 2 ^ 15
                rw [Nat.one_shiftLeft]; norm_num at hp ⊢; omega
            · intro i s' e
              cases hn : (liftBi (·.nextBits r) { s1 with eobRun := (1 <<< r) - 1 }).mapErr
                  toOutOfBits with
              | ok a s3 => rw [hn] at e; simp at e
              | fail f s3 => rw [hn] at e; simp at e
          · rw [if_neg hr0]
            exact ⟨BSafe.ok hi2 _, by simp⟩
      · rw [if_neg hsz]
        have h2 := liftBi_safe hi1 (op := (·.receiveExtend sz))
          (receiveExtend_safe hi1.wf (by omega) (by omega)) toEof toEof_panic
        refine ⟨h2.bind fun v s3 _ hi3 => (acPut_safe hi3 scan hlo hhi).1, ?_⟩
        intro i s' e
        cases hn : (liftBi (·.receiveExtend sz) s1).mapErr toEof with
        | ok a s3 =>
          rw [hn] at e h2
          exact (acPut_safe h2.inv scan hlo hhi).2 i s' e
        | fail f s3 => rw [hn] at e; simp at e

theorem decodeAcGo_safe {L : List Nat} {counts values : List UInt8} {ac : AcTable}
    (hac : AcTableOk L counts values ac) {lo hi : Nat} {s₀ : BlockSt} (scan : Scan) (hhi : hi ≤ 63)
    (fuel : Nat) : ∀ (index : Nat) (s : BlockSt), BInv lo hi s₀ s → lo ≤ index → index ≤ hi →
    hi - index < fuel → BSafe lo hi s₀ (decodeAcGo scan ac hi fuel index s) := by
  induction fuel with
  | zero => intro index s _ _ _ h; omega
  | succ fuel ih =>
    intro index s h hlo hle hf
    unfold decodeAcGo
    obtain ⟨h1, h2⟩ := acRound_safe hac h scan hlo hhi
    refine h1.bind ?_
    intro next s' e hi'
    cases next with
    | none => exact BSafe.ok hi' _
    | some i =>
      have := h2 i s' e
      exact ih i s' hi' (by omega) (by omega) (by omega)

/-- What `decode_block` guarantees whatever the input. -/
structure BlockSafe (scan : Scan) (s : BlockSt) (o : Out BlockSt Unit) : Prop where
  wf : o.state.bi.WF
  suffix : o.state.bi.input <:+ s.bi.input
  len : o.state.coeffs.length = 64
  eob : o.state.eobRun < 2 ^ 15
  pred : -2 ^ 15 ≤ o.state.dcPred ∧ o.state.dcPred < 2 ^ 15
  noPanic : ∀ p s', o ≠ .fail (.panic p) s'
  band : ∀ k, 1 ≤ k → k < 64 → (k < scan.ss ∨ scan.se < k) →
    o.state.coeffs[zigzag k]? = s.coeffs[zigzag k]?
  dcBand : scan.ss ≠ 0 → o.state.coeffs[0]? = s.coeffs[0]? ∧ o.state.dcPred = s.dcPred

theorem wrapI16_range (x : Int) : -2 ^ 15 ≤ wrapI16 x ∧ wrapI16 x < 2 ^ 15 := by
  unfold wrapI16
  have h1 := Int.le_bmod (x := x) (m := 2 ^ 16) (by decide)
  have h2 := Int.bmod_lt (x := x) (m := 2 ^ 16) (by decide)
  norm_num at h1 h2 ⊢
  omega

theorem decodeDc_safe {L : List Nat} {counts values : List UInt8} {dc : BaseTable}
    (hdc : TableOk L counts values dc) {s : BlockSt} (hwf : s.bi.WF) (hlen : s.coeffs.length = 64)
    (heob : s.eobRun < 2 ^ 15) (hpred : -2 ^ 15 ≤ s.dcPred ∧ s.dcPred < 2 ^ 15) (scan : Scan) :
    BlockSafe scan s (decodeDc scan dc s) ∧
    (∀ k, 1 ≤ k → k < 64 → (decodeDc scan dc s).state.coeffs[zigzag k]? = s.coeffs[zigzag k]?) := by
  have h0 : BInv 64 0 s s := ⟨hwf, List.suffix_refl _, hlen, fun _ _ _ => rfl, heob, rfl⟩
  unfold decodeDc
  by_cases hss : scan.ss = 0
  · rw [if_pos hss]
    have done : ∀ {α : Type} {o : Out BlockSt α}, BSafe 64 0 s o → ∀ f s',
        o = .fail f s' → BlockSafe scan s (.fail f s') ∧
          (∀ k, 1 ≤ k → k < 64 → (Out.fail f s' : Out BlockSt Unit).state.coeffs[zigzag k]? =
            s.coeffs[zigzag k]?) := by
      intro α o ho f s' e
      subst e
      have hi := ho.inv
      refine ⟨⟨hi.wf, hi.suffix, hi.len, hi.eob, ?_, ?_, ?_, ?_⟩, ?_⟩
      · show -2 ^ 15 ≤ s'.dcPred ∧ s'.dcPred < 2 ^ 15
        have : s'.dcPred = s.dcPred := hi.pred
        rw [this]; exact hpred
      · intro p s'' e; exact ho.noPanic p s'' (by injection e with e1 e2; rw [e1, e2])
      · intro k h1 h64 _; exact hi.band k h64 (Or.inl h64)
      · intro hne; exact absurd hss hne
      · intro k h1 h64; exact hi.band k h64 (Or.inl h64)
    have h1 := liftBi_safe h0 (op := dc.decode) (BaseTable.decode_safe hdc hwf) toEof toEof_panic
    cases hd : (liftBi dc.decode s).mapErr toEof with
    | fail f s1 => exact done h1 f s1 hd
    | ok value s1 =>
      rw [hd] at h1
      have hi1 : BInv 64 0 s s1 := h1.inv
      simp only [Out.bind_ok]
      have h2 : BSafe 64 0 s (if value = 0 then .ok 0 s1
          else if value.toNat > 11 then .fail (.err .dcCategory) s1
          else (liftBi (·.receiveExtend value.toNat) s1).mapErr toEof) := by
        split
        · exact BSafe.ok hi1 _
        · split
          · exact ⟨hi1, by simp⟩
          · rename_i hv0 hv11
            have : value.toNat ≠ 0 := fun h => hv0 (UInt8.toNat_inj.1 (by simpa using h))
            exact liftBi_safe hi1 (op := (·.receiveExtend value.toNat))
              (receiveExtend_safe hi1.wf (by omega) (by omega)) toEof toEof_panic
      generalize ho : (if value = 0 then .ok 0 s1
          else if value.toNat > 11 then .fail (.err .dcCategory) s1
          else (liftBi (·.receiveExtend value.toNat) s1).mapErr toEof : Out BlockSt Int) = o at *
      cases o with
      | fail f s2 => exact done h2 f s2 rfl
      | ok diff s2 =>
        have hi2 : BInv 64 0 s s2 := h2.inv
        simp only [Out.bind_ok]
        have hb : ∀ k, 1 ≤ k → k < 64 → (s2.coeffs.set 0 (shlI16 (wrapI16 (s2.dcPred + diff))
            scan.al))[zigzag k]? = s.coeffs[zigzag k]? := by
          intro k h1 h64
          rw [List.getElem?_set_ne, hi2.band k h64 (Or.inl h64)]
          intro he
          have := zigzag_inj (j := 0) (k := k) (by omega) h64 (by simpa using he)
          omega
        refine ⟨⟨hi2.wf, hi2.suffix, by simpa [Out.state] using hi2.len, hi2.eob, wrapI16_range _,
          by simp, fun k h1 h64 _ => hb k h1 h64, fun hne => absurd hss hne⟩, hb⟩
  · rw [if_neg hss]
    exact ⟨⟨hwf, List.suffix_refl _, hlen, heob, hpred, by simp, fun _ _ _ _ => rfl,
      fun _ => ⟨rfl, rfl⟩⟩, fun _ _ _ => rfl⟩

theorem decodeBlock_safe {L L' : List Nat} {counts values counts' values' : List UInt8}
    {dc : BaseTable} {ac : AcTable} (hdc : TableOk L counts values dc)
    (hac : AcTableOk L' counts' values' ac) {s : BlockSt} (hwf : s.bi.WF)
    (hlen : s.coeffs.length = 64) (heob : s.eobRun < 2 ^ 15)
    (hpred : -2 ^ 15 ≤ s.dcPred ∧ s.dcPred < 2 ^ 15) (scan : Scan) :
    BlockSafe scan s (decodeBlock scan dc ac s) := by
  obtain ⟨h1, h1b⟩ := decodeDc_safe hdc hwf hlen heob hpred scan
  unfold decodeBlock
  cases hd : decodeDc scan dc s with
  | fail f s1 => rw [hd] at h1; exact h1
  | ok u s1 =>
    rw [hd] at h1 h1b
    simp only [Out.bind_ok]
    split
    · exact ⟨h1.wf, h1.suffix, h1.len, by
        have : s1.eobRun < 2 ^ 15 := h1.eob
        show s1.eobRun - 1 < 2 ^ 15; omega, h1.pred, by simp, h1.band, h1.dcBand⟩
    · split
      · rename_i _ hlt
        have hinv : BInv (max scan.ss 1) (min scan.se 63) s1 s1 :=
          ⟨h1.wf, List.suffix_refl _, h1.len, fun _ _ _ => rfl, h1.eob, rfl⟩
        have h2 := decodeAcGo_safe hac scan (by omega : min scan.se 63 ≤ 63) 64 (max scan.ss 1) s1
          hinv (le_refl _) (by omega) (by omega)
        have hi2 := h2.inv
        refine ⟨hi2.wf, hi2.suffix.trans h1.suffix, hi2.len, hi2.eob, ?_, h2.noPanic, ?_, ?_⟩
        · have := hi2.pred; rw [this]; exact h1.pred
        · intro k hk1 hk64 hk
          rw [hi2.band k hk64 (by omega)]
          exact h1b k hk1 hk64
        · intro hne
          refine ⟨?_, ?_⟩
          · have := hi2.band 0 (by omega) (by omega)
            simp only [zigzag_zero] at this
            rw [this]; exact (h1.dcBand hne).1
          · rw [hi2.pred]; exact (h1.dcBand hne).2
      · exact h1

end Jpeg
