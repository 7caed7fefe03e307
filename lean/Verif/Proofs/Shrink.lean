import Verif.Model.Decode
/-!
# The unread input never grows
-/

namespace Jpeg

/-- States holding unread input. -/
class HasLen (σ : Type) where
  /-- number of unread bytes -/
  len : σ → Nat

open HasLen

instance : HasLen Biterator := ⟨fun s => s.input.length⟩
instance : HasLen BlockSt := ⟨fun s => s.bi.input.length⟩
instance : HasLen RowSt := ⟨fun s => s.bi.input.length⟩
instance : HasLen McuSt := ⟨fun s => s.bi.input.length⟩
instance : HasLen St := ⟨fun s => s.bi.input.length⟩

/-- At most `n` bytes are left. -/
def Within {σ α : Type} [HasLen σ] (n : Nat) (o : Out σ α) : Prop := len o.state ≤ n

section
variable {σ α β : Type} [HasLen σ] {n : Nat}

theorem Within.bind {o : Out σ α} {k : α → σ → Out σ β} (h : Within n o)
    (hk : ∀ a s, len s ≤ n → Within n (k a s)) : Within n (o.bind k) := by
  cases o with
  | ok a s => exact hk a s h
  | fail f s => exact h

theorem Within.mapErr {o : Out σ α} {g : Fail → Fail} (h : Within n o) : Within n (o.mapErr g) := by
  cases o with
  | ok a s => exact h
  | fail f s => exact h

theorem Within.ofExcept (e : Except Fail α) {s : σ} (h : len s ≤ n) : Within n (Out.ofExcept e s) := by
  cases e with
  | ok a => exact h
  | error f => exact h

end

theorem fillLoop_within (cp : Biterator) : ∀ (n : Nat) (input : List UInt8) (bits count : Nat),
    input.length = n → input.length ≤ cp.input.length →
    Within cp.input.length (Biterator.fillLoop cp input bits count) := by
  intro n
  induction n using Nat.strongRecOn with
  | _ n ih =>
    intro input bits count hn hle
    rw [Biterator.fillLoop.eq_def cp]
    simp only
    split
    · exact hle
    · cases input with
      | nil => exact Nat.zero_le _
      | cons b rest =>
        simp only [List.length_cons] at hn hle
        simp only
        split
        · cases rest with
          | nil => exact Nat.zero_le _
          | cons z rest' =>
            simp only [List.length_cons] at hn hle
            simp only
            split
            · split
              · exact Nat.zero_le _
              · show (List.drop _ cp.input).length ≤ _
                rw [List.length_drop]; omega
            · exact ih _ (by omega) _ _ _ rfl (by omega)
        · exact ih _ (by omega) _ _ _ rfl (by omega)

theorem fillBits_within {s : Biterator} {n : Nat} (h : len s ≤ n) : Within n s.fillBits :=
  Nat.le_trans (fillLoop_within s _ _ _ _ rfl (Nat.le_refl _)) h

theorem consumeBits_within {s : Biterator} {n : Nat} (h : len s ≤ n) (k : Nat) :
    Within n (s.consumeBits k) := by
  unfold Biterator.consumeBits
  split <;> exact h

theorem nextBits_within {s : Biterator} {n : Nat} (h : len s ≤ n) (k : Nat) :
    Within n (s.nextBits k) := by
  unfold Biterator.nextBits
  refine Within.bind ?_ fun _ s hs => Within.bind (Within.ofExcept _ hs) fun v s hs =>
    Within.bind (consumeBits_within hs _) fun _ s hs => hs
  split
  · exact fillBits_within h
  · exact h

theorem receiveExtend_within {s : Biterator} {n : Nat} (h : len s ≤ n) (k : Nat) :
    Within n (s.receiveExtend k) :=
  Within.bind (nextBits_within h k) fun _ _ hs => hs

theorem ensure16_within {s : Biterator} {n : Nat} (h : len s ≤ n) : Within n s.ensure16 := by
  unfold Biterator.ensure16
  split
  · exact fillBits_within h
  · exact h

theorem searchGo_within {t : BaseTable} {bits n : Nat} : ∀ (fuel i : Nat) {s : Biterator},
    len s ≤ n → Within n (searchGo t bits fuel i s) := by
  intro fuel
  induction fuel with
  | zero => intro i s h; exact h
  | succ fuel ih =>
    intro i s h
    rw [searchGo]
    cases t.maxCode[i]? with
    | none => exact h
    | some m =>
      simp only
      split
      · refine Within.bind (consumeBits_within h _) fun _ s hs => ?_
        cases t.valOffset[i]? with
        | none => exact hs
        | some off =>
          simp only
          split
          · exact hs
          · generalize t.values[(((bits >>> (15 - i) : Nat) : Int) + off).toNat]? = v
            cases v with
            | none => exact hs
            | some v => exact hs
      · exact ih _ h

theorem decodeInner_within {t : BaseTable} {s : Biterator} {n : Nat} (h : len s ≤ n) (k : Nat) :
    Within n (t.decodeInner s k) := by
  unfold BaseTable.decodeInner
  cases t.lut[k]? with
  | none => exact h
  | some e =>
    obtain ⟨value, size⟩ := e
    simp only
    split
    · exact Within.bind (consumeBits_within h _) fun _ _ hs => hs
    · exact Within.bind (Within.ofExcept _ h) fun _ _ hs => searchGo_within _ _ hs

theorem decode_within {t : BaseTable} {s : Biterator} {n : Nat} (h : len s ≤ n) :
    Within n (t.decode s) :=
  Within.bind (ensure16_within h) fun _ _ hs => Within.bind (Within.ofExcept _ hs) fun _ _ hs =>
    decodeInner_within hs _

theorem decodeFastAc_within {t : AcTable} {s : Biterator} {n : Nat} (h : len s ≤ n) :
    Within n (t.decodeFastAc s) := by
  unfold AcTable.decodeFastAc
  refine Within.bind (ensure16_within h) fun _ _ hs => Within.bind (Within.ofExcept _ hs) fun k s hs => ?_
  cases t.acLut[k]? with
  | none => exact hs
  | some e =>
    obtain ⟨value, runSize⟩ := e
    simp only
    split
    · exact Within.bind (consumeBits_within hs _) fun _ _ hs => hs
    · exact Within.bind (decodeInner_within hs _) fun _ _ hs => hs

theorem liftBi_within {α : Type} {op : Biterator → Out Biterator α} {s : BlockSt} {n : Nat}
    (h : Within n (op s.bi)) : Within n (liftBi op s) := by
  unfold liftBi
  cases ho : op s.bi with
  | ok a bi => rw [ho] at h; exact h
  | fail f bi => rw [ho] at h; exact h

theorem decodeDc_within {scan : Scan} {dc : BaseTable} {s : BlockSt} {n : Nat} (h : len s ≤ n) :
    Within n (decodeDc scan dc s) := by
  unfold decodeDc
  split
  · refine Within.bind (Within.mapErr (liftBi_within (decode_within h))) fun v s hs => ?_
    refine Within.bind ?_ fun d s hs => hs
    split
    · exact hs
    · split
      · exact hs
      · exact Within.mapErr (liftBi_within (receiveExtend_within hs _))
  · exact h

theorem acPut_within {scan : Scan} {last index run : Nat} {v : Int} {s : BlockSt} {n : Nat}
    (h : len s ≤ n) : Within n (acPut scan last index run v s) := by
  unfold acPut
  split
  · cases unzigzag s.coeffs (index + run) (shlI16 v scan.al) with
    | error f => exact h
    | ok c => exact h
  · exact h

theorem acRound_within {scan : Scan} {ac : AcTable} {last index : Nat} {s : BlockSt} {n : Nat}
    (h : len s ≤ n) : Within n (acRound scan ac last index s) := by
  unfold acRound
  refine Within.bind (Within.mapErr (liftBi_within (decodeFastAc_within h))) fun r s hs => ?_
  cases r with
  | fast v run => exact acPut_within hs
  | normal byte =>
    simp only
    split
    · split
      · exact hs
      · split
        · refine Within.bind (Within.mapErr (liftBi_within (nextBits_within ?_ _))) fun _ _ hs => hs
          exact hs
        · exact hs
    · exact Within.bind (Within.mapErr (liftBi_within (receiveExtend_within hs _)))
        fun _ _ hs => acPut_within hs

theorem decodeAcGo_within {scan : Scan} {ac : AcTable} {last n : Nat} : ∀ (fuel index : Nat)
    {s : BlockSt}, len s ≤ n → Within n (decodeAcGo scan ac last fuel index s) := by
  intro fuel
  induction fuel with
  | zero => intro i s h; exact h
  | succ fuel ih =>
    intro i s h
    rw [decodeAcGo]
    refine Within.bind (acRound_within h) fun next s hs => ?_
    cases next with
    | none => exact hs
    | some i => exact ih _ hs

theorem decodeBlock_within {scan : Scan} {dc : BaseTable} {ac : AcTable} {s : BlockSt} {n : Nat}
    (h : len s ≤ n) : Within n (decodeBlock scan dc ac s) := by
  unfold decodeBlock
  refine Within.bind (decodeDc_within h) fun _ s hs => ?_
  simp only
  split
  · exact hs
  · split
    · exact decodeAcGo_within _ _ hs
    · exact hs

theorem decodeBlocks_within {scan : Scan} {dc : BaseTable} {ac : AcTable} {n : Nat} : ∀ (k : Nat)
    {s : RowSt}, len s ≤ n → Within n (decodeBlocks scan dc ac k s) := by
  intro k
  induction k with
  | zero => intro s h; exact h
  | succ k ih =>
    intro s h
    rw [decodeBlocks]
    split
    · have hb : Within n (decodeBlock scan dc ac ⟨s.bi, s.eobRun, s.dcPred, zeroBlock⟩) :=
        decodeBlock_within h
      cases ho : decodeBlock scan dc ac ⟨s.bi, s.eobRun, s.dcPred, zeroBlock⟩ with
      | ok a b => rw [ho] at hb; exact ih hb
      | fail f b => rw [ho] at hb; exact hb
    · exact h

theorem decodeComponents_within {d : Decoder} {scan : Scan} {n : Nat} :
    ∀ (cs : List Component) (hs : List ScanHeader) (ps : List Int) {s : McuSt}, len s ≤ n →
    Within n (decodeComponents d scan cs hs ps s) := by
  intro cs
  induction cs with
  | nil => intro hs ps s h; simp only [decodeComponents]; exact h
  | cons c cs ih =>
    intro hs ps s hl
    cases hs with
    | nil => simp only [decodeComponents]; exact hl
    | cons h hs =>
      cases ps with
      | nil => simp only [decodeComponents]; exact hl
      | cons p ps =>
        rw [decodeComponents]
        cases d.dcTables[h.dcSel]? with
        | none => exact hl
        | some t =>
          cases t with
          | none => exact hl
          | some dc =>
            simp only
            cases d.acTables[h.acSel]? with
            | none => exact hl
            | some t =>
              cases t with
              | none => exact hl
              | some ac =>
                simp only
                have hb : Within n (decodeBlocks scan dc ac c.blocksPerMcu ⟨s.bi, s.eobRun, p, s.done⟩) :=
                  decodeBlocks_within _ hl
                cases ho : decodeBlocks scan dc ac c.blocksPerMcu ⟨s.bi, s.eobRun, p, s.done⟩ with
                | ok a r => rw [ho] at hb; exact ih hs ps hb
                | fail f r => rw [ho] at hb; exact hb

theorem decodeRow_within {s : St} {n : Nat} (h : len s ≤ n) : Within n (decodeRow s) := by
  unfold decodeRow
  cases s.dec.scan with
  | none => exact h
  | some scan =>
    cases s.dec.frame with
    | none => exact h
    | some frame =>
      simp only
      have hb : Within n (decodeComponents s.dec scan frame.components scan.headers
        s.dec.scanState.dcPredictors ⟨s.bi, s.dec.scanState.eobRun, [], []⟩) :=
        decodeComponents_within _ _ _ h
      cases ho : decodeComponents s.dec scan frame.components scan.headers
        s.dec.scanState.dcPredictors ⟨s.bi, s.dec.scanState.eobRun, [], []⟩ with
      | ok a m => rw [ho] at hb; exact hb
      | fail f m =>
        rw [ho] at hb
        cases f with
        | panic p => exact hb
        | unit | eof | err _ => exact h

theorem markerAux_length : ∀ {l : List UInt8} {b : Bool} {m : Marker} {rest : List UInt8},
    markerAux b l = .ok (m, rest) → rest.length + 1 ≤ l.length := by
  intro l
  induction l with
  | nil => intro b m rest h; rw [markerAux] at h; cases h
  | cons c l ih =>
    intro b m rest h
    rw [List.length_cons]
    cases b with
    | false =>
      rw [markerAux] at h
      have := ih h
      omega
    | true =>
      rw [markerAux] at h
      split at h
      · have := ih h; omega
      · split at h
        · have := ih h; omega
        · cases hm : markerOfByte c with
          | none => rw [hm] at h; cases h
          | some m' => rw [hm] at h; cases h; omega

theorem marker_shorter {l : List UInt8} {m : Marker} {rest : List UInt8}
    (h : marker l = .ok (m, rest)) : rest.length + 1 ≤ l.length := markerAux_length h

theorem handleRestart_within {m : Marker} {s : St} {n : Nat} (h : len s ≤ n) :
    Within n (handleRestart m s) := by
  unfold handleRestart
  cases m with
  | RST k =>
    simp only
    split <;> exact h
  | _ => exact h

theorem restartParser_within {cfg : Cfg} {mcuX mcuY : Nat} {s : St} {n : Nat} (h : len s ≤ n) :
    Within n (restartParser cfg mcuX mcuY s) := by
  unfold restartParser
  split
  · cases s.dec.frame with
    | none => exact h
    | some frame =>
      simp only
      by_cases hu : s.dec.scanState.mcusLeftUntilRestart = 0 ∧ cfg.debug
      · rw [if_pos hu]; exact h
      · rw [if_neg hu]
        generalize (s.dec.scanState.mcusLeftUntilRestart + 2 ^ 16 - 1) % 2 ^ 16 = left
        split
        · cases hm : marker s.bi.input with
          | error f => exact h
          | ok r =>
            obtain ⟨m, rest⟩ := r
            refine handleRestart_within ?_
            have := marker_shorter hm
            have h' : s.bi.input.length ≤ n := h
            show rest.length ≤ n
            omega
        · exact h
  · exact h

theorem mcuStep_within {cfg : Cfg} {pd : Bool} {mcuY mcuX : Nat} {s : St} {n : Nat} (h : len s ≤ n) :
    Within n (mcuStep cfg pd mcuY mcuX s) := by
  unfold mcuStep
  refine Within.bind (decodeRow_within h) fun _ s hs => Within.bind (restartParser_within hs)
    fun _ s hs => ?_
  split
  · cases dequantize cfg mcuX mcuY s.dec with
    | ok a d => exact hs
    | fail f d => exact hs
  · exact hs

theorem mcuLoop_within {cfg : Cfg} {pd : Bool} {n : Nat} : ∀ (l : List (Nat × Nat)) {s : St},
    len s ≤ n → Within n (mcuLoop cfg pd l s) := by
  intro l
  induction l with
  | nil => intro s h; exact h
  | cons p l ih =>
    intro s h
    obtain ⟨y, x⟩ := p
    rw [mcuLoop]
    exact Within.bind (mcuStep_within h) fun _ s hs => ih hs

theorem segmentBytes_shorter {cfg : Cfg} {l p rest : List UInt8}
    (h : segmentBytes cfg l = .ok (p, rest)) : rest.length ≤ l.length := by
  have ht : ∀ {n : Nat} {l p rest : List UInt8}, takeBytes n l = .ok (p, rest) →
      rest.length ≤ l.length := by
    intro n l p rest h
    unfold takeBytes at h
    split at h
    · cases h
    · cases h; rw [List.length_drop]; omega
  unfold segmentBytes at h
  cases l with
  | nil => cases h
  | cons a l =>
    cases l with
    | nil => cases h
    | cons b l =>
      simp only [beU16, List.length_cons] at h ⊢
      split at h
      · split at h
        · cases h
        · have := ht h; omega
      · have := ht h; omega

theorem segment_within {cfg : Cfg} {body : List UInt8 → Decoder → Out Decoder Unit} {s : St} {n : Nat}
    (h : len s ≤ n) : Within n (segment cfg body s) := by
  unfold segment
  cases hs : segmentBytes cfg s.bi.input with
  | error f => exact h
  | ok r =>
    obtain ⟨p, rest⟩ := r
    have h2 : rest.length ≤ n := Nat.le_trans (segmentBytes_shorter hs) h
    simp only
    cases body p s.dec with
    | ok a d => exact h2
    | fail f d => exact h2

end Jpeg
