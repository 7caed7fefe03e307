import Verif.Model.Stream
import Verif.Proofs.Prefix
import Verif.Proofs.Shrink
import Verif.Proofs.ScanFail
/-!
# Resuming a suspended decoder
-/

namespace Jpeg
open HasInput HasLen

/-! ## Which failures mean "more input needed" -/

/-- The table can produce the code "end of band run" (EOB1 to EOB14), which only progressive scans
use. -/
def EobRunTable (t : AcTable) : Prop :=
  ∃ s b s', t.decodeFastAc s = .ok (.normal b) s' ∧ b.toNat &&& 0x0f = 0 ∧ 0 < b.toNat >>> 4 ∧
    b.toNat >>> 4 < 15

/-- A block level failure is not the bare `()` of the bit level code, and is "out of bits" only with a
table that has end of band runs. -/
def Blame (t : AcTable) (f : Fail) : Prop := f ≠ .unit ∧ (f = .err .outOfBits → EobRunTable t)

theorem toEof_ne (f : Fail) : toEof f ≠ .unit := by cases f <;> simp [toEof]

/-- Failures of the bit level code: `()` or a panic. -/
def BitFail (f : Fail) : Prop := ∀ e, f ≠ .err e

section
variable {σ α β : Type}

/-- Every failure satisfies `P`. -/
def Fails (P : Fail → Prop) (o : Out σ α) : Prop := ∀ f s, o = .fail f s → P f

theorem Fails.ok {P : Fail → Prop} (a : α) (s : σ) : Fails P (.ok a s) := by
  intro f s' h; cases h

theorem Fails.fail {P : Fail → Prop} {f : Fail} (h : P f) (s : σ) : Fails (α := α) P (.fail f s) := by
  intro f s' h; cases h; assumption

theorem Fails.bind {P : Fail → Prop} {o : Out σ α} {k : α → σ → Out σ β} (h : Fails P o)
    (hk : ∀ a s, o = .ok a s → Fails P (k a s)) : Fails P (o.bind k) := by
  cases o with
  | ok a s => exact hk a s rfl
  | fail f s => exact Fails.fail (h f s rfl) s

theorem Fails.mapErr {P Q : Fail → Prop} {o : Out σ α} {g : Fail → Fail} (h : Fails P o)
    (hg : ∀ f, P f → Q (g f)) : Fails Q (o.mapErr g) := by
  cases o with
  | ok a s => exact Fails.ok a s
  | fail f s => exact Fails.fail (hg f (h f s rfl)) s

theorem Fails.ofExcept {P : Fail → Prop} {e : Except Fail α} {s : σ} (h : ∀ f, e = .error f → P f) :
    Fails P (Out.ofExcept e s) := by
  cases e with
  | ok a => exact Fails.ok a s
  | error f => exact Fails.fail (h f rfl) s

theorem Fails.mono {P Q : Fail → Prop} {o : Out σ α} (h : Fails P o) (hg : ∀ f, P f → Q f) :
    Fails Q o := fun f s e => hg f (h f s e)

end

theorem bitFail_unit : BitFail .unit := fun _ h => by cases h
theorem bitFail_panic (p : PanicSite) : BitFail (.panic p) := fun _ h => by cases h

theorem fillLoop_bitFail (cp : Biterator) : ∀ (n : Nat) (input : List UInt8) (bits count : Nat),
    input.length = n → Fails BitFail (Biterator.fillLoop cp input bits count) := by
  intro n
  induction n using Nat.strongRecOn with
  | _ n ih =>
    intro input bits count hn
    rw [Biterator.fillLoop.eq_def cp]
    simp only
    split
    · exact Fails.ok _ _
    · cases input with
      | nil => exact Fails.fail bitFail_unit _
      | cons b rest =>
        simp only [List.length_cons] at hn
        simp only
        split
        · cases rest with
          | nil => exact Fails.fail bitFail_unit _
          | cons z rest' =>
            simp only [List.length_cons] at hn
            simp only
            split
            · split
              · exact Fails.fail bitFail_unit _
              · exact Fails.ok _ _
            · exact ih _ (by omega) _ _ _ rfl
        · exact ih _ (by omega) _ _ _ rfl

theorem fillBits_bitFail (s : Biterator) : Fails BitFail s.fillBits := fillLoop_bitFail s _ _ _ _ rfl

theorem peekBits_bitFail (s : Biterator) (n : Nat) (f : Fail) (h : s.peekBits n = .error f) :
    BitFail f := by
  unfold Biterator.peekBits at h
  split at h
  · cases h; exact bitFail_panic _
  · split at h
    · cases h; exact bitFail_panic _
    · cases h

theorem consumeBits_bitFail (s : Biterator) (n : Nat) : Fails BitFail (s.consumeBits n) := by
  unfold Biterator.consumeBits
  split
  · exact Fails.fail (bitFail_panic _) _
  · exact Fails.ok _ _

theorem nextBits_bitFail (s : Biterator) (n : Nat) : Fails BitFail (s.nextBits n) := by
  unfold Biterator.nextBits
  refine Fails.bind ?_ fun _ s _ => Fails.bind (Fails.ofExcept (peekBits_bitFail s n)) fun _ s _ =>
    Fails.bind (consumeBits_bitFail s n) fun _ s _ => Fails.ok _ _
  split
  · exact fillBits_bitFail s
  · exact Fails.ok _ _

theorem receiveExtend_bitFail (s : Biterator) (n : Nat) : Fails BitFail (s.receiveExtend n) :=
  Fails.bind (nextBits_bitFail s n) fun _ _ _ => Fails.ok _ _

theorem ensure16_bitFail (s : Biterator) : Fails BitFail s.ensure16 := by
  unfold Biterator.ensure16
  split
  · exact fillBits_bitFail s
  · exact Fails.ok _ _

theorem searchGo_bitFail (t : BaseTable) (bits : Nat) : ∀ (fuel i : Nat) (s : Biterator),
    Fails BitFail (searchGo t bits fuel i s) := by
  intro fuel
  induction fuel with
  | zero => intro i s; exact Fails.fail bitFail_unit _
  | succ fuel ih =>
    intro i s
    rw [searchGo]
    cases t.maxCode[i]? with
    | none => exact Fails.fail (bitFail_panic _) _
    | some m =>
      simp only
      split
      · refine Fails.bind (consumeBits_bitFail s _) fun _ s _ => ?_
        cases t.valOffset[i]? with
        | none => exact Fails.fail (bitFail_panic _) _
        | some off =>
          simp only
          split
          · exact Fails.fail (bitFail_panic _) _
          · generalize t.values[(((bits >>> (15 - i) : Nat) : Int) + off).toNat]? = v
            cases v with
            | none => exact Fails.fail (bitFail_panic _) _
            | some v => exact Fails.ok _ _
      · exact ih _ _

theorem decodeInner_bitFail (t : BaseTable) (s : Biterator) (n : Nat) :
    Fails BitFail (t.decodeInner s n) := by
  unfold BaseTable.decodeInner
  cases t.lut[n]? with
  | none => exact Fails.fail (bitFail_panic _) _
  | some e =>
    obtain ⟨value, size⟩ := e
    simp only
    split
    · exact Fails.bind (consumeBits_bitFail s _) fun _ _ _ => Fails.ok _ _
    · exact Fails.bind (Fails.ofExcept (peekBits_bitFail s 16)) fun _ s _ => searchGo_bitFail t _ _ _ s

theorem decode_bitFail (t : BaseTable) (s : Biterator) : Fails BitFail (t.decode s) :=
  Fails.bind (ensure16_bitFail s) fun _ s _ => Fails.bind (Fails.ofExcept (peekBits_bitFail s _))
    fun n s _ => decodeInner_bitFail t s n

theorem decodeFastAc_bitFail (t : AcTable) (s : Biterator) : Fails BitFail (t.decodeFastAc s) := by
  unfold AcTable.decodeFastAc
  refine Fails.bind (ensure16_bitFail s) fun _ s _ => Fails.bind (Fails.ofExcept (peekBits_bitFail s _))
    fun n s _ => ?_
  cases t.acLut[n]? with
  | none => exact Fails.fail (bitFail_panic _) _
  | some e =>
    obtain ⟨value, runSize⟩ := e
    simp only
    split
    · exact Fails.bind (consumeBits_bitFail s _) fun _ _ _ => Fails.ok _ _
    · exact Fails.bind (decodeInner_bitFail _ s n) fun _ _ _ => Fails.ok _ _

theorem liftBi_bitFail {α : Type} {op : Biterator → Out Biterator α} {s : BlockSt}
    (h : Fails BitFail (op s.bi)) : Fails BitFail (liftBi op s) := by
  unfold liftBi
  cases ho : op s.bi with
  | ok a bi => exact Fails.ok _ _
  | fail f bi => exact Fails.fail (h f bi ho) _

theorem blame_toEof {t : AcTable} (f : Fail) (h : BitFail f) : Blame t (toEof f) := by
  cases f with
  | unit => exact ⟨by simp [toEof], by simp [toEof]⟩
  | eof => exact ⟨by simp [toEof], by simp [toEof]⟩
  | err e => exact absurd rfl (h e)
  | panic p => exact ⟨by simp [toEof], by simp [toEof]⟩

theorem blame_panic {t : AcTable} (p : PanicSite) : Blame t (.panic p) := ⟨by simp, by simp⟩

theorem decodeDc_blame {t : AcTable} {scan : Scan} {dc : BaseTable} (s : BlockSt) :
    Fails (Blame t) (decodeDc scan dc s) := by
  unfold decodeDc
  split
  · refine Fails.bind (Fails.mapErr (liftBi_bitFail (decode_bitFail dc s.bi)) blame_toEof) fun v s _ => ?_
    refine Fails.bind ?_ fun d s _ => Fails.ok _ _
    split
    · exact Fails.ok _ _
    · split
      · exact Fails.fail ⟨by simp, by simp⟩ _
      · exact Fails.mapErr (liftBi_bitFail (receiveExtend_bitFail s.bi _)) blame_toEof
  · exact Fails.ok _ _

theorem unzigzag_error {α : Type} {out : List α} {i : Nat} {v : α} {f : Fail}
    (h : unzigzag out i v = .error f) : ∃ p, f = .panic p := by
  unfold unzigzag at h
  cases hz : UNZIGZAG[i]? with
  | none => rw [hz] at h; cases h; exact ⟨_, rfl⟩
  | some p =>
    rw [hz] at h
    simp only at h
    split at h
    · cases h
    · cases h; exact ⟨_, rfl⟩

theorem acPut_blame {t : AcTable} {scan : Scan} {last index run : Nat} {v : Int} (s : BlockSt) :
    Fails (Blame t) (acPut scan last index run v s) := by
  unfold acPut
  split
  · cases h : unzigzag s.coeffs (index + run) (shlI16 v scan.al) with
    | error f => obtain ⟨p, rfl⟩ := unzigzag_error h; exact Fails.fail (blame_panic _) _
    | ok c => exact Fails.ok _ _
  · exact Fails.ok _ _

theorem liftBi_ok {α : Type} {op : Biterator → Out Biterator α} {s s' : BlockSt} {a : α}
    (h : liftBi op s = .ok a s') : op s.bi = .ok a s'.bi := by
  unfold liftBi at h
  cases ho : op s.bi with
  | ok b bi => rw [ho] at h; cases h; rfl
  | fail f bi => rw [ho] at h; cases h

theorem acRound_blame {scan : Scan} {ac : AcTable} {last index : Nat} (s : BlockSt) :
    Fails (Blame ac) (acRound scan ac last index s) := by
  unfold acRound
  refine Fails.bind (Fails.mapErr (liftBi_bitFail (decodeFastAc_bitFail ac s.bi)) blame_toEof)
    fun r s1 hr => ?_
  cases r with
  | fast v run => exact acPut_blame _
  | normal byte =>
    have hd : ac.decodeFastAc s.bi = .ok (.normal byte) s1.bi := by
      cases ho : liftBi ac.decodeFastAc s with
      | ok a b => rw [ho] at hr; cases hr; exact liftBi_ok ho
      | fail f b => rw [ho] at hr; cases hr
    simp only
    split
    · next hsz =>
      split
      · exact Fails.ok _ _
      · next h15 =>
        split
        · next hr0 =>
          refine Fails.bind (Fails.mapErr (liftBi_bitFail (nextBits_bitFail _ _)) ?_)
            fun _ _ _ => Fails.ok _ _
          intro f hf
          have hb : byte.toNat >>> 4 < 15 := by
            have h1 := byte.toNat_lt
            have h2 : byte.toNat >>> 4 = byte.toNat / 16 := Nat.shiftRight_eq_div_pow _ 4
            omega
          cases f with
          | unit => exact ⟨by simp [toOutOfBits], fun _ => ⟨s.bi, byte, s1.bi, hd, hsz, hr0, hb⟩⟩
          | eof => exact ⟨by simp [toOutOfBits], by simp [toOutOfBits]⟩
          | err e => exact absurd rfl (hf e)
          | panic p => exact blame_panic _
        · exact Fails.ok _ _
    · exact Fails.bind (Fails.mapErr (liftBi_bitFail (receiveExtend_bitFail s1.bi _)) blame_toEof)
        fun _ _ _ => acPut_blame _

theorem decodeAcGo_blame {scan : Scan} {ac : AcTable} {last : Nat} : ∀ (fuel index : Nat) (s : BlockSt),
    Fails (Blame ac) (decodeAcGo scan ac last fuel index s) := by
  intro fuel
  induction fuel with
  | zero => intro i s; exact Fails.fail (blame_panic _) _
  | succ fuel ih =>
    intro i s
    rw [decodeAcGo]
    refine Fails.bind (acRound_blame s) fun next s _ => ?_
    cases next with
    | none => exact Fails.ok _ _
    | some i => exact ih _ _

theorem decodeBlock_blame {scan : Scan} {dc : BaseTable} {ac : AcTable} (s : BlockSt) :
    Fails (Blame ac) (decodeBlock scan dc ac s) := by
  unfold decodeBlock
  refine Fails.bind (decodeDc_blame s) fun _ s _ => ?_
  simp only
  split
  · exact Fails.ok _ _
  · split
    · exact decodeAcGo_blame _ _ _
    · exact Fails.ok _ _

theorem decodeBlocks_blame {scan : Scan} {dc : BaseTable} {ac : AcTable} : ∀ (n : Nat) (s : RowSt),
    Fails (Blame ac) (decodeBlocks scan dc ac n s) := by
  intro n
  induction n with
  | zero => intro s; exact Fails.ok _ _
  | succ n ih =>
    intro s
    rw [decodeBlocks]
    split
    · cases ho : decodeBlock scan dc ac ⟨s.bi, s.eobRun, s.dcPred, zeroBlock⟩ with
      | ok a b => exact ih _
      | fail f b => exact Fails.fail (decodeBlock_blame _ f b ho) _
    · exact Fails.ok _ _

/-- As `Blame`, for any of the decoder's AC tables. -/
def DecBlame (d : Decoder) (f : Fail) : Prop :=
  f ≠ .unit ∧ (f = .err .outOfBits → ∃ (i : Nat) (t : AcTable), d.acTables[i]? = some (some t) ∧ EobRunTable t)

theorem decBlame_panic {d : Decoder} (p : PanicSite) : DecBlame d (.panic p) := ⟨by simp, by simp⟩

theorem decodeComponents_blame {d : Decoder} {scan : Scan} :
    ∀ (cs : List Component) (hs : List ScanHeader) (ps : List Int) (s : McuSt),
    Fails (DecBlame d) (decodeComponents d scan cs hs ps s) := by
  intro cs
  induction cs with
  | nil => intro hs ps s; simp only [decodeComponents]; exact Fails.ok _ _
  | cons c cs ih =>
    intro hs ps s
    cases hs with
    | nil => simp only [decodeComponents]; exact Fails.ok _ _
    | cons h hs =>
      cases ps with
      | nil => simp only [decodeComponents]; exact Fails.ok _ _
      | cons p ps =>
        rw [decodeComponents]
        cases d.dcTables[h.dcSel]? with
        | none => exact Fails.fail (decBlame_panic _) _
        | some t =>
          cases t with
          | none => exact Fails.fail (decBlame_panic _) _
          | some dc =>
            simp only
            cases hac : d.acTables[h.acSel]? with
            | none => exact Fails.fail (decBlame_panic _) _
            | some t =>
              cases t with
              | none => exact Fails.fail (decBlame_panic _) _
              | some ac =>
                simp only
                cases ho : decodeBlocks scan dc ac c.blocksPerMcu ⟨s.bi, s.eobRun, p, s.done⟩ with
                | ok a r => exact ih hs ps _
                | fail f r =>
                  have hb := decodeBlocks_blame _ _ f r ho
                  exact Fails.fail ⟨hb.1, fun e => ⟨_, ac, hac, hb.2 e⟩⟩ _

theorem decodeRow_blame (s : St) : Fails (DecBlame s.dec) (decodeRow s) := by
  unfold decodeRow
  cases s.dec.scan with
  | none => exact Fails.fail (decBlame_panic _) _
  | some scan =>
    cases s.dec.frame with
    | none => exact Fails.fail (decBlame_panic _) _
    | some frame =>
      simp only
      cases ho : decodeComponents s.dec scan frame.components scan.headers
        s.dec.scanState.dcPredictors ⟨s.bi, s.dec.scanState.eobRun, [], []⟩ with
      | ok a m => exact Fails.ok _ _
      | fail f m =>
        have hb := decodeComponents_blame _ _ _ _ f m ho
        cases f with
        | panic p => exact Fails.fail hb _
        | unit | eof | err _ => exact Fails.fail hb _

/-! ## What changes in a scan -/

theorem decodeRow_only (s : St) : OnlyScan s.dec (decodeRow s).state.dec := by
  unfold decodeRow
  cases s.dec.scan with
  | none => exact rfl
  | some scan =>
    cases s.dec.frame with
    | none => exact rfl
    | some frame =>
      simp only
      cases decodeComponents s.dec scan frame.components scan.headers
        s.dec.scanState.dcPredictors ⟨s.bi, s.dec.scanState.eobRun, [], []⟩ with
      | ok a m => exact rfl
      | fail f m =>
        cases f with
        | panic p => exact rfl
        | unit | eof | err _ => exact rfl

theorem restartParser_only (cfg : Cfg) (x y : Nat) (s : St) :
    OnlyScan s.dec (restartParser cfg x y s).state.dec := by
  unfold restartParser
  split
  · cases s.dec.frame with
    | none => exact rfl
    | some frame =>
      simp only
      by_cases hu : s.dec.scanState.mcusLeftUntilRestart = 0 ∧ cfg.debug
      · rw [if_pos hu]; exact rfl
      · rw [if_neg hu]
        generalize (s.dec.scanState.mcusLeftUntilRestart + 2 ^ 16 - 1) % 2 ^ 16 = left
        split
        · cases hm : marker s.bi.input with
          | error f => exact rfl
          | ok r =>
            obtain ⟨m, rest⟩ := r
            simp only
            unfold handleRestart
            cases m with
            | RST k =>
              simp only
              split <;> exact rfl
            | _ => exact rfl
        · exact rfl
  · exact rfl

theorem decodeComponents_scanState (d : Decoder) (ss : ScanState) :
    decodeComponents { d with scanState := ss } = decodeComponents d := by
  funext sc cs hs ps st
  induction cs generalizing hs ps st with
  | nil => simp only [decodeComponents]
  | cons c cs ih =>
    cases hs with
    | nil => simp only [decodeComponents]
    | cons h hs =>
      cases ps with
      | nil => simp only [decodeComponents]
      | cons p ps =>
        rw [decodeComponents, decodeComponents]
        simp only [ih]

/-- `decode_row` does not look at the coefficients left by the last MCU. -/
theorem decodeRow_coefficients {d : Decoder} {bi : Biterator} {c : List (List Int)} {scan : Scan} {frame : Frame}
    (hs : d.scan = some scan) (hf : d.frame = some frame) :
    decodeRow ⟨{ d with scanState := { d.scanState with mcuRowCoefficients := c } }, bi⟩ =
      decodeRow ⟨d, bi⟩ := by
  obtain ⟨fr, sc, ac, dc, qt, pl, ct, ri, cf, ss⟩ := d
  cases hs
  cases hf
  unfold decodeRow
  simp only
  have e := decodeComponents_scanState ⟨some frame, some scan, ac, dc, qt, pl, ct, ri, cf, ss⟩
    { ss with mcuRowCoefficients := c }
  simp only at e
  rw [e]

/-- A failed `decode_row` leaves a state from which it does the same again. -/
theorem decodeRow_again {s s' : St} {x : List UInt8} (h : decodeRow s = .fail .eof s') :
    decodeRow (app s' x) = decodeRow (app s x) := by
  unfold decodeRow at h
  cases hs : s.dec.scan with
  | none => rw [hs] at h; cases h
  | some scan =>
    cases hf : s.dec.frame with
    | none => rw [hs, hf] at h; cases h
    | some frame =>
      rw [hs, hf] at h
      simp only at h
      cases ho : decodeComponents s.dec scan frame.components scan.headers
        s.dec.scanState.dcPredictors ⟨s.bi, s.dec.scanState.eobRun, [], []⟩ with
      | ok a m => rw [ho] at h; cases h
      | fail f m =>
        rw [ho] at h
        cases f with
        | panic p => cases h
        | unit => cases h
        | err e => cases h
        | eof =>
          cases h
          exact decodeRow_coefficients (d := s.dec) (bi := app s.bi x) (c := padBlocks m.done) hs hf

theorem marker_error_cases {l : List UInt8} {f : Fail} (h : marker l = .error f) :
    f = .eof ∨ f = .err .markerExpected := by
  have hmk : ∀ (l : List UInt8) (b : Bool) (f : Fail), markerAux b l = .error f →
      f = .eof ∨ f = .err .markerExpected := by
    intro l
    induction l with
    | nil => intro b f h; rw [markerAux] at h; cases h; simp
    | cons c l ih =>
      intro b f h
      cases b with
      | false => rw [markerAux] at h; exact ih _ _ h
      | true =>
        rw [markerAux] at h
        split at h
        · exact ih _ _ h
        · split at h
          · exact ih _ _ h
          · cases hmb : markerOfByte c with
            | none => rw [hmb] at h; cases h; simp
            | some m => rw [hmb] at h; cases h
  exact hmk _ _ _ h

/-- `restart_parser` does not fail for want of bits. -/
theorem restartParser_notBits {cfg : Cfg} {x y : Nat} {s s' : St} {f : Fail}
    (h : restartParser cfg x y s = .fail f s') : f ≠ .unit ∧ f ≠ .err .outOfBits := by
  unfold restartParser at h
  split at h
  · cases hf : s.dec.frame with
    | none => rw [hf] at h; cases h; simp
    | some frame =>
      rw [hf] at h
      simp only at h
      by_cases hu : s.dec.scanState.mcusLeftUntilRestart = 0 ∧ cfg.debug
      · rw [if_pos hu] at h; cases h; simp
      · rw [if_neg hu] at h
        generalize (s.dec.scanState.mcusLeftUntilRestart + 2 ^ 16 - 1) % 2 ^ 16 = left at h
        split at h
        · cases hm : marker s.bi.input with
          | error g =>
            rw [hm] at h
            cases h
            rcases marker_error_cases hm with h | h <;> rw [h] <;> simp
          | ok r =>
            rw [hm] at h
            obtain ⟨m, rest⟩ := r
            simp only at h
            unfold handleRestart at h
            cases m with
            | RST k =>
              simp only at h
              split at h
              · cases h; simp
              · cases h
            | _ => cases h; simp
        · cases h
  · cases h

theorem restartParser_interval {cfg : Cfg} {x y : Nat} {s s' : St} {f : Fail}
    (h : restartParser cfg x y s = .fail f s') : 0 < s.dec.restartInterval := by
  by_contra hz
  unfold restartParser at h
  rw [if_neg hz] at h
  cases h

/-! ## One scan -/

theorem app_nil (s : St) : app s [] = s := by
  show ({ s with bi := { s.bi with input := s.bi.input ++ [] } } : St) = s
  rw [List.append_nil]

/-- Some AC table has end of band runs. -/
def EobRuns (d : Decoder) : Prop :=
  ∃ (i : Nat) (t : AcTable), d.acTables[i]? = some (some t) ∧ EobRunTable t

/-- What a scan that is interrupted at the end of the input has to do with the same scan when `x`
follows the input. -/
def RunSim (cfg : Cfg) (pd : Bool) (x : List UInt8) (s : St) (o : Out St Unit) : Run → Prop
  | .done s' => o = .ok () (app s' x) ∧ len s' ≤ len s ∧ OnlyScan s.dec s'.dec
  | .wait .row todo' s' => mcuLoop cfg pd todo' (app s' x) = o ∧ (x = [] → ∃ t, o = .fail .eof t) ∧
      len s' ≤ len s ∧ OnlyScan s.dec s'.dec
  | .wait .restart _ s' => 0 < s.dec.restartInterval ∧ OnlyScan s.dec s'.dec
  | .failed f s' => (o = .fail f (app s' x) ∨ (f = .err .outOfBits ∧ EobRuns s.dec)) ∧
      OnlyScan s.dec s'.dec

theorem RunSim.trans {cfg : Cfg} {pd : Bool} {x : List UInt8} {s t : St} {o : Out St Unit} {r : Run}
    (hl : len t ≤ len s) (ho : OnlyScan s.dec t.dec) (h : RunSim cfg pd x t o r) :
    RunSim cfg pd x s o r := by
  cases r with
  | done s' => exact ⟨h.1, Nat.le_trans h.2.1 hl, ho.trans h.2.2⟩
  | wait ph todo s' =>
    cases ph with
    | row => exact ⟨h.1, h.2.1, Nat.le_trans h.2.2.1 hl, ho.trans h.2.2.2⟩
    | restart =>
      refine ⟨?_, ho.trans h.2⟩
      have h1 := h.1
      rwa [OnlyScan.interval ho] at h1
  | failed f s' =>
    refine ⟨?_, ho.trans h.2⟩
    have h1 := h.1
    unfold EobRuns at h1 ⊢
    rwa [OnlyScan.acTables ho] at h1

theorem mcuResume_row {cfg : Cfg} {pd : Bool} {x : List UInt8} :
    ∀ (todo : List (Nat × Nat)) (s : St),
    RunSim cfg pd x s (mcuLoop cfg pd todo (app s x)) (mcuResume cfg pd .row todo s) := by
  intro todo
  induction todo with
  | nil =>
    intro s
    rw [mcuLoop, mcuResume]
    exact ⟨rfl, Nat.le_refl _, rfl⟩
  | cons yx rest ih =>
    intro s
    obtain ⟨y, xx⟩ := yx
    rw [mcuResume, if_pos rfl]
    have hl := decodeRow_within (s := s) (Nat.le_refl _)
    have ho := decodeRow_only s
    have hg := decodeRow_grows s x
    cases hr : decodeRow s with
    | fail f s1 =>
      rw [hr] at hl ho hg
      have hb := decodeRow_blame s f s1 hr
      simp only
      by_cases hf : f = .eof
      · rw [if_pos hf]
        subst hf
        refine ⟨?_, ?_, hl, ho⟩
        · rw [mcuLoop, mcuStep, decodeRow_again hr, mcuLoop, mcuStep]
        · rintro rfl
          rw [app_nil, mcuLoop, mcuStep, hr]
          exact ⟨_, rfl⟩
      · rw [if_neg hf]
        refine ⟨?_, ho⟩
        by_cases hne : f = .err .outOfBits
        · exact .inr ⟨hne, hb.2 hne⟩
        · have hg := hg ⟨hb.1, hf, hne⟩
          rw [mcuLoop, mcuStep, hg]
          exact .inl rfl
    | ok u s1 =>
      rw [hr] at hl ho hg
      have hg : decodeRow (app s x) = .ok u (app s1 x) := hg
      simp only
      rw [mcuLoop, mcuStep, hg, Out.bind_ok]
      have hl2 := restartParser_within (cfg := cfg) (mcuX := xx) (mcuY := y) (s := s1) hl
      have ho2 := restartParser_only cfg xx y s1
      have hg2 := restartParser_grows cfg xx y s1 x
      cases hr2 : restartParser cfg xx y s1 with
      | fail f s2 =>
        rw [hr2] at hl2 ho2 hg2
        have hne := restartParser_notBits hr2
        have hi1 : s1.dec.restartInterval = s.dec.restartInterval := OnlyScan.interval ho
        simp only
        by_cases hf : f = .eof
        · rw [if_pos hf]
          exact ⟨hi1 ▸ restartParser_interval hr2, ho.trans ho2⟩
        · rw [if_neg hf, hg2 ⟨hne.1, hf, hne.2⟩]
          exact ⟨.inl rfl, ho.trans ho2⟩
      | ok u2 s2 =>
        rw [hr2] at hl2 ho2 hg2
        have hg2 : restartParser cfg xx y (app s1 x) = .ok u2 (app s2 x) := hg2
        simp only
        rw [hg2, Out.bind_ok]
        have ho12 := ho.trans ho2
        cases pd with
        | false =>
          simp only [Bool.false_eq_true, if_false]
          exact RunSim.trans hl2 ho12 (ih s2)
        | true =>
          simp only [if_true]
          have e1 : (app s2 x).dec = s2.dec := rfl
          rw [e1]
          have hq := (dequantize_only (cfg := cfg) (x := xx) (y := y) (d := s2.dec)).1
          cases hdq : dequantize cfg xx y s2.dec with
          | fail f d =>
            rw [hdq] at hq
            exact ⟨.inl rfl, ho12.trans hq⟩
          | ok u3 d =>
            rw [hdq] at hq
            exact RunSim.trans (t := { s2 with dec := d }) hl2 (OnlyScan.trans ho12 hq)
              (ih { s2 with dec := d })

end Jpeg
