import Verif.Model.Decode
/-!
# Two readers in lockstep

If the refills of two bit readers keep them related, with the same bits in their buffers, then everything that is
decoded through them is the same, up to the end of the scan.
-/

namespace Jpeg

/-- States with a bit reader. -/
class WithBi (σ : Type) where
  /-- the reader -/
  get : σ → Biterator
  /-- the same state with another reader -/
  put : σ → Biterator → σ

instance : WithBi Biterator := ⟨id, fun _ b => b⟩
instance : WithBi BlockSt := ⟨BlockSt.bi, fun s b => { s with bi := b }⟩
instance : WithBi RowSt := ⟨RowSt.bi, fun s b => { s with bi := b }⟩
instance : WithBi McuSt := ⟨McuSt.bi, fun s b => { s with bi := b }⟩
instance : WithBi St := ⟨St.bi, fun s b => { s with bi := b }⟩

/-- The states differ in their readers only, and these are related. -/
def Lockstep {σ : Type} [WithBi σ] (R : Biterator → Biterator → Prop) (s s' : σ) : Prop :=
  ∃ b, s' = WithBi.put s b ∧ R (WithBi.get s) b

/-- The same value and related states, or the same failure. -/
def Agree {σ α : Type} [WithBi σ] (R : Biterator → Biterator → Prop) : Out σ α → Out σ α → Prop
  | .ok a s, .ok a' s' => a' = a ∧ Lockstep R s s'
  | .fail f _, .fail f' _ => f' = f
  | _, _ => False

/-- Refills keep the readers related and their buffers the same. -/
structure Lock (R : Biterator → Biterator → Prop) : Prop where
  bits : ∀ {s s'}, R s s' → s'.bits = s.bits
  count : ∀ {s s'}, R s s' → s'.count = s.count
  drop : ∀ {s s'}, R s s' → ∀ n, R { s with count := n } { s' with count := n }
  fill : ∀ {s s'}, R s s' → Agree R s.fillBits s'.fillBits

section

variable {σ α β : Type} [WithBi σ] {R : Biterator → Biterator → Prop}

theorem Agree.ok (a : α) {s s' : σ} (h : Lockstep R s s') : Agree R (.ok a s) (.ok a s') := ⟨rfl, h⟩

theorem Agree.fail (f : Fail) (s s' : σ) : Agree (α := α) R (.fail f s) (.fail f s') := rfl

theorem Agree.bind {o o' : Out σ α} {k k' : α → σ → Out σ β} (h : Agree R o o')
    (hk : ∀ a s s', Lockstep R s s' → Agree R (k a s) (k' a s')) : Agree R (o.bind k) (o'.bind k') := by
  cases o with
  | ok a s =>
    cases o' with
    | ok a' s' => obtain ⟨rfl, h⟩ := h; exact hk _ _ _ h
    | fail f' s' => exact h.elim
  | fail f s =>
    cases o' with
    | ok a' s' => exact h.elim
    | fail f' s' => exact h

theorem Agree.mapErr {o o' : Out σ α} (g : Fail → Fail) (h : Agree R o o') :
    Agree R (o.mapErr g) (o'.mapErr g) := by
  cases o with
  | ok a s =>
    cases o' with
    | ok a' s' => exact h
    | fail f' s' => exact h.elim
  | fail f s =>
    cases o' with
    | ok a' s' => exact h.elim
    | fail f' s' => exact congrArg g h

theorem Agree.ofExcept (e : Except Fail α) {s s' : σ} (h : Lockstep R s s') :
    Agree R (Out.ofExcept e s) (Out.ofExcept e s') := by
  cases e with
  | ok a => exact ⟨rfl, h⟩
  | error f => exact rfl

theorem Agree.cases {o o' : Out σ α} (h : Agree R o o') :
    (∃ a s s', o = .ok a s ∧ o' = .ok a s' ∧ Lockstep R s s') ∨ ∃ f s s', o = .fail f s ∧ o' = .fail f s' := by
  cases o with
  | ok a s =>
    cases o' with
    | ok a' s' => obtain ⟨rfl, h⟩ := h; exact .inl ⟨_, _, _, rfl, rfl, h⟩
    | fail f' s' => exact h.elim
  | fail f s =>
    cases o' with
    | ok a' s' => exact h.elim
    | fail f' s' => cases h; exact .inr ⟨_, _, _, rfl, rfl⟩

end

/-! ## Bit reader -/

section

variable {R : Biterator → Biterator → Prop} (L : Lock R)
include L

theorem lockstep_reader {s s' : Biterator} : Lockstep R s s' ↔ R s s' :=
  ⟨fun ⟨_, e, h⟩ => by cases e; exact h, fun h => ⟨s', rfl, h⟩⟩

theorem peekBits_lock {s s' : Biterator} (h : R s s') (n : Nat) : s'.peekBits n = s.peekBits n := by
  unfold Biterator.peekBits
  rw [L.bits h, L.count h]

theorem consumeBits_lock {s s' : Biterator} (h : R s s') (n : Nat) :
    Agree R (s.consumeBits n) (s'.consumeBits n) := by
  unfold Biterator.consumeBits
  rw [L.count h]
  split
  · exact rfl
  · exact .ok _ ((lockstep_reader L).2 (L.drop h _))

theorem fillIf_lock {s s' : Biterator} (h : R s s') (n : Nat) :
    Agree R (if s.count < n then s.fillBits else .ok () s) (if s'.count < n then s'.fillBits else .ok () s') := by
  rw [L.count h]
  split
  · exact L.fill h
  · exact .ok _ ((lockstep_reader L).2 h)

theorem peek_lock {s s' : Biterator} (h : R s s') (n : Nat) :
    Agree R (Out.ofExcept (s.peekBits n) s) (Out.ofExcept (s'.peekBits n) s') := by
  rw [peekBits_lock L h]
  exact .ofExcept _ ((lockstep_reader L).2 h)

theorem nextBits_lock {s s' : Biterator} (h : R s s') (n : Nat) : Agree R (s.nextBits n) (s'.nextBits n) := by
  unfold Biterator.nextBits
  refine (fillIf_lock L h n).bind fun _ s s' h => ?_
  refine (peek_lock L ((lockstep_reader L).1 h) n).bind fun v s s' h => ?_
  exact (consumeBits_lock L ((lockstep_reader L).1 h) n).bind fun _ s s' h => .ok _ h

theorem receiveExtend_lock {s s' : Biterator} (h : R s s') (n : Nat) :
    Agree R (s.receiveExtend n) (s'.receiveExtend n) :=
  (nextBits_lock L h n).bind fun _ _ _ h => .ok _ h

theorem ensure16_lock {s s' : Biterator} (h : R s s') : Agree R s.ensure16 s'.ensure16 := fillIf_lock L h 16

/-! ## Huffman decoding -/

theorem searchGo_lock (t : BaseTable) (bits : Nat) : ∀ (fuel i : Nat) (s s' : Biterator), R s s' →
    Agree R (searchGo t bits fuel i s) (searchGo t bits fuel i s') := by
  intro fuel
  induction fuel with
  | zero => intro i s s' h; exact rfl
  | succ fuel ih =>
    intro i s s' h
    rw [searchGo, searchGo]
    cases t.maxCode[i]? with
    | none => exact rfl
    | some m =>
      simp only
      split
      · refine (consumeBits_lock L h _).bind fun _ s s' h => ?_
        cases t.valOffset[i]? with
        | none => exact rfl
        | some off =>
          simp only
          split
          · exact rfl
          · generalize t.values[(((bits >>> (15 - i) : Nat) : Int) + off).toNat]? = v
            cases v with
            | none => exact rfl
            | some v => exact .ok _ h
      · exact ih _ _ _ h

theorem decodeInner_lock (t : BaseTable) {s s' : Biterator} (h : R s s') (n : Nat) :
    Agree R (t.decodeInner s n) (t.decodeInner s' n) := by
  unfold BaseTable.decodeInner
  cases t.lut[n]? with
  | none => exact rfl
  | some e =>
    obtain ⟨value, size⟩ := e
    simp only
    split
    · exact (consumeBits_lock L h _).bind fun _ _ _ h => .ok _ h
    · exact (peek_lock L h _).bind fun bits s s' h => searchGo_lock L t bits _ _ s s' ((lockstep_reader L).1 h)

theorem decode_lock (t : BaseTable) {s s' : Biterator} (h : R s s') : Agree R (t.decode s) (t.decode s') :=
  (ensure16_lock L h).bind fun _ _ _ h => (peek_lock L ((lockstep_reader L).1 h) _).bind fun n _ _ h =>
    decodeInner_lock L t ((lockstep_reader L).1 h) n

theorem decodeFastAc_lock (t : AcTable) {s s' : Biterator} (h : R s s') :
    Agree R (t.decodeFastAc s) (t.decodeFastAc s') := by
  unfold AcTable.decodeFastAc
  refine (ensure16_lock L h).bind fun _ _ _ h => (peek_lock L ((lockstep_reader L).1 h) _).bind fun n s s' h => ?_
  cases t.acLut[n]? with
  | none => exact rfl
  | some e =>
    obtain ⟨value, runSize⟩ := e
    simp only
    split
    · exact (consumeBits_lock L ((lockstep_reader L).1 h) _).bind fun _ _ _ h => .ok _ h
    · exact (decodeInner_lock L _ ((lockstep_reader L).1 h) n).bind fun _ _ _ h => .ok _ h

/-! ## Blocks and MCUs -/

omit L in
theorem liftBi_lock {α : Type} {op : Biterator → Out Biterator α}
    (ho : ∀ s s', R s s' → Agree R (op s) (op s')) {s s' : BlockSt} (h : Lockstep R s s') :
    Agree R (liftBi op s) (liftBi op s') := by
  obtain ⟨b, rfl, h⟩ := h
  unfold liftBi
  rcases (ho _ _ h).cases with ⟨a, u, u', e, e', hu⟩ | ⟨f, u, u', e, e'⟩
  · have e' : op (WithBi.put s b : BlockSt).bi = _ := e'
    have e : op s.bi = _ := e
    rw [e, e']
    obtain ⟨c, hc, hu⟩ := hu
    cases hc
    exact ⟨rfl, _, rfl, hu⟩
  · have e' : op (WithBi.put s b : BlockSt).bi = _ := e'
    have e : op s.bi = _ := e
    rw [e, e']
    exact rfl

theorem decodeDc_lock (scan : Scan) (dc : BaseTable) {s s' : BlockSt} (h : Lockstep R s s') :
    Agree R (decodeDc scan dc s) (decodeDc scan dc s') := by
  unfold decodeDc
  split
  · refine ((liftBi_lock (fun _ _ => decode_lock L dc) h).mapErr _).bind fun v s s' h => ?_
    refine Agree.bind ?_ fun d s s' h => ?_
    · split
      · exact .ok _ h
      · split
        · exact rfl
        · exact (liftBi_lock (fun _ _ h => receiveExtend_lock L h _) h).mapErr _
    · obtain ⟨b, rfl, h⟩ := h
      exact .ok _ ⟨b, rfl, h⟩
  · exact .ok _ h

omit L in
theorem acPut_lock (scan : Scan) (last index run : Nat) (v : Int) {s s' : BlockSt} (h : Lockstep R s s') :
    Agree R (acPut scan last index run v s) (acPut scan last index run v s') := by
  obtain ⟨b, rfl, h⟩ := h
  unfold acPut
  split
  · have e : (WithBi.put s b : BlockSt).coeffs = s.coeffs := rfl
    rw [e]
    cases unzigzag s.coeffs (index + run) (shlI16 v scan.al) with
    | error f => exact rfl
    | ok c => exact .ok _ ⟨b, rfl, h⟩
  · exact .ok _ ⟨b, rfl, h⟩

theorem acRound_lock (scan : Scan) (ac : AcTable) (last index : Nat) {s s' : BlockSt} (h : Lockstep R s s') :
    Agree R (acRound scan ac last index s) (acRound scan ac last index s') := by
  unfold acRound
  refine ((liftBi_lock (fun _ _ => decodeFastAc_lock L ac) h).mapErr _).bind fun r s s' h => ?_
  cases r with
  | fast v run => exact acPut_lock _ _ _ _ _ h
  | normal byte =>
    simp only
    split
    · split
      · exact .ok _ h
      · have h1 : Lockstep R { s with eobRun := (1 <<< (byte.toNat >>> 4)) - 1 }
            { s' with eobRun := (1 <<< (byte.toNat >>> 4)) - 1 } := by
          obtain ⟨b, rfl, h⟩ := h
          exact ⟨b, rfl, h⟩
        split
        · refine ((liftBi_lock (fun _ _ h => nextBits_lock L h _) h1).mapErr _).bind fun v s s' h => ?_
          obtain ⟨b, rfl, h⟩ := h
          exact .ok _ ⟨b, rfl, h⟩
        · exact .ok _ h1
    · exact ((liftBi_lock (fun _ _ h => receiveExtend_lock L h _) h).mapErr _).bind
        fun _ _ _ h => acPut_lock _ _ _ _ _ h

theorem decodeAcGo_lock (scan : Scan) (ac : AcTable) (last : Nat) : ∀ (fuel index : Nat) (s s' : BlockSt),
    Lockstep R s s' → Agree R (decodeAcGo scan ac last fuel index s) (decodeAcGo scan ac last fuel index s') := by
  intro fuel
  induction fuel with
  | zero => intro i s s' h; exact rfl
  | succ fuel ih =>
    intro i s s' h
    rw [decodeAcGo, decodeAcGo]
    refine (acRound_lock L scan ac last i h).bind fun next s s' h => ?_
    cases next with
    | none => exact .ok _ h
    | some i => exact ih _ _ _ h

theorem decodeBlock_lock (scan : Scan) (dc : BaseTable) (ac : AcTable) {s s' : BlockSt} (h : Lockstep R s s') :
    Agree R (decodeBlock scan dc ac s) (decodeBlock scan dc ac s') := by
  unfold decodeBlock
  refine (decodeDc_lock L scan dc h).bind fun _ s s' h => ?_
  have e : s'.eobRun = s.eobRun := by obtain ⟨b, rfl, h⟩ := h; rfl
  simp only [e]
  split
  · obtain ⟨b, rfl, h⟩ := h
    exact .ok _ ⟨b, rfl, h⟩
  · split
    · exact decodeAcGo_lock L _ _ _ _ _ _ _ h
    · exact .ok _ h

theorem decodeBlocks_lock (scan : Scan) (dc : BaseTable) (ac : AcTable) : ∀ (n : Nat) (s s' : RowSt),
    Lockstep R s s' → Agree R (decodeBlocks scan dc ac n s) (decodeBlocks scan dc ac n s') := by
  intro n
  induction n with
  | zero => intro s s' h; exact .ok _ h
  | succ n ih =>
    intro s s' h
    obtain ⟨b, rfl, h⟩ := h
    rw [decodeBlocks, decodeBlocks]
    have e : (WithBi.put s b : RowSt).done = s.done := rfl
    rw [e]
    split
    · have hb := decodeBlock_lock L scan dc ac (s := ⟨s.bi, s.eobRun, s.dcPred, zeroBlock⟩)
        (s' := ⟨b, s.eobRun, s.dcPred, zeroBlock⟩) ⟨b, rfl, h⟩
      have e2 : (⟨(WithBi.put s b : RowSt).bi, (WithBi.put s b : RowSt).eobRun, (WithBi.put s b : RowSt).dcPred,
        zeroBlock⟩ : BlockSt) = ⟨b, s.eobRun, s.dcPred, zeroBlock⟩ := rfl
      rw [e2]
      rcases hb.cases with ⟨a, u, u', e3, e4, hu⟩ | ⟨f, u, u', e3, e4⟩
      · rw [e3, e4]
        obtain ⟨c, rfl, hu⟩ := hu
        exact ih _ _ ⟨c, rfl, hu⟩
      · rw [e3, e4]
        exact rfl
    · exact .ok _ ⟨b, rfl, h⟩

theorem decodeComponents_lock (d : Decoder) (scan : Scan) :
    ∀ (cs : List Component) (hs : List ScanHeader) (ps : List Int) (s s' : McuSt), Lockstep R s s' →
    Agree R (decodeComponents d scan cs hs ps s) (decodeComponents d scan cs hs ps s') := by
  intro cs
  induction cs with
  | nil =>
    intro hs ps s s' h
    obtain ⟨b, rfl, h⟩ := h
    simp only [decodeComponents]; exact .ok _ ⟨b, rfl, h⟩
  | cons c cs ih =>
    intro hs ps s s' h
    obtain ⟨b, rfl, h⟩ := h
    cases hs with
    | nil => simp only [decodeComponents]; exact .ok _ ⟨b, rfl, h⟩
    | cons h0 hs =>
      cases ps with
      | nil => simp only [decodeComponents]; exact .ok _ ⟨b, rfl, h⟩
      | cons p ps =>
        rw [decodeComponents, decodeComponents]
        cases d.dcTables[h0.dcSel]? with
        | none => exact rfl
        | some t =>
          cases t with
          | none => exact rfl
          | some dc =>
            simp only
            cases d.acTables[h0.acSel]? with
            | none => exact rfl
            | some t =>
              cases t with
              | none => exact rfl
              | some ac =>
                simp only
                have hb := decodeBlocks_lock L scan dc ac c.blocksPerMcu ⟨s.bi, s.eobRun, p, s.done⟩
                  ⟨b, s.eobRun, p, s.done⟩ ⟨b, rfl, h⟩
                have e2 : (⟨(WithBi.put s b : McuSt).bi, (WithBi.put s b : McuSt).eobRun, p,
                  (WithBi.put s b : McuSt).done⟩ : RowSt) = ⟨b, s.eobRun, p, s.done⟩ := rfl
                rw [e2]
                rcases hb.cases with ⟨a, u, u', e3, e4, hu⟩ | ⟨f, u, u', e3, e4⟩
                · rw [e3, e4]
                  obtain ⟨k, rfl, hu⟩ := hu
                  exact ih hs ps _ _ ⟨k, rfl, hu⟩
                · rw [e3, e4]
                  exact rfl

theorem decodeRow_lock {s s' : St} (h : Lockstep R s s') : Agree R (decodeRow s) (decodeRow s') := by
  obtain ⟨b, rfl, h⟩ := h
  unfold decodeRow
  have e : (WithBi.put s b : St).dec = s.dec := rfl
  rw [e]
  cases s.dec.scan with
  | none => exact rfl
  | some scan =>
    cases s.dec.frame with
    | none => exact rfl
    | some frame =>
      simp only
      have hb := decodeComponents_lock L s.dec scan frame.components scan.headers
        s.dec.scanState.dcPredictors ⟨s.bi, s.dec.scanState.eobRun, [], []⟩
        ⟨b, s.dec.scanState.eobRun, [], []⟩ ⟨b, rfl, h⟩
      have e2 : (⟨(WithBi.put s b : St).bi, s.dec.scanState.eobRun, [], []⟩ : McuSt) =
        ⟨b, s.dec.scanState.eobRun, [], []⟩ := rfl
      rw [e2]
      rcases hb.cases with ⟨a, u, u', e3, e4, hu⟩ | ⟨f, u, u', e3, e4⟩
      · rw [e3, e4]
        obtain ⟨k, rfl, hu⟩ := hu
        exact .ok _ ⟨k, rfl, hu⟩
      · rw [e3, e4]
        cases f <;> exact rfl

end

/-! ## Restart markers and scans -/

/-- What the readers find when they look for a marker: the same failure, the same restart marker with related
readers behind it, or no restart marker. -/
def Marks (R : Biterator → Biterator → Prop) : Prop :=
  ∀ s s', R s s' →
    match marker s.input, marker s'.input with
    | .ok (m, r), .ok (m', r') =>
      (m' = m ∧ R ⟨r, 0, 0⟩ ⟨r', 0, 0⟩) ∨ ((∀ n, m ≠ .RST n) ∧ ∀ n, m' ≠ .RST n)
    | .error f, .error f' => f' = f
    | _, _ => False

section

variable {R : Biterator → Biterator → Prop} (L : Lock R) (M : Marks R)
include M

omit M in
theorem handleRestart_not {m : Marker} (h : ∀ n, m ≠ .RST n) (s : St) :
    handleRestart m s = .fail (.err .notRst) s := by
  cases m with
  | RST n => exact absurd rfl (h n)
  | _ => rfl

omit M in
theorem handleRestart_lock (m : Marker) {s s' : St} (hd : s'.dec = s.dec) (h : R s.bi.reset s'.bi.reset) :
    Agree R (handleRestart m s) (handleRestart m s') := by
  unfold handleRestart
  rw [hd]
  cases m with
  | RST n =>
    simp only
    split
    · exact rfl
    · exact .ok _ ⟨_, rfl, h⟩
  | _ => exact rfl

theorem restartParser_lock (cfg : Cfg) (mcuX mcuY : Nat) {s s' : St} (h : Lockstep R s s') :
    Agree R (restartParser cfg mcuX mcuY s) (restartParser cfg mcuX mcuY s') := by
  obtain ⟨b, rfl, h⟩ := h
  unfold restartParser
  have e : (WithBi.put s b : St).dec = s.dec := rfl
  have e1 : (WithBi.put s b : St).bi = b := rfl
  rw [e]
  split
  · cases s.dec.frame with
    | none => exact rfl
    | some frame =>
      simp only
      by_cases hu : s.dec.scanState.mcusLeftUntilRestart = 0 ∧ cfg.debug
      · rw [if_pos hu, if_pos hu]; exact rfl
      · rw [if_neg hu, if_neg hu]
        generalize (s.dec.scanState.mcusLeftUntilRestart + 2 ^ 16 - 1) % 2 ^ 16 = left
        by_cases hl : left = 0 ∧ ¬ (mcuX = frame.mcuSize.width - 1 ∧ mcuY = frame.mcuSize.height - 1)
        · rw [if_pos hl, if_pos hl, e1]
          have hm := M _ _ h
          have e3 : (WithBi.get s : Biterator) = s.bi := rfl
          rw [e3] at hm
          cases hx : marker s.bi.input with
          | error f =>
            rw [hx] at hm
            cases hy : marker b.input with
            | error f' => rw [hy] at hm; cases hm; exact rfl
            | ok r' => rw [hy] at hm; exact hm.elim
          | ok r =>
            obtain ⟨m, r⟩ := r
            rw [hx] at hm
            cases hy : marker b.input with
            | error f' => rw [hy] at hm; exact hm.elim
            | ok r' =>
              obtain ⟨m', r'⟩ := r'
              rw [hy] at hm
              simp only
              rcases hm with ⟨rfl, hm⟩ | ⟨h1, h2⟩
              · exact handleRestart_lock m' rfl hm
              · rw [handleRestart_not h1, handleRestart_not h2]
                exact rfl
        · rw [if_neg hl, if_neg hl]; exact .ok _ ⟨b, rfl, h⟩
  · exact .ok _ ⟨b, rfl, h⟩

include L

theorem mcuStep_lock (cfg : Cfg) (pd : Bool) (mcuY mcuX : Nat) {s s' : St} (h : Lockstep R s s') :
    Agree R (mcuStep cfg pd mcuY mcuX s) (mcuStep cfg pd mcuY mcuX s') := by
  unfold mcuStep
  refine (decodeRow_lock L h).bind fun _ s s' h => (restartParser_lock M cfg _ _ h).bind fun _ s s' h => ?_
  split
  · obtain ⟨b, rfl, h⟩ := h
    have e : (WithBi.put s b : St).dec = s.dec := rfl
    rw [e]
    cases dequantize cfg mcuX mcuY s.dec with
    | ok a d => exact .ok _ ⟨b, rfl, h⟩
    | fail f d => exact rfl
  · exact .ok _ h

theorem mcuLoop_lock (cfg : Cfg) (pd : Bool) : ∀ (l : List (Nat × Nat)) (s s' : St), Lockstep R s s' →
    Agree R (mcuLoop cfg pd l s) (mcuLoop cfg pd l s') := by
  intro l
  induction l with
  | nil => intro s s' h; exact .ok _ h
  | cons p l ih =>
    intro s s' h
    obtain ⟨y, x⟩ := p
    rw [mcuLoop, mcuLoop]
    exact (mcuStep_lock L M cfg pd y x h).bind fun _ s s' h => ih s s' h

omit L M in
theorem scanInit_lock (pd : Bool) {s s' : St} (h : Lockstep R s s') : Agree R (scanInit pd s) (scanInit pd s') := by
  obtain ⟨b, rfl, h⟩ := h
  unfold scanInit
  have e : (WithBi.put s b : St).dec = s.dec := rfl
  rw [e]
  cases s.dec.frame with
  | none => exact rfl
  | some frame =>
    cases s.dec.scan with
    | none => exact rfl
    | some scan =>
      simp only
      cases (if scan.ss = 0 then anyUnset s.dec.dcTables (scan.headers.map (·.dcSel))
        else .ok false) with
      | error f => exact rfl
      | ok c =>
        cases c with
        | true => exact rfl
        | false =>
          simp only
          cases (if scan.se > 1 then anyUnset s.dec.acTables (scan.headers.map (·.acSel))
            else .ok false) with
          | error f => exact rfl
          | ok c =>
            cases c with
            | true => exact rfl
            | false =>
              simp only
              split
              · split
                · exact rfl
                · exact .ok _ ⟨b, rfl, h⟩
              · exact .ok _ ⟨b, rfl, h⟩

/-- Scans read through readers in lockstep agree. -/
theorem decodeScan_lock (cfg : Cfg) (pd : Bool) {s s' : St} (h : Lockstep R s s') :
    Agree R (decodeScan cfg pd s) (decodeScan cfg pd s') := by
  unfold decodeScan
  refine (scanInit_lock pd h).bind fun _ s s' h => ?_
  have e : s'.dec = s.dec := by obtain ⟨b, rfl, h⟩ := h; rfl
  rw [e]
  cases s.dec.frame with
  | none => exact rfl
  | some frame =>
    cases s.dec.scan with
    | none => exact rfl
    | some scan =>
      simp only
      refine (mcuLoop_lock L M cfg pd _ s s' h).bind fun _ s s' h => ?_
      obtain ⟨b, rfl, h⟩ := h
      have e : (WithBi.put s b : St).dec = s.dec := rfl
      rw [e]
      cases takeResults scan.headers s.dec.scanState.results with
      | error f => exact rfl
      | ok p => exact .ok _ ⟨b, rfl, h⟩

end

end Jpeg
