import Verif.Model.Decode
/-!
# More input does not change what was already decided

An operation that succeeds on some input succeeds in the same way when more bytes follow, and so does
one that fails for another reason than running out of input.
-/

namespace Jpeg

/-- States holding unread input. -/
class HasInput (σ : Type) where
  /-- the same state with more bytes behind the unread input -/
  app : σ → List UInt8 → σ

open HasInput

instance : HasInput Biterator := ⟨fun s x => { s with input := s.input ++ x }⟩
instance : HasInput BlockSt := ⟨fun s x => { s with bi := app s.bi x }⟩
instance : HasInput RowSt := ⟨fun s x => { s with bi := app s.bi x }⟩
instance : HasInput McuSt := ⟨fun s x => { s with bi := app s.bi x }⟩
instance : HasInput St := ⟨fun s x => { s with bi := app s.bi x }⟩

/-- Failures that more input does not cure. -/
def Final (f : Fail) : Prop := f ≠ .unit ∧ f ≠ .eof ∧ f ≠ .err .outOfBits

/-- `o'` is what `o` becomes when `x` follows the input. -/
def Grows {σ α : Type} [HasInput σ] (x : List UInt8) (o o' : Out σ α) : Prop :=
  match o with
  | .ok a s => o' = .ok a (app s x)
  | .fail f s => Final f → o' = .fail f (app s x)

section
variable {σ α β : Type} [HasInput σ] {x : List UInt8}

theorem Grows.ok (a : α) (s : σ) : Grows x (.ok a s) (.ok a (app s x)) := rfl

theorem Grows.fail (f : Fail) (s : σ) : Grows (α := α) x (.fail f s) (.fail f (app s x)) :=
  fun _ => rfl

theorem Grows.unit (s : σ) (o' : Out σ α) : Grows x (.fail .unit s) o' := fun h => absurd rfl h.1

theorem Grows.eof (s : σ) (o' : Out σ α) : Grows x (.fail .eof s) o' := fun h => absurd rfl h.2.1

theorem Grows.bind {o o' : Out σ α} {k k' : α → σ → Out σ β} (h : Grows x o o')
    (hk : ∀ a s, Grows x (k a s) (k' a (app s x))) : Grows x (o.bind k) (o'.bind k') := by
  cases o with
  | ok a s => cases h; exact hk a s
  | fail f s =>
    intro hf
    cases h hf
    rfl

theorem Grows.mapErr {o o' : Out σ α} {g : Fail → Fail} (h : Grows x o o')
    (hg : ∀ f, Final (g f) → Final f) : Grows x (o.mapErr g) (o'.mapErr g) := by
  cases o with
  | ok a s => cases h; rfl
  | fail f s =>
    intro hf
    cases h (hg f hf)
    rfl

theorem final_toEof (f : Fail) (h : Final (toEof f)) : Final f := by
  cases f with
  | unit => exact absurd rfl h.2.1
  | eof => exact h
  | err e => exact h
  | panic p => exact h

theorem final_toOutOfBits (f : Fail) (h : Final (toOutOfBits f)) : Final f := by
  cases f with
  | unit => exact absurd rfl h.2.2
  | eof => exact h
  | err e => exact h
  | panic p => exact h

theorem Grows.ofExcept (e : Except Fail α) (s : σ) :
    Grows x (Out.ofExcept e s) (Out.ofExcept e (app s x)) := by
  cases e with
  | ok a => rfl
  | error f => exact fun _ => rfl

theorem Grows.of_ok {o o' : Out σ α} (h : Grows x o o') {a : α} {s : σ} (ho : o = .ok a s) :
    o' = .ok a (app s x) := by
  subst ho; exact h

theorem Grows.of_fail {o o' : Out σ α} (h : Grows x o o') {f : Fail} {s : σ} (ho : o = .fail f s)
    (hf : Final f) : o' = .fail f (app s x) := by
  subst ho; exact h hf

end

/-! ## Bit reader -/

theorem fillLoop_grows (cp : Biterator) (x : List UInt8) : ∀ (n : Nat) (input : List UInt8)
    (bits count : Nat), input.length = n →
    Grows x (Biterator.fillLoop cp input bits count)
      (Biterator.fillLoop (app cp x) (input ++ x) bits count) := by
  intro n
  induction n using Nat.strongRecOn with
  | _ n ih =>
    intro input bits count hn
    rw [Biterator.fillLoop.eq_def cp, Biterator.fillLoop.eq_def (app cp x)]
    simp only
    by_cases hc : 56 < count
    · rw [if_pos hc, if_pos hc]; rfl
    rw [if_neg hc, if_neg hc]
    cases input with
    | nil => exact Grows.unit _ _
    | cons b rest =>
      simp only [List.cons_append]
      by_cases hb : b = 0xFF
      · rw [if_pos hb, if_pos hb]
        cases rest with
        | nil => exact Grows.unit _ _
        | cons z rest' =>
          simp only [List.cons_append]
          by_cases hz : z ≠ 0
          · rw [if_pos hz, if_pos hz]
            by_cases hk : cp.input.length < (count + 8 - 8 - cp.count + 7) / 8
            · rw [if_pos hk]; exact Grows.unit _ _
            · rw [if_neg hk, if_neg]
              · show _ = _
                simp only [app]
                rw [List.drop_append_of_le_length (by omega)]
              · simp only [app, List.length_append]; omega
          · rw [if_neg hz, if_neg hz]
            exact ih _ (by simp only [List.length_cons] at hn; omega) _ _ _ rfl
      · rw [if_neg hb, if_neg hb]
        exact ih _ (by simp only [List.length_cons] at hn; omega) _ _ _ rfl

theorem fillBits_grows (s : Biterator) (x : List UInt8) :
    Grows x s.fillBits (app s x).fillBits :=
  fillLoop_grows s x _ _ _ _ rfl

theorem consumeBits_grows (s : Biterator) (n : Nat) (x : List UInt8) :
    Grows x (s.consumeBits n) ((app s x).consumeBits n) := by
  unfold Biterator.consumeBits
  by_cases h : s.count < n
  · rw [if_pos h, if_pos (by exact h)]; exact Grows.fail _ _
  · rw [if_neg h, if_neg (by exact h)]; rfl

theorem peekBits_app (s : Biterator) (n : Nat) (x : List UInt8) :
    (app s x).peekBits n = s.peekBits n := rfl

theorem nextBits_grows (s : Biterator) (n : Nat) (x : List UInt8) :
    Grows x (s.nextBits n) ((app s x).nextBits n) := by
  unfold Biterator.nextBits
  refine Grows.bind ?_ fun _ s => Grows.bind (Grows.ofExcept _ _) fun v s =>
    Grows.bind (consumeBits_grows s n x) fun _ s => Grows.ok _ _
  by_cases h : s.count < n
  · rw [if_pos h, if_pos (by exact h)]; exact fillBits_grows s x
  · rw [if_neg h, if_neg (by exact h)]; rfl

theorem receiveExtend_grows (s : Biterator) (n : Nat) (x : List UInt8) :
    Grows x (s.receiveExtend n) ((app s x).receiveExtend n) :=
  Grows.bind (nextBits_grows s n x) fun _ _ => Grows.ok _ _

theorem ensure16_grows (s : Biterator) (x : List UInt8) :
    Grows x s.ensure16 (app s x).ensure16 := by
  unfold Biterator.ensure16
  by_cases h : s.count < 16
  · rw [if_pos h, if_pos (by exact h)]; exact fillBits_grows s x
  · rw [if_neg h, if_neg (by exact h)]; rfl

/-! ## Huffman decoding -/

theorem searchGo_grows (t : BaseTable) (bits : Nat) (x : List UInt8) : ∀ (fuel i : Nat)
    (s : Biterator), Grows x (searchGo t bits fuel i s) (searchGo t bits fuel i (app s x)) := by
  intro fuel
  induction fuel with
  | zero => intro i s; exact Grows.unit _ _
  | succ fuel ih =>
    intro i s
    rw [searchGo, searchGo]
    cases t.maxCode[i]? with
    | none => exact Grows.fail _ _
    | some m =>
      simp only
      split
      · refine Grows.bind (consumeBits_grows s _ x) fun _ s => ?_
        cases t.valOffset[i]? with
        | none => exact Grows.fail _ _
        | some off =>
          simp only
          split
          · exact Grows.fail _ _
          · generalize t.values[(((bits >>> (15 - i) : Nat) : Int) + off).toNat]? = v
            cases v with
            | none => exact Grows.fail _ _
            | some v => exact Grows.ok _ _
      · exact ih _ _

theorem decodeInner_grows (t : BaseTable) (s : Biterator) (n : Nat) (x : List UInt8) :
    Grows x (t.decodeInner s n) (t.decodeInner (app s x) n) := by
  unfold BaseTable.decodeInner
  cases t.lut[n]? with
  | none => exact Grows.fail _ _
  | some e =>
    obtain ⟨value, size⟩ := e
    simp only
    split
    · exact Grows.bind (consumeBits_grows s _ x) fun _ _ => Grows.ok _ _
    · exact Grows.bind (Grows.ofExcept _ _) fun bits s => searchGo_grows t bits x _ _ s

theorem decode_grows (t : BaseTable) (s : Biterator) (x : List UInt8) :
    Grows x (t.decode s) (t.decode (app s x)) :=
  Grows.bind (ensure16_grows s x) fun _ _ => Grows.bind (Grows.ofExcept _ _) fun n s =>
    decodeInner_grows t s n x

theorem decodeFastAc_grows (t : AcTable) (s : Biterator) (x : List UInt8) :
    Grows x (t.decodeFastAc s) (t.decodeFastAc (app s x)) := by
  unfold AcTable.decodeFastAc
  refine Grows.bind (ensure16_grows s x) fun _ _ => Grows.bind (Grows.ofExcept _ _) fun n s => ?_
  cases t.acLut[n]? with
  | none => exact Grows.fail _ _
  | some e =>
    obtain ⟨value, runSize⟩ := e
    simp only
    split
    · exact Grows.bind (consumeBits_grows s _ x) fun _ _ => Grows.ok _ _
    · exact Grows.bind (decodeInner_grows _ s n x) fun _ _ => Grows.ok _ _

/-! ## Blocks and MCUs -/

theorem liftBi_grows {α : Type} {op : Biterator → Out Biterator α} {x : List UInt8}
    (h : ∀ s, Grows x (op s) (op (app s x))) (s : BlockSt) :
    Grows x (liftBi op s) (liftBi op (app s x)) := by
  have hs := h s.bi
  unfold liftBi
  have e : (app s x).bi = app s.bi x := rfl
  rw [e]
  cases ho : op s.bi with
  | ok a bi =>
    rw [ho] at hs
    rw [show op (app s.bi x) = _ from hs]
    rfl
  | fail f bi =>
    rw [ho] at hs
    intro hf
    rw [show op (app s.bi x) = _ from hs hf]
    rfl

theorem decodeDc_grows (scan : Scan) (dc : BaseTable) (s : BlockSt) (x : List UInt8) :
    Grows x (decodeDc scan dc s) (decodeDc scan dc (app s x)) := by
  unfold decodeDc
  split
  · refine Grows.bind (Grows.mapErr (liftBi_grows (decode_grows dc · x) s) final_toEof) fun v s => ?_
    refine Grows.bind ?_ fun d s => Grows.ok _ _
    split
    · exact Grows.ok _ _
    · split
      · exact Grows.fail _ _
      · exact Grows.mapErr (liftBi_grows (receiveExtend_grows · _ x) s) final_toEof
  · exact Grows.ok _ _

theorem acPut_grows (scan : Scan) (last index run : Nat) (v : Int) (s : BlockSt) (x : List UInt8) :
    Grows x (acPut scan last index run v s) (acPut scan last index run v (app s x)) := by
  unfold acPut
  split
  · have e : (app s x).coeffs = s.coeffs := rfl
    rw [e]
    cases unzigzag s.coeffs (index + run) (shlI16 v scan.al) with
    | error f => exact Grows.fail _ _
    | ok c => exact Grows.ok _ _
  · exact Grows.ok _ _

theorem acRound_grows (scan : Scan) (ac : AcTable) (last index : Nat) (s : BlockSt)
    (x : List UInt8) :
    Grows x (acRound scan ac last index s) (acRound scan ac last index (app s x)) := by
  unfold acRound
  refine Grows.bind (Grows.mapErr (liftBi_grows (decodeFastAc_grows ac · x) s) final_toEof)
    fun r s => ?_
  cases r with
  | fast v run => exact acPut_grows _ _ _ _ _ _ _
  | normal byte =>
    simp only
    split
    · split
      · exact Grows.ok _ _
      · split
        · exact Grows.bind (Grows.mapErr (liftBi_grows (nextBits_grows · _ x) _) final_toOutOfBits)
            fun _ _ => Grows.ok _ _
        · exact Grows.ok _ _
    · exact Grows.bind (Grows.mapErr (liftBi_grows (receiveExtend_grows · _ x) s) final_toEof)
        fun _ _ => acPut_grows _ _ _ _ _ _ _

theorem decodeAcGo_grows (scan : Scan) (ac : AcTable) (last : Nat) (x : List UInt8) :
    ∀ (fuel index : Nat) (s : BlockSt),
    Grows x (decodeAcGo scan ac last fuel index s) (decodeAcGo scan ac last fuel index (app s x)) := by
  intro fuel
  induction fuel with
  | zero => intro i s; exact Grows.fail _ _
  | succ fuel ih =>
    intro i s
    rw [decodeAcGo, decodeAcGo]
    refine Grows.bind (acRound_grows scan ac last i s x) fun next s => ?_
    cases next with
    | none => exact Grows.ok _ _
    | some i => exact ih _ _

theorem decodeBlock_grows (scan : Scan) (dc : BaseTable) (ac : AcTable) (s : BlockSt)
    (x : List UInt8) :
    Grows x (decodeBlock scan dc ac s) (decodeBlock scan dc ac (app s x)) := by
  unfold decodeBlock
  refine Grows.bind (decodeDc_grows scan dc s x) fun _ s => ?_
  have e : (app s x).eobRun = s.eobRun := rfl
  simp only [e]
  split
  · exact Grows.ok _ _
  · split
    · exact decodeAcGo_grows _ _ _ _ _ _ _
    · exact Grows.ok _ _

theorem decodeBlocks_grows (scan : Scan) (dc : BaseTable) (ac : AcTable) (x : List UInt8) :
    ∀ (n : Nat) (s : RowSt),
    Grows x (decodeBlocks scan dc ac n s) (decodeBlocks scan dc ac n (app s x)) := by
  intro n
  induction n with
  | zero => intro s; exact Grows.ok _ _
  | succ n ih =>
    intro s
    rw [decodeBlocks, decodeBlocks]
    have e : (app s x).done = s.done := rfl
    rw [e]
    split
    · have hb := decodeBlock_grows scan dc ac ⟨s.bi, s.eobRun, s.dcPred, zeroBlock⟩ x
      have e2 : (⟨(app s x).bi, (app s x).eobRun, (app s x).dcPred, zeroBlock⟩ : BlockSt) =
        app (⟨s.bi, s.eobRun, s.dcPred, zeroBlock⟩ : BlockSt) x := rfl
      rw [e2]
      cases ho : decodeBlock scan dc ac ⟨s.bi, s.eobRun, s.dcPred, zeroBlock⟩ with
      | ok a b =>
        rw [ho] at hb
        rw [show decodeBlock scan dc ac (app _ x) = _ from hb]
        exact ih _
      | fail f b =>
        rw [ho] at hb
        intro hf
        rw [show decodeBlock scan dc ac (app _ x) = _ from hb hf]
        rfl
    · exact Grows.ok _ _

theorem decodeComponents_grows (d : Decoder) (scan : Scan) (x : List UInt8) :
    ∀ (cs : List Component) (hs : List ScanHeader) (ps : List Int) (s : McuSt),
    Grows x (decodeComponents d scan cs hs ps s) (decodeComponents d scan cs hs ps (app s x)) := by
  intro cs
  induction cs with
  | nil => intro hs ps s; simp only [decodeComponents]; exact Grows.ok _ _
  | cons c cs ih =>
    intro hs ps s
    cases hs with
    | nil => simp only [decodeComponents]; exact Grows.ok _ _
    | cons h hs =>
      cases ps with
      | nil => simp only [decodeComponents]; exact Grows.ok _ _
      | cons p ps =>
        rw [decodeComponents, decodeComponents]
        cases d.dcTables[h.dcSel]? with
        | none => exact Grows.fail _ _
        | some t =>
          cases t with
          | none => exact Grows.fail _ _
          | some dc =>
            simp only
            cases d.acTables[h.acSel]? with
            | none => exact Grows.fail _ _
            | some t =>
              cases t with
              | none => exact Grows.fail _ _
              | some ac =>
                simp only
                have hb := decodeBlocks_grows scan dc ac x c.blocksPerMcu ⟨s.bi, s.eobRun, p, s.done⟩
                have e2 : (⟨(app s x).bi, (app s x).eobRun, p, (app s x).done⟩ : RowSt) =
                  app (⟨s.bi, s.eobRun, p, s.done⟩ : RowSt) x := rfl
                rw [e2]
                cases ho : decodeBlocks scan dc ac c.blocksPerMcu ⟨s.bi, s.eobRun, p, s.done⟩ with
                | ok a r =>
                  rw [ho] at hb
                  rw [show decodeBlocks scan dc ac _ (app _ x) = _ from hb]
                  exact ih hs ps _
                | fail f r =>
                  rw [ho] at hb
                  intro hf
                  rw [show decodeBlocks scan dc ac _ (app _ x) = _ from hb hf]
                  rfl

theorem decodeRow_grows (s : St) (x : List UInt8) :
    Grows x (decodeRow s) (decodeRow (app s x)) := by
  unfold decodeRow
  have e : (app s x).dec = s.dec := rfl
  rw [e]
  cases s.dec.scan with
  | none => exact Grows.fail _ _
  | some scan =>
    cases s.dec.frame with
    | none => exact Grows.fail _ _
    | some frame =>
      simp only
      have hb := decodeComponents_grows s.dec scan x frame.components scan.headers
        s.dec.scanState.dcPredictors ⟨s.bi, s.dec.scanState.eobRun, [], []⟩
      have e2 : (⟨(app s x).bi, s.dec.scanState.eobRun, [], []⟩ : McuSt) =
        app (⟨s.bi, s.dec.scanState.eobRun, [], []⟩ : McuSt) x := rfl
      rw [e2]
      cases ho : decodeComponents s.dec scan frame.components scan.headers
        s.dec.scanState.dcPredictors ⟨s.bi, s.dec.scanState.eobRun, [], []⟩ with
      | ok a m =>
        rw [ho] at hb
        rw [show decodeComponents _ _ _ _ _ (app _ x) = _ from hb]
        exact Grows.ok _ _
      | fail f m =>
        rw [ho] at hb
        cases f with
        | unit => exact Grows.unit _ _
        | eof => exact Grows.eof _ _
        | err e =>
          intro hf
          rw [show decodeComponents _ _ _ _ _ (app _ x) = _ from hb hf]
          rfl
        | panic p =>
          intro hf
          rw [show decodeComponents _ _ _ _ _ (app _ x) = _ from hb hf]
          rfl

/-! ## Markers and scans -/

theorem markerAux_grows (x : List UInt8) : ∀ (l : List UInt8) (b : Bool),
    match markerAux b l with
    | .ok (m, rest) => markerAux b (l ++ x) = .ok (m, rest ++ x)
    | .error f => Final f → markerAux b (l ++ x) = .error f := by
  intro l
  induction l with
  | nil => intro b; rw [markerAux]; exact fun h => absurd rfl h.2.1
  | cons c l ih =>
    intro b
    cases b with
    | false =>
      rw [markerAux, List.cons_append, markerAux]
      exact ih _
    | true =>
      rw [markerAux, List.cons_append, markerAux]
      by_cases h1 : c = 0xFF
      · rw [if_pos h1, if_pos h1]; exact ih _
      · rw [if_neg h1, if_neg h1]
        by_cases h2 : c = 0
        · rw [if_pos h2, if_pos h2]; exact ih _
        · rw [if_neg h2, if_neg h2]
          cases markerOfByte c with
          | none => exact fun _ => rfl
          | some m => rfl

theorem marker_grows {l : List UInt8} {m : Marker} {rest : List UInt8}
    (h : marker l = .ok (m, rest)) (x : List UInt8) : marker (l ++ x) = .ok (m, rest ++ x) := by
  have := markerAux_grows x l false
  unfold marker at h ⊢
  rw [h] at this
  exact this

theorem marker_grows_err {l : List UInt8} {f : Fail}
    (h : marker l = .error f) (hf : Final f) (x : List UInt8) : marker (l ++ x) = .error f := by
  have := markerAux_grows x l false
  unfold marker at h ⊢
  rw [h] at this
  exact this hf

theorem handleRestart_grows (m : Marker) (s : St) (x : List UInt8) :
    Grows x (handleRestart m s) (handleRestart m (app s x)) := by
  unfold handleRestart
  cases m with
  | RST n =>
    simp only
    have e : (app s x).dec = s.dec := rfl
    rw [e]
    split
    · exact Grows.fail _ _
    · exact Grows.ok _ _
  | _ => exact Grows.fail _ _

theorem restartParser_grows (cfg : Cfg) (mcuX mcuY : Nat) (s : St) (x : List UInt8) :
    Grows x (restartParser cfg mcuX mcuY s) (restartParser cfg mcuX mcuY (app s x)) := by
  unfold restartParser
  have e : (app s x).dec = s.dec := rfl
  rw [e]
  split
  · cases s.dec.frame with
    | none => exact Grows.fail _ _
    | some frame =>
      simp only
      by_cases hu : s.dec.scanState.mcusLeftUntilRestart = 0 ∧ cfg.debug
      · rw [if_pos hu, if_pos hu]; exact Grows.fail _ _
      · rw [if_neg hu, if_neg hu]
        generalize (s.dec.scanState.mcusLeftUntilRestart + 2 ^ 16 - 1) % 2 ^ 16 = left
        by_cases hl : left = 0 ∧ ¬ (mcuX = frame.mcuSize.width - 1 ∧ mcuY = frame.mcuSize.height - 1)
        · rw [if_pos hl, if_pos hl]
          cases hm : marker s.bi.input with
          | error f =>
            intro hf
            have hm' : marker (app s x).bi.input = .error f := marker_grows_err hm hf x
            rw [hm']
            rfl
          | ok r =>
            obtain ⟨m, rest⟩ := r
            have hm' : marker (app s x).bi.input = .ok (m, rest ++ x) := marker_grows hm x
            rw [hm']
            exact handleRestart_grows m _ x
        · rw [if_neg hl, if_neg hl]; exact Grows.ok _ _
  · exact Grows.ok _ _

theorem mcuStep_grows (cfg : Cfg) (pd : Bool) (mcuY mcuX : Nat) (s : St) (x : List UInt8) :
    Grows x (mcuStep cfg pd mcuY mcuX s) (mcuStep cfg pd mcuY mcuX (app s x)) := by
  unfold mcuStep
  refine Grows.bind (decodeRow_grows s x) fun _ s => Grows.bind (restartParser_grows cfg _ _ s x)
    fun _ s => ?_
  split
  · have e : (app s x).dec = s.dec := rfl
    rw [e]
    cases dequantize cfg mcuX mcuY s.dec with
    | ok a d => exact Grows.ok _ _
    | fail f d => exact Grows.fail _ _
  · exact Grows.ok _ _

theorem mcuLoop_grows (cfg : Cfg) (pd : Bool) (x : List UInt8) : ∀ (l : List (Nat × Nat)) (s : St),
    Grows x (mcuLoop cfg pd l s) (mcuLoop cfg pd l (app s x)) := by
  intro l
  induction l with
  | nil => intro s; exact Grows.ok _ _
  | cons p l ih =>
    intro s
    obtain ⟨y, xx⟩ := p
    rw [mcuLoop, mcuLoop]
    exact Grows.bind (mcuStep_grows cfg pd y xx s x) fun _ s => ih s

theorem scanInit_grows (pd : Bool) (s : St) (x : List UInt8) :
    Grows x (scanInit pd s) (scanInit pd (app s x)) := by
  unfold scanInit
  have e : (app s x).dec = s.dec := rfl
  rw [e]
  cases s.dec.frame with
  | none => exact Grows.fail _ _
  | some frame =>
    cases s.dec.scan with
    | none => exact Grows.fail _ _
    | some scan =>
      simp only
      cases (if scan.ss = 0 then anyUnset s.dec.dcTables (scan.headers.map (·.dcSel))
        else .ok false) with
      | error f => exact Grows.fail _ _
      | ok b =>
        cases b with
        | true => exact Grows.fail _ _
        | false =>
          simp only
          cases (if scan.se > 1 then anyUnset s.dec.acTables (scan.headers.map (·.acSel))
            else .ok false) with
          | error f => exact Grows.fail _ _
          | ok b =>
            cases b with
            | true => exact Grows.fail _ _
            | false =>
              simp only
              split
              · split
                · exact Grows.fail _ _
                · exact Grows.ok _ _
              · exact Grows.ok _ _

theorem decodeScan_grows (cfg : Cfg) (pd : Bool) (s : St) (x : List UInt8) :
    Grows x (decodeScan cfg pd s) (decodeScan cfg pd (app s x)) := by
  unfold decodeScan
  refine Grows.bind (scanInit_grows pd s x) fun _ s => ?_
  have e : (app s x).dec = s.dec := rfl
  rw [e]
  cases s.dec.frame with
  | none => exact Grows.fail _ _
  | some frame =>
    cases s.dec.scan with
    | none => exact Grows.fail _ _
    | some scan =>
      simp only
      refine Grows.bind (mcuLoop_grows cfg pd x _ s) fun _ s => ?_
      have e : (app s x).dec = s.dec := rfl
      rw [e]
      cases takeResults scan.headers s.dec.scanState.results with
      | error f => exact Grows.fail _ _
      | ok p => exact Grows.ok _ _

/-! ## Segments -/

theorem takeBytes_grows {n : Nat} {l p rest : List UInt8} (h : takeBytes n l = .ok (p, rest))
    (x : List UInt8) : takeBytes n (l ++ x) = .ok (p, rest ++ x) := by
  unfold takeBytes at h ⊢
  split at h
  · cases h
  · cases h
    rw [if_neg (by simp only [List.length_append]; omega), List.take_append_of_le_length (by omega),
      List.drop_append_of_le_length (by omega)]

theorem takeBytes_eof {n : Nat} {l : List UInt8} {f : Fail} (h : takeBytes n l = .error f) :
    f = .eof := by
  unfold takeBytes at h
  split at h
  · cases h; rfl
  · cases h

theorem segmentBytes_grows {cfg : Cfg} {l p rest : List UInt8}
    (h : segmentBytes cfg l = .ok (p, rest)) (x : List UInt8) :
    segmentBytes cfg (l ++ x) = .ok (p, rest ++ x) := by
  unfold segmentBytes at h ⊢
  cases l with
  | nil => cases h
  | cons a l =>
    cases l with
    | nil => cases h
    | cons b l =>
      simp only [List.cons_append, beU16] at h ⊢
      split at h
      · next hlt =>
        rw [if_pos hlt]
        split at h
        · cases h
        · next hd =>
          rw [if_neg hd]
          exact takeBytes_grows h x
      · next hlt =>
        rw [if_neg hlt]
        exact takeBytes_grows h x

theorem segmentBytes_grows_err {cfg : Cfg} {l : List UInt8} {f : Fail}
    (h : segmentBytes cfg l = .error f) (hf : Final f) (x : List UInt8) :
    segmentBytes cfg (l ++ x) = .error f := by
  unfold segmentBytes at h ⊢
  cases l with
  | nil => cases h; exact absurd rfl hf.2.1
  | cons a l =>
    cases l with
    | nil => cases h; exact absurd rfl hf.2.1
    | cons b l =>
      simp only [List.cons_append, beU16] at h ⊢
      split at h
      · next hlt =>
        rw [if_pos hlt]
        split at h
        · next hd => rw [if_pos hd]; exact h
        · exact absurd (takeBytes_eof h) hf.2.1
      · exact absurd (takeBytes_eof h) hf.2.1

theorem segment_grows (cfg : Cfg) (body : List UInt8 → Decoder → Out Decoder Unit) (s : St)
    (x : List UInt8) : Grows x (segment cfg body s) (segment cfg body (app s x)) := by
  unfold segment
  cases hs : segmentBytes cfg s.bi.input with
  | error f =>
    intro hf
    have h' : segmentBytes cfg (app s x).bi.input = .error f := segmentBytes_grows_err hs hf x
    rw [h']
  | ok r =>
    obtain ⟨p, rest⟩ := r
    have h' : segmentBytes cfg (app s x).bi.input = .ok (p, rest ++ x) := segmentBytes_grows hs x
    rw [h']
    have e : (app s x).dec = s.dec := rfl
    simp only [e]
    cases body p s.dec with
    | ok a d => exact Grows.ok _ _
    | fail f d => exact Grows.fail _ _

theorem sos_grows (cfg : Cfg) (s : St) (x : List UInt8) : Grows x (sos cfg s) (sos cfg (app s x)) := by
  unfold sos
  cases hs : segmentBytes cfg s.bi.input with
  | error f =>
    intro hf
    have h' : segmentBytes cfg (app s x).bi.input = .error f := segmentBytes_grows_err hs hf x
    rw [h']
  | ok r =>
    obtain ⟨p, rest⟩ := r
    have h' : segmentBytes cfg (app s x).bi.input = .ok (p, rest ++ x) := segmentBytes_grows hs x
    rw [h']
    simp only
    have e : ((app s x).setInput (rest ++ x)).dec = (s.setInput rest).dec := rfl
    have e0 : (s.setInput rest).dec = s.dec := rfl
    rw [e, e0]
    cases sosSegment s.dec.frame p with
    | error f => exact Grows.fail _ _
    | ok r =>
      obtain ⟨scan, _⟩ := r
      simp only
      cases s.dec.frame with
      | none => exact Grows.fail _ _
      | some frame =>
        simp only
        cases frame.codingProcess with
        | error f => exact Grows.fail _ _
        | ok cp =>
          cases cp with
          | progressive => exact Grows.fail _ _
          | baseline | sequential | lossLess =>
            simp only
            cases (if scan.al = 0 then
              setFinishedAll cfg (inclusiveRange scan.ss scan.se) (scan.headers.map (·.componentIndex))
                s.dec.coefficientsFinished
              else .ok s.dec.coefficientsFinished) with
            | error f => exact Grows.fail _ _
            | ok fin =>
              simp only
              cases allFinished fin (scan.headers.map (·.componentIndex)) with
              | error f => exact Grows.fail _ _
              | ok b => exact decodeScan_grows cfg b _ x

theorem doSegment_grows (cfg : Cfg) (m : Marker) (s : St) (x : List UInt8) :
    Grows x (doSegment cfg m s) (doSegment cfg m (app s x)) := by
  unfold doSegment
  cases m with
  | SOI => exact Grows.ok _ _
  | RST _ => exact Grows.ok _ _
  | COM => exact Grows.ok _ _
  | EOI => exact Grows.ok _ _
  | SOF i => exact segment_grows _ _ _ _
  | DHT => exact segment_grows _ _ _ _
  | DQT => exact segment_grows _ _ _ _
  | DRI => exact segment_grows _ _ _ _
  | SOS => exact sos_grows _ _ _
  | APP n =>
    simp only
    split
    · exact segment_grows _ _ _ _
    · exact segment_grows _ _ _ _

theorem segmentLoop_grows (cfg : Cfg) (x : List UInt8) : ∀ (fuel : Nat) (s : St),
    Grows x (segmentLoop cfg fuel s) (segmentLoop cfg fuel (app s x)) := by
  intro fuel
  induction fuel with
  | zero => intro s; exact Grows.fail _ _
  | succ fuel ih =>
    intro s
    rw [segmentLoop, segmentLoop]
    cases hm : marker s.bi.input with
    | error f =>
      intro hf
      have hm' : marker (app s x).bi.input = .error f := marker_grows_err hm hf x
      rw [hm']
    | ok r =>
      obtain ⟨m, rest⟩ := r
      have hm' : marker (app s x).bi.input = .ok (m, rest ++ x) := marker_grows hm x
      rw [hm']
      simp only
      split
      · exact Grows.ok _ _
      · exact Grows.bind (doSegment_grows cfg m _ x) fun _ s => ih s

end Jpeg
