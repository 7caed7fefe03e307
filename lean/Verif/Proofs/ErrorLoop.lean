import Verif.Proofs.Errors
import Verif.Proofs.PollKind
/-!
# What an error says about the file: scans, and the loop over the segments
-/

namespace Jpeg
open Spec

/-! ## Scan headers -/

theorem scanHeadersP_err {frame : Option Frame} {e : ErrKind} : ∀ (n : Nat) (m : Option Nat) (l : List UInt8),
    scanHeadersP frame n m l = .error (.err e) → (e = .sosBeforeSof ∧ frame = none) ∨ ∃ f, frame = some f ∧
      ((e = .noSuchComponent ∧ ∃ (before : List UInt8) (k : Nat) (id sel : UInt8) (more : List UInt8),
        l = before ++ id :: sel :: more ∧ before.length = 2 * k ∧ k < n ∧ ∀ c ∈ f.components, c.id ≠ id) ∨
      (∃ (before : List UInt8) (k : Nat) (id sel id' sel' : UInt8) (more : List UInt8) (i i' : Nat),
        l = before ++ id :: sel :: id' :: sel' :: more ∧ before.length = 2 * k ∧ k + 1 < n ∧
        FirstWith f.components id i ∧ FirstWith f.components id' i' ∧
        ((e = .componentOrder ∧ i' < i) ∨ (e = .componentDuplicate ∧ i' = i))) ∨
      (∃ (i i' : Nat) (id' sel' : UInt8) (more : List UInt8), m = some i ∧ l = id' :: sel' :: more ∧ 0 < n ∧
        FirstWith f.components id' i' ∧
        ((e = .componentOrder ∧ i' < i) ∨ (e = .componentDuplicate ∧ i' = i)))) := by
  intro n
  induction n with
  | zero => intro m l h; cases h
  | succ n ih =>
    intro m l h
    match l with
    | [] => simp [scanHeadersP, anyByte] at h
    | [_] => simp [scanHeadersP, anyByte, split4Bit] at h
    | id :: b :: l =>
      rw [scanHeadersP] at h
      simp only [anyByte, split4Bit_cons] at h
      cases frame with
      | none => simp only [Except.error.injEq, Fail.err.injEq] at h; exact .inl ⟨h.symm, rfl⟩
      | some f =>
        simp only at h
        refine .inr ⟨f, rfl, ?_⟩
        cases hfc : findComponent id f.components with
        | none =>
          rw [hfc] at h
          simp only [Except.error.injEq, Fail.err.injEq] at h
          exact .inl ⟨h.symm, [], 0, id, b, l, rfl, rfl, by omega, findComponent_none.1 hfc⟩
        | some i' =>
          have hfirst : FirstWith f.components id i' := (findComponent_iff _ _ _).1 hfc
          rw [hfc] at h
          simp only at h
          have clash : ∀ i, m = some i → (e = .componentOrder ∧ i' < i) ∨ (e = .componentDuplicate ∧ i' = i) →
              ∃ (i i' : Nat) (id' sel' : UInt8) (more : List UInt8), m = some i ∧ id :: b :: l = id' :: sel' :: more ∧
                0 < n + 1 ∧ FirstWith f.components id' i' ∧
                ((e = .componentOrder ∧ i' < i) ∨ (e = .componentDuplicate ∧ i' = i)) :=
            fun i hm hc => ⟨i, i', id, b, l, hm, rfl, by omega, hfirst, hc⟩
          have go : scanHeadersP (some f) n (some i') l = .error (.err e) →
              ((e = .noSuchComponent ∧ ∃ (before : List UInt8) (k : Nat) (id' sel : UInt8) (more : List UInt8),
                id :: b :: l = before ++ id' :: sel :: more ∧ before.length = 2 * k ∧ k < n + 1 ∧
                  ∀ c ∈ f.components, c.id ≠ id') ∨
              (∃ (before : List UInt8) (k : Nat) (id1 sel1 id' sel' : UInt8) (more : List UInt8) (i i' : Nat),
                id :: b :: l = before ++ id1 :: sel1 :: id' :: sel' :: more ∧ before.length = 2 * k ∧ k + 1 < n + 1 ∧
                FirstWith f.components id1 i ∧ FirstWith f.components id' i' ∧
                ((e = .componentOrder ∧ i' < i) ∨ (e = .componentDuplicate ∧ i' = i)))) := by
            intro h
            rcases ih (some i') l h with ⟨-, h⟩ | ⟨f', hf', h⟩
            · cases h
            · cases hf'
              rcases h with ⟨he, before, k, id', sel, more, hl, hk, hkn, hc⟩ |
                ⟨before, k, id1, sel1, id', sel', more, i, i'', hl, hk, hkn, h1, h2, hc⟩ |
                ⟨i, i'', id', sel', more, hm, hl, hn, h1, hc⟩
              · exact .inl ⟨he, id :: b :: before, k + 1, id', sel, more, by rw [hl]; simp, by simp [hk]; omega,
                  by omega, hc⟩
              · exact .inr ⟨id :: b :: before, k + 1, id1, sel1, id', sel', more, i, i'', by rw [hl]; simp,
                  by simp [hk]; omega, by omega, h1, h2, hc⟩
              · cases hm
                exact .inr ⟨[], 0, id, b, id', sel', more, i', i'', by rw [hl]; rfl, rfl, by omega, hfirst, h1, hc⟩
          have inner : (match scanHeadersP (some f) n (some i') l with
              | .error g => (.error g : Except Fail (List ScanHeader × List UInt8))
              | .ok (hs, l) => .ok (⟨i', b.toNat / 16, b.toNat % 16⟩ :: hs, l)) = .error (.err e) →
              scanHeadersP (some f) n (some i') l = .error (.err e) := by
            intro h
            cases hs : scanHeadersP (some f) n (some i') l with
            | error g => rw [hs] at h; simpa using h
            | ok q => rw [hs] at h; cases h
          cases m with
          | none =>
            rcases go (inner h) with h | h
            · exact .inl h
            · exact .inr (.inl h)
          | some i =>
            simp only at h
            by_cases h1 : i' < i
            · rw [if_pos h1] at h
              simp only [Except.error.injEq, Fail.err.injEq] at h
              exact .inr (.inr (clash i rfl (.inl ⟨h.symm, h1⟩)))
            · rw [if_neg h1] at h
              by_cases h2 : i' = i
              · rw [if_pos h2] at h
                simp only [Except.error.injEq, Fail.err.injEq] at h
                exact .inr (.inr (clash i rfl (.inr ⟨h.symm, h2⟩)))
              · rw [if_neg h2] at h
                rcases go (inner h) with h | h
                · exact .inl h
                · exact .inr (.inl h)

theorem sosSegment_err {cfg : Cfg} {frame : Option Frame} {payload file : List UInt8} {e : ErrKind}
    (h : sosSegment frame payload = .error (.err e)) (hfile : FileSegment cfg file .SOS payload) :
    SegmentError cfg file e ∨ HeaderError cfg file frame e := by
  unfold sosSegment at h
  cases payload with
  | nil => simp [anyByte] at h
  | cons n l =>
    simp only [anyByte] at h
    split at h
    · next hn =>
      simp only [Except.error.injEq, Fail.err.injEq] at h
      subst h
      unfold MAX_COMPONENTS at hn
      exact .inl (.componentCount n l (by omega) hfile)
    · right
      cases e1 : scanHeadersP frame n.toNat none l with
      | error f =>
        rw [e1] at h
        simp only [Except.error.injEq] at h
        rw [h] at e1
        rcases scanHeadersP_err _ _ _ e1 with ⟨rfl, hf⟩ | ⟨f, hf, h⟩
        · exact .noFrame n l hf hfile
        · rcases h with ⟨rfl, before, k, id, sel, more, rfl, hk, hkn, hc⟩ |
            ⟨before, k, id, sel, id', sel', more, i, i', rfl, hk, hkn, h1, h2, hc⟩ | ⟨i, i', id', sel', more, hm, -⟩
          · exact .noSuchComponent f n before k id sel more hf hk hkn hc hfile
          · rcases hc with ⟨rfl, hi⟩ | ⟨rfl, hi⟩
            · exact .componentOrder f n before k id sel id' sel' i i' more hf hk hkn h1 h2 hi hfile
            · subst hi
              obtain ⟨⟨c, hc1, hc2⟩, -⟩ := h1
              obtain ⟨⟨c', hc1', hc2'⟩, -⟩ := h2
              rw [hc1] at hc1'
              cases hc1'
              rw [← hc2', hc2] at hfile
              exact .componentDuplicate f n before k id sel sel' more hf hk hkn hfile
          · cases hm
      | ok q =>
        obtain ⟨hs, l1⟩ := q
        rw [e1] at h
        simp only at h
        exfalso
        cases l1 with
        | nil => simp at h
        | cons ss l2 =>
          cases l2 with
          | nil => simp at h
          | cons se l3 =>
            simp only at h
            cases e2 : split4Bit l3 with
            | error f => rw [e2] at h; simp only [Except.error.injEq] at h; rw [split4Bit_error e2] at h; cases h
            | ok q => rw [e2] at h; cases h

/-! ## Entropy coded data -/

/-- The errors of one block. -/
def BlockErr (scan : Scan) (dc : BaseTable) (ac : AcTable) (f : Fail) : Prop := ∀ e, f = .err e →
  (e = .dcCategory ∧ scan.ss = 0 ∧ ∃ v ∈ dc.values, 11 < v.toNat) ∨ (e = .outOfBits ∧ EobRunTable ac)

theorem toEof_err {scan : Scan} {dc : BaseTable} {ac : AcTable} (f : Fail) (h : BitFail f) :
    BlockErr scan dc ac (toEof f) := by
  intro e he
  cases f with
  | err k => exact absurd rfl (h k)
  | _ => cases he

theorem decode_mem {L : List Nat} {counts values : List UInt8} {t : BaseTable} (ht : TableOk L counts values t)
    {s s' : Biterator} {b : UInt8} (h : t.decode s = .ok b s') : b ∈ t.values := by
  unfold BaseTable.decode at h
  cases he : s.ensure16 with
  | fail f s1 => rw [he] at h; cases h
  | ok u s1 =>
    rw [he, Out.bind_ok] at h
    cases hp : s1.peekBits LUT_BITS with
    | error f => rw [hp] at h; cases h
    | ok n =>
      rw [hp, Out.ofExcept_ok, Out.bind_ok] at h
      exact decodeInner_mem ht h

theorem mapErr_ok {σ α : Type} {o : Out σ α} {g : Fail → Fail} {a : α} {s : σ} (h : o.mapErr g = .ok a s) :
    o = .ok a s := by
  cases o with
  | ok b t => exact h
  | fail f t => cases h

theorem decodeDc_err {L : List Nat} {counts values : List UInt8} {scan : Scan} {dc : BaseTable} {ac : AcTable}
    (ht : TableOk L counts values dc) (s : BlockSt) : Fails (BlockErr scan dc ac) (decodeDc scan dc s) := by
  unfold decodeDc
  split
  · next hss =>
    refine Fails.bind (Fails.mapErr (liftBi_bitFail (decode_bitFail dc s.bi)) toEof_err) fun v s1 hv => ?_
    refine Fails.bind ?_ fun d s _ => Fails.ok _ _
    split
    · exact Fails.ok _ _
    · split
      · next h11 =>
        refine Fails.fail ?_ _
        intro e he
        cases he
        exact .inl ⟨rfl, hss, v, decode_mem ht (liftBi_ok (mapErr_ok hv)), h11⟩
      · exact Fails.mapErr (liftBi_bitFail (receiveExtend_bitFail s1.bi _)) toEof_err
  · exact Fails.ok _ _

theorem acPut_err {scan : Scan} {dc : BaseTable} {ac : AcTable} {last index run : Nat} {v : Int} (s : BlockSt) :
    Fails (BlockErr scan dc ac) (acPut scan last index run v s) := by
  unfold acPut
  split
  · cases h : unzigzag s.coeffs (index + run) (shlI16 v scan.al) with
    | error f => obtain ⟨p, rfl⟩ := unzigzag_error h; exact Fails.fail (fun e he => by cases he) _
    | ok c => exact Fails.ok _ _
  · exact Fails.ok _ _

theorem acRound_err {scan : Scan} {dc : BaseTable} {ac : AcTable} {last index : Nat} (s : BlockSt) :
    Fails (BlockErr scan dc ac) (acRound scan ac last index s) := by
  intro f s' h e he
  have hb := acRound_blame s f s' h
  subst he
  by_cases ho : e = .outOfBits
  · exact .inr ⟨ho, hb.2 (by rw [ho])⟩
  · exfalso
    have key : Fails (fun f => ∀ e, f = .err e → e = .outOfBits) (acRound scan ac last index s) := by
      unfold acRound
      have put : ∀ (i r : Nat) (v : Int) (s : BlockSt),
          Fails (fun f => ∀ e, f = .err e → e = .outOfBits) (acPut scan last i r v s) := by
        intro i r v s
        unfold acPut
        split
        · cases h : unzigzag s.coeffs (i + r) (shlI16 v scan.al) with
          | error f => obtain ⟨p, rfl⟩ := unzigzag_error h; exact Fails.fail (fun e he => by cases he) _
          | ok c => exact Fails.ok _ _
        · exact Fails.ok _ _
      have eof : ∀ f, BitFail f → ∀ e, toEof f = .err e → e = .outOfBits := by
        intro f hf e he
        cases f with
        | err k => exact absurd rfl (hf k)
        | _ => cases he
      have bits : ∀ f, BitFail f → ∀ e, toOutOfBits f = .err e → e = .outOfBits := by
        intro f hf e he
        cases f with
        | err k => exact absurd rfl (hf k)
        | unit => cases he; rfl
        | _ => cases he
      refine Fails.bind (Fails.mapErr (liftBi_bitFail (decodeFastAc_bitFail ac s.bi)) eof) fun r s1 _ => ?_
      cases r with
      | fast v run => exact put _ _ _ _
      | normal byte =>
        simp only
        split
        · split
          · exact Fails.ok _ _
          · split
            · exact Fails.bind (Fails.mapErr (liftBi_bitFail (nextBits_bitFail _ _)) bits) fun _ _ _ => Fails.ok _ _
            · exact Fails.ok _ _
        · exact Fails.bind (Fails.mapErr (liftBi_bitFail (receiveExtend_bitFail s1.bi _)) eof)
            fun _ _ _ => put _ _ _ _
    exact ho (key _ _ h e rfl)

theorem decodeAcGo_err {scan : Scan} {dc : BaseTable} {ac : AcTable} {last : Nat} : ∀ (fuel index : Nat) (s : BlockSt),
    Fails (BlockErr scan dc ac) (decodeAcGo scan ac last fuel index s) := by
  intro fuel
  induction fuel with
  | zero => intro i s; exact Fails.fail (fun e he => by cases he) _
  | succ fuel ih =>
    intro i s
    rw [decodeAcGo]
    refine Fails.bind (acRound_err s) fun next s _ => ?_
    cases next with
    | none => exact Fails.ok _ _
    | some i => exact ih _ _

theorem decodeBlocks_err {L : List Nat} {counts values : List UInt8} {scan : Scan} {dc : BaseTable} {ac : AcTable}
    (ht : TableOk L counts values dc) : ∀ (n : Nat) (s : RowSt),
    Fails (BlockErr scan dc ac) (decodeBlocks scan dc ac n s) := by
  intro n
  induction n with
  | zero => intro s; exact Fails.ok _ _
  | succ n ih =>
    intro s
    rw [decodeBlocks]
    split
    · have hb : Fails (BlockErr scan dc ac) (decodeBlock scan dc ac ⟨s.bi, s.eobRun, s.dcPred, zeroBlock⟩) := by
        unfold decodeBlock
        refine Fails.bind (decodeDc_err ht _) fun _ s _ => ?_
        simp only
        split
        · exact Fails.ok _ _
        · split
          · exact decodeAcGo_err _ _ _
          · exact Fails.ok _ _
      cases ho : decodeBlock scan dc ac ⟨s.bi, s.eobRun, s.dcPred, zeroBlock⟩ with
      | ok a b => exact ih _
      | fail f b => exact Fails.fail (hb f b ho) _
    · exact Fails.ok _ _

/-- The errors of one MCU. -/
def RowErr (d : Decoder) (scan : Scan) (hs : List ScanHeader) (f : Fail) : Prop := ∀ e, f = .err e →
  (e = .dcCategory ∧ scan.ss = 0 ∧ ∃ h ∈ hs, ∃ t, d.dcTables[h.dcSel]? = some (some t) ∧ ∃ v ∈ t.values, 11 < v.toNat) ∨
    (e = .outOfBits ∧ ∃ h ∈ hs, ∃ t, d.acTables[h.acSel]? = some (some t) ∧ HasEobRun t.table.values)

theorem decodeComponents_err {d : Decoder} (hd : TablesOk d) {scan : Scan} :
    ∀ (cs : List Component) (hs : List ScanHeader) (ps : List Int) (s : McuSt),
    Fails (RowErr d scan hs) (decodeComponents d scan cs hs ps s) := by
  intro cs
  induction cs with
  | nil => intro hs ps s; simp only [decodeComponents]; exact Fails.ok _ _
  | cons c cs ih =>
    intro hs ps s
    cases hs with
    | nil => simp only [decodeComponents]; exact Fails.ok _ _
    | cons h hs =>
      cases ps with
      | nil => simp only [decodeComponents]; exact Fails.ok _ _
      | cons p ps =>
        rw [decodeComponents]
        have panic : ∀ (p : PanicSite) (s : McuSt), Fails (RowErr d scan (h :: hs)) (.fail (.panic p) s : Out McuSt Unit) :=
          fun p s => Fails.fail (fun e he => by cases he) _
        cases hdc : d.dcTables[h.dcSel]? with
        | none => exact panic _ _
        | some t =>
          cases t with
          | none => exact panic _ _
          | some dc =>
            simp only
            cases hac : d.acTables[h.acSel]? with
            | none => exact panic _ _
            | some t =>
              cases t with
              | none => exact panic _ _
              | some ac =>
                simp only
                obtain ⟨L, counts, values, hok⟩ := hd.dc _ _ hdc
                obtain ⟨L', counts', values', hok'⟩ := hd.ac _ _ hac
                have hb := decodeBlocks_err (scan := scan) (ac := ac) hok c.blocksPerMcu ⟨s.bi, s.eobRun, p, s.done⟩
                cases ho : decodeBlocks scan dc ac c.blocksPerMcu ⟨s.bi, s.eobRun, p, s.done⟩ with
                | ok a r =>
                  refine Fails.mono (ih _ _ _) ?_
                  intro f hf e he
                  rcases hf e he with ⟨h1, h2, x, hx, h3⟩ | ⟨h1, x, hx, h3⟩
                  · exact .inl ⟨h1, h2, x, List.mem_cons_of_mem _ hx, h3⟩
                  · exact .inr ⟨h1, x, List.mem_cons_of_mem _ hx, h3⟩
                | fail f r =>
                  refine Fails.fail ?_ _
                  intro e he
                  rcases hb f r ho e he with ⟨h1, h2, v, hv, h3⟩ | ⟨h1, h2⟩
                  · exact .inl ⟨h1, h2, h, List.mem_cons_self .., dc, hdc, v, hv, h3⟩
                  · exact .inr ⟨h1, h, List.mem_cons_self .., ac, hac, h2.values hok'⟩

theorem decodeRow_err {s s' : St} {scan : Scan} {frame : Frame} {e : ErrKind} (file : List UInt8)
    (hscan : s.dec.scan = some scan) (hframe : s.dec.frame = some frame) (hd : TablesOk s.dec)
    (h : decodeRow s = .fail (.err e) s') : ScanError file s.dec scan e := by
  have hc := decodeComponents_err hd (scan := scan) frame.components scan.headers s.dec.scanState.dcPredictors
    ⟨s.bi, s.dec.scanState.eobRun, [], []⟩
  unfold decodeRow at h
  rw [hscan, hframe] at h
  simp only at h
  cases e1 : decodeComponents s.dec scan frame.components scan.headers s.dec.scanState.dcPredictors
      ⟨s.bi, s.dec.scanState.eobRun, [], []⟩ with
  | ok u m => rw [e1] at h; cases h
  | fail f m =>
    rw [e1] at h
    have hf : f = .err e := by
      cases f <;> simp only [Out.fail.injEq] at h <;> exact h.1
    subst hf
    rcases hc _ _ e1 e rfl with ⟨rfl, h1, x, hx, t, ht, v, hv, h2⟩ | ⟨rfl, x, hx, t, ht, h2⟩
    · exact .dcCategory x t v h1 hx ht hv h2
    · exact .outOfBits x t hx ht h2

theorem Spec.ScanError.onlyScan {file : List UInt8} {d d' : Decoder} {scan : Scan} {e : ErrKind}
    (h : OnlyScan d d') (hr : d'.scanState.expectedRstNum = d.scanState.expectedRstNum)
    (he : ScanError file d scan e) : ScanError file d' scan e := by
  cases he with
  | unsetDc x h1 h2 h3 => exact .unsetDc x h1 h2 (by rw [h.dcTables]; exact h3)
  | unsetAc x h1 h2 h3 => exact .unsetAc x h1 h2 (by rw [h.acTables]; exact h3)
  | dcCategory x t v h1 h2 h3 h4 h5 => exact .dcCategory x t v h1 h2 (by rw [h.dcTables]; exact h3) h4 h5
  | outOfBits x t h1 h2 h3 => exact .outOfBits x t h1 (by rw [h.acTables]; exact h2) h3
  | wrongRst n pre rest h1 h2 h3 h4 => exact .wrongRst n pre rest (by rw [h.interval]; exact h1) h2 (by rw [hr]; exact h3) h4
  | notRst m pre rest h1 h2 h3 h4 => exact .notRst m pre rest (by rw [h.interval]; exact h1) h2 h3 h4

theorem marker_place {l rest : List UInt8} {m : Marker} (h : marker l = .ok (m, rest)) :
    MarkerExists m ∧ ∃ pre, l = pre ++ markerBytes m ++ rest := by
  obtain ⟨hm, i, ⟨hb1, hb2, -, -⟩, -, hrest⟩ := C36_found _ _ _ h
  refine ⟨hm, l.take i, ?_⟩
  rw [hrest]
  obtain ⟨hi1, hi1'⟩ := List.getElem?_eq_some_iff.1 hb1
  obtain ⟨hi2, hi2'⟩ := List.getElem?_eq_some_iff.1 hb2
  conv_lhs => rw [← List.take_append_drop i l, List.drop_eq_getElem_cons hi1, List.drop_eq_getElem_cons hi2, hi1', hi2']
  simp [markerBytes]

theorem segmentError_marker {cfg : Cfg} {file l : List UInt8} {e : ErrKind} (hl : l <:+ file)
    (h : marker l = .error (.err e)) : SegmentError cfg file e := by
  obtain ⟨rfl, pre, c, rest, rfl, h1, h2, h3⟩ := marker_err h
  obtain ⟨q, rfl⟩ := hl
  exact .unknownMarker (q ++ pre) rest c (by simp) h1 h2 h3

theorem restartParser_err {cfg : Cfg} {x y : Nat} {s s' : St} {scan : Scan} {e : ErrKind} {file : List UInt8}
    (hsuf : s.bi.input <:+ file) (h : restartParser cfg x y s = .fail (.err e) s') :
    SegmentError cfg file e ∨ ScanError file s'.dec scan e := by
  unfold restartParser at h
  split at h
  · next hri =>
    cases hf : s.dec.frame with
    | none => rw [hf] at h; cases h
    | some frame =>
      rw [hf] at h
      simp only at h
      by_cases hu : s.dec.scanState.mcusLeftUntilRestart = 0 ∧ cfg.debug
      · rw [if_pos hu] at h; cases h
      · rw [if_neg hu] at h
        generalize (s.dec.scanState.mcusLeftUntilRestart + 2 ^ 16 - 1) % 2 ^ 16 = left at h
        split at h
        · cases hm : marker s.bi.input with
          | error g =>
            rw [hm] at h
            simp only [Out.fail.injEq] at h
            rw [h.1] at hm
            exact .inl (segmentError_marker hsuf hm)
          | ok r =>
            rw [hm] at h
            obtain ⟨m, rest⟩ := r
            simp only at h
            obtain ⟨hex, pre, hpre⟩ := marker_place hm
            obtain ⟨q, rfl⟩ := hsuf
            right
            unfold handleRestart at h
            split at h
            · next n =>
              simp only at h
              split at h
              · next hne =>
                simp only [Out.fail.injEq, Fail.err.injEq] at h
                obtain ⟨rfl, rfl⟩ := h
                exact .wrongRst n (q ++ pre) rest hri hex hne (by rw [hpre]; simp)
              · cases h
            · next hno =>
              simp only [Out.fail.injEq, Fail.err.injEq] at h
              obtain ⟨rfl, rfl⟩ := h
              exact .notRst m (q ++ pre) rest hri hex hno (by rw [hpre]; simp)
        · cases h
  · cases h

theorem decodeRow_rstNum (s : St) : (decodeRow s).state.dec.scanState.expectedRstNum = s.dec.scanState.expectedRstNum := by
  unfold decodeRow
  split
  · simp only
    split <;> rfl
  · rfl

theorem mcuStep_err {cfg : Cfg} {produce : Bool} {y x : Nat} {s s' : St} {scan : Scan} {frame : Frame} {e : ErrKind}
    {file : List UInt8} (hsuf : s.bi.input <:+ file)
    (hscan : s.dec.scan = some scan) (hframe : s.dec.frame = some frame) (hd : DecInv s.dec)
    (hst : StepInv s) (h : mcuStep cfg produce y x s = .fail (.err e) s') :
    SegmentError cfg file e ∨ ScanError file s'.dec scan e := by
  obtain ⟨a1, a2, a3, -, -⟩ := decodeRow_safe hscan hframe hd.tables hst
  have a4 := decodeRow_rstNum s
  unfold mcuStep at h
  cases e1 : decodeRow s with
  | fail f s1 =>
    rw [e1] at h a3 a4
    simp only [Out.bind_fail, Out.fail.injEq] at h
    obtain ⟨rfl, rfl⟩ := h
    exact .inr ((decodeRow_err file hscan hframe hd.tables e1).onlyScan a3 a4)
  | ok u s1 =>
    rw [e1] at h a2
    rw [Out.bind_ok] at h
    cases e2 : restartParser cfg x y s1 with
    | fail f s2 =>
      rw [e2] at h
      simp only [Out.bind_fail, Out.fail.injEq] at h
      obtain ⟨rfl, rfl⟩ := h
      exact restartParser_err (a2.trans hsuf) e2
    | ok u s2 =>
      rw [e2, Out.bind_ok] at h
      exfalso
      split at h
      · split at h
        · cases h
        · next f d hdq =>
          simp only [Out.fail.injEq] at h
          obtain ⟨p, hp⟩ := dequantize_panics hdq
          rw [hp] at h
          cases h.1
      · cases h

theorem anyUnset_true {α : Type} {ts : List (Option α)} : ∀ {sel : List Nat}, anyUnset ts sel = .ok true →
    ∃ i ∈ sel, ts[i]? = some none := by
  intro sel
  induction sel with
  | nil => intro h; cases h
  | cons a sel ih =>
    intro h
    rw [anyUnset] at h
    split at h
    · cases h
    · next he => exact ⟨a, by simp, he⟩
    · obtain ⟨i, hi, h⟩ := ih h
      exact ⟨i, by simp [hi], h⟩

theorem scanInit_err {produce : Bool} {s s' : St} {scan : Scan} {e : ErrKind} (file : List UInt8)
    (hscan : s.dec.scan = some scan) (h : scanInit produce s = .fail (.err e) s') : ScanError file s'.dec scan e := by
  unfold scanInit at h
  rw [hscan] at h
  split at h
  · next frame scan' hf hs' =>
    obtain rfl := Option.some.inj hs'
    split at h
    · next f hfail =>
      simp only [Out.fail.injEq] at h
      rw [h.1] at hfail
      split at hfail
      · cases (anyUnset_fail hfail).1
      · cases hfail
    · next hun =>
      simp only [Out.fail.injEq, Fail.err.injEq] at h
      obtain ⟨rfl, rfl⟩ := h
      split at hun
      · next hss =>
        obtain ⟨i, hi, h⟩ := anyUnset_true hun
        obtain ⟨x, hx, rfl⟩ := List.mem_map.1 hi
        exact .unsetDc x hss hx h
      · cases hun
    · split at h
      · next f hfail =>
        simp only [Out.fail.injEq] at h
        rw [h.1] at hfail
        split at hfail
        · cases (anyUnset_fail hfail).1
        · cases hfail
      · next hun =>
        simp only [Out.fail.injEq, Fail.err.injEq] at h
        obtain ⟨rfl, rfl⟩ := h
        split at hun
        · next hse =>
          obtain ⟨i, hi, h⟩ := anyUnset_true hun
          obtain ⟨x, hx, rfl⟩ := List.mem_map.1 hi
          exact .unsetAc x hse hx h
        · cases hun
      · simp only at h
        split at h
        · split at h <;> cases h
        · cases h
  · cases h

theorem takeResults_error : ∀ (hs : List ScanHeader) (results : List (List (Option UInt8))),
    OnlyPanics (takeResults hs results) := by
  have hinit : ∀ l, OnlyPanics (initPlane l) := by
    intro l
    induction l with
    | nil => exact .ok _
    | cons a l ih =>
      cases a with
      | none => exact .panic _
      | some b =>
        rw [initPlane]
        split
        · next h => exact ih.error h
        · exact .ok _
  intro hs
  induction hs with
  | nil => intro results; exact .ok _
  | cons a hs ih =>
    intro results
    rw [takeResults]
    split
    · exact .panic _
    · split
      · next h => exact (hinit _).error h
      · split
        · next h => exact (ih _).error h
        · exact .ok _

theorem decodeScan_err {cfg : Cfg} {produce : Bool} {s s' : St} {scan : Scan} {frame : Frame} {e : ErrKind}
    {file : List UInt8} (hsuf : s.bi.input <:+ file) (hscan : s.dec.scan = some scan)
    (hframe : s.dec.frame = some frame) (hd : DecInv s.dec) (hwf : s.bi.WF)
    (h : decodeScan cfg produce s = .fail (.err e) s') :
    s'.dec.scan = some scan ∧ (SegmentError cfg file e ∨ ScanError file s'.dec scan e) := by
  obtain ⟨i1, i2, i3, -⟩ := scanInit_safe (cfg := cfg) (produce := produce) hscan hframe hd hwf
  unfold decodeScan at h
  cases e0 : scanInit produce s with
  | fail f s0 =>
    rw [e0] at h i2
    simp only [Out.bind_fail, Out.fail.injEq] at h
    obtain ⟨rfl, rfl⟩ := h
    exact ⟨i2.scan.trans hscan, .inr (scanInit_err file hscan e0)⟩
  | ok u s0 =>
    rw [e0] at h i1 i2
    simp only [Out.state] at i1 i2
    have hsc0 : s0.dec.scan = some scan := by rw [i2.scan]; exact hscan
    have hfr0 : s0.dec.frame = some frame := by rw [i2.frame]; exact hframe
    have hd0 := hd.onlyScan i2
    rw [Out.bind_ok, hfr0, hsc0] at h
    simp only at h
    cases e1 : mcuLoop cfg produce (mcuList frame.mcuSize) s0 with
    | fail f s1 =>
      have hk1 := mcuLoop_inScan (cfg := cfg) (produce := produce) (mcuList frame.mcuSize) hsc0 hfr0 hd0 (i3 s0 e0)
      rw [e1] at h hk1
      simp only [Out.bind_fail, Out.fail.injEq] at h
      obtain ⟨rfl, rfl⟩ := h
      obtain ⟨k, yx, sk, h1, h2, h3⟩ := mcuLoop_fail _ _ _ _ e1
      have hk := mcuLoop_inScan (cfg := cfg) (produce := produce) ((mcuList frame.mcuSize).take k) hsc0 hfr0 hd0 (i3 s0 e0)
      rw [h2] at hk
      refine ⟨hk1.only.scan.trans hsc0, ?_⟩
      refine mcuStep_err (frame := frame) (hk.suffix.trans (by rw [i1]; exact hsuf)) ?_ ?_ (hd0.onlyScan hk.only) hk.step h3
      · exact hk.only.scan.trans hsc0
      · exact hk.only.frame.trans hfr0
    | ok u s1 =>
      rw [e1, Out.bind_ok] at h
      exfalso
      split at h
      · next f hf =>
        obtain ⟨p, rfl⟩ := takeResults_error _ _ _ hf
        cases h
      · cases h

/-! ## Segments -/

/-- What an error in the middle of a file says. -/
def FileErr (cfg : Cfg) (file : List UInt8) (d : Decoder) (e : ErrKind) : Prop :=
  SegmentError cfg file e ∨ HeaderError cfg file d.frame e ∨ ∃ scan, d.scan = some scan ∧ ScanError file d scan e

theorem sos_err {cfg : Cfg} {s s' : St} {e : ErrKind} {pre : List UInt8} (hd : DecInv s.dec) (hwf : s.bi.WF)
    (h : sos cfg s = .fail (.err e) s') : FileErr cfg (pre ++ markerBytes .SOS ++ s.bi.input) s'.dec e := by
  unfold sos at h
  cases e1 : segmentBytes cfg s.bi.input with
  | error f =>
    rw [e1] at h
    simp only [Out.fail.injEq] at h
    rcases segmentBytes_error e1 with h1 | ⟨h1, -⟩ <;> rw [h1] at h <;> cases h.1
  | ok q =>
    obtain ⟨payload, rest⟩ := q
    have hsuf := segmentBytes_suffix e1
    have hfile := fileSegment_of (m := .SOS) e1 pre
    rw [e1] at h
    simp only at h
    cases e2 : sosSegment (s.setInput rest).dec.frame payload with
    | error f =>
      rw [e2] at h
      simp only [Out.fail.injEq] at h
      obtain ⟨rfl, rfl⟩ := h
      rcases sosSegment_err e2 hfile with h | h
      · exact .inl h
      · exact .inr (.inl h)
    | ok q =>
      obtain ⟨scan, unread⟩ := q
      obtain ⟨frame, comps, ss, se, ah, al, hf, -⟩ := sosSegment_inv e2
      have hf : s.dec.frame = some frame := hf
      rw [e2] at h
      simp only [St.setInput, hf] at h
      obtain ⟨-, -, hmi⟩ := hd.frame frame hf
      have hmain : ∀ fin : List Nat, fin.length = 4 ∧ (∀ w ∈ fin, w < 2 ^ 64) → ∀ b : Bool,
          decodeScan cfg b ⟨{ s.dec with scan := some scan, coefficientsFinished := fin, frame := some frame },
                { s.bi with input := rest }⟩ = .fail (.err e) s' →
          FileErr cfg (pre ++ markerBytes .SOS ++ s.bi.input) s'.dec e := by
        intro fin hfin b hds
        have hd2 : DecInv { s.dec with scan := some scan, coefficientsFinished := fin, frame := some frame } := by
          rw [← hf]
          exact ⟨⟨hd.tables.dc, hd.tables.ac⟩, hd.dc4, hd.ac4, hd.q4, hd.q64, hfin, hd.frame, hd.interval⟩
        obtain ⟨hs, h⟩ := decodeScan_err (file := pre ++ markerBytes .SOS ++ s.bi.input)
          (s := ⟨{ s.dec with scan := some scan, coefficientsFinished := fin, frame := some frame },
            { s.bi with input := rest }⟩) (scan := scan) (frame := frame) (hsuf.trans ⟨_, rfl⟩) rfl rfl hd2 hwf hds
        rcases h with h | h
        · exact .inl h
        · exact .inr (.inr ⟨scan, hs, h⟩)
      rcases codingProcess_of hmi with ⟨h2, hc⟩ | ⟨c, hc, hcne, hnp⟩
      · rw [hc] at h
        cases h
      · rw [hc] at h
        have h' : ((match (if scan.al = 0 then
              setFinishedAll cfg (inclusiveRange scan.ss scan.se)
                (scan.headers.map (·.componentIndex)) s.dec.coefficientsFinished
            else .ok s.dec.coefficientsFinished) with
          | .error f => .fail f ⟨{ s.dec with scan := some scan, frame := some frame },
              { s.bi with input := rest }⟩
          | .ok fin =>
            match allFinished fin (scan.headers.map (·.componentIndex)) with
            | .error f => .fail f ⟨{ s.dec with scan := some scan, coefficientsFinished := fin, frame := some frame },
              { s.bi with input := rest }⟩
            | .ok isFinal => decodeScan cfg isFinal
              ⟨{ s.dec with scan := some scan, coefficientsFinished := fin, frame := some frame },
                { s.bi with input := rest }⟩) : Out St Unit) = .fail (.err e) s' := by
          cases c with
          | progressive => exact absurd rfl hcne
          | _ => exact h
        clear h
        cases e3 : (if scan.al = 0 then
              setFinishedAll cfg (inclusiveRange scan.ss scan.se)
                (scan.headers.map (·.componentIndex)) s.dec.coefficientsFinished
            else .ok s.dec.coefficientsFinished) with
        | error f =>
          rw [e3] at h'
          simp only [Out.fail.injEq] at h'
          exfalso
          rw [h'.1] at e3
          split at e3
          · rcases (setFinishedAll_safe _ _).2 _ e3 with ⟨h, -⟩ | ⟨h, -⟩ <;> cases h
          · cases e3
        | ok fin =>
          have hfin : fin.length = 4 ∧ ∀ w ∈ fin, w < 2 ^ 64 := by
            split at e3
            · exact ⟨by rw [(setFinishedAll_safe _ _).1 _ e3, hd.fin4.1], setFinishedAll_lt _ _ _ hd.fin4.2 e3⟩
            · simp only [Except.ok.injEq] at e3
              rw [← e3]; exact hd.fin4
          rw [e3] at h'
          simp only at h'
          cases e4 : allFinished fin (scan.headers.map (·.componentIndex)) with
          | error f =>
            rw [e4] at h'
            simp only [Out.fail.injEq] at h'
            exfalso
            obtain ⟨h, -⟩ := (allFinished_safe _).1 _ e4
            rw [h] at h'
            cases h'.1
          | ok isFinal =>
            rw [e4] at h'
            exact hmain fin hfin isFinal h'

theorem segment_err {cfg : Cfg} {m : Marker} {body : List UInt8 → Decoder → Out Decoder Unit} {s s' : St}
    {e : ErrKind} {pre : List UInt8}
    (hb : ∀ payload d', body payload s.dec = .fail (.err e) d' →
      ∀ file, FileSegment cfg file m payload → SegmentError cfg file e)
    (h : segment cfg body s = .fail (.err e) s') : SegmentError cfg (pre ++ markerBytes m ++ s.bi.input) e := by
  unfold segment at h
  cases e1 : segmentBytes cfg s.bi.input with
  | error f =>
    rw [e1] at h
    simp only [Out.fail.injEq] at h
    rcases segmentBytes_error e1 with h1 | ⟨h1, -⟩ <;> rw [h1] at h <;> cases h.1
  | ok q =>
    obtain ⟨payload, rest⟩ := q
    rw [e1] at h
    simp only at h
    cases e2 : body payload s.dec with
    | ok u d => rw [e2] at h; cases h
    | fail f d =>
      rw [e2] at h
      simp only [Out.fail.injEq] at h
      rw [h.1] at e2
      exact hb payload d e2 _ (fileSegment_of e1 pre)

theorem doSegment_err {cfg : Cfg} {m : Marker} {s s' : St} {e : ErrKind} {pre : List UInt8} (hd : DecInv s.dec)
    (hwf : s.bi.WF) (h : doSegment cfg m s = .fail (.err e) s') :
    FileErr cfg (pre ++ markerBytes m ++ s.bi.input) s'.dec e := by
  cases m with
  | SOI => cases h
  | RST n => cases h
  | COM => cases h
  | EOI => cases h
  | SOS => exact sos_err hd hwf h
  | SOF i =>
    refine .inl (segment_err ?_ h)
    intro payload d' h file hfile
    unfold sofBody at h
    cases e1 : sof cfg i payload with
    | ok q => rw [e1] at h; cases h
    | error f =>
      rw [e1] at h
      simp only [Out.fail.injEq] at h
      rw [h.1] at e1
      obtain ⟨rfl, p, y, x, n, before, k, id, hv, more, rfl, h1, h2, h3⟩ := sof_err e1
      exact .samplingFactor i p y x n before k id hv more h1 h2 h3 hfile
  | DHT =>
    refine .inl (segment_err ?_ h)
    intro payload d' h file hfile
    obtain ⟨ts, hts, ⟨b, more, rfl, hb⟩ | ⟨t, more, rfl, hok, ht⟩⟩ := dhtGo_err _ _ _ h
    · rcases hb with ⟨rfl, h1⟩ | ⟨rfl, h1, h2⟩
      · exact .tableClass ts b more hts h1 hfile
      · exact .tableDestination ts b more hts h1 h2 hfile
    · rcases ht with ⟨rfl, h1, h2⟩ | ⟨rfl, h1⟩
      · exact .manyCodes ts t more hts hok h1 h2 hfile
      · exact .oversubscribed ts t more hts hok h1 hfile
  | DQT =>
    refine .inl (segment_err ?_ h)
    intro payload d' h file hfile
    obtain ⟨ts, hts, b, more, rfl, hb⟩ := dqtGo_err _ _ _ h
    rcases hb with ⟨rfl, h1⟩ | ⟨rfl, h1, h2⟩
    · exact .quantPrecision ts b more hts h1 hfile
    · exact .quantDestination ts b more hts h1 h2 hfile
  | DRI =>
    refine .inl (segment_err ?_ h)
    intro payload d' h
    unfold driBody at h
    cases e1 : beU16 payload with
    | ok q => rw [e1] at h; cases h
    | error f => rw [e1, beU16_error e1] at h; cases h
  | APP n =>
    rw [doSegment] at h
    split at h
    · next hn =>
      subst hn
      refine .inl (segment_err ?_ h)
      intro payload d' h file hfile
      unfold adobeBody at h
      cases e1 : appAdobe payload with
      | ok q => rw [e1] at h; cases h
      | error f =>
        rw [e1] at h
        simp only [Out.fail.injEq] at h
        rw [h.1] at e1
        rcases appAdobe_err e1 with ⟨rfl, tag, more, rfl, h1, h2⟩ | ⟨rfl, five, b, more, rfl, h1, h2⟩
        · exact .adobeTag tag more h1 h2 hfile
        · exact .adobeTransform five b more h1 h2 hfile
    · exact .inl (segment_err (fun payload d' h => by cases h) h)

theorem segmentLoop_err {cfg : Cfg} {file : List UInt8} {e : ErrKind} : ∀ (fuel : Nat) (s s' : St), DecInv s.dec →
    s.bi.WF → s.bi.input <:+ file → segmentLoop cfg fuel s = .fail (.err e) s' → FileErr cfg file s'.dec e := by
  intro fuel
  induction fuel with
  | zero => intro s s' _ _ _ h; cases h
  | succ fuel ih =>
    intro s s' hd hwf hsuf h
    rw [segmentLoop] at h
    cases e1 : marker s.bi.input with
    | error f =>
      rw [e1] at h
      simp only [Out.fail.injEq] at h
      rw [h.1] at e1
      exact .inl (segmentError_marker hsuf e1)
    | ok q =>
      obtain ⟨m, rest⟩ := q
      rw [e1] at h
      simp only at h
      split at h
      · cases h
      · obtain ⟨hm, pre, hpre⟩ := marker_place e1
        cases e2 : doSegment cfg m (s.setInput rest) with
        | fail f s1 =>
          rw [e2] at h
          simp only [Out.bind_fail, Out.fail.injEq] at h
          obtain ⟨rfl, rfl⟩ := h
          obtain ⟨q, rfl⟩ := hsuf
          have := doSegment_err (pre := q ++ pre) (s := s.setInput rest) hd hwf e2
          rw [setInput_bi] at this
          rw [hpre]
          simpa using this
        | ok u s1 =>
          have hs := doSegment_safe (cfg := cfg) hm (s := s.setInput rest) hd hwf
          rw [e2] at h hs
          rw [Out.bind_ok] at h
          exact ih s1 s' hs.inv hs.wf ((hs.suffix.trans (marker_suffix e1)).trans hsuf) h

end Jpeg
