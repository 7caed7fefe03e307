import Verif.Proofs.ErrorLoop
import Verif.Proofs.StreamInv
/-!
# What an error says about the file: streaming decoders
-/

namespace Jpeg
open Spec

/-! ## More bytes around the fault -/

theorem Spec.FileSegment.within {cfg : Cfg} {part file : List UInt8} {m : Marker} {content : List UInt8}
    (hp : part <:+: file) (h : FileSegment cfg part m content) : FileSegment cfg file m content := by
  obtain ⟨a, b, rfl⟩ := hp
  obtain ⟨pre, rest, h | ⟨h1, n, h2, h3, h4⟩⟩ := h
  · exact ⟨a ++ pre, rest ++ b, .inl (by rw [h]; simp)⟩
  · exact ⟨a ++ pre, rest ++ b, .inr ⟨h1, n, h2, h3, by rw [h4]; simp⟩⟩

theorem Spec.SegmentError.within {cfg : Cfg} {part file : List UInt8} {e : ErrKind} (hp : part <:+: file)
    (h : SegmentError cfg part e) : SegmentError cfg file e := by
  cases h with
  | unknownMarker pre rest c h1 h2 h3 h4 =>
    obtain ⟨a, b, rfl⟩ := hp
    exact .unknownMarker (a ++ pre) (rest ++ b) c (by rw [h1]; simp) h2 h3 h4
  | samplingFactor i p y x n before k id hv more h1 h2 h3 h4 =>
    exact .samplingFactor i p y x n before k id hv more h1 h2 h3 (h4.within hp)
  | tableClass ts b more h1 h2 h3 => exact .tableClass ts b more h1 h2 (h3.within hp)
  | tableDestination ts b more h1 h2 h3 h4 => exact .tableDestination ts b more h1 h2 h3 (h4.within hp)
  | manyCodes ts t more h1 h2 h3 h4 h5 => exact .manyCodes ts t more h1 h2 h3 h4 (h5.within hp)
  | oversubscribed ts t more h1 h2 h3 h4 => exact .oversubscribed ts t more h1 h2 h3 (h4.within hp)
  | quantPrecision ts b more h1 h2 h3 => exact .quantPrecision ts b more h1 h2 (h3.within hp)
  | quantDestination ts b more h1 h2 h3 h4 => exact .quantDestination ts b more h1 h2 h3 (h4.within hp)
  | adobeTag tag more h1 h2 h3 => exact .adobeTag tag more h1 h2 (h3.within hp)
  | adobeTransform five b more h1 h2 h3 => exact .adobeTransform five b more h1 h2 (h3.within hp)
  | componentCount n more h1 h2 => exact .componentCount n more h1 (h2.within hp)

theorem Spec.HeaderError.within {cfg : Cfg} {part file : List UInt8} {frame : Option Frame} {e : ErrKind}
    (hp : part <:+: file) (h : HeaderError cfg part frame e) : HeaderError cfg file frame e := by
  cases h with
  | noFrame n more h1 h2 => exact .noFrame n more h1 (h2.within hp)
  | noSuchComponent f n before k id sel more h1 h2 h3 h4 h5 =>
    exact .noSuchComponent f n before k id sel more h1 h2 h3 h4 (h5.within hp)
  | componentOrder f n before k id sel id' sel' i i' more h1 h2 h3 h4 h5 h6 h7 =>
    exact .componentOrder f n before k id sel id' sel' i i' more h1 h2 h3 h4 h5 h6 (h7.within hp)
  | componentDuplicate f n before k id sel sel' more h1 h2 h3 h4 =>
    exact .componentDuplicate f n before k id sel sel' more h1 h2 h3 (h4.within hp)

theorem Spec.ScanError.within {part file : List UInt8} {d : Decoder} {scan : Scan} {e : ErrKind}
    (hp : part <:+: file) (h : ScanError part d scan e) : ScanError file d scan e := by
  cases h with
  | unsetDc x h1 h2 h3 => exact .unsetDc x h1 h2 h3
  | unsetAc x h1 h2 h3 => exact .unsetAc x h1 h2 h3
  | dcCategory x t v h1 h2 h3 h4 h5 => exact .dcCategory x t v h1 h2 h3 h4 h5
  | outOfBits x t h1 h2 h3 => exact .outOfBits x t h1 h2 h3
  | wrongRst n pre rest h1 h2 h3 h4 =>
    obtain ⟨a, b, rfl⟩ := hp
    exact .wrongRst n (a ++ pre) (rest ++ b) h1 h2 h3 (by rw [h4]; simp)
  | notRst m pre rest h1 h2 h3 h4 =>
    obtain ⟨a, b, rfl⟩ := hp
    exact .notRst m (a ++ pre) (rest ++ b) h1 h2 h3 (by rw [h4]; simp)

theorem FileErr.within {cfg : Cfg} {part file : List UInt8} {d : Decoder} {e : ErrKind} (hp : part <:+: file)
    (h : FileErr cfg part d e) : FileErr cfg file d e := by
  rcases h with h | h | ⟨scan, h1, h2⟩
  · exact .inl (h.within hp)
  · exact .inr (.inl (h.within hp))
  · exact .inr (.inr ⟨scan, h1, h2.within hp⟩)

/-! ## Scans -/

/-- Errors of the MCUs of a scan, started or resumed, and what is left of the input when they wait. -/
theorem mcuResume_err {cfg : Cfg} {pd : Bool} {scan : Scan} {frame : Frame} {file : List UInt8} :
    ∀ (todo : List (Nat × Nat)) (phase : Phase) (s : St) (k : Nat), MidScan pd phase todo s scan frame k →
    s.bi.input <:+ file →
    match mcuResume cfg pd phase todo s with
    | .done _ => True
    | .wait _ _ t => t.bi.input <:+ s.bi.input
    | .failed f t => ∀ e, f = .err e →
        t.dec.scan = some scan ∧ (SegmentError cfg file e ∨ ScanError file t.dec scan e) := by
  intro todo
  induction todo with
  | nil => intro phase s k h hb; rw [mcuResume]; trivial
  | cons yx rest ih =>
    intro phase s k h hb
    obtain ⟨y, x⟩ := yx
    obtain ⟨hk, hyx, hrest⟩ := mcuList_drop_cons h.left
    simp only [Prod.mk.injEq] at hyx
    obtain ⟨rfl, rfl⟩ := hyx
    rw [mcuResume]
    have hrow : match (if phase = .row then decodeRow s else .ok () s) with
        | .ok _ t => MidScan pd .restart ((k / frame.mcuSize.width, k % frame.mcuSize.width) :: rest) t scan frame k ∧
            t.bi.input <:+ s.bi.input
        | .fail f t => t.bi.input <:+ s.bi.input ∧ ∀ e, f = .err e →
            t.dec.scan = some scan ∧ ScanError file t.dec scan e := by
      by_cases hp : phase = .row
      · rw [if_pos hp]
        obtain ⟨a1, a2, a3, a4, -⟩ := decodeRow_safe h.hasScan h.hasFrame h.inv.tables h.step
        have a6 := decodeRow_results s
        have a7 := decodeRow_rstNum s
        cases e : decodeRow s with
        | ok u t =>
          rw [e] at a1 a2 a3 a6
          exact ⟨h.move a3 a1 a6 fun _ => a4 t e, a2⟩
        | fail f t =>
          rw [e] at a2 a3 a7
          refine ⟨a2, ?_⟩
          rintro e' rfl
          exact ⟨a3.scan.trans h.hasScan, (decodeRow_err file h.hasScan h.hasFrame h.inv.tables e).onlyScan a3 a7⟩
      · rw [if_neg hp]
        have hp : phase = .restart := by cases phase with
          | row => exact absurd rfl hp
          | restart => rfl
        subst hp
        exact ⟨h, List.suffix_refl _⟩
    generalize (if phase = .row then decodeRow s else .ok () s) = o at hrow
    cases o with
    | fail f t =>
      simp only at hrow ⊢
      by_cases hf : f = .eof
      · rw [if_pos hf]; exact hrow.1
      · rw [if_neg hf]; exact fun e he => ⟨(hrow.2 e he).1, .inr (hrow.2 e he).2⟩
    | ok u t =>
      obtain ⟨hm, hsuf⟩ := hrow
      simp only
      obtain ⟨b1, b2, b3, b4⟩ := restartParser_safe (cfg := cfg) (x := k % frame.mcuSize.width)
        (y := k / frame.mcuSize.width) hm.step
      obtain ⟨b5, -⟩ := restartParser_keeps (cfg := cfg) (x := k % frame.mcuSize.width)
        (y := k / frame.mcuSize.width) t
      cases e : restartParser cfg (k % frame.mcuSize.width) (k / frame.mcuSize.width) t with
      | fail f t' =>
        rw [e] at b2 b3
        simp only [Out.state] at b2 b3
        simp only
        by_cases hf : f = .eof
        · rw [if_pos hf]
          exact b2.trans hsuf
        · rw [if_neg hf]
          rintro e' rfl
          exact ⟨b3.scan.trans hm.hasScan, restartParser_err (hsuf.trans hb) e⟩
      | ok u t' =>
        rw [e] at b1 b2 b3 b4 b5
        simp only [Out.state] at b1 b2 b3 b4 b5
        have hm' : MidScan pd .restart ((k / frame.mcuSize.width, k % frame.mcuSize.width) :: rest) t' scan frame k :=
          hm.move b3 b1 b5 fun h => by rw [b4]; exact hm.coefficients h
        simp only
        cases pd with
        | true =>
          simp only [if_true]
          have hq := hm'.dequantize (cfg := cfg) hk hrest (hm'.coefficients rfl)
          cases eq : Jpeg.dequantize cfg (k % frame.mcuSize.width) (k / frame.mcuSize.width) t'.dec with
          | fail f d =>
            obtain ⟨p, rfl⟩ := dequantize_panics eq
            intro e' he'
            cases he'
          | ok u d =>
            rw [eq] at hq
            simp only at hq ⊢
            have := ih .row _ _ hq (b2.trans (hsuf.trans hb))
            revert this
            cases mcuResume cfg true .row rest { t' with dec := d } with
            | done t2 => exact id
            | wait ph td t2 => exact fun h => h.trans (b2.trans hsuf)
            | failed f t2 => exact id
        | false =>
          simp only [Bool.false_eq_true, if_false]
          have hn : MidScan false .row rest t' scan frame (k + 1) :=
            { hm'.move (ph' := .row) (OnlyScan.refl _) hm'.step rfl (by simp) with
              le := hk
              left := hrest
              planes := by simp }
          have := ih .row _ _ hn (b2.trans (hsuf.trans hb))
          revert this
          cases mcuResume cfg false .row rest t' with
          | done t2 => exact id
          | wait ph td t2 => exact fun h => h.trans (b2.trans hsuf)
          | failed f t2 => exact id

theorem scanStep_err {cfg : Cfg} {pd : Bool} {ph : Phase} {todo : List (Nat × Nat)} {s : St} {scan : Scan}
    {frame : Frame} {k : Nat} {file : List UInt8} (h : MidScan pd ph todo s scan frame k)
    (hb : s.bi.input <:+ file) :
    match scanStep cfg pd ph todo s with
    | .wait _ t => t.bi.input <:+ s.bi.input
    | .failed f t => ∀ e, f = .err e → FileErr cfg file t.dec e
    | _ => True := by
  have hm := mcuResume_err (cfg := cfg) todo ph s k h hb
  unfold scanStep
  cases e : mcuResume cfg pd ph todo s with
  | wait ph' td t => rw [e] at hm; exact hm
  | failed f t =>
    rw [e] at hm
    intro e' he'
    obtain ⟨h1, h2 | h2⟩ := hm e' he'
    · exact .inl h2
    · exact .inr (.inr ⟨scan, h1, h2⟩)
  | done t =>
    simp only
    cases e2 : scanEnd t with
    | fail f t' =>
      obtain ⟨p, rfl⟩ := scanEnd_panics e2
      intro e' he'
      cases he'
    | ok u t' => trivial

/-! ## Segments -/

theorem segmentStep_err {cfg : Cfg} {file : List UInt8} {s : St} (hd : DecInv s.dec) (hwf : s.bi.WF)
    (hb : s.bi.input <:+ file) :
    match segmentStep cfg s with
    | .wait _ t => t.bi.input <:+ s.bi.input
    | .failed f t => ∀ e, f = .err e → FileErr cfg file t.dec e
    | _ => True := by
  unfold segmentStep
  cases em : marker s.bi.input with
  | error f =>
    simp only
    by_cases hf : f = .eof
    · rw [if_pos hf]
    · rw [if_neg hf]
      rintro e rfl
      exact .inl (segmentError_marker hb em)
  | ok r =>
    obtain ⟨m, rest⟩ := r
    have hms := marker_suffix em
    obtain ⟨pre, hpre⟩ : ∃ pre, file = pre ++ markerBytes m ++ rest := by
      obtain ⟨a, ha⟩ := marker_front em
      obtain ⟨b, hb⟩ := hb
      exact ⟨b ++ a, by rw [← hb, ha]; simp⟩
    simp only
    by_cases h1 : m = .EOI
    · rw [if_pos h1]; trivial
    · rw [if_neg h1]
      by_cases h2 : m = .SOS
      · rw [if_pos h2]
        cases e : sosStart cfg (s.setInput rest) with
        | fail f s' =>
          simp only
          by_cases hf : f = .eof
          · rw [if_pos hf]; exact List.suffix_refl _
          · rw [if_neg hf]
            rintro e' rfl
            have hs : sos cfg (s.setInput rest) = .fail (.err e') s' := by rw [sos_eq, e]; rfl
            have := sos_err (pre := pre) (s := s.setInput rest) hd hwf hs
            rw [hpre, h2]
            exact this
        | ok pd s' =>
          obtain ⟨scan, frame, hm⟩ := sosStart_mid (s := s.setInput rest) hd hwf e
          have hsu := (sosStart_suffix (s := s.setInput rest) e).trans hms
          have hs := scanStep_err (cfg := cfg) hm (hsu.trans hb)
          simp only [hm.hasFrame]
          revert hs
          cases scanStep cfg pd .row (mcuList frame.mcuSize) s' with
          | next t => exact id
          | wait st t => exact fun h => h.trans hsu
          | eoi t => exact id
          | failed f t => exact id
      · rw [if_neg h2]
        cases e : doSegment cfg m (s.setInput rest) with
        | fail f s' =>
          simp only
          by_cases hf : f = .eof
          · rw [if_pos hf]; exact List.suffix_refl _
          · rw [if_neg hf]
            rintro e' rfl
            rw [hpre]
            exact doSegment_err (pre := pre) (s := s.setInput rest) hd hwf e
        | ok u s' => trivial

/-- Errors of a call, and what a call that waits leaves of its input. -/
theorem codecRun_err {cfg : Cfg} {file : List UInt8} : ∀ (fuel : Nat) (st : Stage) (s : St), StageInv st s →
    s.bi.input <:+ file →
    match codecRun cfg fuel st s with
    | .pending c => c.st.bi.input <:+ s.bi.input
    | .image _ c => DecInv c.st.dec
    | .failed f t => ∀ e, f = .err e → FileErr cfg file t.dec e := by
  intro fuel
  induction fuel with
  | zero => intro st s _ _ e he; cases he
  | succ fuel ih =>
    intro st s hs hb
    rw [codecRun]
    have key : match stageStep cfg st s with
        | .next t => StageInv .segments t ∧ t.bi.input <:+ s.bi.input
        | .wait _ t => t.bi.input <:+ s.bi.input
        | .eoi t => DecInv t.dec
        | .failed f t => ∀ e, f = .err e → FileErr cfg file t.dec e := by
      cases st with
      | segments =>
        have h1 := segmentStep_inv (cfg := cfg) hs.1 hs.2 hb
        have h2 := segmentStep_err (cfg := cfg) hs.1 hs.2 hb
        show match segmentStep cfg s with
          | .next t => StageInv .segments t ∧ t.bi.input <:+ s.bi.input
          | .wait _ t => t.bi.input <:+ s.bi.input
          | .eoi t => DecInv t.dec
          | .failed f t => ∀ e, f = .err e → FileErr cfg file t.dec e
        revert h1 h2
        cases segmentStep cfg s with
        | next t => exact fun h _ => ⟨h.1, h.2.1⟩
        | wait st t => exact fun _ h => h
        | eoi t => exact fun h _ => h.1
        | failed f t => exact fun _ h => h
      | scan pd ph todo =>
        obtain ⟨scan, frame, k, hm⟩ := hs
        have h1 := scanStep_inv (cfg := cfg) hm
        have h2 := scanStep_err (cfg := cfg) hm hb
        show match scanStep cfg pd ph todo s with
          | .next t => StageInv .segments t ∧ t.bi.input <:+ s.bi.input
          | .wait _ t => t.bi.input <:+ s.bi.input
          | .eoi t => DecInv t.dec
          | .failed f t => ∀ e, f = .err e → FileErr cfg file t.dec e
        revert h1 h2
        cases scanStep cfg pd ph todo s with
        | next t => exact fun h _ => h
        | wait st t => exact fun _ h => h
        | eoi t => exact fun h => h.elim
        | failed f t => exact fun _ h => h
    cases e : stageStep cfg st s with
    | next t =>
      rw [e] at key
      have := ih .segments t key.1 (key.2.trans hb)
      simp only
      revert this
      cases codecRun cfg fuel .segments t with
      | pending c => exact fun h => h.trans key.2
      | image r c => exact id
      | failed f t => exact id
    | wait st' t => rw [e] at key; exact key
    | failed f t => rw [e] at key; exact key
    | eoi t =>
      rw [e] at key
      simp only
      cases eu : upsample cfg t.dec with
      | ok img => exact key
      | error f =>
        cases f with
        | panic p => intro e' h; cases h
        | _ => exact key

end Jpeg
