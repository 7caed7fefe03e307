import Verif.Proofs.BaselineRun
import Verif.Spec.Damage
/-!
# Decoding of arbitrary data in front of a marker

Whatever the bits, an MCU is decoded to blocks of the prescribed number and size or fails without a panic,
and the marker behind the data is not passed.
-/

namespace Jpeg
open Spec Biterator

/-- The reader is in front of the marker that `t` begins with. -/
def At (t : List UInt8) (b : Biterator) : Prop := b.WF ∧ scanTail b.input = some t

/-- States with a bit reader. -/
class HasBi (σ : Type) where
  /-- the reader -/
  bi : σ → Biterator

open HasBi

instance : HasBi Biterator := ⟨id⟩
instance : HasBi BlockSt := ⟨BlockSt.bi⟩
instance : HasBi RowSt := ⟨RowSt.bi⟩
instance : HasBi McuSt := ⟨McuSt.bi⟩

/-- On success the reader is still in front of `t`. -/
def Keeps {σ α : Type} [HasBi σ] (t : List UInt8) (o : Out σ α) : Prop :=
  match o with
  | .ok _ s => At t (bi s)
  | .fail _ _ => True

section
variable {σ α β : Type} [HasBi σ] {t : List UInt8}

theorem Keeps.fail (f : Fail) (s : σ) : Keeps (α := α) t (.fail f s) := trivial

theorem Keeps.bind {o : Out σ α} {k : α → σ → Out σ β} (h : Keeps t o)
    (hk : ∀ a s, At t (bi s) → Keeps t (k a s)) : Keeps t (o.bind k) := by
  cases o with
  | ok a s => exact hk a s h
  | fail f s => trivial

theorem Keeps.mapErr {o : Out σ α} {g : Fail → Fail} (h : Keeps t o) : Keeps t (o.mapErr g) := by
  cases o with
  | ok a s => exact h
  | fail f s => trivial

theorem Keeps.ofExcept (e : Except Fail α) {s : σ} (h : At t (bi s)) : Keeps t (Out.ofExcept e s) := by
  cases e with
  | ok a => exact h
  | error f => trivial

end

variable {t : List UInt8}

/-! ## Bit reader -/

theorem fillBits_keeps {s : Biterator} (h : At t s) : Keeps t s.fillBits := by
  obtain ⟨s', e, h1, -, h2, -⟩ := fillBits_spec h.1 h.2
  rw [e]
  exact ⟨h1, h2⟩

theorem consumeBits_keeps {s : Biterator} (h : At t s) (n : Nat) : Keeps t (s.consumeBits n) := by
  unfold Biterator.consumeBits
  split
  · trivial
  · exact ⟨⟨by have := h.1.1; show s.count - n ≤ 64; omega, h.1.2⟩, h.2⟩

theorem fillIf_keeps {s : Biterator} (h : At t s) (n : Nat) :
    Keeps t (if s.count < n then s.fillBits else .ok () s) := by
  split
  · exact fillBits_keeps h
  · exact h

theorem nextBits_keeps {s : Biterator} (h : At t s) (n : Nat) : Keeps t (s.nextBits n) := by
  unfold Biterator.nextBits
  exact (fillIf_keeps h n).bind fun _ s h => (Keeps.ofExcept _ h).bind fun v s h =>
    (consumeBits_keeps h n).bind fun _ s h => h

theorem receiveExtend_keeps {s : Biterator} (h : At t s) (n : Nat) : Keeps t (s.receiveExtend n) :=
  (nextBits_keeps h n).bind fun _ _ h => h

theorem ensure16_keeps {s : Biterator} (h : At t s) : Keeps t s.ensure16 := fillIf_keeps h 16

/-! ## Huffman decoding -/

theorem searchGo_keeps (tab : BaseTable) (bits : Nat) : ∀ (fuel i : Nat) (s : Biterator), At t s →
    Keeps t (searchGo tab bits fuel i s) := by
  intro fuel
  induction fuel with
  | zero => intro i s _; trivial
  | succ fuel ih =>
    intro i s h
    rw [searchGo]
    cases tab.maxCode[i]? with
    | none => trivial
    | some m =>
      simp only
      split
      · refine (consumeBits_keeps h _).bind fun _ s h => ?_
        cases tab.valOffset[i]? with
        | none => trivial
        | some off =>
          simp only
          split
          · trivial
          · generalize tab.values[(((bits >>> (15 - i) : Nat) : Int) + off).toNat]? = v
            cases v with
            | none => trivial
            | some v => exact h
      · exact ih _ _ h

theorem decodeInner_keeps (tab : BaseTable) {s : Biterator} (h : At t s) (n : Nat) :
    Keeps t (tab.decodeInner s n) := by
  unfold BaseTable.decodeInner
  cases tab.lut[n]? with
  | none => trivial
  | some e =>
    obtain ⟨value, size⟩ := e
    simp only
    split
    · exact (consumeBits_keeps h _).bind fun _ _ h => h
    · exact (Keeps.ofExcept _ h).bind fun bits s h => searchGo_keeps tab bits _ _ s h

theorem decode_keeps (tab : BaseTable) {s : Biterator} (h : At t s) : Keeps t (tab.decode s) :=
  (ensure16_keeps h).bind fun _ _ h => (Keeps.ofExcept _ h).bind fun n _ h => decodeInner_keeps tab h n

theorem decodeFastAc_keeps (tab : AcTable) {s : Biterator} (h : At t s) : Keeps t (tab.decodeFastAc s) := by
  unfold AcTable.decodeFastAc
  refine (ensure16_keeps h).bind fun _ _ h => (Keeps.ofExcept _ h).bind fun n s h => ?_
  cases tab.acLut[n]? with
  | none => trivial
  | some e =>
    obtain ⟨value, runSize⟩ := e
    simp only
    split
    · exact (consumeBits_keeps h _).bind fun _ _ h => h
    · exact (decodeInner_keeps _ h n).bind fun _ _ h => h

/-! ## Blocks -/

theorem liftBi_keeps {α : Type} {op : Biterator → Out Biterator α} {s : BlockSt}
    (h : Keeps t (op s.bi)) : Keeps t (liftBi op s) := by
  unfold liftBi
  cases e : op s.bi with
  | ok a bi => rw [e] at h; exact h
  | fail f bi => trivial

theorem decodeDc_keeps (scan : Scan) (dc : BaseTable) {s : BlockSt} (h : At t s.bi) :
    Keeps t (decodeDc scan dc s) := by
  unfold decodeDc
  split
  · refine (liftBi_keeps (decode_keeps dc h)).mapErr.bind fun v s h => ?_
    refine Keeps.bind ?_ fun d s h => h
    split
    · exact h
    · split
      · trivial
      · exact (liftBi_keeps (receiveExtend_keeps h _)).mapErr
  · exact h

theorem acPut_keeps (scan : Scan) (last index run : Nat) (v : Int) {s : BlockSt} (h : At t s.bi) :
    Keeps t (acPut scan last index run v s) := by
  unfold acPut
  split
  · cases unzigzag s.coeffs (index + run) (shlI16 v scan.al) with
    | error f => trivial
    | ok c => exact h
  · exact h

theorem acRound_keeps (scan : Scan) (ac : AcTable) (last index : Nat) {s : BlockSt} (h : At t s.bi) :
    Keeps t (acRound scan ac last index s) := by
  unfold acRound
  refine (liftBi_keeps (decodeFastAc_keeps ac h)).mapErr.bind fun r s h => ?_
  cases r with
  | fast v run => exact acPut_keeps _ _ _ _ _ h
  | normal byte =>
    simp only
    split
    · split
      · exact h
      · split
        · exact (liftBi_keeps (s := { s with eobRun := _ }) (nextBits_keeps h _)).mapErr.bind fun _ _ h => h
        · exact h
    · exact (liftBi_keeps (receiveExtend_keeps h _)).mapErr.bind fun _ _ h => acPut_keeps _ _ _ _ _ h

theorem decodeAcGo_keeps (scan : Scan) (ac : AcTable) (last : Nat) : ∀ (fuel index : Nat) (s : BlockSt),
    At t s.bi → Keeps t (decodeAcGo scan ac last fuel index s) := by
  intro fuel
  induction fuel with
  | zero => intro i s _; trivial
  | succ fuel ih =>
    intro i s h
    rw [decodeAcGo]
    refine (acRound_keeps scan ac last i h).bind fun next s h => ?_
    cases next with
    | none => exact h
    | some i => exact ih _ _ h

theorem decodeBlock_keeps (scan : Scan) (dc : BaseTable) (ac : AcTable) {s : BlockSt} (h : At t s.bi) :
    Keeps t (decodeBlock scan dc ac s) := by
  unfold decodeBlock
  refine (decodeDc_keeps scan dc h).bind fun _ s h => ?_
  simp only
  split
  · exact h
  · split
    · exact decodeAcGo_keeps _ _ _ _ _ _ h
    · exact h

/-- What is left of a failure: it is not a panic. -/
def NoPanic (f : Fail) : Prop := ∀ p, f ≠ .panic p

theorem decodeBlocks_junk {L L' : List Nat} {counts values counts' values' : List UInt8}
    {dc : BaseTable} {ac : AcTable} (hdc : TableOk L counts values dc)
    (hac : AcTableOk L' counts' values' ac) (scan : Scan) (n : Nat) :
    ∀ (s : RowSt), At t s.bi → s.eobRun < 2 ^ 15 → IsI16 s.dcPred →
    s.done.length + n ≤ MAX_BLOCKS_IN_MCU →
    (∃ f s', decodeBlocks scan dc ac n s = .fail f s' ∧ NoPanic f) ∨
    ∃ s' blocks, decodeBlocks scan dc ac n s = .ok () s' ∧ s'.done = s.done ++ blocks ∧
      blocks.length = n ∧ (∀ b ∈ blocks, b.length = 64) ∧ At t s'.bi ∧ s'.eobRun < 2 ^ 15 ∧ IsI16 s'.dcPred := by
  induction n with
  | zero =>
    intro s h heob hp _
    exact .inr ⟨s, [], rfl, by simp, rfl, by simp, h, heob, hp⟩
  | succ n ih =>
    intro s h heob hp hl
    unfold decodeBlocks
    rw [if_pos (by omega)]
    have hb := decodeBlock_safe hdc hac (s := ⟨s.bi, s.eobRun, s.dcPred, zeroBlock⟩) h.1
      (by simp [zeroBlock]) heob hp scan
    have hk := decodeBlock_keeps scan dc ac (s := ⟨s.bi, s.eobRun, s.dcPred, zeroBlock⟩) h
    cases e : decodeBlock scan dc ac ⟨s.bi, s.eobRun, s.dcPred, zeroBlock⟩ with
    | fail f b =>
      rw [e] at hb
      exact .inl ⟨f, _, rfl, fun p hp => hb.noPanic p b (by rw [hp])⟩
    | ok u b =>
      rw [e] at hb hk
      rcases ih ⟨b.bi, b.eobRun, b.dcPred, s.done ++ [b.coeffs]⟩ hk hb.eob hb.pred (by simp; omega) with
        h | ⟨s', blocks, h1, h2, h3, h4, h5⟩
      · exact .inl h
      · refine .inr ⟨s', b.coeffs :: blocks, h1, by rw [h2]; simp, by simp [h3], ?_, h5⟩
        intro x hx
        rw [List.mem_cons] at hx
        rcases hx with rfl | hx
        · exact hb.len
        · exact h4 x hx

/-- Every block of 64 values is the block of some coefficients. -/
theorem block_exists {l : List Int} (h : l.length = 64) :
    ∃ b : BlockData, b.zz.length = 63 ∧ b.block = l := by
  refine ⟨⟨l.getD (zigzag 0) 0, (List.range 63).map fun k => l.getD (zigzag (k + 1)) 0⟩, by simp, ?_⟩
  have e : l.getD (zigzag 0) 0 :: (List.range 63).map (fun k => l.getD (zigzag (k + 1)) 0) =
      (List.range 64).map fun k => l.getD (zigzag k) 0 := by
    rw [show 64 = 63 + 1 from rfl, List.range_succ_eq_map, List.map_cons, List.map_map]
    rfl
  unfold BlockData.block
  simp only
  rw [e]
  apply List.ext_getElem?
  intro p
  by_cases hp : p < 64
  · obtain ⟨k, hk, rfl⟩ := zigzag_surj p hp
    rw [List.getElem?_map, List.getElem?_range hp, Option.map_some, zigzagIndex hk, List.getD_eq_getElem?_getD,
      List.getElem?_map, List.getElem?_range hk, Option.map_some, Option.getD_some, List.getD_eq_getElem?_getD,
      List.getElem?_eq_getElem (by omega), Option.getD_some]
  · rw [List.getElem?_eq_none (by simp; omega), List.getElem?_eq_none (by omega)]

theorem blocks_exist {l : List (List Int)} (h : ∀ b ∈ l, b.length = 64) :
    ∃ bs : List BlockData, bs.map BlockData.block = l ∧ bs.length = l.length := by
  induction l with
  | nil => exact ⟨[], rfl, rfl⟩
  | cons x l ih =>
    obtain ⟨b, -, hb⟩ := block_exists (h x (by simp))
    obtain ⟨bs, h1, h2⟩ := ih fun b hb => h b (by simp [hb])
    exact ⟨b :: bs, by rw [List.map_cons, hb, h1], by simp [h2]⟩

theorem decodeComponents_junk {d : Decoder} (scan : Scan) (comps : List Component) :
    ∀ (headers : List ScanHeader) (codes : List (Code × Code)) (preds : List Int) (s : McuSt),
    List.Forall₂ (TablesFor d) headers codes → headers.length = comps.length → comps.length ≤ preds.length →
    (∀ p ∈ preds, IsI16 p) → (∀ p ∈ s.preds, IsI16 p) → At t s.bi → s.eobRun < 2 ^ 15 →
    s.done.length + (comps.map (·.blocksPerMcu)).sum ≤ MAX_BLOCKS_IN_MCU →
    (∃ f s', decodeComponents d scan comps headers preds s = .fail f s' ∧ NoPanic f) ∨
    ∃ (s' : McuSt) (m : Mcu), decodeComponents d scan comps headers preds s = .ok () s' ∧
      s'.done = s.done ++ m.flatten.map BlockData.block ∧ comps.map (·.blocksPerMcu) = m.map List.length ∧
      At t s'.bi ∧ s'.eobRun < 2 ^ 15 ∧ (∀ p ∈ s'.preds, IsI16 p) ∧
      s'.preds.length = s.preds.length + preds.length := by
  induction comps with
  | nil =>
    intro headers codes preds s hf hl _ hp hsp h heob _
    have : headers = [] := List.length_eq_zero_iff.1 hl
    subst this
    refine .inr ⟨_, [], rfl, by simp, rfl, h, heob, ?_, by simp⟩
    intro p hpm
    simp only [List.mem_append] at hpm
    exact hpm.elim (hsp p) (hp p)
  | cons c comps ih =>
    intro headers codes preds s hf hl hpl hp hsp h heob hten
    cases hf with
    | nil => simp at hl
    | @cons hd code headers codes ht hf =>
      cases preds with
      | nil => simp at hpl
      | cons p ps =>
        obtain ⟨dc, ac, e1, e2, hdc, hac⟩ := ht
        rw [decodeComponents, e1]
        simp only [e2]
        simp only [List.map_cons, List.sum_cons] at hten
        rcases decodeBlocks_junk hdc hac scan c.blocksPerMcu ⟨s.bi, s.eobRun, p, s.done⟩ h heob
          (hp p (by simp)) (by show s.done.length + _ ≤ _; omega) with
          ⟨f, s', e, hn⟩ | ⟨s', blocks, e, h1, h2, h3, h4, h5, h6⟩
        · rw [e]
          exact .inl ⟨f, _, rfl, hn⟩
        · rw [e]
          simp only
          obtain ⟨bs, hb1, hb2⟩ := blocks_exist h3
          have h1 : s'.done = s.done ++ blocks := h1
          rcases ih headers codes ps ⟨s'.bi, s'.eobRun, s.preds ++ [s'.dcPred], s'.done⟩ hf
            (by simpa using hl) (by simpa using hpl) (fun q hq => hp q (by simp [hq])) (by
              intro q hq
              simp only [List.mem_append, List.mem_singleton] at hq
              rcases hq with hq | rfl
              · exact hsp q hq
              · exact h6) h4 h5 (by simp only [h1, List.length_append, h2]; omega) with
            h | ⟨s2, m, k1, k2, k3, k4, k5, k6, k7⟩
          · exact .inl h
          · refine .inr ⟨s2, bs :: m, k1, ?_, ?_, k4, k5, k6, ?_⟩
            · rw [k2]
              simp only [h1, List.flatten_cons, List.map_append, hb1, List.append_assoc]
            · rw [List.map_cons, List.map_cons, k3, hb2, h2]
            · rw [k7]; simp; omega

/-! ## The MCU loop -/

/-- A state during a scan. -/
def mkStE (d : Decoder) (coef : List (List Int)) (preds : List Int) (eob exp left : Nat)
    (results : List (List (Option UInt8))) (bi : Biterator) : St :=
  ⟨{ d with scanState := ⟨coef, preds, eob, exp, left, results⟩ }, bi⟩

/-- What stays fixed during a scan of all components. -/
structure DamageCtx (d : Decoder) (scan : Scan) (frame : Frame) (codes : List (Code × Code)) (r W H : Nat) :
    Prop where
  ctx : ScanCtx d scan frame codes r
  headers : scan.headers.length = frame.components.length
  four : frame.components.length ≤ 4
  size : frame.mcuSize = ⟨W, H⟩
  geom : ∀ c ∈ frame.components, PlaneGeom W H c
  blocks : ∀ c ∈ frame.components, c.blocksPerMcu = c.v * c.h
  quant : ∀ c ∈ frame.components, ∃ q, d.quantTables[c.tq]? = some (some q)
  ten : (frame.components.map fun c => c.v * c.h).sum ≤ 10

/-- The planes after the MCUs `ms`. -/
def partPlanes (d : Decoder) (frame : Frame) (ms : List Mcu) : List (List (Option UInt8)) :=
  planesOf frame.mcuSize.width (quantOf d.quantTables) frame.components
    (lsOf frame.components (ms.map mcuBuf))

variable {cfg : Cfg} {d : Decoder} {scan : Scan} {frame : Frame}
  {codes : List (Code × Code)} {r W H : Nat}

theorem DamageCtx.fits (h : DamageCtx d scan frame codes r W H) {m : Mcu} :
    McuFits frame m ↔ m.map List.length = frame.components.map (fun c => c.v * c.h) := by
  have e : frame.components.map (·.blocksPerMcu) = frame.components.map (fun c => c.v * c.h) :=
    List.map_congr_left h.blocks
  unfold McuFits
  rw [e]
  constructor
  · exact fun h => h.1.symm
  · intro hm
    refine ⟨hm.symm, ?_⟩
    rw [List.length_flatten, hm]
    exact h.ten

theorem DamageCtx.dequantAll (h : DamageCtx d scan frame codes r W H) (L ms : List Mcu)
    (hm : ∀ m ∈ ms, McuFits frame m) (hl : L.length + ms.length ≤ W * H) :
    dequantAll cfg true d frame L.length ms (partPlanes d frame L) = .ok (partPlanes d frame (L ++ ms)) := by
  have := dequantAll_planes (cfg := cfg) h.size h.geom h.quant ms (L.map mcuBuf)
    (fun m hm' => h.fits.1 (hm m hm')) (by simpa using hl)
  unfold partPlanes
  rw [h.size, List.map_append]
  rw [List.length_map] at this
  exact this

theorem DamageCtx.dequantStep (h : DamageCtx d scan frame codes r W H) (L : List Mcu) {m : Mcu}
    (hm : McuFits frame m) (hl : L.length + 1 ≤ W * H) :
    dequantStep cfg true d frame L.length m (partPlanes d frame L) = .ok (partPlanes d frame (L ++ [m])) := by
  have := h.dequantAll (cfg := cfg) L [m] (by simpa using hm) hl
  rw [Jpeg.dequantAll] at this
  cases e : Jpeg.dequantStep cfg true d frame L.length m (partPlanes d frame L) with
  | error f => rw [e] at this; simp at this
  | ok R => rw [e] at this; simpa [Jpeg.dequantAll] using this

/-- Nothing but a failure that is not a panic, or success with a state that satisfies `P`. -/
def Soft {σ α : Type} (o : Out σ α) (P : σ → Prop) : Prop :=
  match o with
  | .ok _ s => P s
  | .fail f _ => NoPanic f

theorem Soft.bind {σ α β : Type} {o : Out σ α} {k : α → σ → Out σ β} {P Q : σ → Prop} (h : Soft o P)
    (hk : ∀ a s, P s → Soft (k a s) Q) : Soft (o.bind k) Q := by
  cases o with
  | ok a s => exact hk a s h
  | fail f s => exact h

theorem Soft.imp {σ α : Type} {o : Out σ α} {P Q : σ → Prop} (h : Soft o P) (hk : ∀ s, P s → Q s) :
    Soft o Q := by
  cases o with
  | ok a s => exact hk s h
  | fail f s => exact h

/-- What is known of the predictors and the reader while arbitrary data is decoded. -/
structure JunkSt (preds : List Int) (eob : Nat) : Prop where
  len : preds.length = 4
  preds : ∀ p ∈ preds, IsI16 p
  eob : eob < 2 ^ 15

theorem decodeRow_junk (h : DamageCtx d scan frame codes r W H) {coef : List (List Int)} {preds : List Int}
    {eob exp left : Nat} {R : List (List (Option UInt8))} {bi : Biterator} (hs : JunkSt preds eob)
    (hat : At t bi) :
    Soft (decodeRow (mkStE d coef preds eob exp left R bi)) fun s =>
      ∃ m preds' eob' bi', McuFits frame m ∧ JunkSt preds' eob' ∧ At t bi' ∧
        s = mkStE d (padBlocks (m.flatten.map BlockData.block)) preds' eob' exp left R bi' := by
  have hj := decodeComponents_junk (t := t) (d := (mkStE d coef preds eob exp left R bi).dec) scan
    frame.components scan.headers codes preds ⟨bi, eob, [], []⟩ h.ctx.tables h.headers
    (by rw [hs.len]; exact h.four) hs.preds (by simp) hat hs.eob (by
      rw [List.map_congr_left h.blocks]
      simpa [MAX_BLOCKS_IN_MCU] using h.ten)
  unfold decodeRow
  rw [show (mkStE d coef preds eob exp left R bi).dec.scan = some scan from h.ctx.scan_eq,
    show (mkStE d coef preds eob exp left R bi).dec.frame = some frame from h.ctx.frame_eq]
  simp only
  rcases hj with ⟨f, s', e, hn⟩ | ⟨s', m, e, h1, h2, h3, h4, h5, h6⟩
  · rw [show decodeComponents (mkStE d coef preds eob exp left R bi).dec scan frame.components scan.headers
      (mkStE d coef preds eob exp left R bi).dec.scanState.dcPredictors
      ⟨(mkStE d coef preds eob exp left R bi).bi, (mkStE d coef preds eob exp left R bi).dec.scanState.eobRun, [], []⟩
        = _ from e]
    cases f with
    | panic p => exact absurd rfl (hn p)
    | unit => intro p hp; simp at hp
    | eof => intro p hp; simp at hp
    | err x => intro p hp; simp at hp
  · rw [show decodeComponents (mkStE d coef preds eob exp left R bi).dec scan frame.components scan.headers
      (mkStE d coef preds eob exp left R bi).dec.scanState.dcPredictors
      ⟨(mkStE d coef preds eob exp left R bi).bi, (mkStE d coef preds eob exp left R bi).dec.scanState.eobRun, [], []⟩
        = _ from e]
    refine ⟨m, s'.preds, s'.eobRun, s'.bi, h.fits.2 ?_, ⟨by rw [h6]; simp [hs.len], h5, h4⟩, h3, ?_⟩
    · rw [← h2, List.map_congr_left h.blocks]
    · simp only [List.nil_append] at h1
      rw [h1]
      rfl

theorem dequant_mkE (ctx : ScanCtx d scan frame codes r) {preds : List Int} {eob exp left k : Nat}
    {R R' : List (List (Option UInt8))} {bi : Biterator} {m : Mcu}
    (hq : dequantStep cfg true d frame k m R = .ok R') :
    (match dequantize cfg (k % frame.mcuSize.width) (k / frame.mcuSize.width)
        (mkStE d (padBlocks (m.flatten.map BlockData.block)) preds eob exp left R bi).dec with
      | .ok () d' => .ok () { mkStE d (padBlocks (m.flatten.map BlockData.block)) preds eob exp left R bi
          with dec := d' }
      | .fail f d' => .fail f { mkStE d (padBlocks (m.flatten.map BlockData.block)) preds eob exp left R
          bi with dec := d' } : Out St Unit)
      = .ok () (mkStE d (padBlocks (m.flatten.map BlockData.block)) preds eob exp left R' bi) := by
  unfold Jpeg.dequantStep at hq
  rw [if_pos rfl] at hq
  have hd : dequantize cfg (k % frame.mcuSize.width) (k / frame.mcuSize.width)
      (mkStE d (padBlocks (m.flatten.map BlockData.block)) preds eob exp left R bi).dec =
      .ok () (mkStE d (padBlocks (m.flatten.map BlockData.block)) preds eob exp left R' bi).dec := by
    unfold dequantize
    simp only [mkStE, ctx.frame_eq]
    rcases ctx.process with hp | hp | hp <;> rw [hp] <;> simp only [hq]
  rw [hd]
  rfl

theorem mcuStep_junk_nodue (h : DamageCtx d scan frame codes r W H) {coef : List (List Int)}
    {preds : List Int} {eob exp left : Nat} {bi : Biterator} (L : List Mcu) (hs : JunkSt preds eob)
    (hat : At t bi) (hk : L.length < W * H) (hnd : ¬ RstDue r (W * H) L.length)
    (hleft : 0 < r → left = r - L.length % r) (hexp : 0 < r → exp = L.length / r % 8) :
    Soft (mcuStep cfg true (L.length / frame.mcuSize.width) (L.length % frame.mcuSize.width)
      (mkStE d coef preds eob exp left (partPlanes d frame L) bi)) fun s =>
      ∃ m coef' preds' eob' left' bi', McuFits frame m ∧ JunkSt preds' eob' ∧ At t bi' ∧
        s = mkStE d coef' preds' eob' exp left' (partPlanes d frame (L ++ [m])) bi' ∧
        (L.length + 1 < W * H → 0 < r → left' = r - (L.length + 1) % r) := by
  unfold mcuStep
  refine (decodeRow_junk h hs hat).bind fun _ s hrow => ?_
  obtain ⟨m, preds', eob', bi', hfit, hs', hat', rfl⟩ := hrow
  have hsz : frame.mcuSize.width * frame.mcuSize.height = W * H := by rw [h.size]
  obtain ⟨left', e2, hl⟩ := (restartParser_at (cfg := cfg) h.ctx.range
    (s := mkStE d (padBlocks (m.flatten.map BlockData.block)) preds' eob' exp left (partPlanes d frame L) bi')
    ⟨h.ctx.interval, h.ctx.frame_eq, hleft, hexp⟩ (by rw [hsz]; exact hk)).2 (by rw [hsz]; exact hnd)
  rw [e2, Out.bind_ok, if_pos rfl]
  have := dequant_mkE (cfg := cfg) h.ctx (preds := preds') (eob := eob') (exp := exp) (left := left')
    (bi := bi') (h.dequantStep (cfg := cfg) L hfit hk)
  refine (congrArg (fun o => Soft o _) this).mpr ⟨m, _, preds', eob', left', bi', hfit, hs', hat', rfl, ?_⟩
  rw [hsz] at hl
  exact hl

theorem mcuStep_junk_due (h : DamageCtx d scan frame codes r W H) {coef : List (List Int)}
    {preds : List Int} {eob exp left : Nat} {bi : Biterator} (L : List Mcu) (hs : JunkSt preds eob)
    (hat : At t bi) (hk : L.length < W * H) (hdue : RstDue r (W * H) L.length)
    (hleft : 0 < r → left = r - L.length % r) (hexp : 0 < r → exp = L.length / r % 8) {rest : List UInt8}
    (hmark : marker t = .ok (.RST (L.length / r % 8), rest)) :
    Soft (mcuStep cfg true (L.length / frame.mcuSize.width) (L.length % frame.mcuSize.width)
      (mkStE d coef preds eob exp left (partPlanes d frame L) bi)) fun s =>
      ∃ m coef', McuFits frame m ∧
        s = mkSt d coef' (List.replicate MAX_COMPONENTS 0) ((L.length / r % 8 + 1) % 8) r
          (partPlanes d frame (L ++ [m])) ⟨rest, 0, 0⟩ := by
  unfold mcuStep
  refine (decodeRow_junk h hs hat).bind fun _ s hrow => ?_
  obtain ⟨m, preds', eob', bi', hfit, hs', hat', rfl⟩ := hrow
  have hsz : frame.mcuSize.width * frame.mcuSize.height = W * H := by rw [h.size]
  have e2 := (((restartParser_at (cfg := cfg) h.ctx.range
    (s := mkStE d (padBlocks (m.flatten.map BlockData.block)) preds' eob' exp left (partPlanes d frame L) bi')
    ⟨h.ctx.interval, h.ctx.frame_eq, hleft, hexp⟩ (by rw [hsz]; exact hk)).1 (by rw [hsz]; exact hdue)).2 _ rest
    (by rw [← hmark]; exact marker_scanTail hat'.2)).1 rfl
  rw [e2, Out.bind_ok, if_pos rfl]
  have := dequant_mkE (cfg := cfg) h.ctx (preds := List.replicate MAX_COMPONENTS 0) (eob := 0)
    (exp := (L.length / r % 8 + 1) % 8) (left := r)
    (bi := ⟨rest, 0, 0⟩) (h.dequantStep (cfg := cfg) L hfit hk)
  exact (congrArg (fun o => Soft o _) this).mpr ⟨m, _, hfit, rfl⟩

theorem mcuLoop_junk (h : DamageCtx d scan frame codes r W H) (n : Nat) :
    ∀ {coef : List (List Int)} {preds : List Int} {eob exp left : Nat} {bi : Biterator} (L : List Mcu),
    JunkSt preds eob → At t bi → L.length + n ≤ W * H →
    (∀ j, L.length ≤ j → j < L.length + n → ¬ RstDue r (W * H) j) →
    (0 < n → 0 < r → left = r - L.length % r ∧ exp = L.length / r % 8) →
    Soft (mcuLoop cfg true (coords frame L.length n)
      (mkStE d coef preds eob exp left (partPlanes d frame L) bi)) fun s =>
      ∃ ms coef' preds' eob' left' bi', ms.length = n ∧ (∀ m ∈ ms, McuFits frame m) ∧ JunkSt preds' eob' ∧
        At t bi' ∧ s = mkStE d coef' preds' eob' exp left' (partPlanes d frame (L ++ ms)) bi' ∧
        (0 < n → L.length + n < W * H → 0 < r →
          left' = r - (L.length + n) % r ∧ exp = (L.length + n) / r % 8) ∧
        (n = 0 → left' = left) := by
  induction n with
  | zero =>
    intro coef preds eob exp left bi L hs hat _ _ _
    exact ⟨[], coef, preds, eob, left, bi, rfl, by simp, hs, hat, by rw [List.append_nil], by simp, fun _ => rfl⟩
  | succ n ih =>
    intro coef preds eob exp left bi L hs hat hk hnd hr
    rw [show coords frame L.length (n + 1) = mcuCoord frame.mcuSize L.length :: coords frame (L.length + 1) n by
      unfold coords; rw [List.range'_succ, List.map_cons]]
    rw [mcuLoop]
    refine (mcuStep_junk_nodue h L hs hat (by omega) (hnd _ (le_refl _) (by omega))
      (fun h0 => (hr (by omega) h0).1) (fun h0 => (hr (by omega) h0).2)).bind fun _ s hstep => ?_
    obtain ⟨m, coef1, preds1, eob1, left1, bi1, hfit, hs1, hat1, rfl, hl1⟩ := hstep
    have hl : (L ++ [m]).length = L.length + 1 := by simp
    have hnext : L.length + 1 < W * H → 0 < r → left1 = r - (L.length + 1) % r ∧ exp = (L.length + 1) / r % 8 := by
      intro hlt h0
      have hz : (L.length + 1) % r ≠ 0 := by
        intro hz
        exact hnd L.length (le_refl _) (by omega) ⟨h0, hz, hlt⟩
      exact ⟨hl1 hlt h0, by rw [(hr (by omega) h0).2, ((succ_mod_div h0).2 hz).2]⟩
    have := ih (coef := coef1) (exp := exp) (left := left1) (L ++ [m]) hs1 hat1 (by rw [hl]; omega)
      (by rw [hl]; exact fun j h1 h2 => hnd j (by omega) (by omega))
      (by rw [hl]; exact fun hn h0 => hnext (by omega) h0)
    rw [hl] at this
    refine this.imp fun s hs => ?_
    obtain ⟨ms, coef', preds', eob', left', bi', k1, k2, k3, k4, k5, k6, k7⟩ := hs
    refine ⟨m :: ms, coef', preds', eob', left', bi', by simp [k1], ?_, k3, k4, ?_, ?_, by omega⟩
    · intro x hx
      rw [List.mem_cons] at hx
      rcases hx with rfl | hx
      · exact hfit
      · exact k2 x hx
    · rw [k5, List.append_assoc]; rfl
    · intro _ hlt h0
      rcases Nat.eq_zero_or_pos n with hn | hn
      · subst hn
        rw [k7 rfl]
        exact hnext hlt h0
      · have := k6 hn (by omega) h0
        rwa [show L.length + 1 + n = L.length + (n + 1) by omega] at this

theorem coords_append (frame : Frame) (k a b : Nat) :
    coords frame k (a + b) = coords frame k a ++ coords frame (k + a) b := by
  unfold coords
  rw [← List.range'_append_1, List.map_append]

theorem junkSt_zero : JunkSt (List.replicate MAX_COMPONENTS 0) 0 :=
  ⟨by simp [MAX_COMPONENTS], by intro p hp; rw [List.eq_of_mem_replicate hp]; unfold IsI16; omega, by omega⟩

theorem at_new {data t : List UInt8} (ht : StartsWithMarker t) : At t ⟨stuff data ++ t, 0, 0⟩ :=
  have := rep_new (A := False) ht (rfl : bitsOf data = _)
  ⟨this.wf, this.tail⟩

/-- An interval that is followed by a restart marker. -/
theorem mcuLoop_interval (h : DamageCtx d scan frame codes r W H) {bad : Prop} {ms : List Mcu}
    {data t rest : List UInt8} (ht : StartsWithMarker t) (hi : ¬ bad → IntervalData codes ms data)
    (hfit : ∀ m ∈ ms, McuFits frame m) (h0 : 0 < r) (hms : ms.length = r) (L : List Mcu)
    (hL : L.length % r = 0) (hk : L.length + r < W * H)
    (hmark : marker t = .ok (.RST (L.length / r % 8), rest)) (coef : List (List Int)) :
    Soft (mcuLoop cfg true (coords frame L.length r)
      (mkSt d coef (List.replicate MAX_COMPONENTS 0) (L.length / r % 8) r (partPlanes d frame L)
        ⟨stuff data ++ t, 0, 0⟩)) fun s =>
      ∃ ms' coef', ms'.length = r ∧ (∀ m ∈ ms', McuFits frame m) ∧ (¬ bad → ms' = ms) ∧
        s = mkSt d coef' (List.replicate MAX_COMPONENTS 0) ((L.length / r % 8 + 1) % 8) r
          (partPlanes d frame (L ++ ms')) ⟨rest, 0, 0⟩ := by
  obtain ⟨n, rfl⟩ : ∃ n, r = n + 1 := ⟨r - 1, by omega⟩
  have hd := Nat.div_add_mod L.length (n + 1)
  rw [hL] at hd
  have hdiv : (L.length + n) / (n + 1) = L.length / (n + 1) := by
    conv_lhs => rw [show L.length + n = (n + 1) * (L.length / (n + 1)) + n by omega]
    rw [Nat.mul_add_div h0, Nat.div_eq_of_lt (show n < n + 1 by omega), Nat.add_zero]
  have hnd : ∀ j, L.length ≤ j → j < L.length + n → ¬ RstDue (n + 1) (W * H) j := by
    rintro j h1 h2 ⟨_, h3, h4⟩
    have : (j + 1) % (n + 1) = j + 1 - L.length := by
      conv_lhs => rw [show j + 1 = (n + 1) * (L.length / (n + 1)) + (j + 1 - L.length) by omega]
      rw [Nat.mul_add_mod, Nat.mod_eq_of_lt (by omega)]
    omega
  have hdue : RstDue (n + 1) (W * H) (L.length + n) := by
    refine ⟨h0, ?_, by omega⟩
    rw [show L.length + n + 1 = (n + 1) * (L.length / (n + 1) + 1) by rw [Nat.mul_succ]; omega,
      Nat.mul_mod_right]
  have hsz : frame.mcuSize.width * frame.mcuSize.height = W * H := by rw [h.size]
  rw [coords_append, mcuLoop_append]
  by_cases hb : bad
  · refine (mcuLoop_junk (t := t) h n (coef := coef) (preds := List.replicate MAX_COMPONENTS 0) (eob := 0)
      (bi := ⟨stuff data ++ t, 0, 0⟩) L junkSt_zero (at_new ht) (by omega) hnd
      (fun _ _ => ⟨by rw [hL]; rfl, rfl⟩)).bind fun _ s hs => ?_
    obtain ⟨ms1, coef1, preds1, eob1, left1, bi1, k1, k2, k3, k4, rfl, k6, k7⟩ := hs
    have hl : (L ++ ms1).length = L.length + n := by simp [k1]
    have hst : left1 = n + 1 - (L.length + n) % (n + 1) ∧ L.length / (n + 1) % 8 = (L.length + n) / (n + 1) % 8 := by
      rcases Nat.eq_zero_or_pos n with hn | hn
      · subst hn
        rw [k7 rfl]
        simp [Nat.mod_one]
      · exact k6 hn (by omega) h0
    have := mcuStep_junk_due (cfg := cfg) h (coef := coef1) (exp := L.length / (n + 1) % 8) (L ++ ms1) k3 k4
      (by rw [hl]; omega) (by rw [hl]; exact hdue) (by rw [hl]; exact fun _ => hst.1)
      (by rw [hl]; exact fun _ => hst.2) (rest := rest) (by rw [hl, hdiv]; exact hmark)
    rw [hl, hdiv] at this
    rw [show coords frame (L.length + n) 1 = [mcuCoord frame.mcuSize (L.length + n)] from rfl, mcuLoop]
    refine Soft.bind this fun _ s hs => ?_
    obtain ⟨m, coef2, q1, rfl⟩ := hs
    refine ⟨ms1 ++ [m], coef2, by simp [k1], ?_, fun hb' => absurd hb hb', by rw [List.append_assoc]⟩
    intro x hx
    rw [List.mem_append, List.mem_singleton] at hx
    rcases hx with hx | rfl
    · exact k2 x hx
    · exact q1
  · obtain ⟨bits, pad, qs, hmb, hbits⟩ := hi hb
    have hzero : List.replicate MAX_COMPONENTS (0 : Int) =
        List.replicate codes.length 0 ++ List.replicate (MAX_COMPONENTS - codes.length) 0 := by
      rw [List.replicate_append_replicate]; congr 1; have := h.ctx.comps; omega
    have hms' := hmb.extend (List.replicate (MAX_COMPONENTS - codes.length) 0)
    obtain ⟨body, lm, hbody⟩ : ∃ body lm, ms = body ++ [lm] := by
      rcases List.eq_nil_or_concat ms with h | ⟨b, l, h⟩
      · subst h; simp at hms
      · exact ⟨b, l, by simpa using h⟩
    have hbl : body.length = n := by rw [hbody] at hms; simpa using hms
    rw [← hzero, hbody] at hms'
    obtain ⟨x, y, mid, h1, h2, rfl⟩ := hms'.append_inv
    have hfb : ∀ m ∈ body, McuFits frame m := fun m hm => hfit m (by rw [hbody]; simp [hm])
    have hfl : McuFits frame lm := hfit lm (by rw [hbody]; simp)
    have hrep : Rep False ⟨stuff data ++ t, 0, 0⟩ (x ++ (y ++ pad)) t :=
      rep_new ht (by rw [hbits, List.append_assoc])
    obtain ⟨coef1, left1, bi1, e1, hr1, hl1⟩ := mcuLoop_stretch (produce := true) (cfg := cfg) h.ctx
      h1 L.length coef (L.length / (n + 1) % 8) (n + 1) (partPlanes d frame L) (partPlanes d frame (L ++ body)) _
      (y ++ pad) hfb hrep (by rw [hsz]; omega) (by rw [hsz, hbl]; exact hnd) (fun _ => by rw [hL]; rfl)
      (fun _ => rfl) (h.dequantAll L body hfb (by omega))
    rw [hsz, hbl] at hl1
    obtain ⟨hl1a, hl1b⟩ := hl1 (by omega) h0
    cases h2 with
    | @cons _ _ _ x2 y2 qs2 _ hm hnil =>
    cases hnil
    rw [List.append_nil] at hr1
    obtain ⟨coef2, e2⟩ := mcuStep_due (produce := true) (cfg := cfg) h.ctx (coef := coef1) (k := L.length + n) hm
      hfl hr1 (by rw [hsz]; omega) (by rw [hsz]; exact hdue) (fun _ => hl1a)
      (fun _ => hl1b) (rest := rest) (by rw [hdiv]; exact hmark)
      (by have := h.dequantStep (cfg := cfg) (L ++ body) hfl (by simp; omega)
          rw [List.length_append, hbl] at this
          exact this)
    rw [hbl] at e1
    rw [e1, Out.bind_ok, show coords frame (L.length + n) 1 = [mcuCoord frame.mcuSize (L.length + n)] from rfl,
      mcuLoop]
    rw [hdiv] at e2
    rw [show mcuStep cfg true (mcuCoord frame.mcuSize (L.length + n)).1
        (mcuCoord frame.mcuSize (L.length + n)).2 _ = _ from e2, Out.bind_ok]
    exact ⟨ms, coef2, hms, hfit, fun _ => rfl, by rw [hbody, List.append_assoc]⟩

/-- The last interval. -/
theorem mcuLoop_interval_last (h : DamageCtx d scan frame codes r W H) {bad : Prop} {ms : List Mcu}
    {data t : List UInt8} (ht : StartsWithMarker t) (hi : ¬ bad → IntervalData codes ms data)
    (hfit : ∀ m ∈ ms, McuFits frame m) (hms : 0 < r → ms.length ≤ r) (L : List Mcu)
    (hL : 0 < r → L.length % r = 0) (hk : L.length + ms.length = W * H) (coef : List (List Int)) (exp left : Nat)
    (hl : 0 < r → left = r) (he : 0 < r → exp = L.length / r % 8) :
    Soft (mcuLoop cfg true (coords frame L.length ms.length)
      (mkSt d coef (List.replicate MAX_COMPONENTS 0) exp left (partPlanes d frame L)
        ⟨stuff data ++ t, 0, 0⟩)) fun s =>
      ∃ ms' coef' preds eob exp left bi, ms'.length = ms.length ∧ (∀ m ∈ ms', McuFits frame m) ∧ (¬ bad → ms' = ms) ∧
        At t bi ∧ s = mkStE d coef' preds eob exp left (partPlanes d frame (L ++ ms')) bi := by
  have hnd : ∀ j, L.length ≤ j → j < L.length + ms.length → ¬ RstDue r (W * H) j := by
    rintro j h1 h2 ⟨h0, h3, h4⟩
    have := hms h0
    have hd := Nat.div_add_mod L.length r
    rw [hL h0] at hd
    have : (j + 1) % r = j + 1 - L.length := by
      conv_lhs => rw [show j + 1 = r * (L.length / r) + (j + 1 - L.length) by omega]
      rw [Nat.mul_add_mod, Nat.mod_eq_of_lt (by omega)]
    omega
  have hsz : frame.mcuSize.width * frame.mcuSize.height = W * H := by rw [h.size]
  by_cases hb : bad
  · refine (mcuLoop_junk (t := t) h ms.length (coef := coef) (preds := List.replicate MAX_COMPONENTS 0) (eob := 0)
      (exp := exp) (left := left)
      (bi := ⟨stuff data ++ t, 0, 0⟩) L junkSt_zero (at_new ht) (by omega) hnd
      (fun _ h0 => ⟨by rw [hL h0]; exact hl h0, he h0⟩)).imp fun s hs => ?_
    obtain ⟨ms1, coef1, preds1, eob1, left1, bi1, k1, k2, k3, k4, k5, -⟩ := hs
    exact ⟨ms1, coef1, preds1, eob1, exp, left1, bi1, k1, k2, fun hb' => absurd hb hb', k4, k5⟩
  · obtain ⟨bits, pad, qs, hmb, hbits⟩ := hi hb
    have hzero : List.replicate MAX_COMPONENTS (0 : Int) =
        List.replicate codes.length 0 ++ List.replicate (MAX_COMPONENTS - codes.length) 0 := by
      rw [List.replicate_append_replicate]; congr 1; have := h.ctx.comps; omega
    have hms' := hmb.extend (List.replicate (MAX_COMPONENTS - codes.length) 0)
    rw [← hzero] at hms'
    have hrep : Rep False ⟨stuff data ++ t, 0, 0⟩ (bits ++ pad) t := rep_new ht hbits
    obtain ⟨coef1, left1, bi1, e1, hr1, -⟩ := mcuLoop_stretch (produce := true) (cfg := cfg) h.ctx
      hms' L.length coef exp left (partPlanes d frame L) (partPlanes d frame (L ++ ms)) _
      pad hfit hrep (by rw [hsz]; omega) (by rw [hsz]; exact hnd) (fun h0 => by rw [hL h0]; exact hl h0)
      he (h.dequantAll L ms hfit (by omega))
    rw [e1]
    exact ⟨ms, coef1, _, 0, exp, left1, bi1, rfl, hfit, fun _ => rfl, ⟨hr1.wf, hr1.tail⟩, rfl⟩

/-- The MCU loop over a damaged scan. -/
theorem mcuLoop_damaged (h : DamageCtx d scan frame codes r W H) {tail : List UInt8}
    (htail : StartsWithMarker tail) {bad : Nat → Prop} {j : Nat} {intervals : List (List Mcu)} {bytes : List UInt8}
    (hsb : DamagedScan codes tail bad j intervals bytes) :
    ∀ (L : List Mcu) (coef : List (List Int)) (exp left : Nat),
    (∀ m ∈ intervals.flatten, McuFits frame m) →
    L.length + intervals.flatten.length = W * H →
    (0 < r → L.length = j * r) → (0 < r → left = r) → (0 < r → exp = j % 8) →
    (r = 0 → intervals.length = 1) →
    (0 < r → ∃ init last, intervals = init ++ [last] ∧ (∀ i ∈ init, i.length = r) ∧
      last.length ≤ r ∧ (init ≠ [] → 1 ≤ last.length)) →
    Soft (mcuLoop cfg true (coords frame L.length intervals.flatten.length)
        (mkSt d coef (List.replicate MAX_COMPONENTS 0) exp left (partPlanes d frame L) ⟨bytes, 0, 0⟩)) fun s =>
      ∃ (Z : List (List Mcu)) (coef' : List (List Int)) (preds : List Int) (eob exp left : Nat) (bi : Biterator), Z.map List.length = intervals.map List.length ∧
        (∀ m ∈ Z.flatten, McuFits frame m) ∧ (∀ i, ¬ bad (j + i) → Z[i]? = intervals[i]?) ∧
        At tail bi ∧ s = mkStE d coef' preds eob exp left (partPlanes d frame (L ++ Z.flatten)) bi := by
  induction hsb with
  | @last j ms data hi =>
    intro L coef exp left hfit htot hL hleft hexp _ hshape
    simp only [List.flatten_cons, List.flatten_nil, List.append_nil] at hfit htot ⊢
    have hlen : 0 < r → ms.length ≤ r := by
      intro h0
      obtain ⟨init, last, he, _, hl, _⟩ := hshape h0
      have hi : init = [] := by
        have := congrArg List.length he
        simp at this
        exact this
      subst hi
      simp at he
      rw [he]; exact hl
    refine (mcuLoop_interval_last (cfg := cfg) h htail hi hfit hlen L (fun h0 => by rw [hL h0, Nat.mul_mod_left]) htot
      coef exp left hleft (fun h0 => by rw [hexp h0, hL h0, Nat.mul_div_cancel _ h0])).imp fun s hs => ?_
    obtain ⟨ms', coef', preds, eob, exp, left, bi, k1, k2, k3, k4, k5⟩ := hs
    refine ⟨[ms'], coef', preds, eob, exp, left, bi, by simp [k1], by simpa using k2, ?_, k4, by simpa using k5⟩
    intro i hb
    cases i with
    | zero => simp [k3 hb]
    | succ i => rfl
  | @cons j ms rest data bytes kf hi hsb ih =>
    intro L coef exp left hfit htot hL hleft hexp hone hshape
    have hrne : rest ≠ [] := by cases hsb <;> simp
    have h0 : 0 < r := by
      rcases Nat.eq_zero_or_pos r with h | h
      · have := hone h
        rw [List.length_cons] at this
        exact absurd (List.length_eq_zero_iff.1 (by omega)) hrne
      · exact h
    obtain ⟨init, last, he, hinit, hlast, hlast1⟩ := hshape h0
    obtain ⟨init', hinit', hrest⟩ : ∃ init', init = ms :: init' ∧ rest = init' ++ [last] := by
      cases init with
      | nil => simp at he; exact absurd he.2 hrne
      | cons i init' =>
        simp at he
        exact ⟨init', by rw [he.1], he.2⟩
    subst hinit'
    have hmsr : ms.length = r := hinit ms (by simp)
    have hlast1 := hlast1 (by simp)
    have hrestpos : 1 ≤ rest.flatten.length := by
      rw [hrest, List.flatten_append, List.length_append]; simp; omega
    rw [List.flatten_cons, List.length_append] at htot
    have hL := hL h0
    have hj : L.length / r = j := by rw [hL, Nat.mul_div_cancel _ h0]
    have hn8 : j % 8 < 8 := Nat.mod_lt _ (by omega)
    have hint := mcuLoop_interval (cfg := cfg) h (bad := bad j) (ms := ms) (data := data)
      (starts_rst hn8 kf bytes) hi
      (fun m hm => hfit m (by rw [List.flatten_cons]; simp only [List.mem_append]; exact Or.inl hm)) h0 hmsr L
      (by rw [hL, Nat.mul_mod_left]) (by omega) (rest := bytes) (by rw [hj]; exact marker_rst hn8 kf bytes) coef
    rw [List.flatten_cons, List.length_append, hmsr, coords_append, mcuLoop_append, hleft h0, hexp h0]
    rw [hj] at hint
    refine hint.bind fun _ s hs => ?_
    obtain ⟨ms', coef', k1, k2, k3, rfl⟩ := hs
    have hl : (L ++ ms').length = L.length + r := by simp [k1]
    have := ih (L ++ ms') coef' ((j % 8 + 1) % 8) r
      (fun m hm => hfit m (by rw [List.flatten_cons]; simp only [List.mem_append]; exact Or.inr hm))
      (by rw [hl]; omega) (fun _ => by rw [hl, hL, Nat.succ_mul]) (fun _ => rfl) (fun _ => by omega)
      (fun h => absurd h (by omega))
      (fun _ => ⟨init', last, hrest, fun i hi => hinit i (by simp [hi]), hlast, fun _ => hlast1⟩)
    rw [hl] at this
    refine this.imp fun s hs => ?_
    obtain ⟨Z, coef2, preds, eob, exp, left, bi, q1, q2, q3, q4, q5⟩ := hs
    refine ⟨ms' :: Z, coef2, preds, eob, exp, left, bi, by simp [q1, k1, hmsr], ?_, ?_, q4, ?_⟩
    · intro m hm
      rw [List.flatten_cons, List.mem_append] at hm
      exact hm.elim (k2 m) (q2 m)
    · intro i hb
      cases i with
      | zero => simp [k3 hb]
      | succ i =>
        rw [List.getElem?_cons_succ, List.getElem?_cons_succ]
        exact q3 i (by rwa [show j + 1 + i = j + (i + 1) by omega])
    · rw [q5, List.flatten_cons, List.append_assoc]

/-! ## The scan -/

/-- A damaged scan of all components. -/
theorem decodeScan_damaged (h : DamageCtx d scan frame codes r W H)
    (hready : ScanReady cfg d scan frame codes r)
    (hhs : scan.headers.map (·.componentIndex) = List.range frame.components.length)
    {tail : List UInt8} (htail : StartsWithMarker tail) {bad : Nat → Prop} {intervals : List (List Mcu)}
    {bytes : List UInt8} (hbytes : DamagedScan codes tail bad 0 intervals bytes)
    (hok : IntervalsOk r intervals)
    (hfit : ∀ m ∈ intervals.flatten, McuFits frame m)
    (htotal : intervals.flatten.length = W * H) :
    Soft (decodeScan cfg true ⟨d, ⟨bytes, 0, 0⟩⟩) fun s =>
      ∃ (Z : List (List Mcu)) (ss : ScanState) (bi : Biterator),
        s = ⟨{ d with
          scanState := ss
          planes := scanPlanes W d.quantTables frame.components Z.flatten }, bi⟩ ∧
        Z.map List.length = intervals.map List.length ∧ (∀ m ∈ Z.flatten, McuFits frame m) ∧
        (∀ i, ¬ bad i → Z[i]? = intervals[i]?) ∧ At tail bi := by
  have hi := hready.init true h.four ⟨bytes, 0, 0⟩
  rw [if_pos rfl] at hi
  unfold decodeScan
  rw [hi, Out.bind_ok]
  simp only [mkSt, h.ctx.frame_eq, h.ctx.scan_eq]
  have hloop := mcuLoop_damaged (cfg := cfg) h htail hbytes [] ScanState.default.mcuRowCoefficients 0 r hfit
    (by simpa using htotal) (fun _ => by simp) (fun _ => rfl) (fun _ => rfl)
    (fun h => by unfold IntervalsOk at hok; rw [if_pos h] at hok; exact hok)
    (fun h => by
      unfold IntervalsOk at hok
      rw [if_neg (by omega)] at hok
      rcases hok with h | ⟨init, last, h1, h2, h3, h4⟩
      · exact ⟨[], [], h, by simp, Nat.zero_le _, by simp⟩
      · exact ⟨init, last, h1, h2, h4, fun _ => h3⟩)
  have hp0 : partPlanes d frame [] = frame.components.map allocPlane := by
    unfold partPlanes
    rw [List.map_nil, lsOf_nil, planesOf_init]
  rw [hp0] at hloop
  have hco : coords frame ([] : List Mcu).length intervals.flatten.length = mcuList frame.mcuSize := by
    rw [mcuList_eq, h.size, htotal, List.range_eq_range']
    unfold coords
    rw [h.size]
    rfl
  rw [hco] at hloop
  simp only [mkSt, h.ctx.frame_eq, h.ctx.scan_eq] at hloop
  refine hloop.bind fun _ s hs => ?_
  obtain ⟨Z, coef, preds, eob, exp, left, bi, k1, k2, k3, k4, rfl⟩ := hs
  have hl : scan.headers.length = frame.components.length := h.headers
  have hZl : Z.flatten.length = W * H := by
    rw [List.length_flatten, k1, ← List.length_flatten, htotal]
  have hpl : partPlanes d frame ([] ++ Z.flatten) =
      (scanPlanes W d.quantTables frame.components Z.flatten).map (·.map some) := by
    unfold partPlanes
    rw [List.nil_append, h.size, planesOf_scan h.geom hZl]
  rw [hpl]
  simp only [mkStE]
  rw [takeResults_range scan.headers 0 _ (scanPlanes W d.quantTables frame.components Z.flatten)
    (by rw [hhs, hl, List.range_eq_range']) (by simp [scanPlanes, hl]) (by
      intro i p hp
      rw [Nat.zero_add, List.getElem?_map, hp]
      rfl)]
  exact ⟨Z, _, bi, by rw [h.ctx.frame_eq, h.ctx.scan_eq], k1, k2, by simpa using k3, k4⟩

/-- MCU number `n` is number `n % r` of interval `n / r`. -/
theorem flatten_get (r : Nat) (A : List (List Mcu)) (h0 : 0 < r)
    (h1 : ∀ i, i + 1 < A.length → (A[i]?.map List.length) = some r) (h2 : ∀ a ∈ A, a.length ≤ r) (n : Nat) :
    A.flatten[n]? = (A[n / r]?).bind fun a => a[n % r]? := by
  revert h1 h2 n
  induction A with
  | nil => intro _ _ n; rfl
  | cons a A ih =>
    intro h1 h2 n
    rw [List.flatten_cons]
    have ha := h2 a (by simp)
    cases A with
    | nil =>
      rw [List.flatten_nil, List.append_nil]
      rcases Nat.lt_or_ge n r with hn | hn
      · rw [Nat.div_eq_of_lt hn, Nat.mod_eq_of_lt hn]; rfl
      · have : 1 ≤ n / r := (Nat.one_le_div_iff h0).2 hn
        rw [List.getElem?_eq_none (by omega), List.getElem?_eq_none (by simpa using this)]
        rfl
    | cons b A =>
      have hal : a.length = r := by simpa using h1 0 (by simp)
      rcases Nat.lt_or_ge n r with hn | hn
      · rw [List.getElem?_append_left (by omega), Nat.div_eq_of_lt hn, Nat.mod_eq_of_lt hn]; rfl
      · rw [List.getElem?_append_right (by omega), hal, ih (fun i hi => by
            have := h1 (i + 1) (by simpa using hi)
            simpa using this) (fun x hx => h2 x (by simp only [List.mem_cons] at hx ⊢; tauto)) (n - r)]
        have e : n = n - r + r := by omega
        have e1 : n / r = (n - r) / r + 1 := by
          conv_lhs => rw [e]
          exact Nat.add_div_right _ h0
        have e2 : n % r = (n - r) % r := by
          conv_lhs => rw [e]
          exact Nat.add_mod_right _ _
        rw [e1, e2, List.getElem?_cons_succ]

/-- The MCUs of damaged intervals as far as they are the same. -/
theorem flatten_part {good : Nat → Nat} {intervals Z : List (List Mcu)} (hok : IntervalsOk r intervals)
    (hl : Z.map List.length = intervals.map List.length) {n : Nat}
    (h : Z[n / r]?.map (List.take (good (n / r))) = intervals[n / r]?.map (List.take (good (n / r))))
    (hn : n % r < good (n / r)) : Z.flatten[n]? = intervals.flatten[n]? := by
  have hget : ∀ i : Nat, (Z[i]?.map List.length) = intervals[i]?.map List.length := by
    intro i
    rw [← List.getElem?_map, ← List.getElem?_map, hl]
  unfold IntervalsOk at hok
  by_cases h0 : r = 0
  · rw [if_pos h0] at hok
    subst h0
    obtain ⟨a, rfl⟩ := List.length_eq_one_iff.1 hok
    obtain ⟨b, rfl⟩ := List.length_eq_one_iff.1 (show Z.length = 1 by simpa using congrArg List.length hl)
    rw [Nat.div_zero, Nat.mod_zero] at *
    simp only [List.getElem?_cons_zero, Option.map_some, Option.some.injEq] at h
    have := congrArg (·[n]?) h
    simpa [List.getElem?_take, hn] using this
  · rw [if_neg h0] at hok
    have hsh : (∀ i, i + 1 < intervals.length → (intervals[i]?.map List.length) = some r) ∧
        ∀ a ∈ intervals, a.length ≤ r := by
      rcases hok with rfl | ⟨init, last, rfl, h1, -, h2⟩
      · exact ⟨by simp, by simp⟩
      · constructor
        · intro i hi
          have hi : i < init.length := by simpa using hi
          rw [List.getElem?_append_left hi, List.getElem?_eq_getElem hi, Option.map_some,
            h1 _ (List.getElem_mem hi)]
        · intro a ha
          rw [List.mem_append, List.mem_singleton] at ha
          rcases ha with ha | rfl
          · rw [h1 a ha]
          · exact h2
    have hlen : Z.length = intervals.length := by simpa using congrArg List.length hl
    rw [flatten_get r intervals (by omega) hsh.1 hsh.2, flatten_get r Z (by omega) (fun i hi => by
      rw [hget]; exact hsh.1 i (by omega)) (by
        intro a ha
        obtain ⟨i, hi⟩ := List.mem_iff_getElem?.1 ha
        have e := hget i
        rw [hi, Option.map_some] at e
        obtain ⟨b, hb, hb'⟩ := Option.map_eq_some_iff.1 e.symm
        rw [← hb']
        exact hsh.2 b (List.mem_of_getElem? hb))]
    have key : ∀ a : Option (List Mcu), (a.bind fun a => a[n % r]?) =
        (a.map (List.take (good (n / r)))).bind fun a => a[n % r]? := by
      intro a
      cases a with
      | none => rfl
      | some a => simp [List.getElem?_take, hn]
    rw [key, key intervals[n / r]?, h]

/-- The MCUs of undamaged intervals are the same. -/
theorem flatten_same {intervals Z : List (List Mcu)} (hok : IntervalsOk r intervals)
    (hl : Z.map List.length = intervals.map List.length) {n : Nat} (h : Z[n / r]? = intervals[n / r]?) :
    Z.flatten[n]? = intervals.flatten[n]? :=
  flatten_part (good := fun _ => n % r + 1) hok hl (by rw [h]) (Nat.lt_succ_self _)

/-! ## The file -/

section

variable {f : BaselineFile} {V : Nat}

/-- The run over a file with damaged intervals. -/
theorem loopAll_damaged {d : Decoder} (hd : DecInv d) (hh : TablesHeld cfg f.earlier d)
    (hv : f.Laid (f.interval d.restartInterval) H V codes) {bad : Nat → Prop} {x : List UInt8} {k : Nat}
    (hx : DamagedScan codes (List.replicate k 0xFF ++ markerBytes .EOI) bad 0 f.intervals x) :
    Soft (loopAll cfg ⟨d, Biterator.new ({ f with data := x } : BaselineFile).bytes⟩) fun s =>
      s.bi.input = [] ∧ TablesHeld cfg f.tables s.dec ∧ s.dec.frame = some (fileFrame f H V) ∧
      s.dec.transform = f.transform d.transform ∧
      ∃ Z : List (List Mcu), Z.map List.length = f.intervals.map List.length ∧
        (∀ m ∈ Z.flatten, m.map List.length = f.comps.map fun c => c.h * c.v) ∧
        (∀ i, ¬ bad i → Z[i]? = f.intervals[i]?) ∧
        s.dec.planes = scanPlanes (ceilDiv f.x (8 * H)) s.dec.quantTables (fileFrame f H V).components Z.flatten := by
  obtain ⟨d3, i3, hh3, hf3, hr3, ht3, e3⟩ := loopAll_toScan (cfg := cfg) hd hh hv x
  rw [e3]
  obtain ⟨D, fin, hD, hready, hs⟩ := sos_start hv i3 hf3 hh3 hr3 x
  rw [hs]
  have hc4 : (fileFrame f H V).components.length ≤ 4 := by
    simp only [fileFrame, List.length_map]; exact hv.count.2
  have hctx : DamageCtx D ⟨fileHeaders f, 0, 63, 0, 0⟩ (fileFrame f H V) codes (f.interval d.restartInterval)
      (ceilDiv f.x (8 * H)) (ceilDiv f.y (8 * V)) :=
    ⟨hready.ctx, by simp [fileHeaders, fileFrame], hc4, rfl, fileFrame_planes hv, fileFrame_bpm hv,
      by rw [hD]; exact fun c hc => fileFrame_quant hv hh3 c hc, by rw [fileFrame_blocks]; exact hv.ten⟩
  refine (decodeScan_damaged hctx hready (by rw [fileHeaders_index]; simp [fileFrame]) (starts_eoi k) hx hv.restarts
    (fun m hm => hctx.fits.2 (by rw [hv.blocks m hm, fileFrame_blocks])) hv.mcus).bind fun _ s hs => ?_
  obtain ⟨Z, ss, bi, rfl, z1, z0, z2, z3⟩ := hs
  rw [loopAll_eoi (rest := []) (by
    simp only
    rw [marker_scanTail z3.2]
    simpa using marker_bytes (m := .EOI) trivial k [])]
  subst hD
  exact ⟨rfl, hh3.same rfl rfl rfl, hf3, ht3, Z, z1,
    fun m hm => by rw [hctx.fits.1 (z0 m hm), fileFrame_blocks], z2, rfl⟩

end

end Jpeg
