import Verif.Proofs.Scan
import Verif.Spec.Scan
/-!
# A well-formed scan is decoded MCU by MCU
-/

namespace Jpeg
open Spec Biterator

/-! ## Blocks -/

theorem zigzagIndex {k : Nat} (hk : k < 64) :
    ((List.range 64).map zigzag).idxOf (zigzag k) = k := by
  have : ∀ k : Fin 64, ((List.range 64).map zigzag).idxOf (zigzag k) = k := by decide +kernel
  exact this ⟨k, hk⟩

theorem BlockIs.eq {b : BlockData} {block : List Int} (hz : b.zz.length = 63)
    (h : BlockIs b.dc b.zz block) : block = b.block := by
  obtain ⟨h1, h2, h3⟩ := h
  apply List.ext_getElem?
  intro p
  by_cases hp : p < 64
  · obtain ⟨k, hk, rfl⟩ := zigzag_surj p hp
    unfold BlockData.block
    rw [List.getElem?_map, List.getElem?_range hp, Option.map_some, zigzagIndex hk]
    cases k with
    | zero => simpa using h2
    | succ k =>
      rw [h3 k (by omega), List.getD_cons_succ, List.getD_eq_getElem?_getD,
        List.getElem?_eq_getElem (by omega), Option.getD_some]
  · rw [List.getElem?_eq_none (by omega), List.getElem?_eq_none (by unfold BlockData.block; simp; omega)]

theorem Spec.BlocksBits.zz {cd ca : Code} {p q : Int} {bs : List BlockData} {x : List Bool}
    (h : BlocksBits cd ca p bs x q) : ∀ b ∈ bs, b.zz.length = 63 := by
  induction h with
  | nil => simp
  | cons hb _ _ ih =>
    intro b hm
    rw [List.mem_cons] at hm
    rcases hm with rfl | hm
    · exact hb.1
    · exact ih b hm

theorem Spec.McuBits.zz {codes : List (Code × Code)} {ps qs : List Int} {m : Mcu} {x : List Bool}
    (h : McuBits codes ps m x qs) : ∀ b ∈ m.flatten, b.zz.length = 63 := by
  induction h with
  | nil => simp
  | cons hb _ ih =>
    intro b hm
    rw [List.flatten_cons, List.mem_append] at hm
    exact hm.elim (hb.zz b) (ih b)

theorem blocks_eq {bs : List BlockData} {blocks : List (List Int)}
    (h : List.Forall₂ BlockData.Is bs blocks) (hz : ∀ b ∈ bs, b.zz.length = 63) :
    blocks = bs.map BlockData.block := by
  induction h with
  | nil => rfl
  | cons hb _ ih =>
    rw [List.map_cons, ← ih fun b hm => hz b (by simp [hm]), ← BlockIs.eq (hz _ (by simp)) hb]

/-! ## Predictors of absent components -/

theorem Spec.McuBits.extend {codes : List (Code × Code)} {ps qs : List Int} {m : Mcu}
    {x : List Bool} (h : McuBits codes ps m x qs) (e : List Int) :
    McuBits codes (ps ++ e) m x (qs ++ e) := by
  induction h with
  | nil => exact .nil
  | cons hb _ ih => exact .cons hb ih

theorem Spec.McusBits.extend {codes : List (Code × Code)} {ps qs : List Int} {ms : List Mcu}
    {x : List Bool} (h : McusBits codes ps ms x qs) (e : List Int) :
    McusBits codes (ps ++ e) ms x (qs ++ e) := by
  induction h with
  | nil => exact .nil
  | cons hb _ ih => exact .cons (hb.extend e) ih

theorem Spec.McusBits.append_inv {codes : List (Code × Code)} (a : List Mcu) :
    ∀ {ps qs : List Int} {b : List Mcu} {x : List Bool}, McusBits codes ps (a ++ b) x qs →
    ∃ y z mid, McusBits codes ps a y mid ∧ McusBits codes mid b z qs ∧ x = y ++ z := by
  induction a with
  | nil => intro ps qs b x h; exact ⟨[], x, ps, .nil, h, rfl⟩
  | cons m a ih =>
    intro ps qs b x h
    cases h with
    | cons hm hms =>
      obtain ⟨y, z, mid, h1, h2, rfl⟩ := ih hms
      exact ⟨_, z, mid, .cons hm h1, h2, by rw [List.append_assoc]⟩

theorem Spec.McusBits.zz {codes : List (Code × Code)} {ps qs : List Int} {ms : List Mcu}
    {x : List Bool} (h : McusBits codes ps ms x qs) :
    ∀ m ∈ ms, ∀ b ∈ m.flatten, b.zz.length = 63 := by
  induction h with
  | nil => simp
  | cons hb _ ih =>
    intro m hm
    rw [List.mem_cons] at hm
    rcases hm with rfl | hm
    · exact hb.zz
    · exact ih m hm

/-! ## The MCU loop -/

/-- What stays fixed during a scan. -/
structure ScanCtx (d : Decoder) (scan : Scan) (frame : Frame) (codes : List (Code × Code)) (r : Nat) :
    Prop where
  scan_eq : d.scan = some scan
  frame_eq : d.frame = some frame
  ss : scan.ss = 0
  se : scan.se = 63
  al : scan.al = 0
  tables : List.Forall₂ (TablesFor d) scan.headers codes
  process : frame.codingProcess = .ok .baseline ∨ frame.codingProcess = .ok .sequential ∨
    frame.codingProcess = .ok .lossLess
  interval : d.restartInterval = r
  range : r < 2 ^ 16
  comps : codes.length ≤ MAX_COMPONENTS

/-- The MCU has the shape the frame prescribes. -/
def McuFits (frame : Frame) (m : Mcu) : Prop :=
  frame.components.map (·.blocksPerMcu) = m.map List.length ∧
    m.flatten.length ≤ MAX_BLOCKS_IN_MCU

/-- A state during a scan. -/
def mkSt (d : Decoder) (coef : List (List Int)) (preds : List Int) (exp left : Nat)
    (results : List (List (Option UInt8))) (bi : Biterator) : St :=
  ⟨{ d with scanState := ⟨coef, preds, 0, exp, left, results⟩ }, bi⟩

/-- What the `k`-th MCU does to the planes. -/
def dequantStep (cfg : Cfg) (produce : Bool) (d : Decoder) (frame : Frame) (k : Nat) (m : Mcu)
    (results : List (List (Option UInt8))) : Except Fail (List (List (Option UInt8))) :=
  if produce then
    dequantComponents cfg d.quantTables (k % frame.mcuSize.width) (k / frame.mcuSize.width)
      frame.components results (padBlocks (m.flatten.map BlockData.block))
  else .ok results

/-- What the MCUs from the `k`-th on do to the planes. -/
def dequantAll (cfg : Cfg) (produce : Bool) (d : Decoder) (frame : Frame) :
    Nat → List Mcu → List (List (Option UInt8)) → Except Fail (List (List (Option UInt8)))
  | _, [], results => .ok results
  | k, m :: ms, results =>
    match dequantStep cfg produce d frame k m results with
    | .error f => .error f
    | .ok results => dequantAll cfg produce d frame (k + 1) ms results

theorem dequantAll_append {cfg : Cfg} {produce : Bool} {d : Decoder} {frame : Frame} (a b : List Mcu) :
    ∀ (k : Nat) (R R' : List (List (Option UInt8))),
    dequantAll cfg produce d frame k (a ++ b) R = .ok R' →
    ∃ R1, dequantAll cfg produce d frame k a R = .ok R1 ∧
      dequantAll cfg produce d frame (k + a.length) b R1 = .ok R' := by
  induction a with
  | nil => intro k R R' h; exact ⟨R, rfl, h⟩
  | cons m a ih =>
    intro k R R' h
    rw [List.cons_append, dequantAll] at h
    cases e : dequantStep cfg produce d frame k m R with
    | error f => rw [e] at h; simp at h
    | ok R2 =>
      rw [e] at h
      obtain ⟨R1, h1, h2⟩ := ih (k + 1) R2 R' h
      refine ⟨R1, by rw [dequantAll, e]; exact h1, ?_⟩
      rw [List.length_cons, show k + (a.length + 1) = k + 1 + a.length by omega]
      exact h2

variable {cfg : Cfg} {produce : Bool} {d : Decoder} {scan : Scan} {frame : Frame}
  {codes : List (Code × Code)} {r : Nat}

theorem decodeRow_mk (ctx : ScanCtx d scan frame codes r) {coef : List (List Int)} {ps qs : List Int}
    {exp left : Nat} {R : List (List (Option UInt8))} {bi : Biterator} {m : Mcu} {x w : List Bool}
    {t : List UInt8} (hm : McuBits codes ps m x qs) (hfit : McuFits frame m)
    (hr : Rep A bi (x ++ w) t) :
    ∃ bi', decodeRow (mkSt d coef ps exp left R bi) =
      .ok () (mkSt d (padBlocks (m.flatten.map BlockData.block)) qs exp left R bi') ∧
      Rep A bi' w t := by
  obtain ⟨bi', blocks, e, hr', hall⟩ := decodeRow_inv (s := mkSt d coef ps exp left R bi)
    (scan := scan) (frame := frame) ctx.scan_eq ctx.frame_eq ctx.ss ctx.se ctx.al hm ctx.tables
    hfit.1 hr rfl hfit.2
  refine ⟨bi', ?_, hr'⟩
  rw [e, blocks_eq hall hm.zz]
  rfl

theorem dequant_mk (ctx : ScanCtx d scan frame codes r) {preds : List Int} {exp left k : Nat}
    {R R' : List (List (Option UInt8))} {bi : Biterator} {m : Mcu}
    (hq : dequantStep cfg produce d frame k m R = .ok R') :
    (if produce then
      match dequantize cfg (k % frame.mcuSize.width) (k / frame.mcuSize.width)
        (mkSt d (padBlocks (m.flatten.map BlockData.block)) preds exp left R bi).dec with
      | .ok () d' => .ok () { mkSt d (padBlocks (m.flatten.map BlockData.block)) preds exp left R bi
          with dec := d' }
      | .fail f d' => .fail f { mkSt d (padBlocks (m.flatten.map BlockData.block)) preds exp left R
          bi with dec := d' }
    else .ok () (mkSt d (padBlocks (m.flatten.map BlockData.block)) preds exp left R bi) : Out St Unit)
      = .ok () (mkSt d (padBlocks (m.flatten.map BlockData.block)) preds exp left R' bi) := by
  unfold dequantStep at hq
  cases produce with
  | false => simp only [Bool.false_eq_true, if_false, Except.ok.injEq] at hq ⊢; rw [hq]
  | true =>
    simp only [if_true] at hq ⊢
    have hd : dequantize cfg (k % frame.mcuSize.width) (k / frame.mcuSize.width)
        (mkSt d (padBlocks (m.flatten.map BlockData.block)) preds exp left R bi).dec =
        .ok () (mkSt d (padBlocks (m.flatten.map BlockData.block)) preds exp left R' bi).dec := by
      unfold dequantize
      simp only [mkSt, ctx.frame_eq]
      rcases ctx.process with hp | hp | hp <;> rw [hp] <;> simp only [hq]
    rw [hd]
    rfl

theorem mcuStep_nodue (ctx : ScanCtx d scan frame codes r) {coef : List (List Int)}
    {ps qs : List Int} {exp left k : Nat} {R R' : List (List (Option UInt8))} {bi : Biterator}
    {m : Mcu} {x w : List Bool} {t : List UInt8} (hm : McuBits codes ps m x qs)
    (hfit : McuFits frame m) (hr : Rep A bi (x ++ w) t)
    (hk : k < frame.mcuSize.width * frame.mcuSize.height)
    (hnd : ¬ RstDue r (frame.mcuSize.width * frame.mcuSize.height) k)
    (hleft : 0 < r → left = r - k % r) (hexp : 0 < r → exp = k / r % 8)
    (hq : dequantStep cfg produce d frame k m R = .ok R') :
    ∃ bi' coef' left', mcuStep cfg produce (k / frame.mcuSize.width) (k % frame.mcuSize.width)
        (mkSt d coef ps exp left R bi) = .ok () (mkSt d coef' qs exp left' R' bi') ∧ Rep A bi' w t ∧
      (k + 1 < frame.mcuSize.width * frame.mcuSize.height → 0 < r → left' = r - (k + 1) % r) := by
  obtain ⟨bi', e, hr'⟩ := decodeRow_mk ctx (coef := coef) (exp := exp) (left := left) (R := R) hm
    hfit hr
  obtain ⟨left', e2, hl⟩ := (restartParser_at (cfg := cfg) ctx.range
    (s := mkSt d (padBlocks (m.flatten.map BlockData.block)) qs exp left R bi')
    ⟨ctx.interval, ctx.frame_eq, hleft, hexp⟩ hk).2 hnd
  refine ⟨bi', padBlocks (m.flatten.map BlockData.block), left', ?_, hr', hl⟩
  unfold mcuStep
  rw [e, Out.bind_ok, e2, Out.bind_ok]
  exact dequant_mk ctx (left := left') hq

theorem mcuStep_due (ctx : ScanCtx d scan frame codes r) {coef : List (List Int)}
    {ps qs : List Int} {exp left k : Nat} {R R' : List (List (Option UInt8))} {bi : Biterator}
    {m : Mcu} {x w : List Bool} {t rest : List UInt8} (hm : McuBits codes ps m x qs)
    (hfit : McuFits frame m) (hr : Rep A bi (x ++ w) t)
    (hk : k < frame.mcuSize.width * frame.mcuSize.height)
    (hdue : RstDue r (frame.mcuSize.width * frame.mcuSize.height) k)
    (hleft : 0 < r → left = r - k % r) (hexp : 0 < r → exp = k / r % 8)
    (hmark : marker t = .ok (.RST (k / r % 8), rest))
    (hq : dequantStep cfg produce d frame k m R = .ok R') :
    ∃ coef', mcuStep cfg produce (k / frame.mcuSize.width) (k % frame.mcuSize.width)
        (mkSt d coef ps exp left R bi) =
      .ok () (mkSt d coef' (List.replicate MAX_COMPONENTS 0) ((k / r % 8 + 1) % 8) r R'
        ⟨rest, 0, 0⟩) := by
  obtain ⟨bi', e, hr'⟩ := decodeRow_mk ctx (coef := coef) (exp := exp) (left := left) (R := R) hm
    hfit hr
  have e2 := (((restartParser_at (cfg := cfg) ctx.range
    (s := mkSt d (padBlocks (m.flatten.map BlockData.block)) qs exp left R bi')
    ⟨ctx.interval, ctx.frame_eq, hleft, hexp⟩ hk).1 hdue).2 _ rest
    (by rw [← hmark]; exact marker_scanTail hr'.tail)).1 rfl
  refine ⟨padBlocks (m.flatten.map BlockData.block), ?_⟩
  unfold mcuStep
  rw [e, Out.bind_ok, e2, Out.bind_ok]
  exact dequant_mk ctx (preds := List.replicate MAX_COMPONENTS 0) (exp := (k / r % 8 + 1) % 8)
    (left := r) (bi := ⟨rest, 0, 0⟩) hq

/-- The coordinates of `n` MCUs from the `k`-th on. -/
def coords (frame : Frame) (k n : Nat) : List (Nat × Nat) :=
  (List.range' k n).map (mcuCoord frame.mcuSize)

theorem mcuLoop_append (a b : List (Nat × Nat)) : ∀ s : St,
    mcuLoop cfg produce (a ++ b) s =
      (mcuLoop cfg produce a s).bind fun _ s => mcuLoop cfg produce b s := by
  induction a with
  | nil => intro s; rfl
  | cons c a ih =>
    intro s
    obtain ⟨y, x⟩ := c
    rw [List.cons_append, mcuLoop, mcuLoop]
    cases mcuStep cfg produce y x s with
    | ok u s' => simp only [Out.bind_ok]; exact ih s'
    | fail f s' => rfl

/-- A stretch of MCUs with no restart marker due. -/
theorem mcuLoop_stretch (ctx : ScanCtx d scan frame codes r) {t : List UInt8} {ms : List Mcu}
    {ps qs : List Int} {x : List Bool} (hms : McusBits codes ps ms x qs) :
    ∀ (k : Nat) (coef : List (List Int)) (exp left : Nat) (R R' : List (List (Option UInt8)))
      (bi : Biterator) (w : List Bool),
    (∀ m ∈ ms, McuFits frame m) → Rep A bi (x ++ w) t →
    k + ms.length ≤ frame.mcuSize.width * frame.mcuSize.height →
    (∀ j, k ≤ j → j < k + ms.length →
      ¬ RstDue r (frame.mcuSize.width * frame.mcuSize.height) j) →
    (0 < r → left = r - k % r) → (0 < r → exp = k / r % 8) →
    dequantAll cfg produce d frame k ms R = .ok R' →
    ∃ coef' left' bi', mcuLoop cfg produce (coords frame k ms.length)
        (mkSt d coef ps exp left R bi) = .ok () (mkSt d coef' qs exp left' R' bi') ∧ Rep A bi' w t ∧
      (k + ms.length < frame.mcuSize.width * frame.mcuSize.height →
        0 < r → left' = r - (k + ms.length) % r ∧ exp = (k + ms.length) / r % 8) := by
  induction hms with
  | nil =>
    intro k coef exp left R R' bi w _ hr _ _ hleft hexp hq
    simp only [dequantAll, Except.ok.injEq] at hq
    subst hq
    exact ⟨coef, left, bi, rfl, hr, fun _ h => ⟨hleft h, hexp h⟩⟩
  | @cons ps m ms x y qs rs hm hms ih =>
    intro k coef exp left R R' bi w hfit hr hk hnd hleft hexp hq
    rw [List.length_cons] at hk hnd
    rw [List.append_assoc] at hr
    unfold dequantAll at hq
    cases hq1 : dequantStep cfg produce d frame k m R with
    | error f => rw [hq1] at hq; simp at hq
    | ok R1 =>
      rw [hq1] at hq
      simp only at hq
      obtain ⟨bi1, coef1, left1, e1, hr1, hl1⟩ := mcuStep_nodue ctx (coef := coef) hm
        (hfit m (by simp)) hr (by omega) (hnd k (le_refl _) (by omega)) hleft hexp hq1
      have hstep : ms ≠ [] → 0 < r → left1 = r - (k + 1) % r ∧ exp = (k + 1) / r % 8 := by
        intro hne h0
        have hpos := List.length_pos_iff.2 hne
        have hz : (k + 1) % r ≠ 0 := by
          intro hz
          exact hnd k (le_refl _) (by omega) ⟨h0, hz, by omega⟩
        exact ⟨hl1 (by omega) h0, by rw [hexp h0, ((succ_mod_div h0).2 hz).2]⟩
      by_cases hne : ms = []
      · subst hne
        cases hms
        simp only [dequantAll, Except.ok.injEq] at hq
        subst hq
        refine ⟨coef1, left1, bi1, ?_, by simpa using hr1, ?_⟩
        · show mcuLoop cfg produce [mcuCoord frame.mcuSize k] _ = _
          unfold mcuLoop mcuCoord
          simp only
          rw [e1]
          rfl
        · intro hlt h0
          simp only [List.length_cons, List.length_nil] at hlt ⊢
          have hz : (k + 1) % r ≠ 0 := by
            intro hz
            exact hnd k (le_refl _) (by omega) ⟨h0, hz, hlt⟩
          exact ⟨hl1 hlt h0, by rw [hexp h0, ((succ_mod_div h0).2 hz).2]⟩
      · obtain ⟨coef', left', bi', e, hr', hl'⟩ := ih (k + 1) coef1 exp left1 R1 R' bi1 w
          (fun m' h => hfit m' (by simp [h])) hr1 (by omega)
          (fun j h1 h2 => hnd j (by omega) (by omega)) (fun h0 => (hstep hne h0).1)
          (fun h0 => (hstep hne h0).2) hq
        refine ⟨coef', left', bi', ?_, hr', ?_⟩
        · show mcuLoop cfg produce (mcuCoord frame.mcuSize k :: coords frame (k + 1) ms.length) _ = _
          rw [mcuLoop]
          · rw [show mcuStep cfg produce (mcuCoord frame.mcuSize k).1 (mcuCoord frame.mcuSize k).2
              (mkSt d coef ps exp left R bi) = _ from e1, Out.bind_ok]
            exact e
        · intro hlt h0
          rw [List.length_cons] at hlt ⊢
          have := hl' (by omega) h0
          rw [show k + (ms.length + 1) = k + 1 + ms.length by omega]
          exact this

theorem markerAux_fill (k : Nat) (l : List UInt8) :
    markerAux true (List.replicate k 0xFF ++ l) = markerAux true l := by
  induction k with
  | zero => rfl
  | succ k ih => rw [List.replicate_succ, List.cons_append, markerAux, if_pos rfl, ih]

theorem markerAux_fill' (k : Nat) (l : List UInt8) :
    markerAux false (List.replicate k 0xFF ++ 0xFF :: l) = markerAux true l := by
  cases k with
  | zero => rfl
  | succ k =>
    rw [List.replicate_succ, List.cons_append, markerAux, show ((0xFF : UInt8) == 0xFF) = true from rfl,
      markerAux_fill, markerAux, if_pos rfl]

theorem marker_rst {n : Nat} (hn : n < 8) (k : Nat) (rest : List UInt8) :
    marker (List.replicate k 0xFF ++ 0xFF :: UInt8.ofNat (0xD0 + n) :: rest) =
      .ok (.RST n, rest) := by
  unfold marker
  rw [markerAux_fill']
  have h : ∀ n : Fin 8, UInt8.ofNat (0xD0 + n.val) ≠ 0xFF ∧ UInt8.ofNat (0xD0 + n.val) ≠ 0 ∧
      markerOfByte (UInt8.ofNat (0xD0 + n.val)) = some (.RST n.val) := by decide
  obtain ⟨h1, h2, h3⟩ := h ⟨n, hn⟩
  simp only at h1 h2 h3
  rw [markerAux, if_neg h1, if_neg h2, h3]

theorem starts_rst {n : Nat} (hn : n < 8) (k : Nat) (rest : List UInt8) :
    StartsWithMarker (List.replicate k 0xFF ++ 0xFF :: UInt8.ofNat (0xD0 + n) :: rest) := by
  cases k with
  | zero =>
    refine ⟨UInt8.ofNat (0xD0 + n), rest, rfl, ?_⟩
    have h : ∀ n : Fin 8, UInt8.ofNat (0xD0 + n.val) ≠ 0 := by decide
    exact h ⟨n, hn⟩
  | succ k =>
    refine ⟨0xFF, (List.replicate k 0xFF ++ UInt8.ofNat (0xD0 + n) :: rest), ?_, by decide⟩
    rw [List.replicate_succ, List.cons_append]
    congr 1
    have : ∀ (k : Nat) (l : List UInt8),
        List.replicate k 0xFF ++ 0xFF :: l = 0xFF :: (List.replicate k 0xFF ++ l) := by
      intro k l
      induction k with
      | zero => rfl
      | succ k ih => rw [List.replicate_succ, List.cons_append, ih, List.cons_append]
    exact this k _

theorem rep_after {data t : List UInt8} (ht : StartsWithMarker t) {bits count : Nat} (hc : count ≤ 64)
    (hb : bits < 2 ^ 64) {v : List Bool} (hv : bitsN count bits ++ bitsOf data = v) :
    Rep A ⟨stuff data ++ t, bits, count⟩ v t := by
  have h : Rep False ⟨stuff data ++ t, bits, count⟩ v t := by
    apply pending_iff.1
    refine ⟨hc, hb, ht, data, rfl, ?_⟩
    rw [hv]
    exact List.prefix_append _ _
  refine ⟨h.wf, h.tail, h.pre, fun _ => ?_⟩
  rw [← hv, List.length_append, bitsN_length, bitsOf_length]
  simp only
  omega

theorem rep_new {data t : List UInt8} (ht : StartsWithMarker t) {v : List Bool}
    (hv : bitsOf data = v) : Rep A ⟨stuff data ++ t, 0, 0⟩ v t :=
  rep_after ht (Nat.zero_le _) (by norm_num) hv

/-- The MCU loop over a well-formed scan, with bits left over from before. -/
theorem mcuLoop_scan_after (ctx : ScanCtx d scan frame codes r) {tail : List UInt8}
    (htail : StartsWithMarker tail) {over : List Bool} {n : Nat} {intervals : List (List Mcu)}
    {bytes : List UInt8} {pad : List Bool} (hsb : ScanPadded codes tail pad over n intervals bytes) :
    ∀ (k : Nat) (coef : List (List Int)) (exp left : Nat) (R R' : List (List (Option UInt8)))
      (ob oc : Nat), oc ≤ 64 → ob < 2 ^ 64 → bitsN oc ob = over →
    (∀ m ∈ intervals.flatten, McuFits frame m) →
    k + intervals.flatten.length = frame.mcuSize.width * frame.mcuSize.height →
    (0 < r → k % r = 0) → (0 < r → n = k / r % 8) → (0 < r → left = r) → (0 < r → exp = n) →
    (r = 0 → intervals.length = 1) →
    (0 < r → ∃ init last, intervals = init ++ [last] ∧ (∀ i ∈ init, i.length = r) ∧
      last.length ≤ r ∧ (init ≠ [] → 1 ≤ last.length)) →
    dequantAll cfg produce d frame k intervals.flatten R = .ok R' →
    ∃ coef' preds' exp' left' bi', mcuLoop cfg produce (coords frame k intervals.flatten.length)
        (mkSt d coef (List.replicate MAX_COMPONENTS 0) exp left R ⟨bytes, ob, oc⟩) =
        .ok () (mkSt d coef' preds' exp' left' R' bi') ∧ Rep True bi' pad tail := by
  have hzero : List.replicate MAX_COMPONENTS (0 : Int) =
      List.replicate codes.length 0 ++ List.replicate (MAX_COMPONENTS - codes.length) 0 := by
    rw [List.replicate_append_replicate]; congr 1; have := ctx.comps; omega
  induction hsb with
  | @last over n ms data bits qs hms hbits =>
    intro k coef exp left R R' ob oc hoc hob hover hfit htot hkr hnk hleft hexp _ hshape hq
    simp only [List.flatten_cons, List.flatten_nil, List.append_nil] at hfit htot hq ⊢
    have hr : Rep True ⟨stuff data ++ tail, ob, oc⟩ (bits ++ pad) tail :=
      rep_after htail hoc hob (by rw [hover, hbits])
    have hms' := hms.extend (List.replicate (MAX_COMPONENTS - codes.length) 0)
    rw [← hzero] at hms'
    have hlen : 0 < r → ms.length ≤ r := by
      intro h0
      obtain ⟨init, last, he, _, hl, _⟩ := hshape h0
      have hi : init = [] := by
        have := congrArg List.length he
        simp at this
        exact this
      subst hi
      simp at he
      rw [he]; exact hl
    obtain ⟨coef', left', bi', e, hr', _⟩ := mcuLoop_stretch (produce := produce) (cfg := cfg) ctx
      hms' k coef exp left R R' ⟨stuff data ++ tail, ob, oc⟩ pad hfit hr (by omega)
      (by
        rintro j h1 h2 ⟨h0, h3, h4⟩
        have := hlen h0
        have hkr := hkr h0
        -- j + 1 is strictly between k and k + r
        have hd := Nat.div_add_mod k r
        rw [hkr] at hd
        have : (j + 1) % r = j + 1 - k := by
          conv_lhs => rw [show j + 1 = r * (k / r) + (j + 1 - k) by omega]
          rw [Nat.mul_add_mod, Nat.mod_eq_of_lt (by omega)]
        omega)
      (fun h0 => by rw [hleft h0, hkr h0]; rfl) (fun h0 => by rw [hexp h0, hnk h0]) hq
    exact ⟨coef', _, exp, left', bi', e, hr'⟩
  | @cons over n ms rest data bytes kf hi hsb ih =>
    intro k coef exp left R R' ob oc hoc hob hover hfit htot hkr hnk hleft hexp hone hshape hq
    have hrne : rest ≠ [] := by cases hsb <;> simp
    have h0 : 0 < r := by
      rcases Nat.eq_zero_or_pos r with h | h
      · have := hone h
        rw [List.length_cons] at this
        exact absurd (List.length_eq_zero_iff.1 (by omega)) hrne
      · exact h
    obtain ⟨init, last, he, hinit, hlast, hlast1⟩ := hshape h0
    -- `ms` is the first of `init`
    obtain ⟨init', hinit', hrest⟩ : ∃ init', init = ms :: init' ∧ rest = init' ++ [last] := by
      cases init with
      | nil => simp at he; exact absurd he.2 hrne
      | cons i init' =>
        simp at he
        exact ⟨init', by rw [he.1], he.2⟩
    subst hinit'
    have hmsr : ms.length = r := hinit ms (by simp)
    have hlast1 := hlast1 (by simp)
    have hrestpos : 1 ≤ rest.flatten.length := by
      rw [hrest, List.flatten_append, List.length_append]; simp; omega
    rw [List.flatten_cons, List.length_append] at htot
    rw [List.flatten_cons] at hq
    have hkr := hkr h0
    have hnk := hnk h0
    have hn8 : n < 8 := by rw [hnk]; exact Nat.mod_lt _ (by omega)
    have hd := Nat.div_add_mod k r
    rw [hkr] at hd
    -- split off the last MCU
    obtain ⟨body, lm, hbody⟩ : ∃ body lm, ms = body ++ [lm] := by
      rcases List.eq_nil_or_concat ms with h | ⟨b, l, h⟩
      · subst h; simp at hmsr; omega
      · exact ⟨b, l, by simpa using h⟩
    have hbl : body.length + 1 = r := by rw [← hmsr, hbody]; simp
    obtain ⟨bits, pad, qs, hms, hbits⟩ := hi
    have hms' := hms.extend (List.replicate (MAX_COMPONENTS - codes.length) 0)
    rw [← hzero, hbody] at hms'
    obtain ⟨x, y, mid, h1, h2, rfl⟩ := hms'.append_inv
    obtain ⟨R1, hq1, hq2⟩ := dequantAll_append ms rest.flatten k R R' hq
    rw [hbody] at hq1
    obtain ⟨R2, hq3, hq4⟩ := dequantAll_append body [lm] k R R1 hq1
    have hq5 : dequantStep cfg produce d frame (k + body.length) lm R2 = .ok R1 := by
      unfold dequantAll at hq4
      cases e : dequantStep cfg produce d frame (k + body.length) lm R2 with
      | error f => rw [e] at hq4; simp at hq4
      | ok R3 => rw [e] at hq4; simpa [dequantAll] using hq4
    have hr : Rep True ⟨stuff data ++ (List.replicate kf 0xFF ++ 0xFF :: UInt8.ofNat (0xD0 + n) :: bytes),
        ob, oc⟩ (x ++ (y ++ pad)) _ := rep_after (starts_rst hn8 kf bytes) hoc hob
          (by rw [hover, hbits, List.append_assoc])
    obtain ⟨coef1, left1, bi1, e1, hr1, hl1⟩ := mcuLoop_stretch (produce := produce) (cfg := cfg) ctx
      h1 k coef exp left R R2 _ (y ++ pad)
      (fun m hm => hfit m (by rw [List.flatten_cons, hbody]; simp [hm])) hr (by omega)
      (by
        rintro j h1 h2 ⟨_, h3, h4⟩
        have : (j + 1) % r = j + 1 - k := by
          conv_lhs => rw [show j + 1 = r * (k / r) + (j + 1 - k) by omega]
          rw [Nat.mul_add_mod, Nat.mod_eq_of_lt (by omega)]
        omega)
      (fun h0 => by rw [hleft h0, hkr]; rfl) (fun h0 => by rw [hexp h0, hnk]) hq3
    obtain ⟨hl1a, hl1b⟩ := hl1 (by omega) h0
    cases h2 with
    | @cons _ _ _ x2 y2 qs2 _ hm hnil =>
    cases hnil
    have hsuccmod : (k + body.length + 1) % r = 0 := by
      rw [show k + body.length + 1 = r * (k / r + 1) by rw [Nat.mul_succ]; omega, Nat.mul_mod_right]
    have hdue : RstDue r (frame.mcuSize.width * frame.mcuSize.height) (k + body.length) :=
      ⟨h0, hsuccmod, by omega⟩
    have hdiv : (k + body.length) / r = k / r := by
      conv_lhs => rw [show k + body.length = r * (k / r) + body.length by omega]
      rw [Nat.mul_add_div h0, Nat.div_eq_of_lt (show body.length < r by omega), Nat.add_zero]
    rw [List.append_nil] at hr1
    obtain ⟨coef2, e2⟩ := mcuStep_due (produce := produce) (cfg := cfg) ctx (coef := coef1) hm
      (hfit lm (by rw [List.flatten_cons, hbody]; simp)) hr1 (by omega) hdue (fun _ => hl1a)
      (fun _ => hl1b) (rest := bytes)
      (by rw [hdiv, ← hnk]; exact marker_rst hn8 kf bytes) hq5
    rw [hdiv, ← hnk] at e2
    have hnext : (k + r) / r = k / r + 1 := Nat.add_div_right k h0
    obtain ⟨coef', preds', exp', left', bi', e3, ht3⟩ := ih (k + r) coef2 ((n + 1) % 8) r R1 R'
      0 0 (by omega) (by norm_num) rfl
      (fun m hm => hfit m (by rw [List.flatten_cons]; simp only [List.mem_append]; exact Or.inr hm))
      (by omega) (fun _ => by rw [Nat.add_mod_right]; exact hkr)
      (fun _ => by rw [hnext, hnk]; omega) (fun _ => rfl) (fun _ => rfl)
      (fun h => absurd h (by omega))
      (fun _ => ⟨init', last, hrest, fun i hi => hinit i (by simp [hi]), hlast, fun _ => hlast1⟩)
      (by rw [hmsr] at hq2; exact hq2)
    refine ⟨coef', preds', exp', left', bi', ?_, ht3⟩
    have hco : coords frame k (ms :: rest).flatten.length =
        coords frame k body.length ++ (mcuCoord frame.mcuSize (k + body.length) ::
          coords frame (k + r) rest.flatten.length) := by
      unfold coords
      rw [List.flatten_cons, List.length_append, hmsr, ← hbl,
        show body.length + 1 + rest.flatten.length = body.length + (1 + rest.flatten.length) by omega,
        ← List.range'_append_1, List.map_append, Nat.add_comm 1, List.range'_succ, List.map_cons]
      rfl
    rw [hco, mcuLoop_append, e1, Out.bind_ok]
    rw [mcuLoop]
    · rw [show mcuStep cfg produce (mcuCoord frame.mcuSize (k + body.length)).1
        (mcuCoord frame.mcuSize (k + body.length)).2
        (mkSt d coef1 mid exp left1 R2 bi1) = _ from e2, Out.bind_ok]
      exact e3

theorem Spec.ScanBytes.after {codes : List (Code × Code)} {tail : List UInt8} {n : Nat}
    {intervals : List (List Mcu)} {bytes : List UInt8} (h : ScanBytes codes tail n intervals bytes) :
    ScanBytesAfter codes tail [] n intervals bytes := by
  induction h with
  | last h => exact .last h
  | cons k h _ ih => exact .cons k h ih

theorem Spec.ScanBytesAfter.padded {codes : List (Code × Code)} {tail : List UInt8} {left : List Bool} {n : Nat}
    {intervals : List (List Mcu)} {bytes : List UInt8} (h : ScanBytesAfter codes tail left n intervals bytes) :
    ∃ pad, ScanPadded codes tail pad left n intervals bytes := by
  induction h with
  | last h =>
    obtain ⟨bits, pad, qs, h1, h2⟩ := h
    exact ⟨pad, .last h1 h2⟩
  | cons k h _ ih =>
    obtain ⟨pad, ih⟩ := ih
    exact ⟨pad, .cons k h ih⟩

/-- The MCU loop over a well-formed scan. -/
theorem mcuLoop_scan (ctx : ScanCtx d scan frame codes r) {tail : List UInt8}
    (htail : StartsWithMarker tail) {n : Nat} {intervals : List (List Mcu)} {bytes : List UInt8}
    (hsb : ScanBytes codes tail n intervals bytes)
    (k : Nat) (coef : List (List Int)) (exp left : Nat) (R R' : List (List (Option UInt8)))
    (hfit : ∀ m ∈ intervals.flatten, McuFits frame m)
    (htot : k + intervals.flatten.length = frame.mcuSize.width * frame.mcuSize.height)
    (hkr : 0 < r → k % r = 0) (hnk : 0 < r → n = k / r % 8) (hleft : 0 < r → left = r)
    (hexp : 0 < r → exp = n) (hone : r = 0 → intervals.length = 1)
    (hshape : 0 < r → ∃ init last, intervals = init ++ [last] ∧ (∀ i ∈ init, i.length = r) ∧
      last.length ≤ r ∧ (init ≠ [] → 1 ≤ last.length))
    (hq : dequantAll cfg produce d frame k intervals.flatten R = .ok R') :
    ∃ coef' preds' exp' left' bi', mcuLoop cfg produce (coords frame k intervals.flatten.length)
        (mkSt d coef (List.replicate MAX_COMPONENTS 0) exp left R ⟨bytes, 0, 0⟩) =
        .ok () (mkSt d coef' preds' exp' left' R' bi') ∧ scanTail bi'.input = some tail ∧
      bi'.WF := by
  obtain ⟨pad, hp⟩ := hsb.after.padded
  obtain ⟨coef', preds', exp', left', bi', e, h⟩ := mcuLoop_scan_after ctx htail hp k coef exp left R R' 0 0
    (by omega) (by norm_num) rfl hfit htot hkr hnk hleft hexp hone hshape hq
  exact ⟨coef', preds', exp', left', bi', e, h.tail, h.wf⟩

end Jpeg
