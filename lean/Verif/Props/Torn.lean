import Verif.Proofs.Torn
import Verif.Props.Damaged
import Verif.Props.Joined
/-!
# C103: damage does not show in front of its place
-/

namespace Jpeg
open Spec

section

variable {cfg : Cfg} {f : BaselineFile} {H V : Nat} {codes : List (Code × Code)}

/-- The result for a file intact in part: an error, or that of the last stage. -/
theorem torn_result {d : Decoder} (hd : UsedDecoder d) (hh : Holds cfg d f.earlier)
    (hv : f.Laid (f.interval d.restartInterval) H V codes) {good : Nat → Nat} {data : List UInt8} {k : Nat}
    (hdata : TornScan codes (List.replicate k 0xFF ++ markerBytes .EOI) good 0 f.intervals data) :
    (∃ g d2, d.decode cfg ({ f with data } : BaselineFile).bytes = .fail g d2 ∧ ∀ p, g ≠ .panic p) ∨
    ∃ d2 : Decoder, Decoded d2 (fileFrame f H V) ∧ d2.transform = f.transform d.transform ∧
      (∀ image, upsample cfg d2 = .ok image → d.decode cfg ({ f with data } : BaselineFile).bytes = .ok image d2) ∧
      TablesHeld cfg f.tables d2 ∧
      ∃ Z : List (List Mcu), Z.map List.length = f.intervals.map List.length ∧
        (∀ i, Z[i]?.map (List.take (good i)) = f.intervals[i]?.map (List.take (good i))) ∧
        d2.planes = scanPlanes (ceilDiv f.x (8 * H)) d2.quantTables (fileFrame f H V).components Z.flatten := by
  have hs := loopAll_torn (cfg := cfg) hd.inv hh.held hv hdata
  have hdec : d.decode cfg ({ f with data } : BaselineFile).bytes =
      match decodeParser cfg ⟨d, Biterator.new ({ f with data } : BaselineFile).bytes⟩ with
      | .fail f s => .fail f s.dec
      | .ok r s =>
        if s.bi.input ≠ [] then .fail (.panic .trailing) s.dec
        else
          match r with
          | .ok image => .ok image s.dec
          | .error f => .fail f s.dec := rfl
  unfold decodeParser at hdec
  unfold loopAll at hs
  cases e2 : segmentLoop cfg ((Biterator.new ({ f with data } : BaselineFile).bytes).input.length + 1)
      ⟨d, Biterator.new ({ f with data } : BaselineFile).bytes⟩ with
  | fail g s =>
    rw [e2] at hs
    rw [e2] at hdec
    exact .inl ⟨g, s.dec, hdec, hs⟩
  | ok u s =>
    rw [e2] at hs
    rw [e2, Out.bind_ok] at hdec
    obtain ⟨k1, k2, k3, k4, Z, k5, -, k6, k7⟩ := hs
    refine .inr ⟨s.dec, planes_decoded hv k3 k7, k4, ?_, k2, Z, k5, k6, k7⟩
    intro image e
    rw [hdec]
    simp only [e, k1]
    simp

/-- **C103** (damage does not show in front of its place). Take a file as in C45 and damage it: of every restart
interval `i` only the bits of the first `good i` MCUs are kept, the data behind them is replaced by any other
bytes without markers (none, fewer, more). Decoding it fails with an error, not a panic, or gives an image of the
same size, in which every pixel to which only samples of intact MCUs contribute is as it was. -/
theorem C103_in_front (cfg : Cfg) (f : BaselineFile) (H V : Nat) (codes : List (Code × Code)) (d : Decoder)
    (hd : UsedDecoder d) (hh : Holds cfg d f.earlier) (h3 : f.comps.length = 3) (hct : f.transform d.transform ≠ some 0)
    (hv : f.Valid (f.interval d.restartInterval) H V codes) (hr : f.Renderable H V)
    (good : Nat → Nat) (data : List UInt8) (k : Nat)
    (hdata : TornScan codes (List.replicate k 0xFF ++ markerBytes .EOI) good 0 f.intervals data)
    (image : List UInt8) (d' : Decoder) (e : d.decode cfg f.bytes = .ok image d') :
    (∃ g d2, d.decode cfg ({ f with data } : BaselineFile).bytes = .fail g d2 ∧ ∀ p, g ≠ .panic p) ∨
    ∃ image2 d2, d.decode cfg ({ f with data } : BaselineFile).bytes = .ok image2 d2 ∧
      image2.length = image.length ∧
      ∀ y x, y < f.y → x < f.x →
        f.Intact (f.interval d.restartInterval) H V good (if cfg.rayon then y / V else y / V * V) x →
        ∀ j, j < 3 → image2[3 * f.x * y + (3 * x + j)]? = image[3 * f.x * y + (3 * x + j)]? := by
  rcases torn_result (cfg := cfg) hd hh hv.toLaid hdata with h | ⟨d2, hdec2, k4, k1, k2, Z, k5, k6, k7⟩
  · exact .inl h
  obtain ⟨image2, e2, hl, hk⟩ := image_kept hd hh h3 hct hv hr hdec2 k4 k1 k2 k7 e
  exact .inr ⟨image2, d2, e2, hl, fun y x hy hx hun => hk y x hy hx (keptAt_intact hv k5 k6 hun)⟩

/-- **C103** (CMYK). The same for four components with Adobe transform 0. -/
theorem C103_in_front_cmyk (cfg : Cfg) (f : BaselineFile) (H V : Nat) (codes : List (Code × Code)) (d : Decoder)
    (hd : UsedDecoder d) (hh : Holds cfg d f.earlier) (h4 : f.comps.length = 4) (hct : f.transform d.transform = some 0)
    (hv : f.Valid (f.interval d.restartInterval) H V codes) (hr : f.Renderable H V)
    (good : Nat → Nat) (data : List UInt8) (k : Nat)
    (hdata : TornScan codes (List.replicate k 0xFF ++ markerBytes .EOI) good 0 f.intervals data)
    (image : List UInt8) (d' : Decoder) (e : d.decode cfg f.bytes = .ok image d') :
    (∃ g d2, d.decode cfg ({ f with data } : BaselineFile).bytes = .fail g d2 ∧ ∀ p, g ≠ .panic p) ∨
    ∃ image2 d2, d.decode cfg ({ f with data } : BaselineFile).bytes = .ok image2 d2 ∧
      image2.length = image.length ∧
      ∀ y x, y < f.y → x < f.x →
        f.Intact (f.interval d.restartInterval) H V good (if cfg.rayon then y / V else y / V * V) x →
        ∀ j, j < 4 → image2[4 * f.x * y + (4 * x + j)]? = image[4 * f.x * y + (4 * x + j)]? := by
  rcases torn_result (cfg := cfg) hd hh hv.toLaid hdata with h | ⟨d2, hdec2, k4, k1, k2, Z, k5, k6, k7⟩
  · exact .inl h
  obtain ⟨image2, e2, hl, hk⟩ := image_kept_cmyk hd hh h4 hct hv hr hdec2 k4 k1 k2 k7 e
  exact .inr ⟨image2, d2, e2, hl, fun y x hy hx hun => hk y x hy hx (keptAt_intact hv k5 k6 hun)⟩

/-- **C103** (no subsampling). With all sampling factors 1, the pixels kept are those of the intact MCUs: pixel
`(x, y)` is in MCU number `y / 8 * ceil(X / 8) + x / 8`, which is number that modulo `r` of interval number that
by `r`. -/
theorem C103_in_front_own (cfg : Cfg) (f : BaselineFile) (codes : List (Code × Code)) (d : Decoder)
    (hd : UsedDecoder d) (hh : Holds cfg d f.earlier) (h3 : f.comps.length = 3) (hct : f.transform d.transform ≠ some 0)
    (hv : f.Valid (f.interval d.restartInterval) 1 1 codes)
    (good : Nat → Nat) (data : List UInt8) (k : Nat)
    (hdata : TornScan codes (List.replicate k 0xFF ++ markerBytes .EOI) good 0 f.intervals data)
    (image : List UInt8) (d' : Decoder) (e : d.decode cfg f.bytes = .ok image d') :
    (∃ g d2, d.decode cfg ({ f with data } : BaselineFile).bytes = .fail g d2 ∧ ∀ p, g ≠ .panic p) ∨
    ∃ image2 d2, d.decode cfg ({ f with data } : BaselineFile).bytes = .ok image2 d2 ∧
      image2.length = image.length ∧
      ∀ y x, y < f.y → x < f.x →
        (y / 8 * ((f.x + 7) / 8) + x / 8) % f.interval d.restartInterval <
          good ((y / 8 * ((f.x + 7) / 8) + x / 8) / f.interval d.restartInterval) →
        ∀ j, j < 3 → image2[3 * f.x * y + (3 * x + j)]? = image[3 * f.x * y + (3 * x + j)]? := by
  have h1 := hv.toLaid.ones
  rcases C103_in_front cfg f 1 1 codes d hd hh h3 hct hv (renderable_one h1) good data k hdata image d' e
    with h | ⟨image2, d2, k1, k2, k3⟩
  · exact .inl h
  · refine .inr ⟨image2, d2, k1, k2, fun y x hy hx hb => k3 y x hy hx ?_⟩
    rw [Nat.div_one, Nat.mul_one, ite_self]
    intro c hc Y X _ _ n1 n2
    obtain ⟨e1, e2⟩ := h1 c hc
    unfold Near at n1 n2
    rw [if_pos e2] at n1
    rw [if_pos e1] at n2
    rw [n1, n2, e1, e2, Nat.div_one, Nat.div_one]
    exact hb

/-- **C103** (no restart markers, no subsampling). The scan of `f` is the byte-stuffed `old`; that of the damaged
file is the byte-stuffed `new`, which agrees with `old` in the first `n` bits, and these hold the first `m` MCUs.
If there is an image, the first `m` blocks of 8 by 8 pixels, in rows from left to right, are as they were. -/
theorem C103_first_mcus (cfg : Cfg) (f : BaselineFile) (codes : List (Code × Code)) (d : Decoder)
    (hd : UsedDecoder d) (hh : Holds cfg d f.earlier) (h3 : f.comps.length = 3) (hct : f.transform d.transform ≠ some 0)
    (h0 : f.interval d.restartInterval = 0) (hv : f.Valid 0 1 1 codes) (mcus : List Mcu) (hf : f.intervals = [mcus])
    (old new : List UInt8) (m n : Nat) (qs : List Int)
    (hm : McusBits codes (List.replicate codes.length 0) (mcus.take m) ((bitsOf old).take n) qs)
    (hn : (bitsOf new).take n = (bitsOf old).take n)
    (image : List UInt8) (d' : Decoder) (e : d.decode cfg f.bytes = .ok image d') :
    (∃ g d2, d.decode cfg ({ f with data := stuff new ++ markerBytes .EOI } : BaselineFile).bytes = .fail g d2 ∧
      ∀ p, g ≠ .panic p) ∨
    ∃ image2 d2, d.decode cfg ({ f with data := stuff new ++ markerBytes .EOI } : BaselineFile).bytes = .ok image2 d2 ∧
      image2.length = image.length ∧
      ∀ y x, y < f.y → x < f.x → y / 8 * ((f.x + 7) / 8) + x / 8 < m →
        ∀ j, j < 3 → image2[3 * f.x * y + (3 * x + j)]? = image[3 * f.x * y + (3 * x + j)]? := by
  have hdata : TornScan codes (List.replicate 0 0xFF ++ markerBytes .EOI) (fun _ => m) 0 f.intervals
      (stuff new ++ (List.replicate 0 0xFF ++ markerBytes .EOI)) := by
    rw [hf]
    refine .last ⟨_, (bitsOf new).drop n, qs, hm, ?_⟩
    rw [← hn, List.take_append_drop]
  have key := C103_in_front_own cfg f codes d hd hh h3 hct (by rw [h0]; exact hv) _ _ 0 hdata image d' e
  rw [h0] at key
  simp only [Nat.mod_zero] at key
  exact key

/-- **C103** (it covers C66). A file with damaged intervals is one where nothing is known to be intact of these,
and all of the others. -/
theorem C103_covers (codes : List (Code × Code)) (tail : List UInt8) (bad : Nat → Prop) [DecidablePred bad]
    (j N : Nat) (intervals : List (List Mcu)) (hN : ∀ ms ∈ intervals, ms.length ≤ N) (data : List UInt8) :
    DamagedScan codes tail bad j intervals data ↔
      TornScan codes tail (fun i => if bad i then 0 else N) j intervals data := by
  have key : ∀ (j : Nat) (ms : List Mcu) (data : List UInt8), ms.length ≤ N →
      ((¬ bad j → IntervalData codes ms data) ↔
        IntervalData codes (ms.take ((fun i => if bad i then 0 else N) j)) data) := by
    intro j ms data hl
    by_cases hb : bad j
    · simp only [hb, if_true, List.take_zero, not_true_eq_false, false_implies, true_iff]
      exact ⟨[], _, _, .nil, rfl⟩
    · simp only [hb, if_false, List.take_of_length_le hl, not_false_eq_true, true_implies]
  constructor
  · intro h
    induction h with
    | last hi => exact .last ((key _ _ _ (hN _ (by simp))).1 hi)
    | cons k hi _ ih =>
      exact .cons k ((key _ _ _ (hN _ (by simp))).1 hi) (ih fun ms hm => hN ms (List.mem_cons_of_mem _ hm))
  · intro h
    induction h with
    | last hi => exact .last ((key _ _ _ (hN _ (by simp))).2 hi)
    | cons k hi _ ih =>
      exact .cons k ((key _ _ _ (hN _ (by simp))).2 hi) (ih fun ms hm => hN ms (List.mem_cons_of_mem _ hm))

end

/-! ## A case -/

/-- Two pictures of 16 by 5 pixels that differ in the second MCU: the left halves are the same, since the second
file is the first one, damaged behind the first MCU. -/
example : ∃ f g : BaselineFile, f.intervals ≠ g.intervals ∧ ∀ cfg, ∃ p q : List UInt8, decode cfg f.bytes = .ok p ∧
    decode cfg g.bytes = .ok q ∧ ∀ y x j, y < 5 → x < 8 → j < 3 →
      q[3 * 16 * y + (3 * x + j)]? = p[3 * 16 * y + (3 * x + j)]? := by
  have hq : GoodTable (List.replicate 64 8) := ⟨by decide, by decide⟩
  have ha : ∀ c, c ∈ [3, -7] → Arranged fullComps 16 5 1 1 [[[leanBlock 1], [dcBlock 2], [dcBlock 4]],
      [[dcBlock c], [leanBlock 0], [dcBlock c]]] := by
    intro c hc
    refine ⟨by decide, by decide, by decide, by decide, by decide, ⟨by decide, by decide⟩, ⟨by decide, by decide⟩,
      by decide, by decide, by decide, ?_, ?_⟩
    · exact (by decide : 2 = ceilDiv 16 (8 * 1) * ceilDiv 5 (8 * 1))
    · revert c; decide
  obtain ⟨d₁, v₁⟩ := codedFile_valid hq (ha 3 (by decide)) (by decide +kernel)
  obtain ⟨d₂, v₂⟩ := codedFile_valid hq (ha (-7) (by decide)) (by decide +kernel)
  refine ⟨codedFile (List.replicate 64 8) fullComps 16 5 [[[leanBlock 1], [dcBlock 2], [dcBlock 4]],
      [[dcBlock 3], [leanBlock 0], [dcBlock 3]]] d₁,
    codedFile (List.replicate 64 8) fullComps 16 5 [[[leanBlock 1], [dcBlock 2], [dcBlock 4]],
      [[dcBlock (-7)], [leanBlock 0], [dcBlock (-7)]]] d₂, ?_, fun cfg => ?_⟩
  · intro h
    have := congrArg (fun i : List (List Mcu) => i.map fun m => m.map fun m => m.map fun b => b.map BlockData.dc) h
    exact absurd this (show [_] ≠ [_] by decide)
  have ct : (none : Option Nat) ≠ some 0 := by decide
  obtain ⟨p, e₁, h1, -⟩ := C45_decodes cfg (codedFile (List.replicate 64 8) fullComps 16 5 [[[leanBlock 1], [dcBlock 2], [dcBlock 4]],
      [[dcBlock 3], [leanBlock 0], [dcBlock 3]]] d₁) 1 1 _
    Decoder.default .new (.nothing _) rfl ct v₁ (renderable_one v₁.toLaid.ones)
  obtain ⟨q, e₂, h2, -⟩ := C45_decodes cfg (codedFile (List.replicate 64 8) fullComps 16 5 [[[leanBlock 1], [dcBlock 2], [dcBlock 4]],
      [[dcBlock (-7)], [leanBlock 0], [dcBlock (-7)]]] d₂) 1 1 _
    Decoder.default .new (.nothing _) rfl ct v₂ (renderable_one v₂.toLaid.ones)
  refine ⟨p, q, by unfold decode; rw [h1], by unfold decode; rw [h2], ?_⟩
  obtain ⟨k, hs⟩ := v₂.data
  have hd : TornScan (List.replicate fullComps.length (dcK3, acK5)) (List.replicate k 0xFF ++ markerBytes .EOI)
      (fun _ => 1) 0 [[[[leanBlock 1], [dcBlock 2], [dcBlock 4]], [[dcBlock 3], [leanBlock 0], [dcBlock 3]]]]
      (stuff d₂ ++ markerBytes .EOI) := by
    change ScanBytes _ _ 0 [_] (stuff d₂ ++ markerBytes .EOI) at hs
    clear h1 h2
    generalize stuff d₂ ++ markerBytes .EOI = D at hs ⊢
    cases hs with
    | cons _ _ h => cases h
    | last hi =>
      obtain ⟨bits, pad, qs, hm, hb⟩ := hi
      cases hm with
      | @cons _ _ _ x y _ _ h1 h2 => exact .last ⟨_, y ++ pad, _, .cons h1 .nil, by rw [hb, List.append_nil, List.append_assoc]⟩
  rcases C103_in_front_own cfg (codedFile (List.replicate 64 8) fullComps 16 5 [[[leanBlock 1], [dcBlock 2], [dcBlock 4]],
      [[dcBlock 3], [leanBlock 0], [dcBlock 3]]] d₁)
    _ Decoder.default .new (.nothing _) rfl ct v₁ _ _ k hd p e₁ h1 with ⟨g, d3, h, -⟩ | ⟨q', d3, k1, -, k3⟩
  · have h := h2.symm.trans h
    simp at h
  · have k1 := h2.symm.trans k1
    simp only [Out.ok.injEq] at k1
    obtain ⟨rfl, -⟩ := k1
    intro y x j hy hx hj
    refine k3 y x hy (show x < 16 by omega) ?_ j hj
    show (y / 8 * ((16 + 7) / 8) + x / 8) % 0 < 1
    rw [Nat.mod_zero]
    omega

end Jpeg
