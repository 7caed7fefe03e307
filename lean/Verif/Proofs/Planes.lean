import Verif.Proofs.Tiling
import Verif.Proofs.ScanHist
import Verif.Proofs.ScanInv
/-!
# The planes after a scan
-/

namespace Jpeg
open Spec

/-! ## What success of `dequantComponents` says -/

theorem dequantCols_ok {cfg : Cfg} {c : Component} {q : List Nat} {start : Nat} : ∀ (xs : List Nat)
    {chunks chunks' : List (List Int)} {plane plane' : List (Option UInt8)},
    dequantCols cfg c q start xs chunks plane = .ok (chunks', plane') →
    xs.length ≤ chunks.length ∧ chunks' = chunks.drop xs.length := by
  intro xs
  induction xs with
  | nil =>
    intro chunks chunks' plane plane' h
    simp only [dequantCols, Except.ok.injEq, Prod.mk.injEq] at h
    simp [h.1]
  | cons x xs ih =>
    intro chunks chunks' plane plane' h
    cases chunks with
    | nil => simp [dequantCols] at h
    | cons b chunks =>
      rw [dequantCols] at h
      split at h
      · simp at h
      · split at h
        · simp at h
        · obtain ⟨h1, h2⟩ := ih h
          exact ⟨by simpa using h1, by simpa using h2⟩

theorem skipChunks_ok : ∀ (n : Nat) {chunks chunks' : List (List Int)},
    skipChunks n chunks = .ok chunks' → n ≤ chunks.length ∧ chunks' = chunks.drop n := by
  intro n
  induction n with
  | zero => intro chunks chunks' h; simp only [skipChunks, Except.ok.injEq] at h; simp [h]
  | succ n ih =>
    intro chunks chunks' h
    cases chunks with
    | nil => simp [skipChunks] at h
    | cons b chunks =>
      obtain ⟨h1, h2⟩ := ih h
      exact ⟨by simpa using h1, by simpa using h2⟩

theorem stepRange_length (n step : Nat) (hs : 0 < step) : (stepRange n step).length = n := by
  rw [stepRange_eq n step hs]; simp

theorem dequantRows_ok {cfg : Cfg} {c : Component} {q : List Nat} {off : Nat} : ∀ (ys : List Nat)
    {chunks chunks' : List (List Int)} {plane plane' : List (Option UInt8)},
    dequantRows cfg c q off ys chunks plane = .ok (chunks', plane') →
    ys.length * c.h ≤ chunks.length ∧ chunks' = chunks.drop (ys.length * c.h) := by
  intro ys
  induction ys with
  | nil =>
    intro chunks chunks' plane plane' h
    simp only [dequantRows, Except.ok.injEq, Prod.mk.injEq] at h
    simp [h.1]
  | cons y ys ih =>
    intro chunks chunks' plane plane' h
    have key : ∀ {chunks1 : List (List Int)}, (c.h ≤ chunks.length ∧ chunks1 = chunks.drop c.h) →
        (ys.length * c.h ≤ chunks1.length ∧ chunks' = chunks1.drop (ys.length * c.h)) →
        (y :: ys).length * c.h ≤ chunks.length ∧ chunks' = chunks.drop ((y :: ys).length * c.h) := by
      rintro chunks1 ⟨h1, rfl⟩ ⟨h2, h3⟩
      rw [List.length_drop] at h2
      rw [List.length_cons, Nat.add_mul, Nat.one_mul]
      refine ⟨by omega, ?_⟩
      rw [h3, List.drop_drop, Nat.add_comm]
    rw [dequantRows] at h
    split at h
    · split at h
      · simp at h
      · rename_i e
        have h1 := dequantCols_ok _ e
        rw [stepRange_length _ _ (by decide)] at h1
        exact key h1 (ih h)
    · split at h
      · simp at h
      · rename_i e
        exact key (skipChunks_ok _ e) (ih h)

/-- Success needs all quantisation tables and enough blocks. -/
theorem dequantComponents_ok {cfg : Cfg} {qts : List (Option (List Nat))} {x y : Nat} :
    ∀ (cs : List Component) {planes planes' : List (List (Option UInt8))} {chunks : List (List Int)},
    (∀ c ∈ cs, 0 < c.lineStride) → planes.length = cs.length →
    dequantComponents cfg qts x y cs planes chunks = .ok planes' →
    (∀ c ∈ cs, ∃ q, qts[c.tq]? = some (some q)) ∧ mcuBlocks cs ≤ chunks.length := by
  intro cs
  induction cs with
  | nil => intro planes planes' chunks _ _ _; simp [mcuBlocks]
  | cons c cs ih =>
    intro planes planes' chunks hs hl h
    cases planes with
    | nil => simp at hl
    | cons plane planes =>
      rw [dequantComponents] at h
      split at h
      · simp at h
      · simp at h
      · rename_i q hq
        simp only at h
        split at h
        · simp at h
        · rename_i chunks1 plane1 e
          split at h
          · simp at h
          · rename_i planes1 e1
            obtain ⟨h1, h2⟩ := ih (fun c hc => hs c (by simp [hc])) (by simpa using hl) e1
            have h3 : c.v * c.h ≤ chunks.length ∧ chunks1 = chunks.drop (c.v * c.h) := by
              split at e
              · have := dequantRows_ok _ e
                rwa [stepRange_length _ _ (Nat.mul_pos (hs c (by simp)) (by decide))] at this
              · split at e
                · simp at e
                · rename_i e2
                  simp only [Except.ok.injEq, Prod.mk.injEq] at e
                  rw [← e.1]
                  exact skipChunks_ok _ e2
            refine ⟨?_, ?_⟩
            · intro c' hc'
              rw [List.mem_cons] at hc'
              rcases hc' with rfl | hc'
              · exact ⟨q, hq⟩
              · exact h1 c' hc'
            · rw [h3.2, List.length_drop] at h2
              simp only [mcuBlocks, List.map_cons, List.sum_cons] at h2 ⊢
              omega

/-! ## The blocks of each component -/

/-- For each component the blocks it has in the MCUs with the given coefficient buffers. -/
def lsOf (cs : List Component) (bufs : List (List (List Int))) : List (List (List (List Int))) :=
  (List.range cs.length).map fun i => bufs.map fun b => (splitBlocks cs b).getD i []

theorem lsOf_nil (cs : List Component) : lsOf cs [] = cs.map fun _ => [] := by
  unfold lsOf
  simp [List.map_const']

theorem lsOf_snoc (cs : List Component) (bufs : List (List (List Int))) (b : List (List Int)) :
    lsOf cs (bufs ++ [b]) = List.zipWith (fun l b => l ++ [b]) (lsOf cs bufs) (splitBlocks cs b) := by
  apply List.ext_getElem?
  intro i
  unfold lsOf
  rw [List.getElem?_zipWith, List.getElem?_map, List.getElem?_map]
  by_cases hi : i < cs.length
  · rw [List.getElem?_range hi, List.getElem?_eq_getElem (by rw [splitBlocks_length]; exact hi)]
    simp only [Option.map_some, List.map_append, List.map_cons, List.map_nil]
    rw [List.getD_eq_getElem?_getD (l := splitBlocks cs b), List.getElem?_eq_getElem]
    rfl
  · rw [List.getElem?_eq_none (by simp; omega)]
    simp

theorem splitBlocks_get (cs : List Component) : ∀ (b : List (List Int)) (i : Nat) (c : Component),
    cs[i]? = some c →
    (splitBlocks cs b)[i]? = some ((b.drop (mcuBlocks (cs.take i))).take (c.v * c.h)) := by
  induction cs with
  | nil => intro b i c h; simp at h
  | cons c0 cs ih =>
    intro b i c h
    cases i with
    | zero =>
      simp only [List.getElem?_cons_zero, Option.some.injEq] at h
      subst h
      simp [splitBlocks, mcuBlocks]
    | succ i =>
      rw [List.getElem?_cons_succ] at h
      rw [splitBlocks, List.getElem?_cons_succ, ih _ i c h, List.drop_drop]
      simp [mcuBlocks]

/-- The quantisation table of a component. -/
def quantOf (qts : List (Option (List Nat))) (c : Component) : List Nat :=
  (qts.getD c.tq none).getD []

theorem quantOf_eq {qts : List (Option (List Nat))} {c : Component} {q : List Nat}
    (h : qts[c.tq]? = some (some q)) : quantOf qts c = q := by
  simp [quantOf, List.getD_eq_getElem?_getD, h]

theorem planesOf_length (W : Nat) (qf : Component → List Nat) (cs : List Component)
    (bufs : List (List (List Int))) : (planesOf W qf cs (lsOf cs bufs)).length = cs.length := by
  simp [planesOf, lsOf]

theorem planesOf_get {W : Nat} {qf : Component → List Nat} {cs : List Component}
    {bufs : List (List (List Int))} {i : Nat} {c : Component} (h : cs[i]? = some c) :
    (planesOf W qf cs (lsOf cs bufs))[i]? =
      some (planeOf W c (qf c) (bufs.map fun b => (splitBlocks cs b).getD i [])) := by
  have hi : i < cs.length := by
    by_contra hn
    rw [List.getElem?_eq_none (by omega)] at h
    simp at h
  unfold planesOf lsOf
  rw [List.getElem?_zipWith, h, List.getElem?_map, List.getElem?_range hi]
  rfl

/-- The MCU of the loop: the planes grow by the buffer decoded. -/
theorem dequantBuf {cfg : Cfg} {W H : Nat} {cs : List Component} {qts : List (Option (List Nat))}
    (hg : ∀ c ∈ cs, PlaneGeom W H c) (bufs : List (List (List Int))) (b : List (List Int))
    (hk : bufs.length < W * H) {planes' : List (List (Option UInt8))}
    (h : dequantComponents cfg qts (bufs.length % W) (bufs.length / W) cs
      (planesOf W (quantOf qts) cs (lsOf cs bufs)) b = .ok planes') :
    planes' = planesOf W (quantOf qts) cs (lsOf cs (bufs ++ [b])) ∧
      (∀ c ∈ cs, ∃ q, qts[c.tq]? = some (some q)) ∧ mcuBlocks cs ≤ b.length := by
  have hW : 0 < W := by
    rcases Nat.eq_zero_or_pos W with h | h
    · subst h; simp at hk
    · exact h
  obtain ⟨hq, hm⟩ := dequantComponents_ok cs (by
    intro c hc
    have := (hg c hc).stride
    have := Nat.mul_pos hW (hg c hc).hpos
    omega) (planesOf_length _ _ _ _) h
  refine ⟨?_, hq, hm⟩
  rw [dequantComponents_eq cfg (quantOf qts) hk cs (lsOf cs bufs) b hg (by
    intro c hc
    obtain ⟨q, hq⟩ := hq c hc
    rw [quantOf_eq hq, hq]) (by simp [lsOf]) (by
      intro l hl
      simp only [lsOf, List.mem_map] at hl
      obtain ⟨i, _, rfl⟩ := hl
      simp) hm, ← lsOf_snoc] at h
  exact (Except.ok.inj h).symm

/-! ## Along the loop -/

theorem mcuStep_produce {cfg : Cfg} {y x : Nat} {s s' : St} {frame : Frame}
    (hf : s.dec.frame = some frame) (h : mcuStep cfg true y x s = .ok () s') :
    ∃ s1 results, decodeRow s = .ok () s1 ∧
      dequantComponents cfg s.dec.quantTables x y frame.components s.dec.scanState.results
        s1.dec.scanState.mcuRowCoefficients = .ok results ∧
      s'.dec.scanState.results = results ∧ s'.dec.frame = s.dec.frame ∧
      s'.dec.quantTables = s.dec.quantTables ∧ s'.dec.scan = s.dec.scan := by
  unfold mcuStep at h
  cases e1 : decodeRow s with
  | fail f s1 => rw [e1] at h; simp [Out.bind] at h
  | ok u s1 =>
    rw [e1, Out.bind_ok] at h
    obtain ⟨coef, preds, eob, bi, rfl⟩ := decodeRow_keeps e1
    refine ⟨⟨{ s.dec with scanState := { s.dec.scanState with
      mcuRowCoefficients := coef, dcPredictors := preds, eobRun := eob } }, bi⟩, ?_⟩
    cases e2 : restartParser cfg x y ⟨{ s.dec with scanState := { s.dec.scanState with
      mcuRowCoefficients := coef, dcPredictors := preds, eobRun := eob } }, bi⟩ with
    | fail f s2 => rw [e2] at h; simp [Out.bind] at h
    | ok u s2 =>
      rw [e2, Out.bind_ok, if_pos rfl] at h
      have hk : s2.dec.frame = s.dec.frame ∧ s2.dec.quantTables = s.dec.quantTables ∧
          s2.dec.scan = s.dec.scan ∧ s2.dec.scanState.results = s.dec.scanState.results ∧
          s2.dec.scanState.mcuRowCoefficients = coef := by
        unfold restartParser at e2
        split at e2
        · split at e2
          · simp at e2
          · simp only at e2
            split at e2
            · simp at e2
            · split at e2
              · split at e2
                · simp at e2
                · unfold handleRestart at e2
                  split at e2
                  · simp only at e2
                    split at e2
                    · simp at e2
                    · simp only [Out.ok.injEq, true_and] at e2
                      subst e2
                      exact ⟨rfl, rfl, rfl, rfl, rfl⟩
                  · simp at e2
              · simp only [Out.ok.injEq, true_and] at e2
                subst e2
                exact ⟨rfl, rfl, rfl, rfl, rfl⟩
        · simp only [Out.ok.injEq, true_and] at e2
          subst e2
          exact ⟨rfl, rfl, rfl, rfl, rfl⟩
      obtain ⟨k1, k2, k3, k4, k5⟩ := hk
      split at h
      · rename_i d hd
        simp only [Out.ok.injEq, true_and] at h
        unfold dequantize at hd
        rw [k1, hf] at hd
        simp only at hd
        split at hd
        · simp at hd
        · simp at hd
        · split at hd
          · simp at hd
          · rename_i results hr
            simp only [Out.ok.injEq, true_and] at hd
            rw [k2, k4, k5] at hr
            subst hd
            subst h
            exact ⟨results, rfl, hr, rfl, hf.symm, k2, k3⟩
      · simp at h

/-- The planes after the first `k` MCUs of a scan are those of the coefficient buffers decoded. -/
theorem mcuLoop_planes {cfg : Cfg} {s : St} {frame : Frame} {s0 : St} (hgeo : FrameGeometry frame)
    (hf : s.dec.frame = some frame) (h0 : scanInit true s = .ok () s0) (k : Nat) :
    ∀ s1, k ≤ frame.mcuSize.width * frame.mcuSize.height →
      mcuLoop cfg true ((mcuList frame.mcuSize).take k) s0 = .ok () s1 →
      s1.dec.frame = some frame ∧ s1.dec.quantTables = s.dec.quantTables ∧ s1.dec.scan = s.dec.scan ∧
      ∃ bufs : List (List (List Int)), bufs.length = k ∧
        s1.dec.scanState.results = planesOf frame.mcuSize.width (quantOf s.dec.quantTables)
          frame.components (lsOf frame.components bufs) ∧
        (0 < k → (∀ c ∈ frame.components, ∃ q, s.dec.quantTables[c.tq]? = some (some q))) ∧
        ∀ j b, bufs[j]? = some b → mcuBlocks frame.components ≤ b.length ∧ ∃ s2 s3,
          mcuLoop cfg true ((mcuList frame.mcuSize).take j) s0 = .ok () s2 ∧
          decodeRow s2 = .ok () s3 ∧ s3.dec.scanState.mcuRowCoefficients = b := by
  obtain ⟨_, _, hmax, vmax, _, _, hsize, hcg⟩ := hgeo
  have hpg : ∀ c ∈ frame.components, PlaneGeom frame.mcuSize.width frame.mcuSize.height c := by
    intro c hc
    rw [hsize]
    exact PlaneGeom.of (hcg c hc)
  induction k with
  | zero =>
    intro s1 _ e
    simp only [List.take_zero, mcuLoop, Out.ok.injEq, true_and] at e
    subst e
    obtain ⟨frame', scan, results, hf', hs', rfl, hr⟩ := scanInit_ok h0
    rw [hf] at hf'
    obtain rfl := Option.some.inj hf'
    refine ⟨hf, rfl, rfl, [], rfl, ?_, by simp, by simp⟩
    rw [lsOf_nil, planesOf_init]
    exact (hr rfl).1
  | succ k ih =>
    intro s1 hk e
    have hl : (mcuList frame.mcuSize)[k]? = some (mcuCoord frame.mcuSize k) := by
      rw [mcuList_eq, List.getElem?_map, List.getElem?_range (by omega)]; rfl
    rw [List.take_add_one, hl, Option.toList_some, mcuLoop_append] at e
    cases e1 : mcuLoop cfg true ((mcuList frame.mcuSize).take k) s0 with
    | fail f s' => rw [e1] at e; simp [Out.bind] at e
    | ok u sk =>
      rw [e1, Out.bind_ok] at e
      obtain ⟨i1, i2, i3, bufs, i4, i5, i6, i7⟩ := ih sk (by omega) e1
      simp only [mcuLoop, mcuCoord] at e
      cases e2 : mcuStep cfg true (k / frame.mcuSize.width) (k % frame.mcuSize.width) sk with
      | fail f s' => rw [e2] at e; simp [Out.bind] at e
      | ok u s' =>
        simp only [e2, Out.bind_ok, Out.ok.injEq, true_and] at e
        subst e
        obtain ⟨s2, results, m1, m2, m3, m4, m5, m6⟩ := mcuStep_produce i1 e2
        rw [i2, i5, ← i4] at m2
        obtain ⟨d1, d2, d3⟩ := dequantBuf hpg bufs _ (by omega) m2
        refine ⟨by rw [m4, i1], by rw [m5, i2], by rw [m6, i3],
          bufs ++ [s2.dec.scanState.mcuRowCoefficients], by simp [i4], ?_, fun _ => d2, ?_⟩
        · rw [m3, d1]
        · intro j b hj
          rcases Nat.lt_or_ge j bufs.length with hjl | hjl
          · rw [List.getElem?_append_left hjl] at hj
            exact i7 j b hj
          · rw [List.getElem?_append_right hjl] at hj
            have hj0 : j = k := by
              by_contra hne
              rw [List.getElem?_eq_none (by simp; omega)] at hj
              simp at hj
            subst hj0
            rw [i4, Nat.sub_self] at hj
            simp only [List.getElem?_cons_zero, Option.some.injEq] at hj
            subst hj
            exact ⟨d3, sk, s2, e1, m1, rfl⟩

/-! ## Well-formed scans -/

/-- The coefficient buffer of an MCU. -/
def mcuBuf (m : Mcu) : List (List Int) := padBlocks (m.flatten.map BlockData.block)

theorem splitBlocks_mcu : ∀ (cs : List Component) (m : Mcu) (pad : List (List Int)),
    m.map List.length = cs.map (fun c => c.v * c.h) →
    splitBlocks cs (m.flatten.map BlockData.block ++ pad) = m.map (·.map BlockData.block) := by
  intro cs
  induction cs with
  | nil => intro m pad h; cases m with
    | nil => rfl
    | cons _ _ => simp at h
  | cons c cs ih =>
    intro m pad h
    cases m with
    | nil => simp at h
    | cons bs m =>
      simp only [List.map_cons, List.cons.injEq] at h
      have hl : (bs.map BlockData.block).length = c.v * c.h := by simp [h.1]
      rw [splitBlocks, List.flatten_cons, List.map_append, List.append_assoc, ← hl,
        List.take_left, List.drop_left, ih m pad h.2, List.map_cons]

theorem padBlocks_length (l : List (List Int)) : l.length ≤ (padBlocks l).length := by
  simp [padBlocks]

theorem dequantAll_planes {cfg : Cfg} {d : Decoder} {frame : Frame} {W H : Nat}
    (hsize : frame.mcuSize = ⟨W, H⟩) (hg : ∀ c ∈ frame.components, PlaneGeom W H c)
    (hq : ∀ c ∈ frame.components, ∃ q, d.quantTables[c.tq]? = some (some q)) :
    ∀ (ms : List Mcu) (bufs : List (List (List Int))),
    (∀ m ∈ ms, m.map List.length = frame.components.map (fun c => c.v * c.h)) →
    bufs.length + ms.length ≤ W * H →
    dequantAll cfg true d frame bufs.length ms (planesOf W (quantOf d.quantTables) frame.components
      (lsOf frame.components bufs)) = .ok (planesOf W (quantOf d.quantTables) frame.components
        (lsOf frame.components (bufs ++ ms.map mcuBuf))) := by
  intro ms
  induction ms with
  | nil => intro bufs _ _; simp [dequantAll]
  | cons m ms ih =>
    intro bufs hm hk
    rw [List.length_cons] at hk
    have hlen : mcuBlocks frame.components ≤ (mcuBuf m).length := by
      unfold mcuBlocks mcuBuf
      refine le_trans ?_ (padBlocks_length _)
      rw [← hm m (by simp), List.length_map, List.length_flatten]
    have hstep : dequantStep cfg true d frame bufs.length m (planesOf W (quantOf d.quantTables)
        frame.components (lsOf frame.components bufs)) = .ok (planesOf W (quantOf d.quantTables)
        frame.components (lsOf frame.components (bufs ++ [mcuBuf m]))) := by
      unfold dequantStep
      rw [if_pos rfl, hsize, lsOf_snoc]
      have hk1 : bufs.length < W * H := by omega
      exact dequantComponents_eq cfg (quantOf d.quantTables) hk1 _ _ (mcuBuf m) hg (by
        intro c hc
        obtain ⟨q, hq⟩ := hq c hc
        rw [quantOf_eq hq, hq]) (by simp [lsOf]) (by
          intro l hl
          simp only [lsOf, List.mem_map] at hl
          obtain ⟨i, _, rfl⟩ := hl
          simp) hlen
    have hrec := ih (bufs ++ [mcuBuf m]) (fun m hm' => hm m (by simp [hm'])) (by simp; omega)
    rw [dequantAll, hstep]
    simp only [List.length_append, List.length_singleton, List.append_assoc, List.singleton_append] at hrec
    rw [List.map_cons]
    exact hrec

end Jpeg
