import Verif.Props.Colors
/-!
# C59: the image depends on the picture, not on how it is written down
-/

namespace Jpeg
open Spec

/-- Two files that hold the same picture: dimensions, number of components, their sampling factors and
quantisation tables, and the coefficients. Identifiers, table slots, Huffman codes, restart intervals,
segments and their order, fill bytes, padding, precision field and SOF0 or SOF1 may differ. -/
structure Spec.SamePicture (f g : BaselineFile) : Prop where
  x : f.x = g.x
  y : f.y = g.y
  comps : List.Forall₂ (fun a b : FileComponent => a.h = b.h ∧ a.v = b.v ∧ f.quantOf a = g.quantOf b) f.comps g.comps
  mcus : f.intervals.flatten = g.intervals.flatten

section

variable {cfg : Cfg} {f g : BaselineFile} {r r' H V H' V' : Nat} {codes codes' : List (Code × Code)}

theorem forall₂_map {α β γ : Type} {p : α → γ} {q : β → γ} {l : List α} {l' : List β}
    (h : List.Forall₂ (fun a b => p a = q b) l l') : l.map p = l'.map q := by
  induction h with
  | nil => rfl
  | cons h _ ih => rw [List.map_cons, List.map_cons, h, ih]

theorem Largest.congr {α β : Type} {p : α → Nat} {q : β → Nat} {l : List α} {l' : List β} {n : Nat}
    (h : List.Forall₂ (fun a b => p a = q b) l l') (hl : Largest p l n) : Largest q l' n := by
  have := (Largest.map (f := id)).2 hl
  rw [forall₂_map h] at this
  exact (Largest.map (f := id)).1 this

/-- Components the renderer cannot tell apart. -/
def Component.Alike (a b : Component) : Prop :=
  a.h = b.h ∧ a.v = b.v ∧ a.size = b.size ∧ a.blockSize = b.blockSize ∧ a.lineStride = b.lineStride

theorem upsamplerComponents_alike (mx : Nat × Nat) (out : Dim) {l l' : List Component}
    (h : List.Forall₂ Component.Alike l l') :
    upsamplerComponents mx out l = upsamplerComponents mx out l' := by
  induction h with
  | nil => rfl
  | cons h _ ih =>
    obtain ⟨h1, h2, h3, h4, -⟩ := h
    rw [upsamplerComponents, upsamplerComponents, ih, h1, h2, h3, h4]

theorem upsample_alike {a b : Decoder} {fa fb : Frame} (ha : a.frame = some fa) (hb : b.frame = some fb)
    (hx : fa.samplesPerLine = fb.samplesPerLine) (hy : fa.lines = fb.lines)
    (hc : List.Forall₂ Component.Alike fa.components fb.components) (hp : a.planes = b.planes)
    (ht : a.transform = b.transform) : upsample cfg a = upsample cfg b := by
  have e1 : fa.components.map (·.h) = fb.components.map (·.h) := forall₂_map (hc.imp fun _ _ h => h.1)
  have e2 : fa.components.map (·.v) = fb.components.map (·.v) := forall₂_map (hc.imp fun _ _ h => h.2.1)
  have e3 : fa.maxV = fb.maxV := by unfold Frame.maxV; rw [e2]
  have e4 : upsamplerNew fa.components ⟨fa.samplesPerLine, fa.lines⟩ =
      upsamplerNew fb.components ⟨fb.samplesPerLine, fb.lines⟩ := by
    unfold upsamplerNew
    rw [e1, e2, hx, hy]
    simp only [upsamplerComponents_alike _ _ hc]
  unfold upsample
  rw [ha, hb]
  simp only
  rw [hc.length_eq, transform_injective ht, e3, e4, hx, hy, hp]

theorem splitBlocks_alike {l l' : List Component} (h : List.Forall₂ Component.Alike l l')
    (chunks : List (List Int)) : splitBlocks l chunks = splitBlocks l' chunks := by
  induction h generalizing chunks with
  | nil => rfl
  | cons h _ ih =>
    obtain ⟨h1, h2, -⟩ := h
    rw [splitBlocks, splitBlocks, ih, h1, h2]

theorem planeSamples_alike {a b : Component} (h : a.Alike b) (W : Nat) (q : List Nat)
    (l : List (List (List Int))) : planeSamples W a q l = planeSamples W b q l := by
  obtain ⟨h1, h2, h3, h4, h5⟩ := h
  unfold planeSamples planeSize mcuIndex blockIndex
  rw [h1, h2, h4, h5]

theorem Spec.SamePicture.factors (h : SamePicture f g) (hv : f.Valid r H V codes) (hv' : g.Valid r' H' V' codes') :
    H = H' ∧ V = V' :=
  ⟨(Largest.congr (h.comps.imp fun _ _ h => h.1) hv.hmax).unique hv'.hmax,
    (Largest.congr (h.comps.imp fun _ _ h => h.2.1) hv.vmax).unique hv'.vmax⟩

theorem Spec.SamePicture.alike (h : SamePicture f g) (H V : Nat) :
    List.Forall₂ Component.Alike (fileFrame f H V).components (fileFrame g H V).components := by
  unfold fileFrame
  simp only
  rw [List.forall₂_map_left_iff, List.forall₂_map_right_iff]
  refine h.comps.imp fun a b hab => ?_
  obtain ⟨h1, h2, -⟩ := hab
  unfold fileComponent fullComponent rawComponent Component.Alike
  simp only
  rw [h1, h2, h.x, h.y]
  exact ⟨rfl, rfl, rfl, rfl, rfl⟩

theorem quantOf_value (hv : f.Valid r H V codes) {a : Decoder} (h1 : TablesHeld cfg f.tables a)
    {c : FileComponent} {qv : List Nat} (hq : f.quantOf c = some qv) :
    (quantOf a.quantTables (fileComponent f H V c)).length = 64 ∧
      ∀ i, i < 64 → (quantOf a.quantTables (fileComponent f H V c))[zigzag i]? = qv[i]? := by
  obtain ⟨q, e1, l1, g1⟩ := quant_uses hv.toLaid h1 hq
  rw [quantOf_eq (c := fileComponent f H V c) e1]
  exact ⟨l1, g1⟩

/-- **C59**. Two files laid out as the standard says that hold the same picture give the same result (image,
error or panic) on any two decoders, provided that the colour transform in force is the same. -/
theorem C59_same_picture (cfg : Cfg) (f g : BaselineFile) (h : SamePicture f g) (a b : Decoder)
    (ha : UsedDecoder a) (hb : UsedDecoder b) (ea : Holds cfg a f.earlier) (eb : Holds cfg b g.earlier)
    (H V H' V' : Nat) (codes codes' : List (Code × Code))
    (hv : f.Valid (f.interval a.restartInterval) H V codes)
    (hv' : g.Valid (g.interval b.restartInterval) H' V' codes')
    (ht : f.transform a.transform = g.transform b.transform) :
    (a.decode cfg f.bytes).result = (b.decode cfg g.bytes).result := by
  obtain ⟨rfl, rfl⟩ := h.factors hv hv'
  obtain ⟨a', ai, a1, a2, a3, a4, at', a7⟩ := file_decoded (cfg := cfg) ha.inv ea.held hv
  obtain ⟨b', bi, b1, b2, b3, b4, bt, b7⟩ := file_decoded (cfg := cfg) hb.inv eb.held hv'
  have hal := h.alike H V
  have hpl : a'.planes = b'.planes := by
    rw [a7, b7, h.x, h.mcus]
    apply List.ext_getElem?
    intro i
    by_cases hi : i < f.comps.length
    · have hc := List.getElem?_eq_getElem hi
      have hi' : i < g.comps.length := h.comps.length_eq ▸ hi
      have hc' := List.getElem?_eq_getElem hi'
      have hcc := (List.forall₂_iff_get.1 h.comps).2 i hi hi'
      simp only [List.get_eq_getElem] at hcc
      generalize f.comps[i] = c at hc hcc
      generalize g.comps[i] = c' at hc' hcc
      have k : (fileFrame f H V).components[i]? = some (fileComponent f H V c) := by simp [fileFrame, hc]
      have k' : (fileFrame g H V).components[i]? = some (fileComponent g H V c') := by simp [fileFrame, hc']
      rw [scanPlanes_get k, scanPlanes_get k']
      have hkk : (fileComponent f H V c).Alike (fileComponent g H V c') := by
        have i1 := (List.getElem?_eq_some_iff.1 k).1
        have i2 := (List.getElem?_eq_some_iff.1 k').1
        have := (List.forall₂_iff_get.1 hal).2 i i1 i2
        simp only [List.get_eq_getElem] at this
        rwa [(List.getElem?_eq_some_iff.1 k).2, (List.getElem?_eq_some_iff.1 k').2] at this
      have hqq : quantOf a'.quantTables (fileComponent f H V c) = quantOf b'.quantTables (fileComponent g H V c') := by
        obtain ⟨qv, hq⟩ := hv.quant c (List.mem_of_getElem? hc)
        obtain ⟨l1, g1⟩ := quantOf_value hv at' hq
        obtain ⟨l2, g2⟩ := quantOf_value hv' bt (hcc.2.2 ▸ hq)
        apply List.ext_getElem?
        intro j
        by_cases hj : j < 64
        · obtain ⟨k1, k2⟩ := zigzag_idxOf hj
          have := (g1 _ k1).trans (g2 _ k1).symm
          rwa [k2] at this
        · rw [List.getElem?_eq_none (by omega), List.getElem?_eq_none (by omega)]
      rw [hqq, planeSamples_alike hkk]
      simp only [splitBlocks_alike hal]
    · have hl := h.comps.length_eq
      rw [List.getElem?_eq_none (by simp [scanPlanes, fileFrame]; omega),
        List.getElem?_eq_none (by simp [scanPlanes, fileFrame]; omega)]
  have hup : upsample cfg a' = upsample cfg b' := upsample_alike a3.has b3.has h.x h.y hal hpl
    (a4.trans (ht.trans b4.symm))
  unfold Decoder.decode decodeParser
  unfold loopAll at a1 b1
  rw [a1, b1, Out.bind_ok, Out.bind_ok]
  simp only [hup]
  cases upsample cfg b' with
  | ok image => simp [a2, b2, Out.result]
  | error x => cases x <;> simp [a2, b2, Out.result]

end

end Jpeg
