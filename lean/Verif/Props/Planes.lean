import Verif.Props.Scan
import Verif.Proofs.Planes
/-!
# C20: every sample of every plane is written, at the right place
-/

namespace Jpeg
open Spec

theorem planeOf_get {W H : Nat} {c : Component} {q : List Nat} {l : List (List (List Int))} (hl : l.length = W * H)
    (hg : PlaneGeom W H c) {p : Nat} (hp : p < planeSize c) :
    ∃ blocks, l[mcuIndex W c p]? = some blocks ∧ (planeOf W c q l)[p]? =
      some (some (sampleAt (blocks.getD (blockIndex c p) []) q (p / c.lineStride % 8)
        (p % c.lineStride % 8))) := by
  have h := mcuIndex_lt hg hp
  rw [← hl] at h
  refine ⟨l[mcuIndex W c p], List.getElem?_eq_getElem h, ?_⟩
  unfold planeOf planeFn
  rw [List.getElem?_map, List.getElem?_range hp, Option.map_some, List.getElem?_eq_getElem h]
  rfl

theorem sampleAt_get (b : List Int) (q : List Nat) {r x : Nat} (hr : r < 8) (hx : x < 8) :
    ∃ rows row, idct8x8 b q = .ok rows ∧ rows[r]? = some row ∧ row[x]? = some (sampleAt b q r x) := by
  have e := idct8x8_temp b q
  rw [idctRows_range] at e
  refine ⟨_, _, e, by rw [List.getElem?_map, List.getElem?_range hr]; rfl, ?_⟩
  unfold sampleAt
  rw [e]
  simp only [List.getD_eq_getElem?_getD, List.getElem?_map, List.getElem?_range hr, Option.map_some,
    Option.getD_some]
  rw [List.getElem?_eq_getElem]
  · rfl
  · have : ∀ a b c d e f g h, (idctRow a b c d e f g h).length = 8 := by
      intros; unfold idctRow; split <;> rfl
    rw [this]; exact hx

/-- **C20.** Take any scan that produces data and gets through all its MCUs, whatever coefficients it
decodes. Then the `i`-th plane has all its `8 * W * h` by `8 * H * v` samples written, and the sample
in row `Y`, column `X` is entry `(Y mod 8, X mod 8)` of the inverse transform (with the component's
table) of the block at block coordinates `(Y / 8, X / 8)`. That block was decoded in the MCU that
covers these coordinates: with `by = Y / 8`, `bx = X / 8` it is number
`by mod v * h + bx mod h` of the component's blocks in MCU `by / v * W + bx / h`. -/
theorem C20_every_sample_in_place (cfg : Cfg) (s s0 s1 : St) (frame : Frame)
    (hf : s.dec.frame = some frame) (hgeo : FrameGeometry frame)
    (h0 : scanInit true s = .ok () s0)
    (h1 : mcuLoop cfg true (mcuList frame.mcuSize) s0 = .ok () s1)
    (i : Nat) (c : Component) (hc : frame.components[i]? = some c) :
    ∃ plane, s1.dec.scanState.results[i]? = some plane ∧
      plane.length = (8 * (frame.mcuSize.width * c.h)) * (8 * (frame.mcuSize.height * c.v)) ∧
      ∀ Y X, Y < 8 * (frame.mcuSize.height * c.v) → X < 8 * (frame.mcuSize.width * c.h) →
        ∃ s2 q b rows row px,
          AtRestartCheck cfg true s frame (Y / 8 / c.v * frame.mcuSize.width + X / 8 / c.h) s2 ∧
          s.dec.quantTables[c.tq]? = some (some q) ∧
          s2.dec.scanState.mcuRowCoefficients[((frame.components.take i).map fun c => c.v * c.h).sum +
            (Y / 8 % c.v * c.h + X / 8 % c.h)]? = some b ∧
          idct8x8 b q = .ok rows ∧ rows[Y % 8]? = some row ∧ row[X % 8]? = some px ∧
          plane[Y * (8 * (frame.mcuSize.width * c.h)) + X]? = some (some px) := by
  have hlen : (mcuList frame.mcuSize).length = frame.mcuSize.width * frame.mcuSize.height := by
    rw [mcuList_eq]; simp
  have hmem : c ∈ frame.components := List.mem_of_getElem? hc
  obtain ⟨_, _, _, bufs, hb, hres, hq, hbuf⟩ := mcuLoop_planes hgeo hf h0 _ s1 (Nat.le_refl _)
    (by rw [← hlen, List.take_length]; exact h1)
  obtain ⟨_, _, hmax, vmax, _, _, hsize, hcg⟩ := hgeo
  have hg : PlaneGeom frame.mcuSize.width frame.mcuSize.height c := by
    rw [hsize]; exact PlaneGeom.of (hcg c hmem)
  refine ⟨_, by rw [hres]; exact planesOf_get hc, ?_, ?_⟩
  · unfold planeOf
    rw [List.length_map, List.length_range, hg.size, hg.stride, Nat.mul_assoc]
  · intro Y X hY hX
    have hst := hg.stride
    set W := frame.mcuSize.width with hW
    set H := frame.mcuSize.height with hH
    rw [← hst] at hX ⊢
    have hp : Y * c.lineStride + X < planeSize c := by
      calc Y * c.lineStride + X < Y * c.lineStride + c.lineStride := by omega
        _ = (Y + 1) * c.lineStride := by ring
        _ ≤ (8 * (H * c.v)) * c.lineStride := Nat.mul_le_mul_right _ hY
        _ = planeSize c := by rw [hg.size]; ring
    have hdiv : (Y * c.lineStride + X) / c.lineStride = Y := by
      rw [Nat.mul_comm, Nat.mul_add_div (by omega), Nat.div_eq_of_lt hX, Nat.add_zero]
    have hmod : (Y * c.lineStride + X) % c.lineStride = X := by
      rw [Nat.mul_comm, Nat.mul_add_mod, Nat.mod_eq_of_lt hX]
    obtain ⟨blocks, hbl, hpx⟩ := planeOf_get (q := quantOf s.dec.quantTables c)
      (l := bufs.map fun b => (splitBlocks frame.components b).getD i []) (by simp [hb]) hg hp
    have hidx := mcuIndex_lt hg hp
    unfold mcuIndex at hbl hidx
    unfold blockIndex at hpx
    rw [hdiv, hmod] at hbl hpx hidx
    rw [List.getElem?_map] at hbl
    cases hbk : bufs[Y / 8 / c.v * W + X / 8 / c.h]? with
    | none => rw [hbk] at hbl; simp at hbl
    | some buf =>
      rw [hbk] at hbl
      simp only [Option.map_some, Option.some.injEq] at hbl
      obtain ⟨hm, s2, s3, e1, e2, e3⟩ := hbuf _ _ hbk
      obtain ⟨q, hq⟩ := hq (Nat.zero_lt_of_lt hidx) c hmem
      obtain rfl := quantOf_eq hq
      obtain ⟨rows, row, r1, r2, r3⟩ := sampleAt_get (blocks.getD (Y / 8 % c.v * c.h + X / 8 % c.h) [])
        (quantOf s.dec.quantTables c) (Nat.mod_lt Y (by decide : 0 < 8)) (Nat.mod_lt X (by decide : 0 < 8))
      have hat : AtRestartCheck cfg true s frame (Y / 8 / c.v * W + X / 8 / c.h) s3 :=
        ⟨hf, hidx, s0, s2, h0, e1, e2⟩
      refine ⟨s3, _, _, rows, row, _, hat, hq, ?_, r1, r2, r3, hpx⟩
      clear r1 r2 r3 hpx hat e1 h0 h1 e2 hbuf hres
      rw [e3]
      have hlt : Y / 8 % c.v * c.h + X / 8 % c.h < c.v * c.h := by
        have h1 := Nat.mod_lt (Y / 8) (by have := hg.vpos; omega : 0 < c.v)
        have h2 := Nat.mod_lt (X / 8) (by have := hg.hpos; omega : 0 < c.h)
        calc Y / 8 % c.v * c.h + X / 8 % c.h < Y / 8 % c.v * c.h + c.h := by omega
          _ = (Y / 8 % c.v + 1) * c.h := by ring
          _ ≤ c.v * c.h := Nat.mul_le_mul_right _ h1
      have hsum : mcuBlocks (frame.components.take i) + c.v * c.h ≤ mcuBlocks frame.components := by
        have hi : i < frame.components.length := by
          by_contra hn
          rw [List.getElem?_eq_none (by omega)] at hc
          simp at hc
        have hci : frame.components[i] = c := by
          rw [List.getElem?_eq_getElem hi] at hc; exact Option.some.inj hc
        have := List.take_append_drop i frame.components
        conv_rhs => rw [← this]
        unfold mcuBlocks
        rw [List.map_append, List.sum_append, List.drop_eq_getElem_cons hi, hci, List.map_cons,
          List.sum_cons]
        omega
      rw [← hbl, List.getD_eq_getElem?_getD (l := splitBlocks _ _), splitBlocks_get _ _ _ _ hc,
        Option.getD_some, List.getD_eq_getElem?_getD, List.getElem?_take, if_pos hlt, List.getElem?_drop]
      show buf[mcuBlocks (frame.components.take i) + _]? = _
      rw [List.getElem?_eq_getElem (by omega)]
      rfl

theorem initPlane_all {plane : List (Option UInt8)} (h : ∀ x ∈ plane, x ≠ none) :
    ∃ p, initPlane plane = .ok p ∧ plane = p.map some := by
  induction plane with
  | nil => exact ⟨[], rfl, rfl⟩
  | cons x plane ih =>
    obtain ⟨p, e, hp⟩ := ih fun y hy => h y (by simp [hy])
    cases x with
    | none => exact absurd rfl (h none (by simp))
    | some b => exact ⟨b :: p, by rw [initPlane, e], by simp [hp]⟩

theorem takeResults_init : ∀ (hs : List ScanHeader) (results : List (List (Option UInt8))),
    (∀ plane ∈ results, ∀ x ∈ plane, x ≠ none) → takeResults hs results ≠ .error (.panic .uninit) := by
  intro hs
  induction hs with
  | nil => intro results _ h; simp [takeResults] at h
  | cons a hs ih =>
    intro results h e
    rw [takeResults] at e
    split at e
    · simp at e
    · rename_i plane hpl
      obtain ⟨p, ep, _⟩ := initPlane_all (h plane (List.mem_of_getElem? hpl))
      rw [ep] at e
      simp only at e
      split at e
      · rename_i f hf
        refine ih _ ?_ (hf.trans e)
        intro plane' hp'
        rcases List.mem_or_eq_of_mem_set hp' with h' | rfl
        · exact h plane' h'
        · simp
      · simp at e

/-- **C20** (nothing uninitialised gets out). A scan that gets through its MCUs never hands out a
plane with an unwritten sample. -/
theorem C20_no_uninitialised (cfg : Cfg) (s s0 s1 : St) (frame : Frame)
    (hf : s.dec.frame = some frame) (hgeo : FrameGeometry frame)
    (h0 : scanInit true s = .ok () s0)
    (h1 : mcuLoop cfg true (mcuList frame.mcuSize) s0 = .ok () s1) :
    (∀ plane ∈ s1.dec.scanState.results, ∀ x ∈ plane, x ≠ none) ∧
    ∀ f s', decodeScan cfg true s = .fail f s' → f ≠ .panic .uninit := by
  have hall : ∀ plane ∈ s1.dec.scanState.results, ∀ x ∈ plane, x ≠ none := by
    intro plane hp x hx
    obtain ⟨i, hi, hpi⟩ := List.getElem_of_mem hp
    have hlen : (mcuList frame.mcuSize).length = frame.mcuSize.width * frame.mcuSize.height := by
      rw [mcuList_eq]; simp
    have hn : s1.dec.scanState.results.length = frame.components.length := by
      obtain ⟨_, _, _, bufs, _, hres, _⟩ := mcuLoop_planes hgeo hf h0 _ s1 (Nat.le_refl _)
        (by rw [← hlen, List.take_length]; exact h1)
      rw [hres, planesOf_length]
    obtain ⟨plane', e1, e2, e3⟩ := C20_every_sample_in_place cfg s s0 s1 frame hf hgeo h0 h1 i
      (frame.components[i]'(by omega)) (List.getElem?_eq_getElem _)
    rw [List.getElem?_eq_getElem hi, hpi] at e1
    obtain rfl := Option.some.inj e1
    obtain ⟨p, hpl, hpx⟩ := List.getElem_of_mem hx
    generalize frame.components[i]'(by omega) = c at e2 e3
    set S := 8 * (frame.mcuSize.width * c.h) with hS
    have hS0 : 0 < S := by
      rcases Nat.eq_zero_or_pos S with h | h
      · rw [h, Nat.zero_mul] at e2; omega
      · exact h
    obtain ⟨_, _, _, _, _, px, _, _, _, _, _, _, hpx2⟩ := e3 (p / S) (p % S)
      (by rw [Nat.div_lt_iff_lt_mul hS0, Nat.mul_comm, ← e2]; exact hpl) (Nat.mod_lt _ hS0)
    rw [Nat.mul_comm, Nat.div_add_mod, List.getElem?_eq_getElem hpl, hpx] at hpx2
    rw [Option.some.inj hpx2]
    simp
  refine ⟨hall, ?_⟩
  intro f s' e
  rintro rfl
  unfold decodeScan at e
  rw [h0, Out.bind_ok] at e
  obtain ⟨frame', scan, results, hf', hs', hs0, _⟩ := scanInit_ok h0
  rw [hf] at hf'
  obtain rfl := Option.some.inj hf'
  have k1 : s0.dec.frame = some frame := by rw [hs0]; exact hf
  have k2 : s0.dec.scan = some scan := by rw [hs0]; exact hs'
  rw [k1, k2] at e
  simp only [h1, Out.bind_ok] at e
  split at e
  · rename_i f' hf'
    simp only [Out.fail.injEq] at e
    rw [e.1] at hf'
    exact takeResults_init _ _ hall hf'
  · simp at e

/-- 32 by 8 samples, two MCUs of three blocks. -/
def exampleFrame : Frame :=
  ⟨0, 8, 8, 32, ⟨2, 1⟩, [⟨1, 2, 1, 0, 2, 32, ⟨16, 8⟩, 256, ⟨4, 1⟩, ⟨32, 8⟩⟩,
    ⟨2, 1, 1, 0, 1, 16, ⟨8, 8⟩, 128, ⟨2, 1⟩, ⟨16, 8⟩⟩]⟩

theorem exampleFrame_geometry : FrameGeometry exampleFrame := by
  refine ⟨by decide, by decide, 2, 1, ⟨by decide, by decide⟩, ⟨by decide, by decide⟩, by decide, ?_⟩
  intro c hc
  simp only [exampleFrame, List.mem_cons, List.not_mem_nil, or_false] at hc
  rcases hc with rfl | rfl <;> exact ⟨by decide, by decide, by decide, by decide, by decide, by decide, by decide⟩

/-- The decoder of the example for C17, with that frame and a quantisation table. -/
def examplePlanes (dc : BaseTable) (ac : AcTable) : Decoder :=
  { exampleRst dc ac with
    frame := some exampleFrame
    quantTables := [some (List.replicate 64 8), none, none, none] }

/-- A case of C20: two intervals of one MCU with three blocks each. -/
example : ∃ s s0 s1, s.dec.frame = some exampleFrame ∧ FrameGeometry exampleFrame ∧
    scanInit true s = .ok () s0 ∧ mcuLoop ⟨true, false⟩ true (mcuList exampleFrame.mcuSize) s0 = .ok () s1 ∧
    s1.dec.scanState.results.length = 2 := by
  obtain ⟨dc, hdc⟩ := exampleTable
  obtain ⟨ac, hac⟩ := exampleAcTable
  have hu : ∀ h : ScanHeader, h.dcSel = 0 → h.acSel = 0 → UsesCodes ⟨true, false⟩
      (examplePlanes dc ac) h (exampleDc, exampleAc) :=
    fun h h1 h2 => ⟨dc, ac, by rw [h1]; rfl, by rw [h2]; rfl, hdc, hac⟩
  have hpl := dequantAll_planes (cfg := ⟨true, false⟩) (d := examplePlanes dc ac) (frame := exampleFrame)
    (W := 2) (H := 1) rfl
    (by
      intro c hc
      obtain ⟨_, _, hmax, vmax, ⟨h1, h2⟩, ⟨v1, v2⟩, hsize, hcg⟩ := exampleFrame_geometry
      have := PlaneGeom.of (hcg c hc)
      have e := hsize
      simp only [exampleFrame, Dim.mk.injEq] at e this
      rw [← e.1, ← e.2] at this
      exact this)
    (by
      intro c hc
      simp only [exampleFrame, List.mem_cons, List.not_mem_nil, or_false] at hc
      rcases hc with rfl | rfl <;> exact ⟨_, rfl⟩)
    [exampleMcu, exampleMcu] [] (by decide) (by decide)
  rw [lsOf_nil, planesOf_init] at hpl
  obtain ⟨s0, s1, h1, h2, h3, -⟩ := C17_wellformed_accepted ⟨true, false⟩ true (examplePlanes dc ac) _ _
    [(exampleDc, exampleAc), (exampleDc, exampleAc)] 1
    ⟨rfl, rfl, ⟨rfl, rfl, rfl⟩, .cons (hu _ rfl rfl) (.cons (hu _ rfl rfl) .nil), Or.inl rfl, rfl,
      by decide, by decide⟩ (by decide) [0xFF, 0xD9] ⟨0xD9, [], rfl, by decide⟩
    [[exampleMcu], [exampleMcu]] _ (.cons 1 exampleInterval (.last exampleInterval))
    (by
      unfold IntervalsOk
      rw [if_neg (by decide)]
      exact Or.inr ⟨[[exampleMcu]], [exampleMcu], rfl, by simp, by simp, by simp⟩)
    (by
      intro m hm
      have : m = exampleMcu := by simpa using hm
      subst this
      exact ⟨rfl, by decide⟩) rfl _ hpl
  exact ⟨_, s0, s1, rfl, exampleFrame_geometry, h1, h2, by rw [h3, planesOf_length]; rfl⟩

end Jpeg
