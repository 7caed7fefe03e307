import Verif.Proofs.UpsampleFrame
/-!
# The image as a function of the planes
-/

namespace Jpeg
open Spec

/-- One line of `W` pixels, from the values of its components. -/
def convLine (f : ColorConvertFunc) (W : Nat) (val : Nat → Nat → UInt8) : List UInt8 :=
  match f with
  | .null => List.replicate (3 * W) 0
  | .ycbcr => (List.range W).flatMap fun x => rgbPixel (val 0 x) (val 1 x) (val 2 x)
  | .ycck => []
  | .cmyk => (List.range W).flatMap fun x => [255 - val 0 x, 255 - val 1 x, 255 - val 2 x, 255 - val 3 x]

/-- Values of a row by component number. -/
def rowVals (us : List Upsample) (W : Nat) (cs : List Component) (planes : List (List UInt8)) (row : Nat)
    (i x : Nat) : UInt8 :=
  match us[i]?, cs[i]?, planes[i]? with
  | some u, some c, some p => UInt8.ofNat (rowValue u W c p row x)
  | _, _, _ => 0

theorem rowVals_eq {us : List Upsample} {W : Nat} {cs : List Component} {planes : List (List UInt8)}
    {row i : Nat} {u : Upsample} {c : Component} {p : List UInt8} (h1 : us[i]? = some u)
    (h2 : cs[i]? = some c) (h3 : planes[i]? = some p) (x : Nat) :
    rowVals us W cs planes row i x = UInt8.ofNat (rowValue u W c p row x) := by
  unfold rowVals
  rw [h1, h2, h3]

theorem convert_panics {f : ColorConvertFunc} {line : List UInt8} {colors : List (List UInt8)} {e : Fail}
    (h : f.convert line colors = .error e) : ∃ p, e = .panic p := by
  have hy : ∀ d a b c e, ycbcrGo d a b c = .error e → ∃ p, e = .panic p := by
    intro d a b c
    fun_induction ycbcrGo d a b c with
    | case1 _ _ _ d y ys cb cbs cr crs f hf => rw [ycbcrToRgb_eq] at hf; simp at hf
    | case2 _ _ _ d y ys cb cbs cr crs r g b h f hf ih => intro e h; injection h with h; subst h; exact ih _ hf
    | case3 => intro e h; simp at h
    | case4 => intro e h; simp at h
  have hk : ∀ d a b c e, ycckGo d a b c = .error e → ∃ p, e = .panic p := by
    intro d a b c
    fun_induction ycckGo d a b c with
    | case1 _ _ _ _ d y ys cb cbs cr crs f hf => rw [ycbcrToRgb_eq] at hf; simp at hf
    | case2 _ _ _ _ d y ys cb cbs cr crs r g b h f hf ih => intro e h; injection h with h; subst h; exact ih _ hf
    | case3 => intro e h; simp at h
    | case4 => intro e h; simp at h
  unfold ColorConvertFunc.convert at h
  split at h
  · simp at h
  · split at h
    · exact hy _ _ _ _ _ h
    · injection h with h; exact ⟨_, h.symm⟩
  · split at h
    · exact hk _ _ _ _ _ h
    · injection h with h; exact ⟨_, h.symm⟩
  · split at h
    · simp at h
    · injection h with h; exact ⟨_, h.symm⟩

theorem list3 {α : Type} {l : List α} (h : l.length = 3) : ∃ a b c, l = [a, b, c] := by
  match l, h with
  | [a, b, c], _ => exact ⟨a, b, c, rfl⟩

theorem list4 {α : Type} {l : List α} (h : l.length = 4) : ∃ a b c d, l = [a, b, c, d] := by
  match l, h with
  | [a, b, c, d], _ => exact ⟨a, b, c, d, rfl⟩

theorem flatMap_congr_range {n : Nat} {f g : Nat → List UInt8} (h : ∀ x, x < n → f x = g x) :
    (List.range n).flatMap f = (List.range n).flatMap g := by
  rw [List.flatMap_def, List.flatMap_def]
  congr 1
  exact List.map_congr_left fun x hx => h x (List.mem_range.mp hx)

theorem convert_row {W Ht H V row n : Nat} {us : List Upsample} {cs : List Component}
    {planes lines : List (List UInt8)} (hc : CompsOk W Ht H V us cs planes) {ct : Option AdobeColorTransform}
    {f : ColorConvertFunc} (hn : cs.length = n) (hf : chooseColorConvert n ct = .ok f) (hk : f ≠ .ycck)
    (hl : RowLines W row us cs planes lines)
    {line : List UInt8} (hline : if f = .null then line = List.replicate (3 * W) 0 else line.length = W * n) :
    f.convert line lines = .ok (convLine f W (rowVals us W cs planes row)) := by
  obtain ⟨h1, h2⟩ := hc.length
  obtain ⟨l1, l2⟩ := hl
  have get : ∀ i, i < cs.length → ∃ l : List UInt8, lines[i]? = some l ∧ W ≤ l.length ∧ ∀ x, x < W →
      l.getD x 0 = rowVals us W cs planes row i x := by
    intro i hi
    have g1 := List.getElem?_eq_getElem (l := us) (i := i) (by omega)
    have g2 := List.getElem?_eq_getElem (l := cs) (i := i) hi
    have g3 := List.getElem?_eq_getElem (l := planes) (i := i) (by omega)
    obtain ⟨l, e, hw, hv⟩ := l2 i _ _ _ g1 g2 g3
    exact ⟨l, e, hw, fun x hx => by rw [hv x hx, rowVals_eq g1 g2 g3]⟩
  unfold chooseColorConvert at hf
  split at hf
  · -- three components
    obtain ⟨a, b, c, rfl⟩ := list3 (l1.trans hn)
    obtain ⟨_, e0, w0, v0⟩ := get 0 (by omega)
    obtain ⟨_, e1, w1, v1⟩ := get 1 (by omega)
    obtain ⟨_, e2, w2, v2⟩ := get 2 (by omega)
    simp only [List.getElem?_cons_zero, List.getElem?_cons_succ, Option.some.injEq] at e0 e1 e2
    subst e0 e1 e2
    split at hf
    · injection hf with hf
      subst hf
      rw [if_pos rfl] at hline
      rw [hline]; rfl
    · injection hf with hf
      subst hf
      rw [if_neg (by simp)] at hline
      show ycbcrGo _ _ _ _ = _
      rw [ycbcrGo_eq W _ _ _ _ (by omega) w0 w1 w2]
      congr 1
      exact flatMap_congr_range fun x hx => by rw [v0 x hx, v1 x hx, v2 x hx]
  · -- four components
    obtain ⟨a, b, c, d, rfl⟩ := list4 (l1.trans hn)
    obtain ⟨_, e0, w0, v0⟩ := get 0 (by omega)
    obtain ⟨_, e1, w1, v1⟩ := get 1 (by omega)
    obtain ⟨_, e2, w2, v2⟩ := get 2 (by omega)
    obtain ⟨_, e3, w3, v3⟩ := get 3 (by omega)
    simp only [List.getElem?_cons_zero, List.getElem?_cons_succ, Option.some.injEq] at e0 e1 e2 e3
    subst e0 e1 e2 e3
    split at hf
    · injection hf with hf
      subst hf
      rw [if_neg (by simp)] at hline
      show Except.ok _ = _
      rw [cmykGo_eq W _ _ _ _ _ (by omega) w0 w1 w2 w3]
      congr 1
      exact flatMap_congr_range fun x hx => by rw [v0 x hx, v1 x hx, v2 x hx, v3 x hx]
    · injection hf with hf; exact absurd hf.symm hk
    · simp at hf
  · simp at hf

/-- The state before `upsample`: an accepted frame, complete planes. -/
structure Decoded (d : Decoder) (frame : Frame) : Prop where
  has : d.frame = some frame
  geo : FrameGeometry frame
  planes : List.Forall₂ (fun (plane : List UInt8) (c : Component) => plane.length = c.lineStride * (8 * c.blockSize.height)) d.planes
    frame.components

theorem planeSize_eq {W Ht H V : Nat} {c : Component} (g : ComponentGeometry W Ht H V c) :
    planeSize c = c.lineStride * (8 * c.blockSize.height) := by
  unfold planeSize Dim.area BLOCK_SIZE
  rw [g.blocks, g.lineStride]
  ring

theorem compsOk_of {W Ht H V : Nat} : ∀ {us : List Upsample} {cs : List Component}
    {planes : List (List UInt8)},
    List.Forall₂ (fun u c => chooseUpsampler (c.h, c.v) (H, V) ⟨W, Ht⟩ = .ok u) us cs →
    List.Forall₂ (fun (plane : List UInt8) (c : Component) => plane.length = c.lineStride * (8 * c.blockSize.height)) planes cs →
    (∀ c ∈ cs, ComponentGeometry W Ht H V c ∧ c.h ≤ H ∧ c.v ≤ V) → CompsOk W Ht H V us cs planes := by
  intro us cs planes h1
  induction h1 generalizing planes with
  | nil => intro h2 _; cases h2; exact .nil
  | cons hu _ ih =>
    intro h2 h3
    cases h2 with
    | cons hp h2 =>
      obtain ⟨g, a, b⟩ := h3 _ List.mem_cons_self
      exact .cons ⟨g, a, b, hu, by rw [hp, planeSize_eq g]⟩ (ih h2 fun c hc => h3 c (by simp [hc]))

theorem Decoded.comps {d : Decoder} {frame : Frame} (h : Decoded d frame) {ucs : List UpsamplerComponent}
    (hu : upsamplerNew frame.components ⟨frame.samplesPerLine, frame.lines⟩ = .ok ucs) :
    ∃ H V us, Largest (·.h) frame.components H ∧ Largest (·.v) frame.components V ∧
      frame.maxV = .ok V ∧ 1 ≤ V ∧ ucs = compsOf us frame.components ∧
      CompsOk frame.samplesPerLine frame.lines H V us frame.components d.planes ∧ us.length ≤ 4 := by
  obtain ⟨_, _, H, V, hH, hV, _, hg⟩ := h.geo
  unfold upsamplerNew at hu
  split at hu
  · rename_i H' V' e1 e2
    have hH' := hH.unique (listMax?_largest _ _ _ e1)
    have hV' := hV.unique (listMax?_largest _ _ _ e2)
    subst hH' hV'
    simp only [bind, Except.bind, pure, Except.pure] at hu
    split at hu
    · simp at hu
    · rename_i ucs' hucs
      split at hu
      · simp at hu
      · rename_i hlen
        injection hu with hu
        subst hu
        obtain ⟨us, rfl, hf⟩ := upsamplerComponents_ok hucs
        have hc := compsOk_of hf h.planes fun c hc => ⟨hg c hc, hH.1 c hc, hV.1 c hc⟩
        refine ⟨H, V, us, hH, hV, by unfold Frame.maxV; rw [e2], ?_, rfl, hc, ?_⟩
        · obtain ⟨c, hc, e⟩ := hV.2
          have := (hg c hc).factors
          simp only at e
          omega
        · have := hc.length
          unfold compsOf at hlen
          rw [List.length_zipWith] at hlen
          unfold MAX_COMPONENTS at hlen
          omega
  · simp at hu

theorem replicate_flatten (n m : Nat) : (List.replicate n (List.replicate m (0 : UInt8))).flatten =
    List.replicate (n * m) 0 := by
  simp

theorem rowOf_last {cfg : Cfg} {V y : Nat} (hV : 2 ≤ V) {k : Nat} (hk : 8 ≤ 8 * (k * V))
    (hy : y < 8 * (k * V)) : rowOf cfg V y + 1 ≠ 8 * (k * V) := by
  unfold rowOf
  split
  · intro h
    have h2 := Nat.div_mul_le_self y V
    have h3 : (y / V) * 2 ≤ y / V * V := Nat.mul_le_mul_left _ hV
    omega
  · intro h
    have h1 : (y / V * V + 1) % V = 0 := by
      rw [h, show 8 * (k * V) = 8 * k * V by ring]; exact Nat.mul_mod_left _ _
    rw [Nat.mul_comm, Nat.mul_add_mod, Nat.mod_eq_of_lt (by omega)] at h1
    omega

/-- When the 2x1 upsampler fits at all rows that are used. -/
theorem rowFits_of {cfg : Cfg} {W Ht H V : Nat} {u : Upsample} {c : Component} {plane : List UInt8}
    (hc : CompOk W Ht H V u c plane) (hW : 1 ≤ W)
    (hgood : 2 * c.h = H → (c.v = V ∨ Ht = 1) → W ≠ 1 →
      W % 2 = 0 ∧ (V = 1 → Ht % 8 = 0 → W ≤ 8 * c.h)) {y : Nat} (hy : y < Ht) :
    RowFits u W c (rowOf cfg V y) := by
  rintro rfl
  have F := Facts.of hc.geom hc.hle hc.vle hW (by omega)
  obtain ⟨f1, f2, f3, f4⟩ := hc.geom.factors
  have hr8 := F.rows8
  have hhl := F.h_le
  have hV := hc.vle
  have : ¬ ((c.h = H ∨ W = 1) ∧ (c.v = V ∨ Ht = 1)) ∧ c.h * 2 = H ∧ (c.v = V ∨ Ht = 1) := by
    rcases chooseUpsampler_cases hc.choose with ⟨h, _⟩ | ⟨_, h⟩ | ⟨h, _⟩ | ⟨h, _⟩ | ⟨h, _⟩ <;>
      first | exact h | exact absurd h (by simp)
  obtain ⟨h1, h2, h3⟩ := this
  obtain ⟨g1, g2⟩ := hgood (by omega) h3 (by intro h; exact h1 ⟨Or.inr h, h3⟩)
  refine ⟨g1, ?_⟩
  intro hlast
  have hyR : rowOf cfg V y ≤ y := by
    have := Nat.div_mul_le_self y V
    have := Nat.div_le_self y V
    unfold rowOf; split <;> omega
  rcases h3 with h3 | h3
  · have hsz := F.fullH h3
    by_cases hV1 : V = 1
    · apply g2 hV1
      have := F.whole h3 (by omega)
      rw [hV1] at this
      exact this
    · exfalso
      rw [hc.geom.blocks, h3] at hlast hr8 hhl
      exact rowOf_last (by omega) hr8 (by simp only at hhl; omega) hlast
  · omega

/-- And when not. -/
theorem rowFits_not {cfg : Cfg} {W Ht H V : Nat} {u : Upsample} {c : Component} {plane : List UInt8}
    (hc : CompOk W Ht H V u c plane) (hW : 1 ≤ W) (hHt : 1 ≤ Ht)
    (hbad : 2 * c.h = H ∧ (c.v = V ∨ Ht = 1) ∧ W ≠ 1 ∧
      (W % 2 = 1 ∨ (V = 1 ∧ Ht % 8 = 0 ∧ 8 * c.h < W))) :
    ∃ y, y < Ht ∧ ¬ RowFits u W c (rowOf cfg V y) := by
  have F := Facts.of hc.geom hc.hle hc.vle hW hHt
  obtain ⟨f1, f2, f3, f4⟩ := hc.geom.factors
  obtain ⟨b1, b2, b3, b4⟩ := hbad
  have hu : u = .h2v1 := by
    rcases chooseUpsampler_cases hc.choose with ⟨_, h⟩ | ⟨h, _⟩ | ⟨_, _, h, _⟩ | ⟨_, _, h, _⟩ | ⟨_, _, h, _⟩ <;>
      first | exact h | omega
  subst hu
  rcases b4 with b4 | ⟨b4, b5, b6⟩
  · exact ⟨0, by omega, fun h => by have := (h rfl).1; omega⟩
  · refine ⟨Ht - 1, by omega, fun h => ?_⟩
    have hv : c.v = V := by
      rcases b2 with b2 | b2
      · exact b2
      · omega
    have := F.whole' hv (by rw [b4]; exact b5)
    have hr : rowOf cfg V (Ht - 1) = Ht - 1 := by
      unfold rowOf; rw [b4]; simp
    have := (h rfl).2 (by omega)
    omega

theorem convLine_length (f : ColorConvertFunc) (W : Nat) (val : Nat → Nat → UInt8) (ct : Option AdobeColorTransform)
    (n : Nat) (hf : chooseColorConvert n ct = .ok f) (hk : f ≠ .ycck) : (convLine f W val).length = W * n := by
  unfold convLine
  unfold chooseColorConvert at hf
  split at hf
  · split at hf
    · injection hf with hf; subst hf; simp [Nat.mul_comm]
    · injection hf with hf; subst hf
      simp [rgbPixel, List.length_flatMap]
  · split at hf
    · injection hf with hf; subst hf
      simp [List.length_flatMap]
    · injection hf with hf; exact absurd hf.symm hk
    · simp at hf
  · simp at hf

/-- Everything between the planes and the image. -/
theorem upsample_eq {cfg : Cfg} {d : Decoder} {frame : Frame} (h : Decoded d frame)
    {f : ColorConvertFunc} (hf : chooseColorConvert frame.components.length d.colorTransform = .ok f)
    (hk : f ≠ .ycck) {H V : Nat} {us : List Upsample} (hv : frame.maxV = .ok V) (hV1 : 1 ≤ V)
    (hu : upsamplerNew frame.components ⟨frame.samplesPerLine, frame.lines⟩ =
      .ok (compsOf us frame.components))
    (hc : CompsOk frame.samplesPerLine frame.lines H V us frame.components d.planes)
    (h4 : us.length ≤ 4) (hW : 1 ≤ frame.samplesPerLine)
    (hfit : ∀ y, y < frame.lines → ∀ (i : Nat) u c, us[i]? = some u → frame.components[i]? = some c →
      RowFits u frame.samplesPerLine c (rowOf cfg V y)) :
    upsample cfg d = .ok ((List.range frame.lines).flatMap fun y => convLine f frame.samplesPerLine
      (rowVals us frame.samplesPerLine frame.components d.planes (rowOf cfg V y))) := by
  have hn : frame.components.length = 3 ∨ frame.components.length = 4 := by
    unfold chooseColorConvert at hf
    split at hf
    · omega
    · omega
    · simp at hf
  have hnull : f = .null → frame.components.length = 3 := by
    rintro rfl
    unfold chooseColorConvert at hf
    split at hf
    · assumption
    · split at hf <;> simp at hf
    · simp at hf
  unfold upsample
  rw [h.has]
  simp only [hf, hu, hv]
  rw [if_neg (by
    intro h0
    rcases Nat.mul_eq_zero.mp h0 with h0 | h0 <;> omega)]
  have key := groups_ok (cfg := cfg) (f := f) (ucs := compsOf us frame.components) (planes := d.planes)
    (W := frame.samplesPerLine) (vMax := V)
    (fun line => if f = .null then line = List.replicate (3 * frame.samplesPerLine) 0
      else line.length = frame.samplesPerLine * frame.components.length)
    (BufsOk frame.samplesPerLine us)
    (fun row => convLine f frame.samplesPerLine
      (rowVals us frame.samplesPerLine frame.components d.planes row)) frame.lines hV1
    (by
      intro y hy bufs hb
      have hrow : rowOf cfg V y < frame.lines := by
        have := Nat.div_mul_le_self y V
        have := Nat.div_le_self y V
        unfold rowOf; split <;> omega
      obtain ⟨lines, bufs', e, hb', hl⟩ := rowGo_ok hc hW hrow (hfit y hy) bufs hb
      refine ⟨lines, bufs', ?_, hb', ?_⟩
      · unfold upsampleAndInterleaveRow
        rw [if_neg, e]
        rintro ⟨_, hne⟩
        have := hc.length
        unfold compsOf at hne
        rw [List.length_zipWith] at hne
        omega
      · intro line hline
        exact convert_row hc rfl hf hk hl hline)
    (frame.lines + 1) 0 (List.replicate 4 [])
    (List.replicate frame.lines (List.replicate (frame.samplesPerLine * frame.components.length) 0))
    (by simp) (BufsOk.init _ _ _ h4)
    (by
      intro l hl
      rw [(List.mem_replicate.mp hl).2]
      split
      · rename_i hfn
        rw [hnull hfn, Nat.mul_comm]
      · simp)
    (by right; simp)
  rw [Nat.zero_mul] at key
  rw [key]
  simp only [List.length_replicate, Nat.zero_add]
  rfl

theorem upsample_panics {cfg : Cfg} {d : Decoder} {frame : Frame} (h : Decoded d frame)
    {f : ColorConvertFunc} (hf : chooseColorConvert frame.components.length d.colorTransform = .ok f)
    {H V : Nat} {us : List Upsample} (hv : frame.maxV = .ok V) (hV1 : 1 ≤ V)
    (hu : upsamplerNew frame.components ⟨frame.samplesPerLine, frame.lines⟩ =
      .ok (compsOf us frame.components))
    (hc : CompsOk frame.samplesPerLine frame.lines H V us frame.components d.planes)
    (h4 : us.length ≤ 4) (hW : 1 ≤ frame.samplesPerLine) {y : Nat} (hy : y < frame.lines)
    (hbad : ∃ (i : Nat) (u : Upsample) (c : Component), us[i]? = some u ∧ frame.components[i]? = some c ∧
      ¬ RowFits u frame.samplesPerLine c (rowOf cfg V y)) :
    ∃ p, upsample cfg d = .error (.panic p) := by
  have hn : frame.components.length ≠ 0 := by
    unfold chooseColorConvert at hf
    split at hf
    · omega
    · omega
    · simp at hf
  unfold upsample
  rw [h.has]
  simp only [hf, hu, hv]
  rw [if_neg (by
    intro h0
    rcases Nat.mul_eq_zero.mp h0 with h0 | h0 <;> omega)]
  have hrow : ∀ y, y < frame.lines → rowOf cfg V y < frame.lines := by
    intro y hy
    have := Nat.div_mul_le_self y V
    have := Nat.div_le_self y V
    unfold rowOf; split <;> omega
  have hgo : ∀ bufs row, upsampleAndInterleaveRow cfg (compsOf us frame.components) d.planes bufs row
      frame.samplesPerLine = upsampleRowGo row frame.samplesPerLine (compsOf us frame.components) d.planes
        bufs := by
    intro bufs row
    unfold upsampleAndInterleaveRow
    rw [if_neg]
    rintro ⟨_, hne⟩
    have := hc.length
    unfold compsOf at hne
    rw [List.length_zipWith] at hne
    omega
  obtain ⟨p, key⟩ := groups_panics (cfg := cfg) (f := f) (ucs := compsOf us frame.components)
    (planes := d.planes) (W := frame.samplesPerLine) (vMax := V) (BufsOk frame.samplesPerLine us)
    frame.lines y hV1 (fun _ _ _ h => convert_panics h)
    (by
      intro y hy bufs hb
      rw [hgo]
      by_cases hfit : ∀ (i : Nat) u c, us[i]? = some u → frame.components[i]? = some c →
          RowFits u frame.samplesPerLine c (rowOf cfg V y)
      · obtain ⟨lines, bufs', e, hb', hl⟩ := rowGo_ok hc hW (hrow y hy) hfit bufs hb
        exact Or.inr ⟨lines, bufs', e, hb'⟩
      · left
        refine rowGo_panics hc hW (hrow y hy) ?_ bufs hb
        by_contra hn
        exact hfit fun i u c h1 h2 => by
          by_contra h3
          exact hn ⟨i, u, c, h1, h2, h3⟩)
    (by
      intro bufs hb
      rw [hgo]
      exact rowGo_panics hc hW (hrow y hy) hbad bufs hb)
    (frame.lines + 1) 0 (List.replicate 4 [])
    (List.replicate frame.lines (List.replicate (frame.samplesPerLine * frame.components.length) 0))
    (BufsOk.init _ _ _ h4) (by omega) (by simpa using hy) (by simp)
  rw [Nat.zero_mul] at key
  rw [key]
  exact ⟨p, rfl⟩

end Jpeg
