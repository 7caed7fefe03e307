import Verif.Spec.Exact
import Verif.Props.IdctReal
import Verif.Props.Color
import Verif.Props.EndToEnd
/-!
# C63: how far a decoded picture is from the exact one
-/

namespace Jpeg
open Spec Finset

section

theorem limitReal_lip (a b : ℝ) : |limitReal a - limitReal b| ≤ |a - b| := clampReal_lip a b

/-- Rounding a weighted mean. -/
theorem div_error (n k : Nat) (m : ℝ) {e : ℝ} (hk : k = 2 ∨ k = 8) (h : |(n : ℝ) - 2 * k * m| ≤ 2 * k * e) :
    |(((n + k) / (2 * k) : Nat) : ℝ) - m| ≤ e + 1 / 2 := by
  have h1 : (((n + k) / (2 * k) : Nat) : ℝ) * (2 * k) ≤ n + k := by
    have := Nat.div_mul_le_self (n + k) (2 * k)
    exact_mod_cast this
  have h2 : (n : ℝ) + k ≤ (((n + k) / (2 * k) : Nat) : ℝ) * (2 * k) + (2 * k - 1) := by
    have : n + k < ((n + k) / (2 * k)) * (2 * k) + 2 * k := by
      have := Nat.div_add_mod (n + k) (2 * k)
      have := Nat.mod_lt (n + k) (show 2 * k > 0 by omega)
      rw [Nat.mul_comm]; omega
    have : n + k + 1 ≤ ((n + k) / (2 * k)) * (2 * k) + 2 * k := this
    have : ((n : ℝ) + k + 1) ≤ (((n + k) / (2 * k) : Nat) : ℝ) * (2 * k) + 2 * k := by exact_mod_cast this
    linarith
  generalize ((n + k) / (2 * k) : Nat) = d at h1 h2
  rw [abs_le] at h ⊢
  rcases hk with rfl | rfl <;> push_cast at h h1 h2 <;> constructor <;> linarith [h.1, h.2]

theorem tri_error {a b : Nat} {a' b' e : ℝ} (ha : |(a : ℝ) - a'| ≤ e) (hb : |(b : ℝ) - b'| ≤ e) :
    |(tri a b : ℝ) - triReal a' b'| ≤ e + 1 / 2 := by
  refine div_error (3 * a + b) 2 _ (.inl rfl) ?_
  unfold triReal
  rw [abs_le] at ha hb ⊢
  push_cast
  constructor <;> linarith [ha.1, ha.2, hb.1, hb.2]

theorem four_error {a b c d : Nat} {a' b' c' d' e : ℝ} (ha : |(a : ℝ) - a'| ≤ e) (hb : |(b : ℝ) - b'| ≤ e)
    (hc : |(c : ℝ) - c'| ≤ e) (hd : |(d : ℝ) - d'| ≤ e) :
    |(((3 * (3 * a + b) + (3 * c + d) + 8) / 16 : Nat) : ℝ) - triReal (triReal a' b') (triReal c' d')| ≤ e + 1 / 2 := by
  refine div_error (3 * (3 * a + b) + (3 * c + d)) 8 _ (.inr rfl) ?_
  unfold triReal
  rw [abs_le] at ha hb hc hd ⊢
  push_cast
  constructor <;> linarith [ha.1, ha.2, hb.1, hb.2, hc.1, hc.2, hd.1, hd.2]

/-- Upsampling rounds at most once. -/
theorem upsampled_error (x0 y0 hmax vmax ch cv w h : Nat) (f : Nat → Nat → Nat) (g : Nat → Nat → ℝ) (e : ℝ)
    (row x : Nat) (hf : ∀ r k, |(f r k : ℝ) - g r k| ≤ e) :
    |(upsampled x0 y0 hmax vmax ch cv w h f row x : ℝ) - upsampledReal x0 y0 hmax vmax ch cv w h g row x| ≤
      e + 1 / 2 := by
  have h0 : ∀ r k, |(f r k : ℝ) - g r k| ≤ e + 1 / 2 := fun r k => (hf r k).trans (by linarith)
  unfold upsampled upsampledReal
  split
  · exact h0 _ _
  split
  · unfold doubleLine doubleLineReal
    split
    · exact h0 _ _
    split
    · exact h0 _ _
    split
    · exact tri_error (hf _ _) (hf _ _)
    · exact tri_error (hf _ _) (hf _ _)
  split
  · exact tri_error (hf _ _) (hf _ _)
  split
  · unfold doubleBoth doubleBothReal doubleLineReal doubleRowsReal
    simp only
    split
    · exact tri_error (hf _ _) (hf _ _)
    split
    · exact tri_error (hf _ _) (hf _ _)
    split
    · exact four_error (hf _ _) (hf _ _) (hf _ _) (hf _ _)
    · exact four_error (hf _ _) (hf _ _) (hf _ _) (hf _ _)
  · exact h0 _ _

theorem upsampled_le (x0 y0 hmax vmax ch cv w h : Nat) (f : Nat → Nat → Nat) (row x : Nat)
    (hf : ∀ r k, f r k ≤ 255) : upsampled x0 y0 hmax vmax ch cv w h f row x ≤ 255 := by
  have ht : ∀ r k r' k', tri (f r k) (f r' k') ≤ 255 := by
    intro r k r' k'
    have := hf r k
    have := hf r' k'
    unfold tri; omega
  unfold upsampled
  split
  · exact hf _ _
  split
  · unfold doubleLine
    split
    · exact hf _ _
    split
    · exact hf _ _
    split <;> exact ht _ _ _ _
  split
  · exact ht _ _ _ _
  split
  · unfold doubleBoth
    simp only
    have a1 := hf (row / 2)
    have a2 := hf (farRow h row)
    split
    · have := a1 0; have := a2 0; omega
    split
    · have := a1 (w - 1); have := a2 (w - 1); omega
    split
    · have := a1 (x / 2); have := a2 (x / 2); have := a1 (x / 2 - 1); have := a2 (x / 2 - 1); omega
    · have := a1 (x / 2); have := a2 (x / 2); have := a1 (x / 2 + 1); have := a2 (x / 2 + 1); omega
  · exact hf _ _

variable {f : BaselineFile} {H V : Nat}

theorem coefficient_le {F : Nat → Nat → ℝ} {S : ℝ} (h : ∑ j ∈ range 8, ∑ k ∈ range 8, |F k j| ≤ S) {k j : Nat}
    (hk : k < 8) (hj : j < 8) : |F k j| ≤ S := by
  refine le_trans ?_ h
  refine le_trans ?_ (Finset.single_le_sum (f := fun j => ∑ k ∈ range 8, |F k j|)
    (fun i _ => Finset.sum_nonneg fun _ _ => abs_nonneg _) (Finset.mem_range.2 hj))
  exact Finset.single_le_sum (f := fun k => |F k j|) (fun i _ => abs_nonneg _) (Finset.mem_range.2 hk)

theorem block_error {F : Nat → Nat → Int} {S : ℝ} (h : ∑ j ∈ range 8, ∑ k ∈ range 8, |(F k j : ℝ)| ≤ S) {k j : Nat}
    (hk : k < 8) (hj : j < 8) :
    |(idctSample F k j : ℝ) - (128 + realIdct (fun k i => (F k i : ℝ)) k j)| ≤ 5 / 8 + S / 5000 :=
  (C51_fixed_point_error F k j hk hj).trans (by linarith)

theorem Spec.BaselineFile.Moderate.inRange {S : ℝ} (h : f.Moderate S (5 / 8 + S / 5000)) : f.InRange := by
  obtain ⟨hS, h⟩ := h
  intro i c q hc hq m hm bs hbs b hb
  obtain ⟨h1, h2⟩ := h i c q hc hq m hm bs hbs b hb
  constructor
  · intro k j hk hj
    have := (coefficient_le h1 hk hj).trans hS
    rw [abs_le] at this
    constructor
    · have h := this.1
      have : ((-2 ^ 16 : Int) : ℝ) ≤ dequantised q b k j := by push_cast; linarith
      exact_mod_cast this
    · have h := this.2
      have : (dequantised q b k j : ℝ) ≤ ((2 ^ 16 : Int) : ℝ) := by push_cast; linarith
      exact_mod_cast this
  · intro k j hk hj
    have e1 := block_error h1 hk hj
    have e2 := h2 k j hk hj
    rw [abs_le] at e1
    constructor
    · have : ((-256 : Int) : ℝ) ≤ idctSample (dequantised q b) k j := by push_cast; linarith [e1.1, e2.1]
      exact_mod_cast this
    · have : (idctSample (dequantised q b) k j : ℝ) ≤ ((767 : Int) : ℝ) := by push_cast; linarith [e1.2, e2.2]
      exact_mod_cast this

/-- Samples. -/
theorem sample_error {S : ℝ} (h : f.Moderate S (5 / 8 + S / 5000)) (hS : 0 ≤ S) (i Y X : Nat) :
    |((f.sample H i Y X).toNat : ℝ) - f.exactSample H i Y X| ≤ 5 / 8 + S / 5000 := by
  have h0 : |(((0 : UInt8).toNat : Nat) : ℝ) - 0| ≤ 5 / 8 + S / 5000 := by
    simp; positivity
  unfold BaselineFile.sample BaselineFile.exactSample
  cases hc : f.comps[i]? with
  | none => exact h0
  | some c =>
    simp only
    cases hb : f.blockAt H i c Y X with
    | none => exact h0
    | some b =>
      cases hq : f.quantOf c with
      | none => exact h0
      | some q =>
        simp only
        unfold BaselineFile.blockAt at hb
        obtain ⟨m, hm, hb⟩ := Option.bind_eq_some_iff.1 hb
        obtain ⟨bs, hbs, hb⟩ := Option.bind_eq_some_iff.1 hb
        obtain ⟨h1, -⟩ := h.2 i c q hc hq m (List.mem_of_getElem? hm) bs hbs b (List.mem_of_getElem? hb)
        rw [saturate_real]
        exact (limitReal_lip _ _).trans (block_error h1 (Nat.mod_lt _ (by omega)) (Nat.mod_lt _ (by omega)))

theorem upsampledSample_le (i row x : Nat) : f.upsampledSample H V i row x ≤ 255 := by
  unfold BaselineFile.upsampledSample
  split
  · omega
  · exact upsampled_le _ _ _ _ _ _ _ _ _ _ _ fun r k => by have := (f.sample H i r k).toNat_lt; omega

/-- Components. -/
theorem up_error {S : ℝ} (h : f.Moderate S (5 / 8 + S / 5000)) (hS : 0 ≤ S) (i row x : Nat) :
    |((UInt8.ofNat (f.upsampledSample H V i row x)).toNat : ℝ) - f.exactUpsampled H V i row x| ≤
      5 / 8 + S / 5000 + f.upError H V i := by
  have hle := upsampledSample_le (f := f) (H := H) (V := V) i row x
  rw [show (UInt8.ofNat (f.upsampledSample H V i row x)).toNat = f.upsampledSample H V i row x by
    rw [UInt8.toNat_ofNat']; omega]
  unfold BaselineFile.upsampledSample BaselineFile.exactUpsampled BaselineFile.upError
  cases hc : f.comps[i]? with
  | none => simp; positivity
  | some c =>
    simp only
    split
    · rename_i hf
      unfold upsampled upsampledReal
      rw [if_pos ⟨.inl hf.1, .inl hf.2⟩, if_pos ⟨.inl hf.1, .inl hf.2⟩, add_zero]
      exact sample_error h hS i row x
    · exact upsampled_error _ _ _ _ _ _ _ _ _ _ _ _ _ fun r k => sample_error h hS i r k

theorem limit_real (q : ℚ) : ((limit q : ℚ) : ℝ) = limitReal q := by
  unfold limit limitReal
  push_cast
  rfl

/-- Colours. -/
theorem color_error {y cb cr : UInt8} {Y B R e0 e1 e2 : ℝ} (hy : |(y.toNat : ℝ) - Y| ≤ e0)
    (hb : |(cb.toNat : ℝ) - B| ≤ e1) (hr : |(cr.toNat : ℝ) - R| ≤ e2) {r g b : UInt8}
    (h : ycbcrToRgb y cb cr = .ok (r, g, b)) :
    |(r.toNat : ℝ) - limitReal (Y + 1402 / 1000 * (R - 128))| ≤ 251 / 500 + (e0 + 1402 / 1000 * e2) ∧
    |(g.toNat : ℝ) - limitReal (Y - 34414 / 100000 * (B - 128) - 71414 / 100000 * (R - 128))| ≤
      251 / 500 + (e0 + 34414 / 100000 * e1 + 71414 / 100000 * e2) ∧
    |(b.toNat : ℝ) - limitReal (Y + 1772 / 1000 * (B - 128))| ≤ 251 / 500 + (e0 + 1772 / 1000 * e1) := by
  obtain ⟨r', g', b', h', h1, h2, h3⟩ := C27_accuracy y cb cr
  rw [h] at h'
  cases h'
  have cast : ∀ (n : Nat) (q : ℚ), |(n : ℚ) - limit q| ≤ 1 / 2 + 1 / 500 →
      |(n : ℝ) - limitReal q| ≤ 251 / 500 := by
    intro n q hq
    have : ((|(n : ℚ) - limit q| : ℚ) : ℝ) ≤ ((1 / 2 + 1 / 500 : ℚ) : ℝ) := by exact_mod_cast hq
    push_cast at this
    rw [← limit_real]
    refine this.trans ?_
    norm_num
  have step : ∀ (n : Nat) (q : ℚ) (E d : ℝ), |(n : ℚ) - limit q| ≤ 1 / 2 + 1 / 500 → |(q : ℝ) - E| ≤ d →
      |(n : ℝ) - limitReal E| ≤ 251 / 500 + d := by
    intro n q E d hq hd
    calc |(n : ℝ) - limitReal E| = |((n : ℝ) - limitReal q) + (limitReal q - limitReal E)| := by congr 1; ring
      _ ≤ |(n : ℝ) - limitReal q| + |limitReal q - limitReal E| := abs_add_le _ _
      _ ≤ 251 / 500 + d := add_le_add (cast n q hq) ((limitReal_lip _ _).trans hd)
  rw [abs_le] at hy hb hr
  refine ⟨?_, ?_, ?_⟩
  · refine step _ _ _ _ h1 ?_
    unfold bt601R
    push_cast
    rw [abs_le]
    constructor <;> linarith [hy.1, hy.2, hr.1, hr.2]
  · refine step _ _ _ _ h2 ?_
    unfold bt601G
    push_cast
    rw [abs_le]
    constructor <;> linarith [hy.1, hy.2, hr.1, hr.2, hb.1, hb.2]
  · refine step _ _ _ _ h3 ?_
    unfold bt601B
    push_cast
    rw [abs_le]
    constructor <;> linarith [hy.1, hy.2, hb.1, hb.2]

/-- **C63.** Every three-component file laid out as the standard says, with sampling factors this decoder can
render, whose blocks have coefficients of total magnitude at most `S`: the channels of pixel `(x, y)` differ
from those of the picture in exact arithmetic (T.81 A.3.3, linear interpolation, BT.601, no rounding) by at
most 0.502 plus the errors of the components, which are `5/8 + S/5000` each, and 1/2 more if the component is
subsampled. The row of the exact picture is `y / V * V` (`y / V` with rayon).

Missing: row `y` for vertical factors above 1, which is false (C33). -/
theorem C63_accuracy_partial (cfg : Cfg) (f : BaselineFile) (H V : Nat) (codes : List (Code × Code)) (d : Decoder)
    (hd : UsedDecoder d) (hh : Holds cfg d f.earlier) (h3 : f.comps.length = 3)
    (hct : f.transform d.transform ≠ some 0)
    (hv : f.Valid (f.interval d.restartInterval) H V codes) (hr : f.Renderable H V)
    (S e : ℝ) (hS : 0 ≤ S) (he : e = 5 / 8 + S / 5000) (hm : f.Moderate S e)
    (image : List UInt8) (d' : Decoder) (ed : d.decode cfg f.bytes = .ok image d')
    (y x : Nat) (hy : y < f.y) (hx : x < f.x) :
    let row := if cfg.rayon then y / V else y / V * V
    let err := fun i => e + f.upError H V i
    ∃ r g b : UInt8,
      image[3 * f.x * y + 3 * x]? = some r ∧
      image[3 * f.x * y + (3 * x + 1)]? = some g ∧
      image[3 * f.x * y + (3 * x + 2)]? = some b ∧
      |(r.toNat : ℝ) - f.exactRed H V row x| ≤ 251 / 500 + (err 0 + 1402 / 1000 * err 2) ∧
      |(g.toNat : ℝ) - f.exactGreen H V row x| ≤
        251 / 500 + (err 0 + 34414 / 100000 * err 1 + 71414 / 100000 * err 2) ∧
      |(b.toNat : ℝ) - f.exactBlue H V row x| ≤ 251 / 500 + (err 0 + 1772 / 1000 * err 1) := by
  intro row err
  subst he
  obtain ⟨r, g, b, h1, h2, h3, h4⟩ := C45_pixels_partial cfg f H V codes d hd hh h3 hct hv hr hm.inRange image d' ed
    y x hy hx
  exact ⟨r, g, b, h2, h3, h4, color_error (up_error hm hS 0 row x) (up_error hm hS 1 row x)
    (up_error hm hS 2 row x) h1⟩

/-- **C63** (no vertical subsampling). The exact picture in row `y`. -/
theorem C63_accuracy_own_row_partial (cfg : Cfg) (f : BaselineFile) (H : Nat) (codes : List (Code × Code)) (d : Decoder)
    (hd : UsedDecoder d) (hh : Holds cfg d f.earlier) (h3 : f.comps.length = 3)
    (hct : f.transform d.transform ≠ some 0)
    (hv : f.Valid (f.interval d.restartInterval) H 1 codes) (hr : f.Renderable H 1)
    (S e : ℝ) (hS : 0 ≤ S) (he : e = 5 / 8 + S / 5000) (hm : f.Moderate S e)
    (image : List UInt8) (d' : Decoder) (ed : d.decode cfg f.bytes = .ok image d')
    (y x : Nat) (hy : y < f.y) (hx : x < f.x) :
    let err := fun i => e + f.upError H 1 i
    ∃ r g b : UInt8,
      image[3 * f.x * y + 3 * x]? = some r ∧
      image[3 * f.x * y + (3 * x + 1)]? = some g ∧
      image[3 * f.x * y + (3 * x + 2)]? = some b ∧
      |(r.toNat : ℝ) - f.exactRed H 1 y x| ≤ 251 / 500 + (err 0 + 1402 / 1000 * err 2) ∧
      |(g.toNat : ℝ) - f.exactGreen H 1 y x| ≤
        251 / 500 + (err 0 + 34414 / 100000 * err 1 + 71414 / 100000 * err 2) ∧
      |(b.toNat : ℝ) - f.exactBlue H 1 y x| ≤ 251 / 500 + (err 0 + 1772 / 1000 * err 1) := by
  have := C63_accuracy_partial cfg f H 1 codes d hd hh h3 hct hv hr S e hS he hm image d' ed y x hy hx
  simp only [Nat.div_one, Nat.mul_one, ite_self] at this
  exact this

theorem realIdct_le {F : Nat → Nat → ℝ} {S : ℝ} (h : ∑ j ∈ range 8, ∑ k ∈ range 8, |F k j| ≤ S) (y x : Nat) :
    |realIdct F y x| ≤ S / 4 := by
  have hs : ∀ k, |dctScale k| ≤ 1 := by
    intro k
    unfold dctScale
    split
    · rw [abs_of_nonneg (by positivity), div_le_one (by positivity)]
      rw [Real.one_le_sqrt]
      norm_num
    · simp
  unfold realIdct
  rw [abs_mul, abs_of_nonneg (by norm_num : (0 : ℝ) ≤ 1 / 4)]
  have : |∑ u ∈ range 8, ∑ v ∈ range 8, dctScale u * dctScale v * F v u *
      Real.cos ((2 * x + 1) * u * Real.pi / 16) * Real.cos ((2 * y + 1) * v * Real.pi / 16)| ≤
      ∑ j ∈ range 8, ∑ k ∈ range 8, |F k j| := by
    refine (Finset.abs_sum_le_sum_abs _ _).trans (Finset.sum_le_sum fun u _ => ?_)
    refine (Finset.abs_sum_le_sum_abs _ _).trans (Finset.sum_le_sum fun v _ => ?_)
    rw [abs_mul, abs_mul, abs_mul, abs_mul]
    have h1 := Real.abs_cos_le_one ((2 * x + 1) * u * Real.pi / 16)
    have h2 := Real.abs_cos_le_one ((2 * y + 1) * v * Real.pi / 16)
    calc |dctScale u| * |dctScale v| * |F v u| * |_| * |_| ≤ 1 * 1 * |F v u| * 1 * 1 := by
          gcongr
          · exact hs u
          · exact hs v
      _ = |F v u| := by ring
  linarith

/-- The blocks have coefficients of total magnitude at most `S`. -/
def Spec.BaselineFile.SmallBlocks (f : BaselineFile) (S : Int) : Prop :=
  ∀ (i : Nat) (c : FileComponent) (q : List Nat), f.comps[i]? = some c → f.quantOf c = some q →
    ∀ m ∈ f.intervals.flatten, ∀ blocks, m[i]? = some blocks → ∀ b ∈ blocks,
      ∑ j ∈ range 8, ∑ k ∈ range 8, |dequantised q b k j| ≤ S

theorem Spec.BaselineFile.SmallBlocks.moderate (h : f.SmallBlocks 1000) :
    f.Moderate 1000 (5 / 8 + 1000 / 5000) := by
  refine ⟨by norm_num, fun i c q hc hq m hm bs hbs b hb => ?_⟩
  have h1 : ∑ j ∈ range 8, ∑ k ∈ range 8, |(dequantised q b k j : ℝ)| ≤ 1000 := by
    exact_mod_cast h i c q hc hq m hm bs hbs b hb
  refine ⟨h1, fun k j hk hj => ?_⟩
  have := realIdct_le (F := fun k j => (dequantised q b k j : ℝ)) h1 k j
  rw [abs_le] at this
  constructor <;> linarith [this.1, this.2]

/-- **C63** (full resolution). Every three-component file laid out as the standard says with all sampling
factors 1, and coefficients of total magnitude at most 1000 in each block: every channel of every pixel is
within 2.8 of the exact picture. -/
theorem C63_full_resolution (cfg : Cfg) (f : BaselineFile) (codes : List (Code × Code)) (d : Decoder)
    (hd : UsedDecoder d) (hh : Holds cfg d f.earlier) (h3 : f.comps.length = 3)
    (hct : f.transform d.transform ≠ some 0)
    (hv : f.Valid (f.interval d.restartInterval) 1 1 codes) (hs : f.SmallBlocks 1000) :
    ∃ image d', d.decode cfg f.bytes = .ok image d' ∧ image.length = f.x * f.y * 3 ∧
      ∀ y x, y < f.y → x < f.x → ∃ r g b : UInt8,
        image[3 * f.x * y + 3 * x]? = some r ∧
        image[3 * f.x * y + (3 * x + 1)]? = some g ∧
        image[3 * f.x * y + (3 * x + 2)]? = some b ∧
        |(r.toNat : ℝ) - f.exactRed 1 1 y x| ≤ 14 / 5 ∧
        |(g.toNat : ℝ) - f.exactGreen 1 1 y x| ≤ 14 / 5 ∧
        |(b.toNat : ℝ) - f.exactBlue 1 1 y x| ≤ 14 / 5 := by
  have hone : ∀ c ∈ f.comps, c.h = 1 ∧ c.v = 1 := by
    intro c hc
    have h1 := hv.hmax.1 c hc
    have h2 := hv.vmax.1 c hc
    obtain ⟨a, -, b, -⟩ := hv.factors c hc
    simp only at h1 h2
    omega
  have hr : f.Renderable 1 1 := by
    intro c hc
    obtain ⟨h1, h2⟩ := hone c hc
    rw [h1, h2]
    refine ⟨rfl, rfl, by omega, fun h => absurd ⟨.inl rfl, .inl rfl⟩ h⟩
  obtain ⟨image, d', e, hl⟩ := C45_decodes cfg f 1 1 codes d hd hh h3 hct hv hr
  refine ⟨image, d', e, hl, fun y x hy hx => ?_⟩
  obtain ⟨r, g, b, h1, h2, h3', h4, h5, h6⟩ := C63_accuracy_own_row_partial cfg f 1 codes d hd hh h3 hct hv hr 1000
    _ (by norm_num) rfl hs.moderate image d' e y x hy hx
  have hz : ∀ i, f.upError 1 1 i = 0 := by
    intro i
    unfold BaselineFile.upError
    cases hc : f.comps[i]? with
    | none => rfl
    | some c => simp only; rw [if_pos (hone c (List.mem_of_getElem? hc))]
  simp only [hz] at h4 h5 h6
  exact ⟨r, g, b, h1, h2, h3', h4.trans (by norm_num), h5.trans (by norm_num), h6.trans (by norm_num)⟩

end

/-- A case of C63: the example file. -/
theorem exampleFile_small : exampleFile.SmallBlocks 1000 := by
  intro i c q hc hq m hm bs hbs b hb
  have hm : m = exampleMcu3 := by simpa [exampleFile] using hm
  subst hm
  have hb : b = ⟨-5, exampleZz⟩ := by
    have := List.mem_of_getElem? hbs
    simp only [exampleMcu3, List.mem_cons, List.not_mem_nil, or_false, or_self] at this
    subst this
    simpa using hb
  have hq' : q = List.replicate 64 2 := by
    have := List.mem_of_getElem? hc
    simp only [exampleFile, List.mem_cons, List.not_mem_nil, or_false] at this
    rcases this with rfl | rfl | rfl <;> exact (Option.some.inj hq).symm
  rw [hb, hq']
  decide +kernel

example : ∃ image d', Decoder.default.decode ⟨true, false⟩ exampleFile.bytes = .ok image d' ∧
    ∃ r : UInt8, image[3 * 16 * 3 + 3 * 9]? = some r ∧ |(r.toNat : ℝ) - exampleFile.exactRed 1 1 3 9| ≤ 14 / 5 := by
  obtain ⟨image, d', e, -, h⟩ := C63_full_resolution ⟨true, false⟩ exampleFile _ Decoder.default .new (.nothing _) rfl
    (by decide) exampleFile_valid exampleFile_small
  obtain ⟨r, -, -, h1, -, -, h2, -⟩ := h 3 9 (by decide) (by decide)
  exact ⟨image, d', e, r, h1, h2⟩

end Jpeg
