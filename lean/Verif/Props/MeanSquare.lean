import Verif.Spec.MeanSquare
import Verif.Props.Energy
/-!
# C106 for whole pictures
-/

namespace Jpeg
open Spec Sample Finset

/-- A sum in groups of eight. -/
theorem sum_eights (h : Nat) (g : Nat → ℝ) : ∑ Y ∈ range (8 * h), g Y = ∑ R ∈ range h, ∑ a ∈ range 8, g (8 * R + a) := by
  induction h with
  | zero => simp
  | succ n ih => rw [Finset.sum_range_succ (n := n), ← ih, Nat.mul_succ, Finset.sum_range_add]

/-- The squares over a picture are those over its blocks. -/
theorem sum_blocks (h w : Nat) (g : Nat → Nat → ℝ) : ∑ Y ∈ range (8 * h), ∑ X ∈ range (8 * w), g Y X ^ 2 =
    ∑ p ∈ range h ×ˢ range w, blockLength (fun a b => g (8 * p.1 + a) (8 * p.2 + b)) ^ 2 := by
  rw [Finset.sum_product (f := fun p : ℕ × ℕ => blockLength (fun a b => g (8 * p.1 + a) (8 * p.2 + b)) ^ 2), sum_eights]
  refine Finset.sum_congr rfl fun R _ => ?_
  simp only [sum_eights w]
  rw [Finset.sum_comm]
  refine Finset.sum_congr rfl fun C _ => ?_
  unfold blockLength
  rw [Real.sq_sqrt (Finset.sum_nonneg fun _ _ => Finset.sum_nonneg fun _ _ => sq_nonneg _)]

/-- Minkowski. -/
theorem length_add {ι : Type} (s : Finset ι) (g h : ι → ℝ) :
    √(∑ p ∈ s, (g p + h p) ^ 2) ≤ √(∑ p ∈ s, g p ^ 2) + √(∑ p ∈ s, h p ^ 2) := by
  generalize hA : ∑ p ∈ s, g p ^ 2 = A
  generalize hB : ∑ p ∈ s, h p ^ 2 = B
  have a0 : 0 ≤ A := hA ▸ Finset.sum_nonneg fun _ _ => sq_nonneg _
  have b0 : 0 ≤ B := hB ▸ Finset.sum_nonneg fun _ _ => sq_nonneg _
  have c := Finset.sum_mul_sq_le_sq_mul_sq s g h
  rw [hA, hB] at c
  have c' := Real.abs_le_sqrt c
  rw [Real.sqrt_mul a0] at c'
  apply Real.sqrt_le_iff.2
  refine ⟨by positivity, ?_⟩
  have e : ∑ p ∈ s, (g p + h p) ^ 2 = A + 2 * (∑ p ∈ s, g p * h p) + B := by
    rw [← hA, ← hB, Finset.mul_sum, ← Finset.sum_add_distrib, ← Finset.sum_add_distrib]
    refine Finset.sum_congr rfl fun p _ => ?_
    ring
  rw [e, add_sq, Real.sq_sqrt a0, Real.sq_sqrt b0]
  have := le_abs_self (∑ p ∈ s, g p * h p)
  nlinarith

theorem length_mul {ι : Type} (s : Finset ι) (t : ℝ) (ht : 0 ≤ t) (g : ι → ℝ) :
    √(∑ p ∈ s, (t * g p) ^ 2) = t * √(∑ p ∈ s, g p ^ 2) := by
  simp only [mul_pow]
  rw [← Finset.mul_sum, Real.sqrt_mul (sq_nonneg t), Real.sqrt_sq ht]

theorem length_mono {ι : Type} (s : Finset ι) {g h : ι → ℝ} (h0 : ∀ p ∈ s, 0 ≤ g p) (hg : ∀ p ∈ s, g p ≤ h p) :
    √(∑ p ∈ s, g p ^ 2) ≤ √(∑ p ∈ s, h p ^ 2) :=
  Real.sqrt_le_sqrt (Finset.sum_le_sum fun p hp => pow_le_pow_left₀ (h0 p hp) (hg p hp) 2)

/-- From blocks to the picture. -/
theorem rootMeanSquare_near {h w : Nat} {g f : Nat → Nat → ℝ} {K : ℝ} (hK : 0 ≤ K)
    (near : ∀ R C, R < h → C < w → |blockLength (fun a b => g (8 * R + a) (8 * C + b)) - blockLength (fun a b => f (8 * R + a) (8 * C + b))| ≤
      K + blockLength (fun a b => f (8 * R + a) (8 * C + b)) * (13 / 1000)) :
    |rootMeanSquare (8 * h) (8 * w) g - rootMeanSquare (8 * h) (8 * w) f| ≤ K / 8 + rootMeanSquare (8 * h) (8 * w) f * (13 / 1000) := by
  by_cases hn : 0 < h * w
  swap
  · have hz : ∀ u : Nat → Nat → ℝ, rootMeanSquare (8 * h) (8 * w) u = 0 := by
      intro u
      have : ((8 * h : Nat) : ℝ) * ((8 * w : Nat) : ℝ) = 0 := by
        rw [← Nat.cast_mul, show 8 * h * (8 * w) = 64 * (h * w) by ring, Nat.eq_zero_of_not_pos hn]
        simp
      unfold rootMeanSquare
      rw [this, div_zero, Real.sqrt_zero]
    rw [hz, hz, sub_zero, abs_zero]
    positivity
  have hn : (0 : ℝ) < (h : ℝ) * w := by exact_mod_cast hn
  have rms : ∀ u : Nat → Nat → ℝ, rootMeanSquare (8 * h) (8 * w) u =
      √(∑ p ∈ range h ×ˢ range w, blockLength (fun a b => u (8 * p.1 + a) (8 * p.2 + b)) ^ 2) / (8 * √((h : ℝ) * w)) := by
    intro u
    unfold rootMeanSquare
    rw [sum_blocks, Real.sqrt_div (Finset.sum_nonneg fun _ _ => sq_nonneg _)]
    congr 1
    push_cast
    rw [show (8 * (h : ℝ)) * (8 * w) = 8 ^ 2 * (h * w) by ring, Real.sqrt_mul (by norm_num), Real.sqrt_sq (by norm_num)]
  rw [rms g, rms f]
  set s := range h ×ˢ range w
  set E : ℕ × ℕ → ℝ := fun p => blockLength (fun a b => g (8 * p.1 + a) (8 * p.2 + b)) with hE
  set D : ℕ × ℕ → ℝ := fun p => blockLength (fun a b => f (8 * p.1 + a) (8 * p.2 + b)) with hD
  have near' : ∀ p ∈ s, |E p - D p| ≤ K + D p * (13 / 1000) := by
    intro p hp
    obtain ⟨h1, h2⟩ := Finset.mem_product.1 hp
    exact near p.1 p.2 (Finset.mem_range.1 h1) (Finset.mem_range.1 h2)
  have E0 : ∀ p, 0 ≤ E p := fun p => Real.sqrt_nonneg _
  have D0 : ∀ p, 0 ≤ D p := fun p => Real.sqrt_nonneg _
  have const : √(∑ _p ∈ s, K ^ 2) = K * √((h : ℝ) * w) := by
    rw [Finset.sum_const, Finset.card_product, Finset.card_range, Finset.card_range, nsmul_eq_mul, mul_comm,
      Real.sqrt_mul (sq_nonneg K), Real.sqrt_sq hK]
    push_cast
    rfl
  have up : √(∑ p ∈ s, E p ^ 2) ≤ √(∑ p ∈ s, D p ^ 2) + (K * √((h : ℝ) * w) + 13 / 1000 * √(∑ p ∈ s, D p ^ 2)) := by
    have h1 := length_mono s (g := E) (h := fun p => D p + (K + 13 / 1000 * D p)) (fun p _ => E0 p) (fun p hp => by
      have := (abs_le.1 (near' p hp)).2
      linarith)
    have h2 := length_add s D (fun p => K + 13 / 1000 * D p)
    have h3 := length_add s (fun _ => K) (fun p => 13 / 1000 * D p)
    rw [length_mul s _ (by norm_num), const] at h3
    linarith
  have down : √(∑ p ∈ s, D p ^ 2) ≤ √(∑ p ∈ s, E p ^ 2) + (K * √((h : ℝ) * w) + 13 / 1000 * √(∑ p ∈ s, D p ^ 2)) := by
    have h1 := length_mono s (g := D) (h := fun p => E p + (K + 13 / 1000 * D p)) (fun p _ => D0 p) (fun p hp => by
      have := (abs_le.1 (near' p hp)).1
      linarith)
    have h2 := length_add s E (fun p => K + 13 / 1000 * D p)
    have h3 := length_add s (fun _ => K) (fun p => 13 / 1000 * D p)
    rw [length_mul s _ (by norm_num), const] at h3
    linarith
  have hq : 0 < √((h : ℝ) * w) := Real.sqrt_pos.2 hn
  generalize √(∑ p ∈ s, E p ^ 2) = e at up down ⊢
  generalize √(∑ p ∈ s, D p ^ 2) = d at up down ⊢
  generalize √((h : ℝ) * w) = q at hq up down ⊢
  rw [← sub_div, abs_div, abs_of_pos (by positivity : 0 < 8 * q), div_le_iff₀ (by positivity)]
  have : (K / 8 + d / (8 * q) * (13 / 1000)) * (8 * q) = K * q + 13 / 1000 * d := by field_simp
  rw [this, abs_le]
  constructor <;> linarith

/-- **C106** (whole CMYK pictures). Two pictures of the same size, a multiple of eight in both directions, without vertical
subsampling and without values beyond 0..255: for an ink at full resolution in both, the root mean square of the differences
of the bytes over the whole picture is that of the differences of all the coefficients of the ink, up to 1.24 and 1.3 per
cent. -/
theorem C106_picture_cmyk (cfg : Cfg) (f f' : BaselineFile) (hx : f.x = f'.x) (hy : f.y = f'.y) (w h : Nat) (hw : f.x = 8 * w)
    (hh : f.y = 8 * h) (H H' : Nat)
    (codes codes' : List (Code × Code)) (d₁ d₂ : Decoder) (hd₁ : UsedDecoder d₁) (hd₂ : UsedDecoder d₂)
    (hh₁ : Holds cfg d₁ f.earlier) (hh₂ : Holds cfg d₂ f'.earlier) (h4 : f.comps.length = 4) (h4' : f'.comps.length = 4)
    (hct₁ : f.transform d₁.transform = some 0) (hct₂ : f'.transform d₂.transform = some 0)
    (hv₁ : f.Valid (f.interval d₁.restartInterval) H 1 codes) (hv₂ : f'.Valid (f'.interval d₂.restartInterval) H' 1 codes')
    (hr₁ : f.Renderable H 1) (hr₂ : f'.Renderable H' 1) (hu : f.Unclipped) (hu' : f'.Unclipped) :
    ∃ image image' e₁ e₂, d₁.decode cfg f.bytes = .ok image e₁ ∧ d₂.decode cfg f'.bytes = .ok image' e₂ ∧
      image.length = f.x * f.y * 4 ∧ image'.length = f.x * f.y * 4 ∧
      ∀ i c c', f.comps[i]? = some c → f'.comps[i]? = some c' → c.h = H → c.v = 1 → c'.h = H' → c'.v = 1 →
        ∃ (v v' : Nat → Nat → UInt8) (F F' : Nat → Nat → Int),
          (∀ Y X, Y < f.y → X < f.x → image[4 * f.x * Y + (4 * X + i)]? = some (v Y X) ∧
            image'[4 * f.x * Y + (4 * X + i)]? = some (v' Y X) ∧
            f.coefficientAt H i (Y / 8) (X / 8) (Y % 8) (X % 8) = some (F Y X) ∧
            f'.coefficientAt H' i (Y / 8) (X / 8) (Y % 8) (X % 8) = some (F' Y X)) ∧
          |rootMeanSquare f.y f.x (fun Y X => ((v Y X).toNat : ℝ) - (v' Y X).toNat) -
              rootMeanSquare f.y f.x (fun Y X => (F Y X : ℝ) - F' Y X)| ≤
            99 / 80 + rootMeanSquare f.y f.x (fun Y X => (F Y X : ℝ) - F' Y X) * (13 / 1000) := by
  obtain ⟨image, image', e₁, e₂, h1, h2, h3, h5, k⟩ := C106_cmyk cfg f f' hx hy H H' codes codes' d₁ d₂ hd₁ hd₂ hh₁ hh₂ h4 h4'
    hct₁ hct₂ hv₁ hv₂ hr₁ hr₂ hu hu'
  refine ⟨image, image', e₁, e₂, h1, h2, h3, h5, ?_⟩
  intro i c c' hc hc' k1 k2 k1' k2'
  have k := fun R C (hR : R < h) (hC : C < w) => k i c c' R C hc hc' k1 k2 k1' k2' (by omega) (by omega)
  refine ⟨fun Y X => (image[4 * f.x * Y + (4 * X + i)]?).getD 0, fun Y X => (image'[4 * f.x * Y + (4 * X + i)]?).getD 0,
    fun Y X => (f.coefficientAt H i (Y / 8) (X / 8) (Y % 8) (X % 8)).getD 0,
    fun Y X => (f'.coefficientAt H' i (Y / 8) (X / 8) (Y % 8) (X % 8)).getD 0, ?_, ?_⟩
  · intro Y X hY hX
    obtain ⟨v, v', F, F', hF, hp, -⟩ := k (Y / 8) (X / 8) (by omega) (by omega)
    obtain ⟨p, p'⟩ := hp (Y % 8) (X % 8) (by omega) (by omega)
    rw [Nat.div_add_mod, Nat.div_add_mod] at p p'
    obtain ⟨g, g'⟩ := hF (Y % 8) (X % 8)
    simp only [p, p', g, g', Option.getD_some, and_self]
  · rw [hh, hw, show (99 / 80 : ℝ) = 99 / 10 / 8 by norm_num]
    refine rootMeanSquare_near (by norm_num) fun R C hR hC => ?_
    obtain ⟨v, v', F, F', hF, hp, hE⟩ := k R C hR hC
    rw [hw] at hp
    have a1 : blockLength (fun a b => (((image[4 * (8 * w) * (8 * R + a) + (4 * (8 * C + b) + i)]?).getD 0).toNat : ℝ) -
        ((image'[4 * (8 * w) * (8 * R + a) + (4 * (8 * C + b) + i)]?).getD 0).toNat) =
        blockLength fun a b => ((v a b).toNat : ℝ) - (v' a b).toNat := by
      refine blockLength_congr fun a b ha hb => ?_
      rw [(hp a b ha hb).1, (hp a b ha hb).2, Option.getD_some, Option.getD_some]
    have a2 : blockLength (fun a b => (((f.coefficientAt H i ((8 * R + a) / 8) ((8 * C + b) / 8) ((8 * R + a) % 8) ((8 * C + b) % 8)).getD 0 : Int) : ℝ) -
        ((f'.coefficientAt H' i ((8 * R + a) / 8) ((8 * C + b) / 8) ((8 * R + a) % 8) ((8 * C + b) % 8)).getD 0 : Int)) =
        blockLength fun k l => (F k l : ℝ) - F' k l := by
      refine blockLength_congr fun a b ha hb => ?_
      rw [show (8 * R + a) / 8 = R by omega, show (8 * C + b) / 8 = C by omega, show (8 * R + a) % 8 = a by omega,
        show (8 * C + b) % 8 = b by omega, (hF a b).1, (hF a b).2, Option.getD_some, Option.getD_some]
    rw [a1, a2]
    exact hE

/-- **C106** (whole YCbCr pictures). Likewise the root mean square of the differences of the luminance (BT.601) over the whole
picture is that of the differences of all the coefficients of the first component, up to 9/4 and 1.3 per cent, if no channel
of the pixels has been limited. -/
theorem C106_picture_luminance (cfg : Cfg) (f f' : BaselineFile) (hx : f.x = f'.x) (hy : f.y = f'.y) (w h : Nat) (hw : f.x = 8 * w)
    (hh : f.y = 8 * h) (H H' : Nat)
    (codes codes' : List (Code × Code)) (d₁ d₂ : Decoder) (hd₁ : UsedDecoder d₁) (hd₂ : UsedDecoder d₂)
    (hh₁ : Holds cfg d₁ f.earlier) (hh₂ : Holds cfg d₂ f'.earlier) (h3 : f.comps.length = 3) (h3' : f'.comps.length = 3)
    (hct₁ : f.transform d₁.transform ≠ some 0) (hct₂ : f'.transform d₂.transform ≠ some 0)
    (hv₁ : f.Valid (f.interval d₁.restartInterval) H 1 codes) (hv₂ : f'.Valid (f'.interval d₂.restartInterval) H' 1 codes')
    (hr₁ : f.Renderable H 1) (hr₂ : f'.Renderable H' 1) (hu : f.Unclipped) (hu' : f'.Unclipped)
    (c c' : FileComponent) (hc : f.comps[0]? = some c) (hc' : f'.comps[0]? = some c') (hfull : c.h = H ∧ c.v = 1)
    (hfull' : c'.h = H' ∧ c'.v = 1) :
    ∃ image image' e₁ e₂, d₁.decode cfg f.bytes = .ok image e₁ ∧ d₂.decode cfg f'.bytes = .ok image' e₂ ∧
      image.length = f.x * f.y * 3 ∧ image'.length = f.x * f.y * 3 ∧
      ∃ (p p' : Nat → Nat → UInt8 × UInt8 × UInt8) (F F' : Nat → Nat → Int),
        (∀ Y X, Y < f.y → X < f.x → image[3 * f.x * Y + 3 * X]? = some (p Y X).1 ∧
          image[3 * f.x * Y + (3 * X + 1)]? = some (p Y X).2.1 ∧ image[3 * f.x * Y + (3 * X + 2)]? = some (p Y X).2.2 ∧
          image'[3 * f.x * Y + 3 * X]? = some (p' Y X).1 ∧ image'[3 * f.x * Y + (3 * X + 1)]? = some (p' Y X).2.1 ∧
          image'[3 * f.x * Y + (3 * X + 2)]? = some (p' Y X).2.2 ∧
          f.coefficientAt H 0 (Y / 8) (X / 8) (Y % 8) (X % 8) = some (F Y X) ∧
          f'.coefficientAt H' 0 (Y / 8) (X / 8) (Y % 8) (X % 8) = some (F' Y X)) ∧
        ((∀ Y X, Y < f.y → X < f.x → Inside (p Y X) ∧ Inside (p' Y X)) →
          |rootMeanSquare f.y f.x (fun Y X => (luminance1000 (p Y X).1 (p Y X).2.1 (p Y X).2.2 : ℝ) / 1000 -
                (luminance1000 (p' Y X).1 (p' Y X).2.1 (p' Y X).2.2 : ℝ) / 1000) -
              rootMeanSquare f.y f.x (fun Y X => (F Y X : ℝ) - F' Y X)| ≤
            9 / 4 + rootMeanSquare f.y f.x (fun Y X => (F Y X : ℝ) - F' Y X) * (13 / 1000)) := by
  obtain ⟨image, image', e₁, e₂, h1, h2, h4, h5, k⟩ := C106_luminance cfg f f' hx hy H H' codes codes' d₁ d₂ hd₁ hd₂ hh₁ hh₂ h3 h3'
    hct₁ hct₂ hv₁ hv₂ hr₁ hr₂ hu hu' c c' hc hc' hfull hfull'
  refine ⟨image, image', e₁, e₂, h1, h2, h4, h5, ?_⟩
  have k := fun R C (hR : R < h) (hC : C < w) => k R C (by omega) (by omega)
  have pix : ∀ im : List UInt8, ∃ p : Nat → Nat → UInt8 × UInt8 × UInt8, ∀ Y X q, im[3 * f.x * Y + 3 * X]? = some q.1 →
      im[3 * f.x * Y + (3 * X + 1)]? = some q.2.1 → im[3 * f.x * Y + (3 * X + 2)]? = some q.2.2 → p Y X = q := by
    intro im
    refine ⟨fun Y X => ((im[3 * f.x * Y + 3 * X]?).getD 0, (im[3 * f.x * Y + (3 * X + 1)]?).getD 0,
      (im[3 * f.x * Y + (3 * X + 2)]?).getD 0), fun Y X q w1 w2 w3 => ?_⟩
    simp only [w1, w2, w3, Option.getD_some]
  obtain ⟨p, hp⟩ := pix image
  obtain ⟨p', hp'⟩ := pix image'
  have same : ∀ R C (hR : R < h) (hC : C < w), ∃ (F F' : Nat → Nat → Int),
      (∀ k l, f.coefficientAt H 0 R C k l = some (F k l) ∧ f'.coefficientAt H' 0 R C k l = some (F' k l)) ∧
      (∀ a b, a < 8 → b < 8 → image[3 * f.x * (8 * R + a) + 3 * (8 * C + b)]? = some (p (8 * R + a) (8 * C + b)).1 ∧
          image[3 * f.x * (8 * R + a) + (3 * (8 * C + b) + 1)]? = some (p (8 * R + a) (8 * C + b)).2.1 ∧
          image[3 * f.x * (8 * R + a) + (3 * (8 * C + b) + 2)]? = some (p (8 * R + a) (8 * C + b)).2.2 ∧
          image'[3 * f.x * (8 * R + a) + 3 * (8 * C + b)]? = some (p' (8 * R + a) (8 * C + b)).1 ∧
          image'[3 * f.x * (8 * R + a) + (3 * (8 * C + b) + 1)]? = some (p' (8 * R + a) (8 * C + b)).2.1 ∧
          image'[3 * f.x * (8 * R + a) + (3 * (8 * C + b) + 2)]? = some (p' (8 * R + a) (8 * C + b)).2.2) ∧
      ((∀ a b, a < 8 → b < 8 → Inside (p (8 * R + a) (8 * C + b)) ∧ Inside (p' (8 * R + a) (8 * C + b))) →
        |blockLength (fun a b => (luminance1000 (p (8 * R + a) (8 * C + b)).1 (p (8 * R + a) (8 * C + b)).2.1 (p (8 * R + a) (8 * C + b)).2.2 : ℝ) / 1000 -
            (luminance1000 (p' (8 * R + a) (8 * C + b)).1 (p' (8 * R + a) (8 * C + b)).2.1 (p' (8 * R + a) (8 * C + b)).2.2 : ℝ) / 1000) -
              blockLength (fun k l => (F k l : ℝ) - F' k l)| ≤
          18 + blockLength (fun k l => (F k l : ℝ) - F' k l) * (13 / 1000)) := by
    intro R C hR hC
    obtain ⟨q, q', F, F', hF, hq, hE⟩ := k R C hR hC
    have e : ∀ a b, a < 8 → b < 8 → p (8 * R + a) (8 * C + b) = q a b ∧ p' (8 * R + a) (8 * C + b) = q' a b := by
      intro a b ha hb
      obtain ⟨w1, w2, w3, w4, w5, w6⟩ := hq a b ha hb
      exact ⟨hp _ _ _ w1 w2 w3, hp' _ _ _ w4 w5 w6⟩
    refine ⟨F, F', hF, fun a b ha hb => ?_, fun hl => ?_⟩
    · rw [(e a b ha hb).1, (e a b ha hb).2]
      exact hq a b ha hb
    · rw [blockLength_congr (h := fun a b => (luminance1000 (q a b).1 (q a b).2.1 (q a b).2.2 : ℝ) / 1000 -
        (luminance1000 (q' a b).1 (q' a b).2.1 (q' a b).2.2 : ℝ) / 1000) fun a b ha hb => by rw [(e a b ha hb).1, (e a b ha hb).2]]
      refine hE fun a b ha hb => ?_
      rw [← (e a b ha hb).1, ← (e a b ha hb).2]
      exact hl a b ha hb
  refine ⟨p, p', fun Y X => (f.coefficientAt H 0 (Y / 8) (X / 8) (Y % 8) (X % 8)).getD 0,
    fun Y X => (f'.coefficientAt H' 0 (Y / 8) (X / 8) (Y % 8) (X % 8)).getD 0, ?_, ?_⟩
  · intro Y X hY hX
    obtain ⟨F, F', hF, hq, -⟩ := same (Y / 8) (X / 8) (by omega) (by omega)
    have hq := hq (Y % 8) (X % 8) (by omega) (by omega)
    rw [Nat.div_add_mod, Nat.div_add_mod] at hq
    obtain ⟨w1, w2, w3, w4, w5, w6⟩ := hq
    obtain ⟨g, g'⟩ := hF (Y % 8) (X % 8)
    refine ⟨w1, w2, w3, w4, w5, w6, ?_⟩
    simp only [g, g', Option.getD_some, and_self]
  · intro hl
    rw [hh, hw] at hl ⊢
    rw [show (9 / 4 : ℝ) = 18 / 8 by norm_num]
    refine rootMeanSquare_near (by norm_num) fun R C hR hC => ?_
    obtain ⟨F, F', hF, -, hE⟩ := same R C hR hC
    have a2 : blockLength (fun a b => (((f.coefficientAt H 0 ((8 * R + a) / 8) ((8 * C + b) / 8) ((8 * R + a) % 8) ((8 * C + b) % 8)).getD 0 : Int) : ℝ) -
        ((f'.coefficientAt H' 0 ((8 * R + a) / 8) ((8 * C + b) / 8) ((8 * R + a) % 8) ((8 * C + b) % 8)).getD 0 : Int)) =
        blockLength fun k l => (F k l : ℝ) - F' k l := by
      refine blockLength_congr fun a b ha hb => ?_
      rw [show (8 * R + a) / 8 = R by omega, show (8 * C + b) / 8 = C by omega, show (8 * R + a) % 8 = a by omega,
        show (8 * C + b) % 8 = b by omega, (hF a b).1, (hF a b).2, Option.getD_some, Option.getD_some]
    rw [a2]
    exact hE fun a b ha hb => hl _ _ (by omega) (by omega)

/-- A case of C106 for whole pictures: two blocks side by side with tables of eights and of fours; the squares of the
differences of the coefficients of the first ink add up to 6640. -/
example : ∃ f f' : BaselineFile, ∀ cfg, ∃ (image image' : List UInt8) (v v' : Nat → Nat → UInt8),
    decode cfg f.bytes = .ok image ∧ decode cfg f'.bytes = .ok image' ∧
      (∀ Y X, Y < 8 → X < 16 → image[64 * Y + 4 * X]? = some (v Y X) ∧ image'[64 * Y + 4 * X]? = some (v' Y X)) ∧
      |rootMeanSquare 8 16 (fun Y X => ((v Y X).toNat : ℝ) - (v' Y X).toNat) - √(6640 / 128)| ≤ 99 / 80 + √(6640 / 128) * (13 / 1000) := by
  have hv : ∀ (q : List Nat), GoodTable q → _ := fun q h1 =>
    codedFile_valid (q := q) (comps := inkComps) (x := 16) (y := 8) (H := 1) (V := 1) (mcus := [inkMcu 1, inkMcu 2]) h1
      ⟨by decide, by decide, by decide, by decide, by decide, ⟨by decide, by decide⟩, ⟨by decide, by decide⟩, by decide,
        by decide, by decide, by decide, by decide⟩ (by decide)
  obtain ⟨d₁, v₁⟩ := hv (List.replicate 64 8) ⟨by decide, by decide⟩
  obtain ⟨d₂, v₂⟩ := hv (List.replicate 64 4) ⟨by decide, by decide⟩
  have v₁ := withAdobe_valid (t := 0) (by decide) v₁
  have v₂ := withAdobe_valid (t := 0) (by decide) v₂
  refine ⟨withAdobe 0 (codedFile (List.replicate 64 8) inkComps 16 8 [inkMcu 1, inkMcu 2] d₁),
    withAdobe 0 (codedFile (List.replicate 64 4) inkComps 16 8 [inkMcu 1, inkMcu 2] d₂), fun cfg => ?_⟩
  obtain ⟨p, q, e₁, e₂, h1, h2, -, -, h⟩ := C106_picture_cmyk cfg (withAdobe 0 (codedFile (List.replicate 64 8) inkComps 16 8 [inkMcu 1, inkMcu 2] d₁))
    (withAdobe 0 (codedFile (List.replicate 64 4) inkComps 16 8 [inkMcu 1, inkMcu 2] d₂)) rfl rfl 2 1 rfl rfl 1 1 _ _ Decoder.default
    Decoder.default .new .new (.nothing _) (.nothing _) rfl rfl rfl rfl v₁ v₂ (renderable_one v₁.toLaid.ones)
    (renderable_one v₂.toLaid.ones)
    (codedFile_unclipped (data := d₁) (x := 16) (y := 8) (comps := inkComps) (mcus := [inkMcu 1, inkMcu 2]) (by decide) (by decide +kernel))
    (codedFile_unclipped (data := d₂) (x := 16) (y := 8) (comps := inkComps) (mcus := [inkMcu 1, inkMcu 2]) (by decide) (by decide +kernel))
  obtain ⟨v, v', F, F', hF, hE⟩ := h 0 _ _ rfl rfl rfl rfl rfl rfl
  refine ⟨p, q, v, v', by unfold decode; rw [h1], by unfold decode; rw [h2],
    fun Y X hY hX => ⟨(hF Y X hY hX).1, (hF Y X hY hX).2.1⟩, ?_⟩
  have c : ∑ Y ∈ range 8, ∑ X ∈ range 16,
      (((codedFile (List.replicate 64 8) inkComps 16 8 [inkMcu 1, inkMcu 2] []).coefficientAt 1 0 (Y / 8) (X / 8) (Y % 8) (X % 8)).getD 0 -
        ((codedFile (List.replicate 64 4) inkComps 16 8 [inkMcu 1, inkMcu 2] []).coefficientAt 1 0 (Y / 8) (X / 8) (Y % 8) (X % 8)).getD 0) ^ 2 =
        (6640 : Int) := by decide +kernel
  have e : rootMeanSquare 8 16 (fun Y X => (F Y X : ℝ) - F' Y X) = √(6640 / 128) := by
    unfold rootMeanSquare
    have : ((∑ Y ∈ range 8, ∑ X ∈ range 16, (F Y X - F' Y X) ^ 2 : Int) : ℝ) = 6640 := by
      rw [← Int.cast_ofNat, Int.cast_inj]
      refine Eq.trans ?_ c
      refine Finset.sum_congr rfl fun Y hY => Finset.sum_congr rfl fun X hX => ?_
      obtain ⟨-, -, g, g'⟩ := hF Y X (Finset.mem_range.1 hY) (Finset.mem_range.1 hX)
      change BaselineFile.coefficientAt (codedFile (List.replicate 64 8) inkComps 16 8 [inkMcu 1, inkMcu 2] []) 1 0 _ _ _ _ = _ at g
      change BaselineFile.coefficientAt (codedFile (List.replicate 64 4) inkComps 16 8 [inkMcu 1, inkMcu 2] []) 1 0 _ _ _ _ = _ at g'
      rw [g, g', Option.getD_some, Option.getD_some]
    push_cast at this
    rw [this]
    norm_num
  change |rootMeanSquare 8 16 _ - rootMeanSquare 8 16 _| ≤ 99 / 80 + rootMeanSquare 8 16 _ * (13 / 1000) at hE
  rw [e] at hE
  exact hE

/-- A case of `C106_picture_luminance`: the same picture with tables of twos and of fours. -/
example : ∃ f f' : BaselineFile, ∀ cfg, ∃ (image image' : List UInt8) (p p' : Nat → Nat → UInt8 × UInt8 × UInt8),
    decode cfg f.bytes = .ok image ∧ decode cfg f'.bytes = .ok image' ∧
      (∀ a b, a < 8 → b < 8 → (image[24 * a + 3 * b]? = some (p a b).1 ∧ image[24 * a + (3 * b + 1)]? = some (p a b).2.1 ∧
        image[24 * a + (3 * b + 2)]? = some (p a b).2.2) ∧ image'[24 * a + 3 * b]? = some (p' a b).1 ∧
        image'[24 * a + (3 * b + 1)]? = some (p' a b).2.1 ∧ image'[24 * a + (3 * b + 2)]? = some (p' a b).2.2) ∧
      |rootMeanSquare 8 8 (fun a b => (luminance1000 (p a b).1 (p a b).2.1 (p a b).2.2 : ℝ) / 1000 -
        (luminance1000 (p' a b).1 (p' a b).2.1 (p' a b).2.2 : ℝ) / 1000) - √(2500 / 64)| ≤ 9 / 4 + √(2500 / 64) * (13 / 1000) := by
  have hv : ∀ n, GoodTable (List.replicate 64 n) → _ := fun n h1 =>
    codedFile_valid (q := List.replicate 64 n) (comps := fullComps) (x := 8) (y := 8) (H := 1) (V := 1) (mcus := [addendMcu]) h1
      ⟨by decide, by decide, by decide, by decide, by decide, ⟨by decide, by decide⟩, ⟨by decide, by decide⟩, by decide,
        by decide, by decide, by decide, by decide⟩ (by decide)
  obtain ⟨d₁, v₁⟩ := hv 2 ⟨by decide, by decide⟩
  obtain ⟨d₂, v₂⟩ := hv 4 ⟨by decide, by decide⟩
  have u₁ : (toneFile 2 d₁).Unclipped := codedFile_unclipped (by decide) (by decide +kernel)
  have u₂ : (toneFile 4 d₂).Unclipped := codedFile_unclipped (by decide) (by decide +kernel)
  refine ⟨toneFile 2 d₁, toneFile 4 d₂, fun cfg => ?_⟩
  have inside : ∀ n ∈ [2, 4], ∀ data, (toneFile n data).Valid 0 1 1 (List.replicate fullComps.length (dcK3, acK5)) →
      (toneFile n data).Unclipped → ∀ (image : List UInt8) (d' : Decoder), Decoder.default.decode cfg (toneFile n data).bytes = .ok image d' →
      ∀ p : UInt8 × UInt8 × UInt8, ∀ a b, a < 8 → b < 8 → image[24 * a + 3 * b]? = some p.1 → image[24 * a + (3 * b + 1)]? = some p.2.1 →
        image[24 * a + (3 * b + 2)]? = some p.2.2 → Inside p := by
    intro n hn data v u image d' e p a b ha hb w1 w2 w3
    obtain ⟨r, g, b', e', q1, q2, q3⟩ := C45_pixels_own_row_partial cfg _ 1 _ Decoder.default .new (.nothing _) rfl
      (by show (none : Option Nat) ≠ some 0; decide) v (renderable_one v.toLaid.ones) u.inRange image d' e a b ha hb
    obtain ⟨q, e2, hq⟩ := toneFile_inside n hn a ha b hb
    cases e'.symm.trans e2
    have : p = (r, g, b') := by
      refine Prod.ext ?_ (Prod.ext ?_ ?_)
      · exact (Option.some.inj (q1.symm.trans w1)).symm
      · exact (Option.some.inj (q2.symm.trans w2)).symm
      · exact (Option.some.inj (q3.symm.trans w3)).symm
    rw [this]
    exact hq
  obtain ⟨image, image', e₁, e₂, h1, h2, -, -, p, p', F, F', hF, hE⟩ := C106_picture_luminance cfg (toneFile 2 d₁) (toneFile 4 d₂) rfl rfl
    1 1 rfl rfl 1 1 _ _ Decoder.default Decoder.default .new .new (.nothing _) (.nothing _) rfl rfl
    (by show (none : Option Nat) ≠ some 0; decide) (by show (none : Option Nat) ≠ some 0; decide) v₁ v₂
    (renderable_one v₁.toLaid.ones) (renderable_one v₂.toLaid.ones) u₁ u₂ _ _ rfl rfl ⟨rfl, rfl⟩ ⟨rfl, rfl⟩
  refine ⟨image, image', p, p', by unfold decode; rw [h1], by unfold decode; rw [h2], ?_, ?_⟩
  · intro a b ha hb
    obtain ⟨w1, w2, w3, w4, w5, w6, -, -⟩ := hF a b ha hb
    exact ⟨⟨w1, w2, w3⟩, w4, w5, w6⟩
  have hE := hE fun a b ha hb => by
    obtain ⟨w1, w2, w3, w4, w5, w6, -, -⟩ := hF a b ha hb
    exact ⟨inside 2 (by decide) d₁ v₁ u₁ image e₁ h1 _ a b ha hb w1 w2 w3,
      inside 4 (by decide) d₂ v₂ u₂ image' e₂ h2 _ a b ha hb w4 w5 w6⟩
  have c : ∑ Y ∈ range 8, ∑ X ∈ range 8, (((toneFile 2 []).coefficientAt 1 0 (Y / 8) (X / 8) (Y % 8) (X % 8)).getD 0 -
        ((toneFile 4 []).coefficientAt 1 0 (Y / 8) (X / 8) (Y % 8) (X % 8)).getD 0) ^ 2 = (2500 : Int) := by decide +kernel
  have e : rootMeanSquare 8 8 (fun Y X => (F Y X : ℝ) - F' Y X) = √(2500 / 64) := by
    unfold rootMeanSquare
    have : ((∑ Y ∈ range 8, ∑ X ∈ range 8, (F Y X - F' Y X) ^ 2 : Int) : ℝ) = 2500 := by
      rw [← Int.cast_ofNat, Int.cast_inj]
      refine Eq.trans ?_ c
      refine Finset.sum_congr rfl fun Y hY => Finset.sum_congr rfl fun X hX => ?_
      obtain ⟨-, -, -, -, -, -, g, g'⟩ := hF Y X (Finset.mem_range.1 hY) (Finset.mem_range.1 hX)
      change (toneFile 2 []).coefficientAt 1 0 _ _ _ _ = _ at g
      change (toneFile 4 []).coefficientAt 1 0 _ _ _ _ = _ at g'
      rw [g, g', Option.getD_some, Option.getD_some]
    push_cast at this
    rw [this]
    norm_num
  change |rootMeanSquare 8 8 _ - rootMeanSquare 8 8 _| ≤ 9 / 4 + rootMeanSquare 8 8 _ * (13 / 1000) at hE
  rw [e] at hE
  exact hE

end Jpeg
