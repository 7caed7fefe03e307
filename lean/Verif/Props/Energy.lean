import Verif.Spec.Energy
import Verif.Props.Blocks
import Verif.Props.RoundTrip
import Verif.Props.Contrast
import Verif.Proofs.Forward
/-!
# C106: the mean square difference of two pictures is that of their coefficients
-/

namespace Jpeg
open Spec Sample Finset

theorem blockLength_eq (g : Nat → Nat → ℝ) : blockLength g = √(∑ p ∈ range 8 ×ˢ range 8, g p.1 p.2 ^ 2) := by
  unfold blockLength
  rw [Finset.sum_product (f := fun p : ℕ × ℕ => g p.1 p.2 ^ 2)]

/-- The length of a sum. -/
theorem blockLength_add (g h : Nat → Nat → ℝ) : blockLength (fun r x => g r x + h r x) ≤ blockLength g + blockLength h := by
  simp only [blockLength_eq]
  generalize hA : ∑ p ∈ range 8 ×ˢ range 8, g p.1 p.2 ^ 2 = A
  generalize hB : ∑ p ∈ range 8 ×ˢ range 8, h p.1 p.2 ^ 2 = B
  have a0 : 0 ≤ A := hA ▸ Finset.sum_nonneg fun _ _ => sq_nonneg _
  have b0 : 0 ≤ B := hB ▸ Finset.sum_nonneg fun _ _ => sq_nonneg _
  have c := Finset.sum_mul_sq_le_sq_mul_sq (range 8 ×ˢ range 8) (fun p => g p.1 p.2) (fun p => h p.1 p.2)
  rw [hA, hB] at c
  have c' := Real.abs_le_sqrt c
  rw [Real.sqrt_mul a0] at c'
  apply Real.sqrt_le_iff.2
  refine ⟨by positivity, ?_⟩
  have e : ∑ p ∈ range 8 ×ˢ range 8, (g p.1 p.2 + h p.1 p.2) ^ 2 =
      A + 2 * (∑ p ∈ range 8 ×ˢ range 8, g p.1 p.2 * h p.1 p.2) + B := by
    rw [← hA, ← hB, Finset.mul_sum, ← Finset.sum_add_distrib, ← Finset.sum_add_distrib]
    refine Finset.sum_congr rfl fun p _ => ?_
    ring
  rw [e, add_sq, Real.sq_sqrt a0, Real.sq_sqrt b0]
  have := le_abs_self (∑ p ∈ range 8 ×ˢ range 8, g p.1 p.2 * h p.1 p.2)
  nlinarith

theorem blockLength_mono {g h : Nat → Nat → ℝ} (hg : ∀ r x, r < 8 → x < 8 → |g r x| ≤ |h r x|) : blockLength g ≤ blockLength h := by
  unfold blockLength
  refine Real.sqrt_le_sqrt (Finset.sum_le_sum fun r hr => Finset.sum_le_sum fun x hx => ?_)
  exact sq_le_sq.2 (hg r x (Finset.mem_range.1 hr) (Finset.mem_range.1 hx))

theorem blockLength_congr {g h : Nat → Nat → ℝ} (hg : ∀ r x, r < 8 → x < 8 → g r x = h r x) : blockLength g = blockLength h :=
  le_antisymm (blockLength_mono fun r x hr hx => by rw [hg r x hr hx]) (blockLength_mono fun r x hr hx => by rw [hg r x hr hx])

theorem blockLength_const {e : ℝ} (he : 0 ≤ e) : blockLength (fun _ _ => e) = 8 * e := by
  unfold blockLength
  rw [show ∑ r ∈ range 8, ∑ x ∈ range 8, e ^ 2 = (8 * e) ^ 2 by simp; ring, Real.sqrt_sq (by positivity)]

/-- Blocks that differ little have nearly the same length. -/
theorem blockLength_near {g h : Nat → Nat → ℝ} {e : ℝ} (he : 0 ≤ e) (hg : ∀ r x, r < 8 → x < 8 → |g r x - h r x| ≤ e) :
    |blockLength g - blockLength h| ≤ 8 * e := by
  have half : ∀ g h : Nat → Nat → ℝ, (∀ r x, r < 8 → x < 8 → |g r x - h r x| ≤ e) → blockLength g ≤ blockLength h + 8 * e := by
    intro g h hg
    have h1 := blockLength_add h (fun r x => g r x - h r x)
    simp only [add_sub_cancel] at h1
    have h2 : blockLength (fun r x => g r x - h r x) ≤ blockLength fun _ _ => e :=
      blockLength_mono fun r x hr hx => by rw [abs_of_nonneg he]; exact hg r x hr hx
    rw [blockLength_const he] at h2
    exact h1.trans (by linarith)
  have h1 := half g h hg
  have h2 := half h g fun r x hr hx => by rw [abs_sub_comm]; exact hg r x hr hx
  rw [abs_le]
  constructor <;> linarith

/-- The inverse DCT of T.81 keeps lengths. -/
theorem blockLength_realIdct (F : Nat → Nat → ℝ) : blockLength (realIdct F) = blockLength F := by
  unfold blockLength
  congr 1
  have h := realFdct_sq (realIdct F)
  rw [Finset.sum_comm (s := range 8) (t := range 8) (f := fun r x => F r x ^ 2),
    Finset.sum_comm (s := range 8) (t := range 8) (f := fun r x => realIdct F r x ^ 2), ← h]
  refine Finset.sum_congr rfl fun u hu => Finset.sum_congr rfl fun v hv => ?_
  rw [realFdct_idct F (Finset.mem_range.1 hv) (Finset.mem_range.1 hu)]

/-- A thousand times the difference of two blocks: the roundings of its own passes hardly count. -/
theorem difference_thousand (F G : Nat → Nat → Int) {r x : Nat} (hr : r < 8) (hx : x < 8) :
    |idctSample (fun k i => 1000 * (F k i - G k i)) r x - 128 - 1000 * (idctSample F r x - idctSample G r x)| ≤ 1234 := by
  have key : ∀ i, |idctPass1 (fun k i => 1000 * (F k i - G k i)) r i - 1000 * (idctPass1 F r i - idctPass1 G r i)| ≤ 1000 := by
    intro i
    unfold idctPass1
    rw [dot_sum hr, dot_sum hr, dot_sum hr]
    have e : ∑ k ∈ range 8, entry r k * (1000 * (F k i - G k i)) =
        1000 * (∑ k ∈ range 8, entry r k * F k i) - 1000 * ∑ k ∈ range 8, entry r k * G k i := by
      rw [Finset.mul_sum, Finset.mul_sum, ← Finset.sum_sub_distrib]
      exact Finset.sum_congr rfl fun k _ => by ring
    rw [e]
    generalize ∑ k ∈ range 8, entry r k * F k i = A
    generalize ∑ k ∈ range 8, entry r k * G k i = B
    rw [abs_le]
    omega
  unfold idctSample
  rw [dot_sum hx fun i => idctPass1 F r i, dot_sum hx fun i => idctPass1 G r i,
    dot_sum hx fun i => idctPass1 (fun k i => 1000 * (F k i - G k i)) r i]
  have e : |∑ i ∈ range 8, entry x i * idctPass1 (fun k i => 1000 * (F k i - G k i)) r i -
      1000 * (∑ i ∈ range 8, entry x i * idctPass1 F r i - ∑ i ∈ range 8, entry x i * idctPass1 G r i)| ≤ 30610 * 1000 := by
    rw [← Finset.sum_sub_distrib, Finset.mul_sum, ← Finset.sum_sub_distrib]
    have h := entry_sum x hx
    have e : (List.range 8).foldl (fun s k => s + |entry x k|) 0 = ∑ i ∈ range 8, |entry x i| := by
      simp [Finset.sum_range_succ, List.range_succ]
    rw [e] at h
    refine (Finset.abs_sum_le_sum_abs _ _).trans (le_trans ?_ (mul_le_mul_of_nonneg_right h (by norm_num)))
    rw [Finset.sum_mul]
    refine Finset.sum_le_sum fun i _ => ?_
    rw [show entry x i * idctPass1 (fun k i => 1000 * (F k i - G k i)) r i -
      1000 * (entry x i * idctPass1 F r i - entry x i * idctPass1 G r i) = entry x i *
        (idctPass1 (fun k i => 1000 * (F k i - G k i)) r i - 1000 * (idctPass1 F r i - idctPass1 G r i)) by ring, abs_mul]
    exact mul_le_mul_of_nonneg_left (key i) (abs_nonneg _)
  generalize ∑ i ∈ range 8, entry x i * idctPass1 (fun k i => 1000 * (F k i - G k i)) r i = A at e ⊢
  generalize ∑ i ∈ range 8, entry x i * idctPass1 F r i = B at e ⊢
  generalize ∑ i ∈ range 8, entry x i * idctPass1 G r i = C at e ⊢
  rw [abs_le] at e ⊢
  omega

theorem realIdct_thousand (g : Nat → Nat → ℝ) (r x : Nat) : realIdct (fun k i => 1000 * g k i) r x = 1000 * realIdct g r x := by
  unfold realIdct
  simp only [Finset.mul_sum]
  refine Finset.sum_congr rfl fun i _ => Finset.sum_congr rfl fun k _ => ?_
  ring

/-- The difference of two samples. -/
theorem difference_error (F G : Nat → Nat → Int) {r x : Nat} (hr : r < 8) (hx : x < 8) :
    |((idctSample F r x : ℝ) - idctSample G r x) - realIdct (fun k i => (F k i : ℝ) - G k i) r x| ≤
      1235 / 1000 + blockLength (fun k i => (F k i : ℝ) - G k i) * (8 / 5000) := by
  have h1 := difference_thousand F G hr hx
  have h2 := C51_fixed_point_error (fun k i => 1000 * (F k i - G k i)) r x hr hx
  have h3 := sum_abs_le (fun k i => (F k i : ℝ) - G k i)
  rw [Finset.sum_comm (s := range 8) (t := range 8) (f := fun j k => ((F k j : ℝ) - G k j) ^ 2)] at h3
  change _ ≤ 8 * blockLength _ at h3
  push_cast at h2
  rw [realIdct_thousand (fun k i => (F k i : ℝ) - G k i)] at h2
  simp only [abs_mul, ← Finset.mul_sum] at h2
  rw [abs_of_pos (by norm_num : (0 : ℝ) < 1000)] at h2
  have h1' : |(idctSample (fun k i => 1000 * (F k i - G k i)) r x : ℝ) - 128 - 1000 * (idctSample F r x - idctSample G r x)| ≤ 1234 := by
    exact_mod_cast h1
  rw [abs_le] at h1' h2 ⊢
  constructor <;> linarith

/-- **C106** (the inverse DCT). The squares of the differences of the samples of two blocks have the sum of the squares of
the differences of the coefficients: their roots differ by at most 9.9 (1.24 for the root mean square) and 1.3 per cent, for
all integers. -/
theorem C106_idct (F G : Nat → Nat → Int) :
    |blockLength (fun r x => (idctSample F r x : ℝ) - idctSample G r x) - blockLength (fun k i => (F k i : ℝ) - G k i)| ≤
      99 / 10 + blockLength (fun k i => (F k i : ℝ) - G k i) * (13 / 1000) := by
  have h0 : 0 ≤ blockLength (fun k i => (F k i : ℝ) - G k i) := Real.sqrt_nonneg _
  have := blockLength_near (by positivity) fun r x hr hx => difference_error F G hr hx
  rw [blockLength_realIdct] at this
  exact this.trans (by linarith)

/-- Limiting brings values closer together. -/
theorem saturate_closer (v w : Int) : |((saturate v).toNat : ℝ) - (saturate w).toNat| ≤ |(v : ℝ) - w| := by
  have h1 := saturate_toNat v
  have h2 := saturate_toNat w
  generalize (saturate v).toNat = a at *
  generalize (saturate w).toNat = b at *
  have : |(a : Int) - b| ≤ |v - w| := by
    rcases abs_cases ((a : Int) - b) with ⟨e, _⟩ | ⟨e, _⟩ <;> rcases abs_cases (v - w) with ⟨e', _⟩ | ⟨e', _⟩ <;>
      rw [e, e'] <;> omega
  exact_mod_cast this

/-- **C106** (a block). The bytes that the transform of the code gives for two blocks: their differences are not larger, as
root of the sum of squares, than those of the dequantised coefficients (up to 9.9 and 1.3 per cent), and not smaller if no
byte has been limited. -/
theorem C106_block (c c' : List Int) (q q' : List Nat) (h : Tame c q) (h' : Tame c' q') (s s' : Nat → Nat → UInt8)
    (hs : Gives c q s) (hs' : Gives c' q' s') :
    let D := blockLength fun k i => ((coef c (i + 8 * k) * quant q (i + 8 * k) : Int) : ℝ) - (coef c' (i + 8 * k) * quant q' (i + 8 * k) : Int)
    let E := blockLength fun r x => ((s r x).toNat : ℝ) - (s' r x).toNat
    E ≤ D + (99 / 10 + D * (13 / 1000)) ∧
    ((∀ r x, r < 8 → x < 8 → (0 < s r x ∧ s r x < 255) ∧ 0 < s' r x ∧ s' r x < 255) → D ≤ E + (99 / 10 + D * (13 / 1000))) := by
  intro D E
  have e := C106_idct (coefAt c q) (coefAt c' q')
  change |_ - D| ≤ 99 / 10 + D * (13 / 1000) at e
  rw [abs_le] at e
  have g : ∀ r x, r < 8 → x < 8 → s r x = saturate (idctSample (coefAt c q) r x) ∧
      s' r x = saturate (idctSample (coefAt c' q') r x) :=
    fun r x hr hx => ⟨h.gives.1 hs r x hr hx, h'.gives.1 hs' r x hr hx⟩
  constructor
  · have : E ≤ blockLength fun r x => (idctSample (coefAt c q) r x : ℝ) - idctSample (coefAt c' q') r x := by
      refine blockLength_mono fun r x hr hx => ?_
      rw [(g r x hr hx).1, (g r x hr hx).2]
      exact saturate_closer _ _
    linarith
  · intro hl
    have inside : ∀ v : Int, 0 < saturate v ∧ saturate v < 255 → ((saturate v).toNat : ℝ) = v := by
      intro v hv
      have h1 := saturate_toNat v
      rw [UInt8.lt_iff_toNat_lt, UInt8.lt_iff_toNat_lt] at hv
      have a1 : 0 < (saturate v).toNat := hv.1
      have a2 : (saturate v).toNat < 255 := hv.2
      have : ((saturate v).toNat : Int) = v := by omega
      exact_mod_cast this
    have : E = blockLength fun r x => (idctSample (coefAt c q) r x : ℝ) - idctSample (coefAt c' q') r x := by
      refine blockLength_congr fun r x hr hx => ?_
      obtain ⟨l1, l2⟩ := hl r x hr hx
      rw [(g r x hr hx).1] at l1 ⊢
      rw [(g r x hr hx).2] at l2 ⊢
      rw [inside _ l1, inside _ l2]
    linarith

section

variable {f : BaselineFile} {H : Nat}

/-- The 64 samples and the coefficients of a block of a component at full resolution. -/
theorem block_coefficients {r : Nat} {codes : List (Code × Code)} (hv : f.Laid r H 1 codes) (hu : f.Unclipped) {i : Nat}
    {c : FileComponent} (hc : f.comps[i]? = some c) (hfull : c.h = H ∧ c.v = 1) {R C : Nat} (hR : 8 * R + 8 ≤ f.y)
    (hC : 8 * C + 8 ≤ f.x) : ∃ F : Nat → Nat → Int, (∀ k l, f.coefficientAt H i R C k l = some (F k l)) ∧
      ∀ a b, a < 8 → b < 8 → (f.upsampledSample H 1 i (8 * R + a) (8 * C + b) : Int) = idctSample F a b := by
  have hH : 0 < H := by
    have := hv.factors c (List.mem_of_getElem? hc)
    omega
  have hx := le_blocks (x := f.x) hH
  have hy := le_blocks (x := f.y) (d := 1) (by decide)
  have key := fun a b (ha : a < 8) (hb : b < 8) => sample_coefficients hv hu hc (Y := 8 * R + a) (X := 8 * C + b)
    (by rw [hfull.2]; omega) (by rw [hfull.1]; omega)
  have simp1 : ∀ a b, a < 8 → b < 8 → (8 * R + a) / 8 = R ∧ (8 * C + b) / 8 = C ∧ (8 * R + a) % 8 = a ∧ (8 * C + b) % 8 = b := by
    intro a b ha hb; omega
  obtain ⟨F, e, -⟩ := key 0 0 (by decide) (by decide)
  obtain ⟨p1, p2, -, -⟩ := simp1 0 0 (by decide) (by decide)
  rw [p1, p2, hfull.1, hfull.2, Nat.div_one, Nat.mod_one, Nat.zero_mul, Nat.zero_add] at e
  refine ⟨F, e, ?_⟩
  intro a b ha hb
  obtain ⟨F', e', s⟩ := key a b ha hb
  obtain ⟨p1, p2, p3, p4⟩ := simp1 a b ha hb
  rw [p1, p2, hfull.1, hfull.2, Nat.div_one, Nat.mod_one, Nat.zero_mul, Nat.zero_add] at e'
  have : F' = F := by
    funext k l
    exact Option.some.inj ((e' k l).symm.trans (e k l))
  rw [this, p3, p4] at s
  rw [← s]
  unfold BaselineFile.upsampledSample
  rw [hc]
  simp only
  unfold upsampled
  rw [if_pos ⟨.inl hfull.1, .inl hfull.2⟩]

theorem inverted_byte (w : UInt8) : (((255 - w : UInt8).toNat : Nat) : ℝ) = 255 - (w.toNat : ℝ) := by
  have := w.toNat_lt
  rw [UInt8.toNat_sub_of_le _ _ (by rw [UInt8.le_iff_toNat_le]; show w.toNat ≤ 255; omega),
    show (255 : UInt8).toNat = 255 from rfl, Nat.cast_sub (by omega)]
  norm_num

end

/-- **C106** (CMYK). Two pictures of the same size without vertical subsampling and without values beyond 0..255: for an ink at
full resolution in both, the differences of the 64 bytes of every block within the picture are those of the
dequantised coefficients, as roots of the sums of squares, up to 9.9 and 1.3 per cent. -/
theorem C106_cmyk (cfg : Cfg) (f f' : BaselineFile) (hx : f.x = f'.x) (hy : f.y = f'.y) (H H' : Nat)
    (codes codes' : List (Code × Code)) (d₁ d₂ : Decoder) (hd₁ : UsedDecoder d₁) (hd₂ : UsedDecoder d₂)
    (hh₁ : Holds cfg d₁ f.earlier) (hh₂ : Holds cfg d₂ f'.earlier) (h4 : f.comps.length = 4) (h4' : f'.comps.length = 4)
    (hct₁ : f.transform d₁.transform = some 0) (hct₂ : f'.transform d₂.transform = some 0)
    (hv₁ : f.Valid (f.interval d₁.restartInterval) H 1 codes) (hv₂ : f'.Valid (f'.interval d₂.restartInterval) H' 1 codes')
    (hr₁ : f.Renderable H 1) (hr₂ : f'.Renderable H' 1) (hu : f.Unclipped) (hu' : f'.Unclipped) :
    ∃ image image' e₁ e₂, d₁.decode cfg f.bytes = .ok image e₁ ∧ d₂.decode cfg f'.bytes = .ok image' e₂ ∧
      image.length = f.x * f.y * 4 ∧ image'.length = f.x * f.y * 4 ∧
      ∀ i c c' R C, f.comps[i]? = some c → f'.comps[i]? = some c' → c.h = H → c.v = 1 → c'.h = H' → c'.v = 1 →
        8 * R + 8 ≤ f.y → 8 * C + 8 ≤ f.x →
        ∃ (v v' : Nat → Nat → UInt8) (F F' : Nat → Nat → Int),
          (∀ k l, f.coefficientAt H i R C k l = some (F k l) ∧ f'.coefficientAt H' i R C k l = some (F' k l)) ∧
          (∀ a b, a < 8 → b < 8 → image[4 * f.x * (8 * R + a) + (4 * (8 * C + b) + i)]? = some (v a b) ∧
            image'[4 * f.x * (8 * R + a) + (4 * (8 * C + b) + i)]? = some (v' a b)) ∧
          |blockLength (fun a b => ((v a b).toNat : ℝ) - (v' a b).toNat) - blockLength (fun k l => (F k l : ℝ) - F' k l)| ≤
            99 / 10 + blockLength (fun k l => (F k l : ℝ) - F' k l) * (13 / 1000) := by
  obtain ⟨image, e₁, a1, a2⟩ := C54_decodes cfg f H 1 codes d₁ hd₁ hh₁ h4 hct₁ hv₁ hr₁
  obtain ⟨image', e₂, b1, b2⟩ := C54_decodes cfg f' H' 1 codes' d₂ hd₂ hh₂ h4' hct₂ hv₂ hr₂
  refine ⟨image, image', e₁, e₂, a1, b1, a2, by rw [b2, hx, hy], ?_⟩
  intro i c c' R C hc hc' k1 k2 k1' k2' hR hC
  obtain ⟨F, hF, hs⟩ := block_coefficients hv₁.toLaid hu hc ⟨k1, k2⟩ hR hC
  obtain ⟨F', hF', hs'⟩ := block_coefficients hv₂.toLaid hu' hc' ⟨k1', k2'⟩ (hy ▸ hR) (hx ▸ hC)
  have hi : i < 4 := by rw [← h4]; exact (List.getElem?_eq_some_iff.1 hc).1
  refine ⟨fun a b => 255 - UInt8.ofNat (f.upsampledSample H 1 i (8 * R + a) (8 * C + b)),
    fun a b => 255 - UInt8.ofNat (f'.upsampledSample H' 1 i (8 * R + a) (8 * C + b)), F, F', fun k l => ⟨hF k l, hF' k l⟩, ?_, ?_⟩
  · intro a b ha hb
    have p := C54_pixels_partial cfg f H 1 codes d₁ hd₁ hh₁ h4 hct₁ hv₁ hr₁ hu.inRange image e₁ a1 (8 * R + a) (8 * C + b) i
      (by omega) (by omega) hi
    have p' := C54_pixels_partial cfg f' H' 1 codes' d₂ hd₂ hh₂ h4' hct₂ hv₂ hr₂ hu'.inRange image' e₂ b1 (8 * R + a) (8 * C + b) i
      (by omega) (by omega) hi
    rw [← hx] at p'
    exact ⟨by simpa using p, by simpa using p'⟩
  · have e := C106_idct F' F
    have h1 : (blockLength fun a b => ((255 - UInt8.ofNat (f.upsampledSample H 1 i (8 * R + a) (8 * C + b)) : UInt8).toNat : ℝ) -
        (255 - UInt8.ofNat (f'.upsampledSample H' 1 i (8 * R + a) (8 * C + b)) : UInt8).toNat) =
        blockLength fun r x => (idctSample F' r x : ℝ) - idctSample F r x := by
      refine blockLength_congr fun a b ha hb => ?_
      rw [inverted_byte, inverted_byte, upsampledSample_byte, upsampledSample_byte, ← hs a b ha hb, ← hs' a b ha hb]
      push_cast
      ring
    have h2 : (blockLength fun k l => (F k l : ℝ) - F' k l) = blockLength fun k l => (F' k l : ℝ) - F k l := by
      apply le_antisymm <;> exact blockLength_mono fun r x _ _ => by rw [abs_sub_comm]
    rw [h1, h2]
    exact e

/-- No channel of a pixel has been limited. -/
def Inside (p : UInt8 × UInt8 × UInt8) : Prop :=
  (0 < p.1.toNat ∧ p.1.toNat < 255) ∧ (0 < p.2.1.toNat ∧ p.2.1.toNat < 255) ∧ 0 < p.2.2.toNat ∧ p.2.2.toNat < 255

section

variable {f : BaselineFile} {H : Nat}

/-- The pixels of a block and the samples of its luminance. -/
theorem block_pixels {cfg : Cfg} {codes : List (Code × Code)} {d d' : Decoder} (hd : UsedDecoder d) (hh : Holds cfg d f.earlier)
    (h3 : f.comps.length = 3) (hct : f.transform d.transform ≠ some 0)
    (hv : f.Valid (f.interval d.restartInterval) H 1 codes) (hr : f.Renderable H 1) (hu : f.Unclipped) {image : List UInt8}
    (e : d.decode cfg f.bytes = .ok image d') {c : FileComponent} (hc : f.comps[0]? = some c) (hfull : c.h = H ∧ c.v = 1)
    {R C : Nat} (hR : 8 * R + 8 ≤ f.y) (hC : 8 * C + 8 ≤ f.x) :
    ∃ (p : Nat → Nat → UInt8 × UInt8 × UInt8) (F : Nat → Nat → Int), (∀ k l, f.coefficientAt H 0 R C k l = some (F k l)) ∧
      ∀ a b, a < 8 → b < 8 → image[3 * f.x * (8 * R + a) + 3 * (8 * C + b)]? = some (p a b).1 ∧
        image[3 * f.x * (8 * R + a) + (3 * (8 * C + b) + 1)]? = some (p a b).2.1 ∧
        image[3 * f.x * (8 * R + a) + (3 * (8 * C + b) + 2)]? = some (p a b).2.2 ∧
        (Inside (p a b) → |(luminance1000 (p a b).1 (p a b).2.1 (p a b).2.2 : ℝ) / 1000 - idctSample F a b| ≤ 501 / 1000) := by
  obtain ⟨F, hF, hs⟩ := block_coefficients hv.toLaid hu hc hfull hR hC
  have px : ∀ a b, ∃ p : UInt8 × UInt8 × UInt8, a < 8 → b < 8 → image[3 * f.x * (8 * R + a) + 3 * (8 * C + b)]? = some p.1 ∧
            image[3 * f.x * (8 * R + a) + (3 * (8 * C + b) + 1)]? = some p.2.1 ∧
            image[3 * f.x * (8 * R + a) + (3 * (8 * C + b) + 2)]? = some p.2.2 ∧
            GreyOf p.1 p.2.1 p.2.2 (UInt8.ofNat (f.upsampledSample H 1 0 (8 * R + a) (8 * C + b))) := by
    intro a b
    by_cases h : a < 8 ∧ b < 8
    · obtain ⟨r, g, b', e, q1, q2, q3⟩ := C45_pixels_own_row_partial cfg f H codes d hd hh h3 hct hv hr hu.inRange image d' e
        (8 * R + a) (8 * C + b) (by omega) (by omega)
      obtain ⟨r', g', b'', e', hg⟩ := C95_luminance (UInt8.ofNat (f.upsampledSample H 1 0 (8 * R + a) (8 * C + b)))
        (UInt8.ofNat (f.upsampledSample H 1 1 (8 * R + a) (8 * C + b))) (UInt8.ofNat (f.upsampledSample H 1 2 (8 * R + a) (8 * C + b)))
      cases e.symm.trans e'
      exact ⟨(r, g, b'), fun _ _ => ⟨q1, q2, q3, hg⟩⟩
    · exact ⟨(0, 0, 0), fun ha hb => absurd ⟨ha, hb⟩ h⟩
  choose p hp using px
  refine ⟨p, F, hF, fun a b ha hb => ⟨(hp a b ha hb).1, (hp a b ha hb).2.1, (hp a b ha hb).2.2.1, ?_⟩⟩
  intro hl
  obtain ⟨-, -, -, g1, g2⟩ := hp a b ha hb
  rw [upsampledSample_byte, hs a b ha hb] at g1 g2
  obtain ⟨l1, l2, l3⟩ := hl
  have w1 := g1 l1.1 l2.1 l3.1
  have w2 := g2 l1.2 l2.2 l3.2
  generalize luminance1000 (p a b).1 (p a b).2.1 (p a b).2.2 = L at w1 w2 ⊢
  generalize idctSample F a b = S at w1 w2 ⊢
  have w1 : (L : ℝ) ≤ 1000 * S + 501 := by exact_mod_cast w1
  have w2 : 1000 * (S : ℝ) ≤ L + 501 := by exact_mod_cast w2
  rw [abs_le]
  constructor <;> linarith

end

/-- **C106** (YCbCr). Likewise the differences of the luminance (BT.601) of the 64 pixels of every block within the pictures
are those of the coefficients of the first component, as roots of the sums of squares, up to 18 and 1.3 per cent, if no
channel of the pixels has been limited. -/
theorem C106_luminance (cfg : Cfg) (f f' : BaselineFile) (hx : f.x = f'.x) (hy : f.y = f'.y) (H H' : Nat)
    (codes codes' : List (Code × Code)) (d₁ d₂ : Decoder) (hd₁ : UsedDecoder d₁) (hd₂ : UsedDecoder d₂)
    (hh₁ : Holds cfg d₁ f.earlier) (hh₂ : Holds cfg d₂ f'.earlier) (h3 : f.comps.length = 3) (h3' : f'.comps.length = 3)
    (hct₁ : f.transform d₁.transform ≠ some 0) (hct₂ : f'.transform d₂.transform ≠ some 0)
    (hv₁ : f.Valid (f.interval d₁.restartInterval) H 1 codes) (hv₂ : f'.Valid (f'.interval d₂.restartInterval) H' 1 codes')
    (hr₁ : f.Renderable H 1) (hr₂ : f'.Renderable H' 1) (hu : f.Unclipped) (hu' : f'.Unclipped)
    (c c' : FileComponent) (hc : f.comps[0]? = some c) (hc' : f'.comps[0]? = some c') (hfull : c.h = H ∧ c.v = 1)
    (hfull' : c'.h = H' ∧ c'.v = 1) :
    ∃ image image' e₁ e₂, d₁.decode cfg f.bytes = .ok image e₁ ∧ d₂.decode cfg f'.bytes = .ok image' e₂ ∧
      image.length = f.x * f.y * 3 ∧ image'.length = f.x * f.y * 3 ∧
      ∀ R C, 8 * R + 8 ≤ f.y → 8 * C + 8 ≤ f.x →
        ∃ (p p' : Nat → Nat → UInt8 × UInt8 × UInt8) (F F' : Nat → Nat → Int),
          (∀ k l, f.coefficientAt H 0 R C k l = some (F k l) ∧ f'.coefficientAt H' 0 R C k l = some (F' k l)) ∧
          (∀ a b, a < 8 → b < 8 → image[3 * f.x * (8 * R + a) + 3 * (8 * C + b)]? = some (p a b).1 ∧
            image[3 * f.x * (8 * R + a) + (3 * (8 * C + b) + 1)]? = some (p a b).2.1 ∧
            image[3 * f.x * (8 * R + a) + (3 * (8 * C + b) + 2)]? = some (p a b).2.2 ∧
            image'[3 * f.x * (8 * R + a) + 3 * (8 * C + b)]? = some (p' a b).1 ∧
            image'[3 * f.x * (8 * R + a) + (3 * (8 * C + b) + 1)]? = some (p' a b).2.1 ∧
            image'[3 * f.x * (8 * R + a) + (3 * (8 * C + b) + 2)]? = some (p' a b).2.2) ∧
          ((∀ a b, a < 8 → b < 8 → Inside (p a b) ∧ Inside (p' a b)) →
            |blockLength (fun a b => (luminance1000 (p a b).1 (p a b).2.1 (p a b).2.2 : ℝ) / 1000 -
                (luminance1000 (p' a b).1 (p' a b).2.1 (p' a b).2.2 : ℝ) / 1000) - blockLength (fun k l => (F k l : ℝ) - F' k l)| ≤
              18 + blockLength (fun k l => (F k l : ℝ) - F' k l) * (13 / 1000)) := by
  obtain ⟨image, e₁, a1, a2⟩ := C45_decodes cfg f H 1 codes d₁ hd₁ hh₁ h3 hct₁ hv₁ hr₁
  obtain ⟨image', e₂, b1, b2⟩ := C45_decodes cfg f' H' 1 codes' d₂ hd₂ hh₂ h3' hct₂ hv₂ hr₂
  refine ⟨image, image', e₁, e₂, a1, b1, a2, by rw [b2, hx, hy], ?_⟩
  intro R C hR hC
  obtain ⟨p, F, hF, hp⟩ := block_pixels hd₁ hh₁ h3 hct₁ hv₁ hr₁ hu a1 hc hfull hR hC
  obtain ⟨p', F', hF', hp'⟩ := block_pixels hd₂ hh₂ h3' hct₂ hv₂ hr₂ hu' b1 hc' hfull' (hy ▸ hR) (hx ▸ hC)
  rw [← hx] at hp'
  refine ⟨p, p', F, F', fun k l => ⟨hF k l, hF' k l⟩, fun a b ha hb => ?_, fun hl => ?_⟩
  · obtain ⟨q1, q2, q3, -⟩ := hp a b ha hb
    obtain ⟨q1', q2', q3', -⟩ := hp' a b ha hb
    exact ⟨q1, q2, q3, q1', q2', q3'⟩
  · have e := C106_idct F F'
    have n := blockLength_near (e := 1002 / 1000) (g := fun a b => (luminance1000 (p a b).1 (p a b).2.1 (p a b).2.2 : ℝ) / 1000 -
      (luminance1000 (p' a b).1 (p' a b).2.1 (p' a b).2.2 : ℝ) / 1000) (h := fun r x => (idctSample F r x : ℝ) - idctSample F' r x)
      (by norm_num) (fun a b ha hb => by
        have w := (hp a b ha hb).2.2.2 (hl a b ha hb).1
        have w' := (hp' a b ha hb).2.2.2 (hl a b ha hb).2
        rw [abs_le] at w w' ⊢
        constructor <;> linarith)
    rw [abs_le] at e n ⊢
    constructor <;> linarith

/-- A length of integers. -/
theorem blockLength_int {g : Nat → Nat → ℝ} {n : Nat} (u v : Nat → Nat → Int) (hg : ∀ r x, r < 8 → x < 8 → g r x = (u r x : ℝ) - v r x)
    (h : ∑ r ∈ range 8, ∑ x ∈ range 8, (u r x - v r x) ^ 2 = (n : Int)) : blockLength g = √n := by
  rw [blockLength_congr hg]
  unfold blockLength
  congr 1
  have : ((∑ r ∈ range 8, ∑ x ∈ range 8, (u r x - v r x) ^ 2 : Int) : ℝ) = n := by rw [h]; norm_cast
  push_cast at this
  exact this

/-- A case of C106: two blocks whose coefficients differ by 60, 40 and 30; the squares of their samples add up to 5944, those
of the coefficients to 6100. -/
example : ∃ s s', Gives (toneBlock 30 20 (-15)) (List.replicate 64 2) s ∧ Gives (toneBlock 60 0 (-30)) (List.replicate 64 2) s' ∧
    blockLength (fun r x => ((s r x).toNat : ℝ) - (s' r x).toNat) = √5944 ∧ |√5944 - √6100| ≤ 99 / 10 + √6100 * (13 / 1000) := by
  obtain ⟨t, s, g, l, -⟩ := toneBlock_tame (t := (30, 20, -15)) (by decide)
  obtain ⟨t', s', g', l', -⟩ := toneBlock_tame (t := (60, 0, -30)) (by decide)
  obtain ⟨u1, u2⟩ := C106_block _ _ _ _ t t' s s' g g'
  have u2 := u2 fun r x hr hx => ⟨l r x hr hx, l' r x hr hx⟩
  have e1 : blockLength (fun r x => ((s r x).toNat : ℝ) - (s' r x).toNat) = √(5944 : Nat) := by
    refine blockLength_int (fun r x => ((saturate (idctSample (coefAt (toneBlock 30 20 (-15)) (List.replicate 64 2)) r x)).toNat : Int))
      (fun r x => ((saturate (idctSample (coefAt (toneBlock 60 0 (-30)) (List.replicate 64 2)) r x)).toNat : Int)) ?_ (by decide +kernel)
    intro r x hr hx
    rw [t.gives.1 g r x hr hx, t'.gives.1 g' r x hr hx]
    simp only [Int.cast_natCast]
  have e2 : blockLength (fun k i => ((coef (toneBlock 30 20 (-15)) (i + 8 * k) * quant (List.replicate 64 2) (i + 8 * k) : Int) : ℝ) -
      (coef (toneBlock 60 0 (-30)) (i + 8 * k) * quant (List.replicate 64 2) (i + 8 * k) : Int)) = √(6100 : Nat) :=
    blockLength_int (coefAt (toneBlock 30 20 (-15)) (List.replicate 64 2)) (coefAt (toneBlock 60 0 (-30)) (List.replicate 64 2))
      (fun _ _ _ _ => rfl) (by decide +kernel)
  simp only at u1 u2
  rw [e1, e2] at u1 u2
  refine ⟨s, s', g, g', by rw [e1]; norm_num, ?_⟩
  rw [abs_le]
  push_cast at u1 u2
  constructor <;> linarith

/-- A case of C106: a CMYK picture of 8 by 8 pixels with its tables and with half of them; the coefficients of the first ink
differ by 20, 28 and 12. -/
example : ∃ f f' : BaselineFile, ∀ cfg, ∃ (image image' : List UInt8) (v v' : Nat → Nat → UInt8),
    decode cfg f.bytes = .ok image ∧ decode cfg f'.bytes = .ok image' ∧ image.length = 256 ∧ image'.length = 256 ∧
      (∀ a b, a < 8 → b < 8 → image[32 * a + 4 * b]? = some (v a b) ∧ image'[32 * a + 4 * b]? = some (v' a b)) ∧
      |blockLength (fun a b => ((v a b).toNat : ℝ) - (v' a b).toNat) - √1328| ≤ 99 / 10 + √1328 * (13 / 1000) := by
  have hv : ∀ (q : List Nat), GoodTable q → _ := fun q h1 =>
    codedFile_valid (q := q) (comps := inkComps) (x := 8) (y := 8) (H := 1) (V := 1) (mcus := [inkMcu 1]) h1
      ⟨by decide, by decide, by decide, by decide, by decide, ⟨by decide, by decide⟩, ⟨by decide, by decide⟩, by decide,
        by decide, by decide, by decide, by decide⟩ (by decide)
  obtain ⟨d₁, v₁⟩ := hv (List.replicate 64 8) ⟨by decide, by decide⟩
  obtain ⟨d₂, v₂⟩ := hv (List.replicate 64 4) ⟨by decide, by decide⟩
  have v₁ := withAdobe_valid (t := 0) (by decide) v₁
  have v₂ := withAdobe_valid (t := 0) (by decide) v₂
  refine ⟨withAdobe 0 (codedFile (List.replicate 64 8) inkComps 8 8 [inkMcu 1] d₁),
    withAdobe 0 (codedFile (List.replicate 64 4) inkComps 8 8 [inkMcu 1] d₂), fun cfg => ?_⟩
  obtain ⟨p, q, e₁, e₂, h1, h2, h3, h4, h⟩ := C106_cmyk cfg (withAdobe 0 (codedFile (List.replicate 64 8) inkComps 8 8 [inkMcu 1] d₁))
    (withAdobe 0 (codedFile (List.replicate 64 4) inkComps 8 8 [inkMcu 1] d₂)) rfl rfl 1 1 _ _ Decoder.default
    Decoder.default .new .new (.nothing _) (.nothing _) rfl rfl rfl rfl v₁ v₂ (renderable_one v₁.toLaid.ones)
    (renderable_one v₂.toLaid.ones)
    (codedFile_unclipped (data := d₁) (x := 8) (y := 8) (comps := inkComps) (mcus := [inkMcu 1]) (by decide) (by decide +kernel))
    (codedFile_unclipped (data := d₂) (x := 8) (y := 8) (comps := inkComps) (mcus := [inkMcu 1]) (by decide) (by decide +kernel))
  obtain ⟨v, v', F, F', hF, hp, hE⟩ := h 0 _ _ 0 0 rfl rfl rfl rfl rfl rfl (by show 8 * 0 + 8 ≤ 8; decide) (by show 8 * 0 + 8 ≤ 8; decide)
  refine ⟨p, q, v, v', by unfold decode; rw [h1], by unfold decode; rw [h2],
    by change p.length = 8 * 8 * 4 at h3; omega, by change q.length = 8 * 8 * 4 at h4; omega, ?_, ?_⟩
  · intro a b ha hb
    have := hp a b ha hb
    simp only [Nat.mul_zero, Nat.zero_add, Nat.add_zero] at this
    exact this
  · have c : ∀ k < 8, ∀ l < 8,
        (codedFile (List.replicate 64 8) inkComps 8 8 [inkMcu 1] []).coefficientAt 1 0 0 0 k l =
          some (if (k, l) = (0, 0) then 40 else if (k, l) = (0, 1) then 56 else if (k, l) = (1, 0) then -24 else 0) ∧
        (codedFile (List.replicate 64 4) inkComps 8 8 [inkMcu 1] []).coefficientAt 1 0 0 0 k l =
          some (if (k, l) = (0, 0) then 20 else if (k, l) = (0, 1) then 28 else if (k, l) = (1, 0) then -12 else 0) := by
      decide +kernel
    have e : blockLength (fun k l => (F k l : ℝ) - F' k l) = √(1328 : Nat) := by
      refine blockLength_int
        (fun k l => if (k, l) = (0, 0) then 40 else if (k, l) = (0, 1) then 56 else if (k, l) = (1, 0) then -24 else 0)
        (fun k l => if (k, l) = (0, 0) then 20 else if (k, l) = (0, 1) then 28 else if (k, l) = (1, 0) then -12 else 0) ?_ (by decide +kernel)
      intro k l hk hl
      obtain ⟨c1, c2⟩ := c k hk l hl
      obtain ⟨g1, g2⟩ := hF k l
      rw [← Option.some.inj (c1.symm.trans g1), ← Option.some.inj (c2.symm.trans g2)]
    rw [e] at hE
    push_cast at hE
    exact hE

/-- A picture of 8 by 8 pixels with a table of equal entries. -/
def toneFile (n : Nat) (data : List UInt8) : BaselineFile := codedFile (List.replicate 64 n) fullComps 8 8 [addendMcu] data

/-- None of its pixels is limited. -/
theorem toneFile_inside : ∀ n ∈ [2, 4], ∀ a < 8, ∀ b < 8,
    ∃ q : UInt8 × UInt8 × UInt8, ycbcrToRgb (UInt8.ofNat ((toneFile n []).upsampledSample 1 1 0 a b))
      (UInt8.ofNat ((toneFile n []).upsampledSample 1 1 1 a b)) (UInt8.ofNat ((toneFile n []).upsampledSample 1 1 2 a b)) = .ok q ∧
    Inside q := by
  have : ∀ n ∈ [2, 4], ∀ a < 8, ∀ b < 8,
      (match ycbcrToRgb (UInt8.ofNat ((toneFile n []).upsampledSample 1 1 0 a b))
        (UInt8.ofNat ((toneFile n []).upsampledSample 1 1 1 a b)) (UInt8.ofNat ((toneFile n []).upsampledSample 1 1 2 a b)) with
      | .ok q => decide ((0 < q.1.toNat ∧ q.1.toNat < 255) ∧ (0 < q.2.1.toNat ∧ q.2.1.toNat < 255) ∧ 0 < q.2.2.toNat ∧ q.2.2.toNat < 255)
      | .error _ => false) = true := by decide +kernel
  intro n hn a ha b hb
  have := this n hn a ha b hb
  split at this
  · next q e =>
    refine ⟨q, e, ?_⟩
    unfold Inside
    exact of_decide_eq_true this
  · cases this

/-- A case of `C106_luminance`: the same picture with tables of twos and of fours. -/
example : ∃ f f' : BaselineFile, ∀ cfg, ∃ (image image' : List UInt8) (p p' : Nat → Nat → UInt8 × UInt8 × UInt8),
    decode cfg f.bytes = .ok image ∧ decode cfg f'.bytes = .ok image' ∧
      (∀ a b, a < 8 → b < 8 → (image[24 * a + 3 * b]? = some (p a b).1 ∧ image[24 * a + (3 * b + 1)]? = some (p a b).2.1 ∧
        image[24 * a + (3 * b + 2)]? = some (p a b).2.2) ∧ image'[24 * a + 3 * b]? = some (p' a b).1 ∧
        image'[24 * a + (3 * b + 1)]? = some (p' a b).2.1 ∧ image'[24 * a + (3 * b + 2)]? = some (p' a b).2.2) ∧
      |blockLength (fun a b => (luminance1000 (p a b).1 (p a b).2.1 (p a b).2.2 : ℝ) / 1000 -
        (luminance1000 (p' a b).1 (p' a b).2.1 (p' a b).2.2 : ℝ) / 1000) - 50| ≤ 18 + 50 * (13 / 1000) := by
  have hv : ∀ n, GoodTable (List.replicate 64 n) → _ := fun n h1 =>
    codedFile_valid (q := List.replicate 64 n) (comps := fullComps) (x := 8) (y := 8) (H := 1) (V := 1) (mcus := [addendMcu]) h1
      ⟨by decide, by decide, by decide, by decide, by decide, ⟨by decide, by decide⟩, ⟨by decide, by decide⟩, by decide,
        by decide, by decide, by decide, by decide⟩ (by decide)
  obtain ⟨d₁, v₁⟩ := hv 2 ⟨by decide, by decide⟩
  obtain ⟨d₂, v₂⟩ := hv 4 ⟨by decide, by decide⟩
  have u₁ : (toneFile 2 d₁).Unclipped := codedFile_unclipped (by decide) (by decide +kernel)
  have u₂ : (toneFile 4 d₂).Unclipped := codedFile_unclipped (by decide) (by decide +kernel)
  refine ⟨toneFile 2 d₁, toneFile 4 d₂, fun cfg => ?_⟩
  have inside : ∀ n ∈ [2, 4], ∀ data, (toneFile n data).Valid 0 1 1 (List.replicate fullComps.length (dcK3, acK5)) →
      (toneFile n data).Unclipped → ∀ (image : List UInt8) (d' : Decoder), Decoder.default.decode cfg (toneFile n data).bytes = .ok image d' →
      ∀ p : UInt8 × UInt8 × UInt8, ∀ a b, a < 8 → b < 8 → image[24 * a + 3 * b]? = some p.1 → image[24 * a + (3 * b + 1)]? = some p.2.1 →
        image[24 * a + (3 * b + 2)]? = some p.2.2 → Inside p := by
    intro n hn data v u image d' e p a b ha hb w1 w2 w3
    obtain ⟨r, g, b', e', q1, q2, q3⟩ := C45_pixels_own_row_partial cfg _ 1 _ Decoder.default .new (.nothing _) rfl
      (by show (none : Option Nat) ≠ some 0; decide) v (renderable_one v.toLaid.ones) u.inRange image d' e a b ha hb
    obtain ⟨q, e2, hq⟩ := toneFile_inside n hn a ha b hb
    cases e'.symm.trans e2
    have : p = (r, g, b') := by
      refine Prod.ext ?_ (Prod.ext ?_ ?_)
      · exact (Option.some.inj (q1.symm.trans w1)).symm
      · exact (Option.some.inj (q2.symm.trans w2)).symm
      · exact (Option.some.inj (q3.symm.trans w3)).symm
    rw [this]
    exact hq
  obtain ⟨image, image', e₁, e₂, h1, h2, -, -, h⟩ := C106_luminance cfg (toneFile 2 d₁) (toneFile 4 d₂) rfl rfl 1 1 _ _ Decoder.default
    Decoder.default .new .new (.nothing _) (.nothing _) rfl rfl (by show (none : Option Nat) ≠ some 0; decide)
    (by show (none : Option Nat) ≠ some 0; decide) v₁ v₂ (renderable_one v₁.toLaid.ones)
    (renderable_one v₂.toLaid.ones) u₁ u₂ _ _ rfl rfl ⟨rfl, rfl⟩ ⟨rfl, rfl⟩
  obtain ⟨p, p', F, F', hF, hp, hE⟩ := h 0 0 (by show 8 * 0 + 8 ≤ 8; decide) (by show 8 * 0 + 8 ≤ 8; decide)
  have hp' : ∀ a b, a < 8 → b < 8 → (image[24 * a + 3 * b]? = some (p a b).1 ∧ image[24 * a + (3 * b + 1)]? = some (p a b).2.1 ∧
        image[24 * a + (3 * b + 2)]? = some (p a b).2.2) ∧ image'[24 * a + 3 * b]? = some (p' a b).1 ∧
        image'[24 * a + (3 * b + 1)]? = some (p' a b).2.1 ∧ image'[24 * a + (3 * b + 2)]? = some (p' a b).2.2 := by
    intro a b ha hb
    have := hp a b ha hb
    simp only [Nat.mul_zero, Nat.zero_add] at this
    obtain ⟨w1, w2, w3, w4, w5, w6⟩ := this
    exact ⟨⟨w1, w2, w3⟩, w4, w5, w6⟩
  refine ⟨image, image', p, p', by unfold decode; rw [h1], by unfold decode; rw [h2], hp', ?_⟩
  have hE := hE fun a b ha hb => by
    obtain ⟨⟨w1, w2, w3⟩, w4, w5, w6⟩ := hp' a b ha hb
    exact ⟨inside 2 (by decide) d₁ v₁ u₁ image e₁ h1 _ a b ha hb w1 w2 w3,
      inside 4 (by decide) d₂ v₂ u₂ image' e₂ h2 _ a b ha hb w4 w5 w6⟩
  have c : ∀ k < 8, ∀ l < 8,
      (toneFile 2 []).coefficientAt 1 0 0 0 k l = some (dequantised (List.replicate 64 2) ⟨20, 15 :: List.replicate 62 0⟩ k l) ∧
      (toneFile 4 []).coefficientAt 1 0 0 0 k l = some (dequantised (List.replicate 64 4) ⟨20, 15 :: List.replicate 62 0⟩ k l) :=
    fun k _ l _ => ⟨rfl, rfl⟩
  have e : blockLength (fun k l => (F k l : ℝ) - F' k l) = √(2500 : Nat) := by
    refine blockLength_int (dequantised (List.replicate 64 2) ⟨20, 15 :: List.replicate 62 0⟩) (dequantised (List.replicate 64 4) ⟨20, 15 :: List.replicate 62 0⟩)
      ?_ (by decide +kernel)
    intro k l hk hl
    obtain ⟨c1, c2⟩ := c k hk l hl
    obtain ⟨g1, g2⟩ := hF k l
    rw [← Option.some.inj (c1.symm.trans g1), ← Option.some.inj (c2.symm.trans g2)]
  rw [e, show √((2500 : Nat) : ℝ) = 50 by
    rw [show ((2500 : Nat) : ℝ) = 50 ^ 2 by norm_num, Real.sqrt_sq (by norm_num)]] at hE
  exact hE

end Jpeg
