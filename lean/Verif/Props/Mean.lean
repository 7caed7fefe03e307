import Verif.Spec.Mean
import Verif.Props.Added
import Verif.Props.Colourless
import Verif.Props.Idct
/-!
# C102: the mean of a block is its DC coefficient
-/

namespace Jpeg
open Spec Sample

/-- The columns of the matrix add up to zero, except the first. -/
theorem idctMatrix_sums (a b c d e f g h : Int) : dot (idctMatrixRow 0) [a, b, c, d, e, f, g, h] + dot (idctMatrixRow 1) [a, b, c, d, e, f, g, h] +
    dot (idctMatrixRow 2) [a, b, c, d, e, f, g, h] + dot (idctMatrixRow 3) [a, b, c, d, e, f, g, h] +
    dot (idctMatrixRow 4) [a, b, c, d, e, f, g, h] + dot (idctMatrixRow 5) [a, b, c, d, e, f, g, h] +
    dot (idctMatrixRow 6) [a, b, c, d, e, f, g, h] + dot (idctMatrixRow 7) [a, b, c, d, e, f, g, h] = 32768 * a := by
  simp only [dot, idctMatrixRow, idctMatrix, List.getD_cons_zero, List.getD_cons_succ, List.zipWith_cons_cons, List.zipWith_nil_left,
    List.sum_cons, List.sum_nil]
  omega

theorem sum8 (g : Nat → Int) : ((List.range 8).map g).sum = g 0 + g 1 + g 2 + g 3 + g 4 + g 5 + g 6 + g 7 := by
  rw [range8]
  simp only [List.sum_cons, List.sum_nil]
  omega

theorem idct_row_sum (F : Nat → Nat → Int) (r : Nat) :
    idctPass1 F r 0 - 16 ≤ 4 * (((List.range 8).map fun x => idctSample F r x).sum - 1024) ∧
      4 * (((List.range 8).map fun x => idctSample F r x).sum - 1024) ≤ idctPass1 F r 0 + 16 := by
  rw [sum8]
  unfold idctSample
  rw [range8]
  have := idctMatrix_sums (idctPass1 F r 0) (idctPass1 F r 1) (idctPass1 F r 2) (idctPass1 F r 3) (idctPass1 F r 4)
    (idctPass1 F r 5) (idctPass1 F r 6) (idctPass1 F r 7)
  generalize dot (idctMatrixRow 0) _ = a0 at this ⊢
  generalize dot (idctMatrixRow 1) _ = a1 at this ⊢
  generalize dot (idctMatrixRow 2) _ = a2 at this ⊢
  generalize dot (idctMatrixRow 3) _ = a3 at this ⊢
  generalize dot (idctMatrixRow 4) _ = a4 at this ⊢
  generalize dot (idctMatrixRow 5) _ = a5 at this ⊢
  generalize dot (idctMatrixRow 6) _ = a6 at this ⊢
  generalize dot (idctMatrixRow 7) _ = a7 at this ⊢
  omega

theorem idct_column_sum (F : Nat → Nat → Int) :
    32 * F 0 0 - 4 ≤ ((List.range 8).map fun r => idctPass1 F r 0).sum ∧
      ((List.range 8).map fun r => idctPass1 F r 0).sum ≤ 32 * F 0 0 + 4 := by
  rw [sum8]
  unfold idctPass1
  rw [range8]
  have := idctMatrix_sums (F 0 0) (F 1 0) (F 2 0) (F 3 0) (F 4 0) (F 5 0) (F 6 0) (F 7 0)
  generalize dot (idctMatrixRow 0) _ = a0 at this ⊢
  generalize dot (idctMatrixRow 1) _ = a1 at this ⊢
  generalize dot (idctMatrixRow 2) _ = a2 at this ⊢
  generalize dot (idctMatrixRow 3) _ = a3 at this ⊢
  generalize dot (idctMatrixRow 4) _ = a4 at this ⊢
  generalize dot (idctMatrixRow 5) _ = a5 at this ⊢
  generalize dot (idctMatrixRow 6) _ = a6 at this ⊢
  generalize dot (idctMatrixRow 7) _ = a7 at this ⊢
  omega

/-- **C102** (the inverse DCT). The 64 samples of a block add up to `64 * 128 + 8 * DC`, up to 33 (about half a step per
sample, for the rounding), whatever the other coefficients are; for all integers. -/
theorem C102_idct (F : Nat → Nat → Int) : |blockSum (idctSample F) - (8192 + 8 * F 0 0)| ≤ 33 := by
  have h := idct_row_sum F
  have c := idct_column_sum F
  have h0 := h 0
  have h1 := h 1
  have h2 := h 2
  have h3 := h 3
  have h4 := h 4
  have h5 := h 5
  have h6 := h 6
  have h7 := h 7
  unfold blockSum
  rw [sum8] at c
  rw [sum8 fun r => ((List.range 8).map fun x => idctSample F r x).sum]
  rw [abs_le]
  omega

/-- **C102** (a picture of an eighth of the size). If no sample of a block leaves 0..255, the one sample of the 1x1 transform
is the mean of the 64 samples, rounded down, up to that error. -/
theorem C102_thumbnail (c : List Int) (q : List Nat) (F : Nat → Nat → Int)
    (hF : F = fun k i => coef c (i + 8 * k) * quant q (i + 8 * k))
    (h : ∀ r x, r < 8 → x < 8 → 0 ≤ idctSample F r x ∧ idctSample F r x ≤ 255) :
    -33 ≤ blockSum (idctSample F) - 64 * (idct1x1 c q).toNat ∧ blockSum (idctSample F) - 64 * (idct1x1 c q).toNat ≤ 89 := by
  have hs := C102_idct F
  rw [abs_le] at hs
  have hb : 0 ≤ blockSum (idctSample F) ∧ blockSum (idctSample F) ≤ 64 * 255 := by
    have row : ∀ r, r < 8 → 0 ≤ ((List.range 8).map fun x => idctSample F r x).sum ∧
        ((List.range 8).map fun x => idctSample F r x).sum ≤ 8 * 255 := by
      intro r hr
      rw [sum8]
      have := h r 0 hr (by decide)
      have := h r 1 hr (by decide)
      have := h r 2 hr (by decide)
      have := h r 3 hr (by decide)
      have := h r 4 hr (by decide)
      have := h r 5 hr (by decide)
      have := h r 6 hr (by decide)
      have := h r 7 hr (by decide)
      omega
    unfold blockSum
    rw [sum8 fun r => ((List.range 8).map fun x => idctSample F r x).sum]
    have := row 0 (by decide)
    have := row 1 (by decide)
    have := row 2 (by decide)
    have := row 3 (by decide)
    have := row 4 (by decide)
    have := row 5 (by decide)
    have := row 6 (by decide)
    have := row 7 (by decide)
    omega
  have hd : coef c 0 * quant q 0 = F 0 0 := by rw [hF]
  generalize blockSum (idctSample F) = S at *
  rw [(C49_1x1 c q (by rw [hd]; omega) (by rw [hd]; omega)).1, hd, saturate_toNat]
  generalize F 0 0 = d at *
  have : (d + 1024).tdiv 8 = if 0 ≤ d + 1024 then (d + 1024) / 8 else -((-(d + 1024)) / 8) := by
    split
    · rw [Int.tdiv_eq_ediv_of_nonneg (by omega)]
    · rw [← Int.neg_neg (d + 1024), Int.neg_tdiv, Int.tdiv_eq_ediv_of_nonneg (by omega), Int.neg_neg]
  rw [this]
  split <;> omega

/-- A case of C102: a block with strong AC coefficients; the mean is that of DC. -/
example : let F : Nat → Nat → Int := fun k i => if (k, i) = (0, 0) then 200 else if (k, i) = (0, 1) then 300 else if (k, i) = (5, 2) then -170 else 0
    (∀ r < 8, ∀ x < 8, 0 ≤ idctSample F r x ∧ idctSample F r x ≤ 255) ∧ blockSum (idctSample F) = 9792 ∧ 8192 + 8 * F 0 0 = 9792 := by
  decide +kernel

section

variable {f : BaselineFile} {H : Nat}

theorem le_blocks {x d : Nat} (hd : 0 < d) : x ≤ 8 * (ceilDiv x (8 * d) * d) := by
  unfold ceilDiv
  have := Nat.div_add_mod (x + (8 * d - 1)) (8 * d)
  have := Nat.mod_lt (x + (8 * d - 1)) (show 0 < 8 * d by omega)
  rw [Nat.mul_comm _ d, ← Nat.mul_assoc]
  omega

/-- The 64 samples of a block of a component at full resolution. -/
theorem block_of_samples {r : Nat} {codes : List (Code × Code)} (hv : f.Laid r H 1 codes) (hu : f.Unclipped) {i : Nat}
    {c : FileComponent} (hc : f.comps[i]? = some c) (hfull : c.h = H ∧ c.v = 1) {R C : Nat} (hR : 8 * R + 8 ≤ f.y)
    (hC : 8 * C + 8 ≤ f.x) : ∃ F : Nat → Nat → Int, f.dcAt H i R C = some (F 0 0) ∧
      ∀ a b, a < 8 → b < 8 → (f.upsampledSample H 1 i (8 * R + a) (8 * C + b) : Int) = idctSample F a b := by
  have hH : 0 < H := by
    have := hv.factors c (List.mem_of_getElem? hc)
    omega
  have hx := le_blocks (x := f.x) hH
  have hy := le_blocks (x := f.y) (d := 1) (by decide)
  have key := fun a b (ha : a < 8) (hb : b < 8) => sample_coefficients hv hu hc (Y := 8 * R + a) (X := 8 * C + b)
    (by rw [hfull.2]; omega) (by rw [hfull.1]; omega)
  have simp1 : ∀ a b, a < 8 → b < 8 → (8 * R + a) / 8 = R ∧ (8 * C + b) / 8 = C ∧ (8 * R + a) % 8 = a ∧ (8 * C + b) % 8 = b := by
    intro a b ha hb; omega
  obtain ⟨F, e, -⟩ := key 0 0 (by decide) (by decide)
  obtain ⟨p1, p2, -, -⟩ := simp1 0 0 (by decide) (by decide)
  rw [p1, p2, hfull.1, hfull.2, Nat.div_one, Nat.mod_one, Nat.zero_mul, Nat.zero_add] at e
  refine ⟨F, e 0 0, ?_⟩
  intro a b ha hb
  obtain ⟨F', e', s⟩ := key a b ha hb
  obtain ⟨p1, p2, p3, p4⟩ := simp1 a b ha hb
  rw [p1, p2, hfull.1, hfull.2, Nat.div_one, Nat.mod_one, Nat.zero_mul, Nat.zero_add] at e'
  have : F' = F := by
    funext k l
    exact Option.some.inj ((e' k l).symm.trans (e k l))
  rw [this, p3, p4] at s
  rw [← s]
  unfold BaselineFile.upsampledSample
  rw [hc]
  simp only
  unfold upsampled
  rw [if_pos ⟨.inl hfull.1, .inl hfull.2⟩]

theorem blockSum_congr {g g' : Nat → Nat → Int} (h : ∀ a b, a < 8 → b < 8 → g a b = g' a b) : blockSum g = blockSum g' := by
  unfold blockSum
  congr 1
  apply List.map_congr_left
  intro a ha
  congr 1
  apply List.map_congr_left
  intro b hb
  exact h a b (List.mem_range.1 ha) (List.mem_range.1 hb)

end

/-- **C102** (CMYK). Without vertical subsampling: in every block that lies within the picture, the 64 bytes of an ink at full
resolution add up to `64 * 127 - 8 * DC`, up to 33. -/
theorem C102_cmyk (cfg : Cfg) (f : BaselineFile) (H : Nat) (codes : List (Code × Code)) (d : Decoder)
    (hd : UsedDecoder d) (hh : Holds cfg d f.earlier) (h4 : f.comps.length = 4) (hct : f.transform d.transform = some 0)
    (hv : f.Valid (f.interval d.restartInterval) H 1 codes) (hr : f.Renderable H 1) (hu : f.Unclipped) :
    ∃ image d', d.decode cfg f.bytes = .ok image d' ∧ image.length = f.x * f.y * 4 ∧
      ∀ i c R C, f.comps[i]? = some c → c.h = H → c.v = 1 → 8 * R + 8 ≤ f.y → 8 * C + 8 ≤ f.x →
        ∃ (v : Nat → Nat → UInt8) (dc : Int), f.dcAt H i R C = some dc ∧
          (∀ a b, a < 8 → b < 8 → image[4 * f.x * (8 * R + a) + (4 * (8 * C + b) + i)]? = some (v a b)) ∧
          |blockSum (fun a b => (v a b).toNat) - (8128 - 8 * dc)| ≤ 33 := by
  obtain ⟨image, d', h1, h2⟩ := C54_decodes cfg f H 1 codes d hd hh h4 hct hv hr
  refine ⟨image, d', h1, h2, ?_⟩
  intro i c R C hc hcH hcV hR hC
  obtain ⟨F, hF, hs⟩ := block_of_samples hv.toLaid hu hc ⟨hcH, hcV⟩ hR hC
  have hi : i < 4 := by rw [← h4]; exact (List.getElem?_eq_some_iff.1 hc).1
  refine ⟨fun a b => 255 - UInt8.ofNat (f.upsampledSample H 1 i (8 * R + a) (8 * C + b)), _, hF, ?_, ?_⟩
  · intro a b ha hb
    have := C54_pixels_partial cfg f H 1 codes d hd hh h4 hct hv hr hu.inRange image d' h1 (8 * R + a) (8 * C + b) i
      (by omega) (by omega) hi
    simpa using this
  · have := C102_idct F
    have e : blockSum (fun a b => ((255 - UInt8.ofNat (f.upsampledSample H 1 i (8 * R + a) (8 * C + b))).toNat : Int)) =
        16320 - blockSum (idctSample F) := by
      rw [blockSum_congr (g' := fun a b => 255 - idctSample F a b)]
      · unfold blockSum
        simp only [sum8]
        omega
      · intro a b ha hb
        rw [← hs a b ha hb]
        have hb := upsampledSample_byte (f := f) (H := H) (V := 1) i (8 * R + a) (8 * C + b)
        generalize UInt8.ofNat (f.upsampledSample H 1 i (8 * R + a) (8 * C + b)) = w at hb ⊢
        rw [← hb]
        have := w.toNat_lt
        rw [UInt8.toNat_sub_of_le _ _ (by rw [UInt8.le_iff_toNat_le]; show w.toNat ≤ 255; omega),
          show (255 : UInt8).toNat = 255 from rfl]
        omega
    rw [e]
    rw [abs_le] at this ⊢
    omega

/-- **C102** (YCbCr). Likewise the luminance of 64 pixels (a thousand times) adds up to that of the mean, up to about 1 per
pixel, if no channel of them has been limited. -/
theorem C102_luminance (cfg : Cfg) (f : BaselineFile) (H : Nat) (codes : List (Code × Code)) (d : Decoder)
    (hd : UsedDecoder d) (hh : Holds cfg d f.earlier) (h3 : f.comps.length = 3) (hct : f.transform d.transform ≠ some 0)
    (hv : f.Valid (f.interval d.restartInterval) H 1 codes) (hr : f.Renderable H 1) (hu : f.Unclipped)
    (c : FileComponent) (hc : f.comps[0]? = some c) (hfull : c.h = H ∧ c.v = 1) :
    ∃ image d', d.decode cfg f.bytes = .ok image d' ∧ image.length = f.x * f.y * 3 ∧
      ∀ R C, 8 * R + 8 ≤ f.y → 8 * C + 8 ≤ f.x →
        ∃ (p : Nat → Nat → UInt8 × UInt8 × UInt8) (dc : Int), f.dcAt H 0 R C = some dc ∧
          (∀ a b, a < 8 → b < 8 → image[3 * f.x * (8 * R + a) + 3 * (8 * C + b)]? = some (p a b).1 ∧
            image[3 * f.x * (8 * R + a) + (3 * (8 * C + b) + 1)]? = some (p a b).2.1 ∧
            image[3 * f.x * (8 * R + a) + (3 * (8 * C + b) + 2)]? = some (p a b).2.2) ∧
          ((∀ a b, a < 8 → b < 8 → (0 < (p a b).1.toNat ∧ (p a b).1.toNat < 255) ∧ (0 < (p a b).2.1.toNat ∧ (p a b).2.1.toNat < 255) ∧
            (0 < (p a b).2.2.toNat ∧ (p a b).2.2.toNat < 255)) →
          |blockSum (fun a b => luminance1000 (p a b).1 (p a b).2.1 (p a b).2.2) - 1000 * (8192 + 8 * dc)| ≤ 33000 + 64 * 501) := by
  obtain ⟨image, d', h1, h2⟩ := C45_decodes cfg f H 1 codes d hd hh h3 hct hv hr
  refine ⟨image, d', h1, h2, ?_⟩
  intro R C hR hC
  obtain ⟨F, hF, hs⟩ := block_of_samples hv.toLaid hu hc hfull hR hC
  have px : ∀ a b, ∃ p : UInt8 × UInt8 × UInt8, a < 8 → b < 8 → image[3 * f.x * (8 * R + a) + 3 * (8 * C + b)]? = some p.1 ∧
            image[3 * f.x * (8 * R + a) + (3 * (8 * C + b) + 1)]? = some p.2.1 ∧
            image[3 * f.x * (8 * R + a) + (3 * (8 * C + b) + 2)]? = some p.2.2 ∧
            GreyOf p.1 p.2.1 p.2.2 (UInt8.ofNat (f.upsampledSample H 1 0 (8 * R + a) (8 * C + b))) := by
    intro a b
    by_cases h : a < 8 ∧ b < 8
    · obtain ⟨r, g, b', e, q1, q2, q3⟩ := C45_pixels_own_row_partial cfg f H codes d hd hh h3 hct hv hr hu.inRange image d' h1
        (8 * R + a) (8 * C + b) (by omega) (by omega)
      obtain ⟨r', g', b'', e', hg⟩ := C95_luminance (UInt8.ofNat (f.upsampledSample H 1 0 (8 * R + a) (8 * C + b)))
        (UInt8.ofNat (f.upsampledSample H 1 1 (8 * R + a) (8 * C + b))) (UInt8.ofNat (f.upsampledSample H 1 2 (8 * R + a) (8 * C + b)))
      cases e.symm.trans e'
      exact ⟨(r, g, b'), fun _ _ => ⟨q1, q2, q3, hg⟩⟩
    · exact ⟨(0, 0, 0), fun ha hb => absurd ⟨ha, hb⟩ h⟩
  choose p hp using px
  refine ⟨p, _, hF, fun a b ha hb => ⟨(hp a b ha hb).1, (hp a b ha hb).2.1, (hp a b ha hb).2.2.1⟩, ?_⟩
  intro hlim
  have hsum := C102_idct F
  have near : ∀ a b, a < 8 → b < 8 → luminance1000 (p a b).1 (p a b).2.1 (p a b).2.2 ≤ 1000 * idctSample F a b + 501 ∧
      1000 * idctSample F a b ≤ luminance1000 (p a b).1 (p a b).2.1 (p a b).2.2 + 501 := by
    intro a b ha hb
    obtain ⟨-, -, -, g1, g2⟩ := hp a b ha hb
    rw [upsampledSample_byte, hs a b ha hb] at g1 g2
    obtain ⟨l1, l2, l3⟩ := hlim a b ha hb
    exact ⟨g1 l1.1 l2.1 l3.1, g2 l1.2 l2.2 l3.2⟩
  have : |blockSum (fun a b => luminance1000 (p a b).1 (p a b).2.1 (p a b).2.2) - 1000 * blockSum (idctSample F)| ≤ 64 * 501 := by
    have row : ∀ a, a < 8 → |((List.range 8).map fun b => luminance1000 (p a b).1 (p a b).2.1 (p a b).2.2).sum -
        1000 * ((List.range 8).map fun b => idctSample F a b).sum| ≤ 8 * 501 := by
      intro a ha
      rw [sum8, sum8]
      have := near a 0 ha (by decide)
      have := near a 1 ha (by decide)
      have := near a 2 ha (by decide)
      have := near a 3 ha (by decide)
      have := near a 4 ha (by decide)
      have := near a 5 ha (by decide)
      have := near a 6 ha (by decide)
      have := near a 7 ha (by decide)
      rw [abs_le]
      omega
    unfold blockSum
    rw [sum8 fun a => ((List.range 8).map fun b => luminance1000 (p a b).1 (p a b).2.1 (p a b).2.2).sum,
      sum8 fun a => ((List.range 8).map fun b => idctSample F a b).sum]
    have r0 := abs_le.1 (row 0 (by decide))
    have r1 := abs_le.1 (row 1 (by decide))
    have r2 := abs_le.1 (row 2 (by decide))
    have r3 := abs_le.1 (row 3 (by decide))
    have r4 := abs_le.1 (row 4 (by decide))
    have r5 := abs_le.1 (row 5 (by decide))
    have r6 := abs_le.1 (row 6 (by decide))
    have r7 := abs_le.1 (row 7 (by decide))
    rw [abs_le]
    omega
  rw [abs_le] at this hsum ⊢
  omega

/-- A case of `C102_luminance`: 8 by 8 pixels. DC is 40, AC up to 30; the mean of the luminance is 133 up to about 1. -/
example : ∃ f : BaselineFile, f.dcAt 1 0 0 0 = some 40 ∧ ∀ cfg, ∃ (image : List UInt8) (p : Nat → Nat → UInt8 × UInt8 × UInt8),
    decode cfg f.bytes = .ok image ∧ image.length = 192 ∧
    (∀ a b, a < 8 → b < 8 → image[24 * a + 3 * b]? = some (p a b).1 ∧ image[24 * a + (3 * b + 1)]? = some (p a b).2.1 ∧
      image[24 * a + (3 * b + 2)]? = some (p a b).2.2) ∧
    |blockSum (fun a b => luminance1000 (p a b).1 (p a b).2.1 (p a b).2.2) - 1000 * 64 * 133| ≤ 33000 + 64 * 501 := by
  obtain ⟨data, hv⟩ := codedFile_valid (q := List.replicate 64 2) ⟨by decide, by decide⟩ (comps := fullComps) (x := 8) (y := 8)
    (H := 1) (V := 1) (mcus := [addendMcu])
    ⟨by decide, by decide, by decide, by decide, by decide, ⟨by decide, by decide⟩, ⟨by decide, by decide⟩, by decide,
      by decide, by decide, by decide, by decide⟩ (by decide)
  have hu : (codedFile (List.replicate 64 2) fullComps 8 8 [addendMcu] data).Unclipped :=
    codedFile_unclipped (by decide) (by decide +kernel)
  have hdc : (codedFile (List.replicate 64 2) fullComps 8 8 [addendMcu] data).dcAt 1 0 0 0 = some 40 := by
    have : (codedFile (List.replicate 64 2) fullComps 8 8 [addendMcu] []).dcAt 1 0 0 0 = some 40 := by decide +kernel
    exact this
  refine ⟨_, hdc, fun cfg => ?_⟩
  obtain ⟨image, d', h1, h2, h⟩ := C102_luminance cfg _ 1 _ Decoder.default .new (.nothing _) rfl
    (by show (none : Option Nat) ≠ some 0; decide) hv (renderable_one hv.toLaid.ones) hu _ rfl ⟨rfl, rfl⟩
  obtain ⟨p, dc, e, hp, hs⟩ := h 0 0 (by show 8 * 0 + 8 ≤ 8; decide) (by show 8 * 0 + 8 ≤ 8; decide)
  obtain rfl := Option.some.inj (hdc.symm.trans e)
  have hp' : ∀ a b, a < 8 → b < 8 → image[24 * a + 3 * b]? = some (p a b).1 ∧ image[24 * a + (3 * b + 1)]? = some (p a b).2.1 ∧
      image[24 * a + (3 * b + 2)]? = some (p a b).2.2 := by
    intro a b ha hb
    have := hp a b ha hb
    simp only [Nat.mul_zero, Nat.zero_add] at this
    exact this
  refine ⟨image, p, by unfold decode; rw [h1], by rw [h2]; rfl, hp', hs ?_⟩
  have key : ∀ a < 8, ∀ b < 8, ∃ q : UInt8 × UInt8 × UInt8,
      ycbcrToRgb (UInt8.ofNat ((codedFile (List.replicate 64 2) fullComps 8 8 [addendMcu] []).upsampledSample 1 1 0 a b))
        (UInt8.ofNat ((codedFile (List.replicate 64 2) fullComps 8 8 [addendMcu] []).upsampledSample 1 1 1 a b))
        (UInt8.ofNat ((codedFile (List.replicate 64 2) fullComps 8 8 [addendMcu] []).upsampledSample 1 1 2 a b)) = .ok q ∧
      (0 < q.1.toNat ∧ q.1.toNat < 255) ∧ (0 < q.2.1.toNat ∧ q.2.1.toNat < 255) ∧ 0 < q.2.2.toNat ∧ q.2.2.toNat < 255 := by
    have : ∀ a < 8, ∀ b < 8,
      (match ycbcrToRgb (UInt8.ofNat ((codedFile (List.replicate 64 2) fullComps 8 8 [addendMcu] []).upsampledSample 1 1 0 a b))
        (UInt8.ofNat ((codedFile (List.replicate 64 2) fullComps 8 8 [addendMcu] []).upsampledSample 1 1 1 a b))
        (UInt8.ofNat ((codedFile (List.replicate 64 2) fullComps 8 8 [addendMcu] []).upsampledSample 1 1 2 a b)) with
      | .ok q => decide ((0 < q.1.toNat ∧ q.1.toNat < 255) ∧ (0 < q.2.1.toNat ∧ q.2.1.toNat < 255) ∧ 0 < q.2.2.toNat ∧ q.2.2.toNat < 255)
      | .error _ => false) = true := by decide +kernel
    intro a ha b hb
    have := this a ha b hb
    split at this
    · next q e => exact ⟨q, e, of_decide_eq_true this⟩
    · cases this
  intro a b ha hb
  obtain ⟨r, g, b', e', q1, q2, q3⟩ := C45_pixels_own_row_partial cfg _ 1 _ Decoder.default .new (.nothing _) rfl
    (by show (none : Option Nat) ≠ some 0; decide) hv (renderable_one hv.toLaid.ones) hu.inRange image d' h1 a b ha hb
  obtain ⟨q, e2, hq⟩ := key a ha b hb
  cases e'.symm.trans e2
  obtain ⟨w1, w2, w3⟩ := hp' a b ha hb
  rw [← Option.some.inj (q1.symm.trans w1), ← Option.some.inj (q2.symm.trans w2), ← Option.some.inj (q3.symm.trans w3)]
  exact hq

end Jpeg
