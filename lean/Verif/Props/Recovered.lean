import Verif.Props.Energy
/-!
# C110: the coefficients can be read back from the image
-/

namespace Jpeg
open Spec Sample Finset

theorem blockLength_nonneg (g : Nat → Nat → ℝ) : 0 ≤ blockLength g := Real.sqrt_nonneg _

/-- No place of a block exceeds its length. -/
theorem le_blockLength (g : Nat → Nat → ℝ) {k l : Nat} (hk : k < 8) (hl : l < 8) : |g k l| ≤ blockLength g := by
  unfold blockLength
  refine Real.abs_le_sqrt ?_
  have h1 := Finset.single_le_sum (f := fun l => g k l ^ 2) (fun _ _ => sq_nonneg _) (Finset.mem_range.2 hl)
  have h2 := Finset.single_le_sum (f := fun k => ∑ l ∈ range 8, g k l ^ 2)
    (fun _ _ => Finset.sum_nonneg fun _ _ => sq_nonneg _) (Finset.mem_range.2 hk)
  exact h1.trans h2

theorem blockLength_zero {g : Nat → Nat → ℝ} (h : ∀ r x, r < 8 → x < 8 → g r x = 0) : blockLength g = 0 := by
  rw [blockLength_congr (h := fun _ _ => 0) h, blockLength_const le_rfl, mul_zero]

/-- Coefficients whose difference has a length of at most `K ≤ n` and 1.3 per cent of itself. -/
theorem close_coefficients {F G : Nat → Nat → Int} {n : Nat} (hn : n ≤ 50) {K : ℝ} (hK : K ≤ n)
    (h : blockLength (fun k i => (F k i : ℝ) - G k i) ≤ K + blockLength (fun k i => (F k i : ℝ) - G k i) * (13 / 1000))
    {k l : Nat} (hk : k < 8) (hl : l < 8) : |F k l - G k l| ≤ n := by
  have t := le_blockLength (fun k i => (F k i : ℝ) - G k i) hk hl
  have hn' : (n : ℝ) ≤ 50 := by exact_mod_cast hn
  have : |(F k l : ℝ) - G k l| < n + 1 := by
    refine lt_of_le_of_lt t ?_
    linarith
  have : |F k l - G k l| < n + 1 := by exact_mod_cast this
  omega

/-- Multiples of a number that differ by less. -/
theorem multiples_eq {e : Nat} {m m' : Int} {n : Nat} (he : e = 0 ∨ n < e) (h : |m * e - m' * e| ≤ n) : m * e = m' * e := by
  rcases he with rfl | he
  · simp
  · by_contra hne
    have hm : m ≠ m' := fun c => hne (by rw [c])
    rw [← sub_mul, abs_mul] at h
    have h1 : 1 ≤ |m - m'| := Int.one_le_abs (sub_ne_zero.2 hm)
    have h2 : |(e : Int)| = e := abs_of_nonneg (by positivity)
    rw [h2] at h
    have h3 : (1 : Int) * e ≤ |m - m'| * e := mul_le_mul_of_nonneg_right h1 (by positivity)
    omega

/-- **C110** (the inverse DCT). Two blocks of integers with the same samples differ by at most 10 in every coefficient. -/
theorem C110_idct (F G : Nat → Nat → Int) (h : ∀ r x, r < 8 → x < 8 → idctSample F r x = idctSample G r x) (k l : Nat)
    (hk : k < 8) (hl : l < 8) : |F k l - G k l| ≤ 10 := by
  have e := C106_idct F G
  rw [blockLength_zero (fun r x hr hx => by rw [h r x hr hx, sub_self]), zero_sub, abs_neg, abs_of_nonneg (blockLength_nonneg _)] at e
  exact close_coefficients (n := 10) (by decide) (by norm_num) e hk hl

/-- **C110** (a block). Two blocks for which the transform of the code gives the same bytes, none of them limited, differ by at
most 10 in every dequantised coefficient; with the same table they have the same coefficients wherever its entry is at
least 11. -/
theorem C110_block (c c' : List Int) (q q' : List Nat) (h : Tame c q) (h' : Tame c' q') (s : Nat → Nat → UInt8)
    (hs : Gives c q s) (hs' : Gives c' q' s) (hin : ∀ r x, r < 8 → x < 8 → 0 < s r x ∧ s r x < 255) (i : Nat) (hi : i < 64) :
    |coef c i * quant q i - coef c' i * quant q' i| ≤ 10 ∧ (q = q' → 11 ≤ quant q i → coef c i = coef c' i) := by
  have e := (C106_block c c' q q' h h' s s hs hs').2 fun r x hr hx => ⟨hin r x hr hx, hin r x hr hx⟩
  rw [blockLength_zero (fun r x _ _ => sub_self _), zero_add] at e
  have w := close_coefficients (F := coefAt c q) (G := coefAt c' q') (n := 10) (k := i / 8) (l := i % 8) (by decide) (by norm_num)
    e (by omega) (by omega)
  have hi' : i % 8 + 8 * (i / 8) = i := by omega
  unfold coefAt at w
  rw [hi'] at w
  refine ⟨by exact_mod_cast w, ?_⟩
  rintro rfl h11
  have w : |coef c i * quant q i - coef c' i * quant q i| ≤ 10 := by exact_mod_cast w
  rw [← sub_mul, abs_mul, abs_of_nonneg (by omega : (0 : Int) ≤ quant q i)] at w
  by_contra hne
  have h1 : 1 ≤ |coef c i - coef c' i| := Int.one_le_abs (sub_ne_zero.2 hne)
  nlinarith

/-- The dequantised coefficients are multiples of the entries of the table. -/
theorem coefficientAt_multiple {f : BaselineFile} {H i R C k l : Nat} {c : FileComponent} {q : List Nat} {a : Int}
    (hc : f.comps[i]? = some c) (hq : f.quantOf c = some q) (h : f.coefficientAt H i R C k l = some a) :
    ∃ m : Int, a = m * (q.getD (((List.range 64).map zigzag).idxOf (8 * k + l)) 0 : Nat) := by
  unfold BaselineFile.coefficientAt at h
  rw [coefficient_eq, hc] at h
  simp only [Option.bind_some, hq] at h
  rw [Option.map_eq_some_iff] at h
  obtain ⟨b, -, rfl⟩ := h
  exact ⟨_, rfl⟩

theorem entry_coarse {q : List Nat} {n : Nat} (h : ∀ e ∈ q, n < e) (j : Nat) : q.getD j 0 = 0 ∨ n < q.getD j 0 := by
  rw [List.getD_eq_getElem?_getD]
  cases e : q[j]? with
  | none => exact .inl rfl
  | some v => exact .inr (h v (List.mem_of_getElem? e))

/-- Coefficients with the same coarse table that are close are equal. -/
theorem coarse_coefficients {f f' : BaselineFile} {H H' i R C k l n : Nat} {c c' : FileComponent} {a a' : Int}
    (hc : f.comps[i]? = some c) (hc' : f'.comps[i]? = some c') (h : f.coefficientAt H i R C k l = some a)
    (h' : f'.coefficientAt H' i R C k l = some a') (w : |a - a'| ≤ n) (q : List Nat) (hq : f.quantOf c = some q)
    (hq' : f'.quantOf c' = some q) (hn : ∀ e ∈ q, n < e) : a = a' := by
  obtain ⟨m, rfl⟩ := coefficientAt_multiple hc hq h
  obtain ⟨m', rfl⟩ := coefficientAt_multiple hc' hq' h'
  exact multiples_eq (entry_coarse hn _) w

/-- **C110** (CMYK). Two pictures of the same size without vertical subsampling and without values beyond 0..255: if the images
agree in the 64 bytes of an ink at full resolution in a block within the picture, then the dequantised coefficients of the
block differ by at most 10, and are the same if both use the same table for the ink and its entries are at least 11. -/
theorem C110_cmyk (cfg : Cfg) (f f' : BaselineFile) (hx : f.x = f'.x) (hy : f.y = f'.y) (H H' : Nat)
    (codes codes' : List (Code × Code)) (d₁ d₂ : Decoder) (hd₁ : UsedDecoder d₁) (hd₂ : UsedDecoder d₂)
    (hh₁ : Holds cfg d₁ f.earlier) (hh₂ : Holds cfg d₂ f'.earlier) (h4 : f.comps.length = 4) (h4' : f'.comps.length = 4)
    (hct₁ : f.transform d₁.transform = some 0) (hct₂ : f'.transform d₂.transform = some 0)
    (hv₁ : f.Valid (f.interval d₁.restartInterval) H 1 codes) (hv₂ : f'.Valid (f'.interval d₂.restartInterval) H' 1 codes')
    (hr₁ : f.Renderable H 1) (hr₂ : f'.Renderable H' 1) (hu : f.Unclipped) (hu' : f'.Unclipped) :
    ∃ image image' e₁ e₂, d₁.decode cfg f.bytes = .ok image e₁ ∧ d₂.decode cfg f'.bytes = .ok image' e₂ ∧
      image.length = f.x * f.y * 4 ∧ image'.length = f.x * f.y * 4 ∧
      ∀ i c c' R C, f.comps[i]? = some c → f'.comps[i]? = some c' → c.h = H → c.v = 1 → c'.h = H' → c'.v = 1 →
        8 * R + 8 ≤ f.y → 8 * C + 8 ≤ f.x →
        (∀ a b, a < 8 → b < 8 → image[4 * f.x * (8 * R + a) + (4 * (8 * C + b) + i)]? =
          image'[4 * f.x * (8 * R + a) + (4 * (8 * C + b) + i)]?) →
        ∀ k l, k < 8 → l < 8 → ∃ a a', f.coefficientAt H i R C k l = some a ∧ f'.coefficientAt H' i R C k l = some a' ∧
          |a - a'| ≤ 10 ∧ ∀ q, f.quantOf c = some q → f'.quantOf c' = some q → (∀ e ∈ q, 11 ≤ e) → a = a' := by
  obtain ⟨image, image', e₁, e₂, h1, h2, h3, h5, h⟩ := C106_cmyk cfg f f' hx hy H H' codes codes' d₁ d₂ hd₁ hd₂ hh₁ hh₂ h4 h4'
    hct₁ hct₂ hv₁ hv₂ hr₁ hr₂ hu hu'
  refine ⟨image, image', e₁, e₂, h1, h2, h3, h5, ?_⟩
  intro i c c' R C hc hc' k1 k2 k1' k2' hR hC same k l hk hl
  obtain ⟨v, v', F, F', hF, hp, hE⟩ := h i c c' R C hc hc' k1 k2 k1' k2' hR hC
  have z : ∀ a b, a < 8 → b < 8 → ((v a b).toNat : ℝ) - (v' a b).toNat = 0 := by
    intro a b ha hb
    obtain ⟨p, p'⟩ := hp a b ha hb
    rw [Option.some.inj (p.symm.trans ((same a b ha hb).trans p')), sub_self]
  rw [blockLength_zero z, zero_sub, abs_neg, abs_of_nonneg (blockLength_nonneg _)] at hE
  have w := close_coefficients (n := 10) (by decide) (by norm_num) hE hk hl
  exact ⟨F k l, F' k l, (hF k l).1, (hF k l).2, by exact_mod_cast w,
    fun q hq hq' hn => coarse_coefficients hc hc' (hF k l).1 (hF k l).2 w q hq hq' hn⟩

/-- **C110** (YCbCr). Likewise, if the images agree in the 64 pixels of a block within the picture and no channel of them has been
limited, then the dequantised coefficients of the luminance differ by at most 18 there, and are the same if both use the
same table for it and its entries are at least 19. -/
theorem C110_luminance (cfg : Cfg) (f f' : BaselineFile) (hx : f.x = f'.x) (hy : f.y = f'.y) (H H' : Nat)
    (codes codes' : List (Code × Code)) (d₁ d₂ : Decoder) (hd₁ : UsedDecoder d₁) (hd₂ : UsedDecoder d₂)
    (hh₁ : Holds cfg d₁ f.earlier) (hh₂ : Holds cfg d₂ f'.earlier) (h3 : f.comps.length = 3) (h3' : f'.comps.length = 3)
    (hct₁ : f.transform d₁.transform ≠ some 0) (hct₂ : f'.transform d₂.transform ≠ some 0)
    (hv₁ : f.Valid (f.interval d₁.restartInterval) H 1 codes) (hv₂ : f'.Valid (f'.interval d₂.restartInterval) H' 1 codes')
    (hr₁ : f.Renderable H 1) (hr₂ : f'.Renderable H' 1) (hu : f.Unclipped) (hu' : f'.Unclipped)
    (c c' : FileComponent) (hc : f.comps[0]? = some c) (hc' : f'.comps[0]? = some c') (hfull : c.h = H ∧ c.v = 1)
    (hfull' : c'.h = H' ∧ c'.v = 1) :
    ∃ image image' e₁ e₂, d₁.decode cfg f.bytes = .ok image e₁ ∧ d₂.decode cfg f'.bytes = .ok image' e₂ ∧
      image.length = f.x * f.y * 3 ∧ image'.length = f.x * f.y * 3 ∧
      ∀ R C, 8 * R + 8 ≤ f.y → 8 * C + 8 ≤ f.x →
        (∀ a b s, a < 8 → b < 8 → s < 3 → ∃ v : UInt8, 0 < v ∧ v < 255 ∧
          image[3 * f.x * (8 * R + a) + (3 * (8 * C + b) + s)]? = some v ∧
          image'[3 * f.x * (8 * R + a) + (3 * (8 * C + b) + s)]? = some v) →
        ∀ k l, k < 8 → l < 8 → ∃ a a', f.coefficientAt H 0 R C k l = some a ∧ f'.coefficientAt H' 0 R C k l = some a' ∧
          |a - a'| ≤ 18 ∧ ∀ q, f.quantOf c = some q → f'.quantOf c' = some q → (∀ e ∈ q, 19 ≤ e) → a = a' := by
  obtain ⟨image, image', e₁, e₂, h1, h2, h4, h5, h⟩ := C106_luminance cfg f f' hx hy H H' codes codes' d₁ d₂ hd₁ hd₂ hh₁ hh₂ h3 h3'
    hct₁ hct₂ hv₁ hv₂ hr₁ hr₂ hu hu' c c' hc hc' hfull hfull'
  refine ⟨image, image', e₁, e₂, h1, h2, h4, h5, ?_⟩
  intro R C hR hC same k l hk hl
  obtain ⟨p, p', F, F', hF, hp, hE⟩ := h R C hR hC
  have eqs : ∀ a b, a < 8 → b < 8 → p a b = p' a b ∧ Inside (p a b) := by
    intro a b ha hb
    obtain ⟨p1, p2, p3, p1', p2', p3'⟩ := hp a b ha hb
    obtain ⟨v0, l0, u0, w0, w0'⟩ := same a b 0 ha hb (by decide)
    obtain ⟨v1, l1, u1, w1, w1'⟩ := same a b 1 ha hb (by decide)
    obtain ⟨v2, l2, u2, w2, w2'⟩ := same a b 2 ha hb (by decide)
    rw [Nat.add_zero] at w0 w0'
    have q1 := Option.some.inj (p1.symm.trans w0)
    have q2 := Option.some.inj (p2.symm.trans w1)
    have q3 := Option.some.inj (p3.symm.trans w2)
    have q1' := Option.some.inj (p1'.symm.trans w0')
    have q2' := Option.some.inj (p2'.symm.trans w1')
    have q3' := Option.some.inj (p3'.symm.trans w2')
    refine ⟨Prod.ext (q1.trans q1'.symm) (Prod.ext (q2.trans q2'.symm) (q3.trans q3'.symm)), ?_⟩
    unfold Inside
    rw [q1, q2, q3]
    simp only [UInt8.lt_iff_toNat_lt] at l0 u0 l1 u1 l2 u2
    exact ⟨⟨l0, u0⟩, ⟨l1, u1⟩, l2, u2⟩
  have hE := hE fun a b ha hb => ⟨(eqs a b ha hb).2, (eqs a b ha hb).1 ▸ (eqs a b ha hb).2⟩
  rw [blockLength_zero (fun a b ha hb => by rw [(eqs a b ha hb).1, sub_self]), zero_sub, abs_neg,
    abs_of_nonneg (blockLength_nonneg _)] at hE
  have w := close_coefficients (n := 18) (by decide) (by norm_num) hE hk hl
  exact ⟨F k l, F' k l, (hF k l).1, (hF k l).2, by exact_mod_cast w,
    fun q hq hq' hn => coarse_coefficients hc hc' (hF k l).1 (hF k l).2 w q hq hq' hn⟩

/-- **C110** (how coarse the table has to be). With a table of sevens there are different blocks for which the transform of the
code gives the same bytes, none of them limited. -/
theorem C110_fine : ∃ (c c' : List Int) (s : Nat → Nat → UInt8), Tame c (List.replicate 64 7) ∧ Tame c' (List.replicate 64 7) ∧
    Gives c (List.replicate 64 7) s ∧ Gives c' (List.replicate 64 7) s ∧ (∀ r x, r < 8 → x < 8 → 0 < s r x ∧ s r x < 255) ∧
    coef c 0 ≠ coef c' 0 := by
  have t : ∀ d ∈ [(4 : Int), 5], Tame (4 :: List.replicate 63 0 |>.set 0 d) (List.replicate 64 7) := by
    have h1 : ∀ d ∈ [(4 : Int), 5], ∀ i, i < 64 → -2 ^ 16 ≤ coef (4 :: List.replicate 63 0 |>.set 0 d) i * quant (List.replicate 64 7) i ∧
      coef (4 :: List.replicate 63 0 |>.set 0 d) i * quant (List.replicate 64 7) i ≤ 2 ^ 16 := by decide +kernel
    have h2 : ∀ d ∈ [(4 : Int), 5], ∀ r, r < 8 → ∀ x, x < 8 →
        -256 ≤ idctSample (coefAt (4 :: List.replicate 63 0 |>.set 0 d) (List.replicate 64 7)) r x ∧
        idctSample (coefAt (4 :: List.replicate 63 0 |>.set 0 d) (List.replicate 64 7)) r x ≤ 767 := by decide +kernel
    exact fun d hd => ⟨h1 d hd, fun r x hr hx => h2 d hd r hr x hx⟩
  have same : ∀ d ∈ [(4 : Int), 5], ∀ r < 8, ∀ x < 8,
      saturate (idctSample (coefAt (4 :: List.replicate 63 0 |>.set 0 d) (List.replicate 64 7)) r x) = 132 := by decide +kernel
  refine ⟨4 :: List.replicate 63 0 |>.set 0 4, 4 :: List.replicate 63 0 |>.set 0 5, fun _ _ => 132, t 4 (by simp), t 5 (by simp),
    ?_, ?_, fun _ _ _ _ => (by decide : (0 : UInt8) < 132 ∧ (132 : UInt8) < 255), by decide⟩
  · exact (t 4 (by simp)).gives.2 fun r x hr hx => (same 4 (by simp) r hr x hx).symm
  · exact (t 5 (by simp)).gives.2 fun r x hr hx => (same 5 (by simp) r hr x hx).symm

/-- A case of C110: the two blocks of `C110_fine`, whose first coefficients are 28 and 35. -/
example : ∃ (c c' : List Int) (s : Nat → Nat → UInt8), Gives c (List.replicate 64 7) s ∧ Gives c' (List.replicate 64 7) s ∧
    coef c 0 ≠ coef c' 0 ∧ ∀ i < 64, |coef c i * 7 - coef c' i * 7| ≤ 10 := by
  obtain ⟨c, c', s, t, t', g, g', hin, hne⟩ := C110_fine
  refine ⟨c, c', s, g, g', hne, fun i hi => ?_⟩
  have q : ∀ i < 64, quant (List.replicate 64 7) i = 7 := by decide
  have := (C110_block c c' _ _ t t' s g g' hin i hi).1
  rw [q i hi] at this
  exact this

/-- A case of C110: two CMYK pictures of 8 by 8 pixels with a table of sixteens; since the coefficients of the third ink differ
(only in the highest frequency, by 64), so do the images. -/
example : ∃ f f' : BaselineFile, ∀ cfg, ∃ image image' : List UInt8, decode cfg f.bytes = .ok image ∧ decode cfg f'.bytes = .ok image' ∧
    image.length = 256 ∧ image'.length = 256 ∧ ∃ a b, a < 8 ∧ b < 8 ∧ image[32 * a + (4 * b + 2)]? ≠ image'[32 * a + (4 * b + 2)]? := by
  let mcu : Int → Mcu := fun t => [[dcBlock 3], [dcBlock (-20)], [⟨5, List.replicate 62 0 ++ [t]⟩], [dcBlock 11]]
  have hv : ∀ t ∈ [(5 : Int), 9], _ := fun t ht =>
    codedFile_valid (q := List.replicate 64 16) (comps := inkComps) (x := 8) (y := 8) (H := 1) (V := 1) (mcus := [mcu t])
      ⟨by decide, by decide⟩ ⟨by decide, by decide, by decide, by decide, by decide, ⟨by decide, by decide⟩, ⟨by decide, by decide⟩,
        by decide, by revert t; decide, by revert t; decide, by revert t; decide, by revert t; decide⟩ (by revert t; decide)
  obtain ⟨d₁, v₁⟩ := hv 5 (by decide)
  obtain ⟨d₂, v₂⟩ := hv 9 (by decide)
  have v₁ := withAdobe_valid (t := 0) (by decide) v₁
  have v₂ := withAdobe_valid (t := 0) (by decide) v₂
  refine ⟨withAdobe 0 (codedFile (List.replicate 64 16) inkComps 8 8 [mcu 5] d₁),
    withAdobe 0 (codedFile (List.replicate 64 16) inkComps 8 8 [mcu 9] d₂), fun cfg => ?_⟩
  obtain ⟨p, q, e₁, e₂, h1, h2, h3, h4, h⟩ := C110_cmyk cfg (withAdobe 0 (codedFile (List.replicate 64 16) inkComps 8 8 [mcu 5] d₁))
    (withAdobe 0 (codedFile (List.replicate 64 16) inkComps 8 8 [mcu 9] d₂)) rfl rfl 1 1 _ _ Decoder.default
    Decoder.default .new .new (.nothing _) (.nothing _) rfl rfl rfl rfl v₁ v₂ (renderable_one v₁.toLaid.ones)
    (renderable_one v₂.toLaid.ones)
    (codedFile_unclipped (data := d₁) (x := 8) (y := 8) (comps := inkComps) (mcus := [mcu 5]) (by decide) (by decide +kernel))
    (codedFile_unclipped (data := d₂) (x := 8) (y := 8) (comps := inkComps) (mcus := [mcu 9]) (by decide) (by decide +kernel))
  refine ⟨p, q, by unfold decode; rw [h1], by unfold decode; rw [h2],
    by change p.length = 8 * 8 * 4 at h3; omega, by change q.length = 8 * 8 * 4 at h4; omega, ?_⟩
  by_contra hno
  have h := h 2 _ _ 0 0 rfl rfl rfl rfl rfl rfl (by show 8 * 0 + 8 ≤ 8; decide) (by show 8 * 0 + 8 ≤ 8; decide) (by
    intro a b ha hb
    by_contra hne
    refine hno ⟨a, b, ha, hb, ?_⟩
    intro same
    apply hne
    simp only [Nat.mul_zero, Nat.zero_add]
    exact same) 7 7 (by decide) (by decide)
  obtain ⟨a, a', ha, ha', -, hq⟩ := h
  have c1 : (codedFile (List.replicate 64 16) inkComps 8 8 [mcu 5] []).coefficientAt 1 2 0 0 7 7 = some 80 := by decide +kernel
  have c2 : (codedFile (List.replicate 64 16) inkComps 8 8 [mcu 9] []).coefficientAt 1 2 0 0 7 7 = some 144 := by decide +kernel
  have ha := Option.some.inj (c1.symm.trans ha)
  have ha' := Option.some.inj (c2.symm.trans ha')
  have := hq (List.replicate 64 16) (by rfl) (by rfl) (by decide)
  omega

/-- A case of `C110_luminance`: the same picture with tables of twos and of fours; since the first coefficients of the luminance
are 40 and 80, the images differ. -/
example : ∃ f f' : BaselineFile, ∀ cfg, ∃ image image' : List UInt8, decode cfg f.bytes = .ok image ∧ decode cfg f'.bytes = .ok image' ∧
    image.length = 192 ∧ image'.length = 192 ∧ ∃ a b s, a < 8 ∧ b < 8 ∧ s < 3 ∧ image[24 * a + (3 * b + s)]? ≠ image'[24 * a + (3 * b + s)]? := by
  have hv : ∀ n, GoodTable (List.replicate 64 n) → _ := fun n h1 =>
    codedFile_valid (q := List.replicate 64 n) (comps := fullComps) (x := 8) (y := 8) (H := 1) (V := 1) (mcus := [addendMcu]) h1
      ⟨by decide, by decide, by decide, by decide, by decide, ⟨by decide, by decide⟩, ⟨by decide, by decide⟩, by decide,
        by decide, by decide, by decide, by decide⟩ (by decide)
  obtain ⟨d₁, v₁⟩ := hv 2 ⟨by decide, by decide⟩
  obtain ⟨d₂, v₂⟩ := hv 4 ⟨by decide, by decide⟩
  have u₁ : (toneFile 2 d₁).Unclipped := codedFile_unclipped (by decide) (by decide +kernel)
  have u₂ : (toneFile 4 d₂).Unclipped := codedFile_unclipped (by decide) (by decide +kernel)
  refine ⟨toneFile 2 d₁, toneFile 4 d₂, fun cfg => ?_⟩
  obtain ⟨image, image', e₁, e₂, h1, h2, h3, h4, h⟩ := C110_luminance cfg (toneFile 2 d₁) (toneFile 4 d₂) rfl rfl 1 1 _ _ Decoder.default
    Decoder.default .new .new (.nothing _) (.nothing _) rfl rfl (by show (none : Option Nat) ≠ some 0; decide)
    (by show (none : Option Nat) ≠ some 0; decide) v₁ v₂ (renderable_one v₁.toLaid.ones)
    (renderable_one v₂.toLaid.ones) u₁ u₂ _ _ rfl rfl ⟨rfl, rfl⟩ ⟨rfl, rfl⟩
  refine ⟨image, image', by unfold decode; rw [h1], by unfold decode; rw [h2],
    by change image.length = 8 * 8 * 3 at h3; omega, by change image'.length = 8 * 8 * 3 at h4; omega, ?_⟩
  by_contra hno
  have same : ∀ a b s, a < 8 → b < 8 → s < 3 → image[24 * a + (3 * b + s)]? = image'[24 * a + (3 * b + s)]? := by
    intro a b s ha hb hs
    by_contra hne
    exact hno ⟨a, b, s, ha, hb, hs, hne⟩
  obtain ⟨a, a', ha, ha', hd, -⟩ := h 0 0 (by show 8 * 0 + 8 ≤ 8; decide) (by show 8 * 0 + 8 ≤ 8; decide) (by
    intro a b s ha hb hs
    obtain ⟨r, g, b', e', q1, q2, q3⟩ := C45_pixels_own_row_partial cfg (toneFile 2 d₁) 1 _ Decoder.default .new (.nothing _) rfl
      (by show (none : Option Nat) ≠ some 0; decide) v₁ (renderable_one v₁.toLaid.ones) u₁.inRange image e₁ h1 a b ha hb
    obtain ⟨q, e2, hq⟩ := toneFile_inside 2 (by decide) a ha b hb
    cases e'.symm.trans e2
    obtain ⟨⟨l0, m0⟩, ⟨l1, m1⟩, l2, m2⟩ := hq
    have byte : ∀ v : UInt8, 0 < v.toNat → v.toNat < 255 → image[24 * a + (3 * b + s)]? = some v →
        0 < v ∧ v < 255 ∧ image[24 * a + (3 * b + s)]? = some v ∧ image'[24 * a + (3 * b + s)]? = some v := by
      intro v hl hm hi
      exact ⟨UInt8.lt_iff_toNat_lt.2 hl, UInt8.lt_iff_toNat_lt.2 hm, hi, (same a b s ha hb hs).symm.trans hi⟩
    simp only [Nat.mul_zero, Nat.zero_add]
    match s, hs with
    | 0, _ => exact ⟨r, byte r l0 m0 q1⟩
    | 1, _ => exact ⟨g, byte g l1 m1 q2⟩
    | 2, _ => exact ⟨b', byte b' l2 m2 q3⟩) 0 0 (by decide) (by decide)
  have c1 : (toneFile 2 []).coefficientAt 1 0 0 0 0 0 = some 40 := by decide +kernel
  have c2 : (toneFile 4 []).coefficientAt 1 0 0 0 0 0 = some 80 := by decide +kernel
  rw [← Option.some.inj (c1.symm.trans ha), ← Option.some.inj (c2.symm.trans ha')] at hd
  revert hd
  decide

end Jpeg
