import Verif.Spec.Crop
import Verif.Props.MirrorWide
/-!
# C93: cutting out a part of a picture without decoding it
-/

namespace Jpeg
open Spec

theorem doubleLine_shift {W W' s x : Nat} {g g' : Nat → Nat} (hx : x < W') (hW : 2 * s + W' ≤ W) (h1 : 1 ≤ x ∨ s = 0)
    (h2 : x + 1 < W' ∨ 2 * s + W' = W) (h : ∀ k, k < ceilDiv W' 2 → g' k = g (k + s)) :
    doubleLine (ceilDiv W 2) g (x + 2 * s) = doubleLine (ceilDiv W' 2) g' x := by
  unfold ceilDiv at *
  unfold doubleLine
  by_cases x0 : x = 0
  · subst x0
    obtain rfl : s = 0 := by omega
    rw [if_pos (by omega), if_pos rfl, h 0 (by omega)]
  rw [if_neg (show ¬ x + 2 * s = 0 by omega), if_neg x0]
  by_cases x1 : x = 2 * ((W' + (2 - 1)) / 2) - 1
  · rw [if_pos x1, if_pos (show x + 2 * s = 2 * ((W + (2 - 1)) / 2) - 1 by omega), h _ (by omega)]
    congr 1; omega
  rw [if_neg x1, if_neg (show ¬ x + 2 * s = 2 * ((W + (2 - 1)) / 2) - 1 by omega)]
  have e : (x + 2 * s) / 2 = x / 2 + s := by omega
  rw [e]
  by_cases x2 : x % 2 = 0
  · rw [if_pos x2, if_pos (show (x + 2 * s) % 2 = 0 by omega), h _ (by omega), h _ (by omega),
      show x / 2 + s - 1 = x / 2 - 1 + s by omega]
  · rw [if_neg x2, if_neg (show ¬ (x + 2 * s) % 2 = 0 by omega), h _ (by omega), h _ (by omega),
      show x / 2 + s + 1 = x / 2 + 1 + s by omega]

theorem farRow_shift {Ht Ht' t row : Nat} (hrow : row < Ht') (hW : 2 * t + Ht' ≤ Ht) (h1 : 1 ≤ row ∨ t = 0)
    (h2 : row + 1 < Ht' ∨ 2 * t + Ht' = Ht) : farRow (ceilDiv Ht 2) (row + 2 * t) = farRow (ceilDiv Ht' 2) row + t ∧
      farRow (ceilDiv Ht' 2) row < ceilDiv Ht' 2 ∧ row / 2 < ceilDiv Ht' 2 := by
  unfold ceilDiv farRow
  split <;> split <;> omega

theorem doubleBoth_shift {W W' s x w h row row' h' : Nat} {g g' : Nat → Nat → Nat} (hx : x < W') (hW : 2 * s + W' ≤ W) (h1 : 1 ≤ x ∨ s = 0)
    (h2 : x + 1 < W' ∨ 2 * s + W' = W) (ha : ∀ k, k < ceilDiv W' 2 → g' (row' / 2) k = g (row / 2) (k + s))
    (hb : ∀ k, k < ceilDiv W' 2 → g' (farRow h' row') k = g (farRow h row) (k + s)) (hw : w = ceilDiv W 2) :
    doubleBoth w h g row (x + 2 * s) = doubleBoth (ceilDiv W' 2) h' g' row' x := by
  subst hw
  unfold doubleBoth
  have h : ∀ k, k < ceilDiv W' 2 → (3 * g' (row' / 2) k + g' (farRow h' row') k) =
      (3 * g (row / 2) (k + s) + g (farRow h row) (k + s)) := fun k hk => by rw [ha k hk, hb k hk]
  generalize hF : (fun i => 3 * g (row / 2) i + g (farRow _ row) i) = F
  generalize hF' : (fun i => 3 * g' (row' / 2) i + g' (farRow h' row') i) = F'
  replace h : ∀ k, k < ceilDiv W' 2 → F' k = F (k + s) := by
    intro k hk
    rw [← hF, ← hF']
    exact h k hk
  clear ha hb hF hF'
  unfold ceilDiv at *
  simp only
  by_cases x0 : x = 0
  · subst x0
    obtain rfl : s = 0 := by omega
    rw [if_pos (by omega), if_pos rfl, h 0 (by omega)]
  rw [if_neg (show ¬ x + 2 * s = 0 by omega), if_neg x0]
  by_cases x1 : x = 2 * ((W' + (2 - 1)) / 2) - 1
  · rw [if_pos x1, if_pos (show x + 2 * s = 2 * ((W + (2 - 1)) / 2) - 1 by omega), h _ (by omega),
      show (W + (2 - 1)) / 2 - 1 = (W' + (2 - 1)) / 2 - 1 + s by omega]
  rw [if_neg x1, if_neg (show ¬ x + 2 * s = 2 * ((W + (2 - 1)) / 2) - 1 by omega)]
  have e : (x + 2 * s) / 2 = x / 2 + s := by omega
  rw [e]
  by_cases x2 : x % 2 = 0
  · rw [if_pos x2, if_pos (show (x + 2 * s) % 2 = 0 by omega), h _ (by omega), h _ (by omega),
      show x / 2 + s - 1 = x / 2 - 1 + s by omega]
  · rw [if_neg x2, if_neg (show ¬ (x + 2 * s) % 2 = 0 by omega), h _ (by omega), h _ (by omega),
      show x / 2 + s + 1 = x / 2 + 1 + s by omega]

theorem ceilDiv_scale {W ch m : Nat} (hc : 1 ≤ ch) (hm : 0 < m) : ceilDiv (W * ch) (ch * m) = ceilDiv W m := by
  have h1 : ∀ n, ceilDiv (W * ch) (ch * m) ≤ n ↔ W * ch ≤ n * (ch * m) := fun n => by
    unfold ceilDiv
    have : 0 < ch * m := Nat.mul_pos hc hm
    rw [← Nat.lt_succ_iff, Nat.div_lt_iff_lt_mul this, Nat.succ_mul]
    omega
  have h2 : ∀ n, ceilDiv W m ≤ n ↔ W ≤ n * m := fun n => by
    unfold ceilDiv
    rw [← Nat.lt_succ_iff, Nat.div_lt_iff_lt_mul hm, Nat.succ_mul]
    omega
  have key : ∀ n, ceilDiv (W * ch) (ch * m) ≤ n ↔ ceilDiv W m ≤ n := fun n => by
    rw [h1, h2, show n * (ch * m) = n * m * ch by rw [Nat.mul_comm ch, Nat.mul_assoc], Nat.mul_le_mul_right_iff hc]
  exact Nat.le_antisymm ((key _).2 (Nat.le_refl _)) ((key _).1 (Nat.le_refl _))

/-- A component cut out is so after upsampling. -/
theorem upsampled_shift {W W' Ht Ht' H V ch cv C0 R0 row x : Nat} {g g' : Nat → Nat → Nat} (hc : 1 ≤ ch) (hcv : 1 ≤ cv)
    (hH : H % ch = 0) (hV : V % cv = 0) (hHp : 1 ≤ H) (hVp : 1 ≤ V) (hrow : row < Ht') (hx : x < W')
    (hW : 8 * H * C0 + W' ≤ W) (hHt : 8 * V * R0 + Ht' ≤ Ht)
    (hi : OffCuts H 1 (8 * H * C0) W' W x) (hj : OffCuts V 1 (8 * V * R0) Ht' Ht row)
    (h : ∀ r k, r < ceilDiv (Ht' * cv) V → k < ceilDiv (W' * ch) H → g' r k = g (r + 8 * cv * R0) (k + 8 * ch * C0)) :
    upsampled W Ht H V ch cv (ceilDiv (W * ch) H) (ceilDiv (Ht * cv) V) g (row + 8 * V * R0) (x + 8 * H * C0) =
      upsampled W' Ht' H V ch cv (ceilDiv (W' * ch) H) (ceilDiv (Ht' * cv) V) g' row x := by
  obtain ⟨m, rfl⟩ := Nat.dvd_of_mod_eq_zero hH
  obtain ⟨l, rfl⟩ := Nat.dvd_of_mod_eq_zero hV
  have hm : 0 < m := Nat.pos_of_ne_zero (by rintro rfl; omega)
  have hl : 0 < l := Nat.pos_of_ne_zero (by rintro rfl; omega)
  have es : 8 * (ch * m) * C0 = m * (8 * ch * C0) := by ring
  have et : 8 * (cv * l) * R0 = l * (8 * cv * R0) := by ring
  simp only [ceilDiv_scale hc hm, ceilDiv_scale hcv hl] at h ⊢
  rw [es] at hW hi ⊢
  rw [et] at hHt hj ⊢
  clear es et
  generalize 8 * ch * C0 = s at *
  generalize 8 * cv * R0 = t at *
  have cm : ∀ {a b : Nat}, 1 ≤ a → a = a * b → b = 1 := by
    intro a b ha e
    exact (Nat.eq_of_mul_eq_mul_left (Nat.lt_of_lt_of_le Nat.zero_lt_one ha) ((Nat.mul_one a).trans e)).symm
  have c2 : ∀ {a b : Nat}, 1 ≤ a → 2 * a = a * b → b = 2 := by
    intro a b ha e
    exact (Nat.eq_of_mul_eq_mul_left (Nat.lt_of_lt_of_le Nat.zero_lt_one ha) ((Nat.mul_comm a 2).trans e)).symm
  -- where the sizes matter
  have one : ∀ {S a c n s N N' k : Nat}, 1 ≤ c → 0 < n → S = c * n → a < N' → n * s + N' ≤ N → OffCuts S 1 (n * s) N' N a → k = a →
      ((c = c * n ∨ N = 1) ↔ (c = c * n ∨ N' = 1)) ∧ ((c = c * n ∨ N' = 1) → k + n * s = k + s ∧ k < ceilDiv N' n) := by
    rintro S a c n s N N' k c1 n1 rfl ha hN hw rfl
    have q : ∀ n, n = 1 → k + n * s = k + s ∧ k < ceilDiv N' n := by
      rintro n rfl
      unfold ceilDiv
      omega
    by_cases hn : n = 1
    · subst hn
      exact ⟨by simp, fun _ => q 1 rfl⟩
    have hS : ¬ c * n = 1 := fun e => hn (Nat.eq_one_of_mul_eq_one_left e)
    have hne : ¬ c = c * n := fun e => hn (cm c1 e)
    obtain ⟨w1, w2⟩ := hw.resolve_left hS
    constructor
    · constructor
      · rintro (e | rfl)
        · exact absurd e hne
        · exact .inr (by omega)
      · rintro (e | rfl)
        · exact absurd e hne
        · refine .inr ?_
          have : n * s = 0 := by omega
          omega
    · rintro (e | rfl)
      · exact absurd e hne
      · have e0 : n * s = 0 := by omega
        have s0 : s = 0 := (Nat.mul_eq_zero.1 e0).resolve_left (by omega)
        subst s0
        refine ⟨by simp, ?_⟩
        have : ceilDiv 1 n = 1 := by
          unfold ceilDiv
          rw [show 1 + (n - 1) = n by omega, Nat.div_self n1]
        omega
  obtain ⟨o1, o2⟩ := one hc hm rfl hx hW hi rfl
  obtain ⟨p1, p2⟩ := one hcv hl rfl hrow hHt hj rfl
  have two : ∀ {c n N N' k s : Nat}, 1 ≤ c → 2 * c = c * n → OffCuts (c * n) 1 (n * s) N' N k → n = 2 ∧ (1 ≤ k ∨ s = 0) ∧
      (k + 1 < N' ∨ 2 * s + N' = N) := by
    intro c n N N' k s c1 e hw
    obtain rfl := c2 c1 e
    obtain ⟨w1, w2⟩ := hw.resolve_left (by omega)
    exact ⟨rfl, by omega, by omega⟩
  unfold upsampled
  simp only [o1, p1]
  split
  · rename_i e
    obtain ⟨a1, a2⟩ := o2 e.1
    obtain ⟨b1, b2⟩ := p2 e.2
    rw [a1, b1, h _ _ b2 a2]
  split
  · rename_i e
    obtain ⟨b1, b2⟩ := p2 e.2
    obtain ⟨rfl, q1, q2⟩ := two hc e.1 hi
    rw [b1]
    exact doubleLine_shift hx hW q1 q2 fun k hk => h _ k b2 hk
  split
  · rename_i e
    obtain ⟨a1, a2⟩ := o2 e.1
    obtain ⟨rfl, q1, q2⟩ := two hcv e.2 hj
    obtain ⟨r1, r2, r3⟩ := farRow_shift hrow hHt q1 q2
    unfold doubleRows
    rw [r1, a1, show (row + 2 * t) / 2 = row / 2 + t by omega, h _ _ r3 a2, h _ _ r2 a2]
  split
  · rename_i e
    obtain ⟨rfl, q1, q2⟩ := two hc e.1 hi
    obtain ⟨rfl, q3, q4⟩ := two hcv e.2 hj
    obtain ⟨r1, r2, r3⟩ := farRow_shift hrow hHt q3 q4
    refine doubleBoth_shift hx hW q1 q2 (fun k hk => ?_) (fun k hk => ?_) rfl
    · rw [show (row + 2 * t) / 2 = row / 2 + t by omega, h _ _ r3 hk]
    · rw [r1, h _ _ r2 hk]
  · unfold nearest
    rw [Nat.mul_div_cancel_left _ (by omega), Nat.mul_div_cancel_left _ (by omega), Nat.add_mul_div_left _ _ hm,
      Nat.add_mul_div_left _ _ hl]
    refine (h _ _ (lt_ceilDiv hl ?_) (lt_ceilDiv hm ?_)).symm
    · exact Nat.lt_of_le_of_lt (Nat.div_mul_le_self _ _) hrow
    · exact Nat.lt_of_le_of_lt (Nat.div_mul_le_self _ _) hx

theorem crop_places {ch C X : Nat} (hc : 1 ≤ ch) : (X + 8 * ch * C) % 8 = X % 8 ∧ (X + 8 * ch * C) / 8 % ch = X / 8 % ch ∧
    (X + 8 * ch * C) / 8 / ch = C + X / 8 / ch := by
  rw [Nat.mul_assoc]
  refine ⟨by omega, ?_, ?_⟩
  · rw [Nat.add_mul_div_left _ _ (by decide), Nat.add_mul_mod_self_left]
  · rw [Nat.add_mul_div_left _ _ (by decide), Nat.add_mul_div_left _ _ hc, Nat.add_comm]

/-- **C93** (part). A part of a picture, cut out along MCUs without decoding: its pixels are those of the picture, except
(with subsampling) the ones next to a cut, which are interpolated from samples on both sides; whatever the
coefficients, the way in which the two files are written, the decoders and the build.

Missing: with the `rayon` feature and vertical subsampling, unless the part begins at the top, see
`C93_rayon_violated`. -/
theorem C93_crop_partial (cfg : Cfg) (f f' : BaselineFile) (H V R0 C0 : Nat) (hf : Cropped f f' H V R0 C0)
    (hray : cfg.rayon = false ∨ V = 1 ∨ R0 = 0) (codes codes' : List (Code × Code))
    (d₁ d₂ : Decoder) (hd₁ : UsedDecoder d₁) (hd₂ : UsedDecoder d₂) (hh₁ : Holds cfg d₁ f.earlier)
    (hh₂ : Holds cfg d₂ f'.earlier) (n : Nat) (hn₁ : f.Coloured d₁.transform n)
    (hn₂ : f'.Coloured d₂.transform n) (hv₁ : f.Valid (f.interval d₁.restartInterval) H V codes)
    (hv₂ : f'.Valid (f'.interval d₂.restartInterval) H V codes') (hr₁ : f.Renderable H V) (hr₂ : f'.Renderable H V) :
    ∃ image image' e₁ e₂, d₁.decode cfg f.bytes = .ok image e₁ ∧ d₂.decode cfg f'.bytes = .ok image' e₂ ∧
      image.length = f.x * f.y * n ∧ image'.length = f'.x * f'.y * n ∧
      ∀ y x, y < f'.y → x < f'.x → OffCuts V V (8 * V * R0) f'.y f.y y → OffCuts H 1 (8 * H * C0) f'.x f.x x →
        ∀ j, j < n → image'[n * f'.x * y + (n * x + j)]? =
          image[n * f.x * (y + 8 * V * R0) + (n * (x + 8 * H * C0) + j)]? := by
  obtain ⟨image, e₁, a1, a2⟩ := coloured_decodes cfg f H V codes d₁ hd₁ hh₁ hn₁ hv₁ hr₁
  obtain ⟨image', e₂, b1, b2⟩ := coloured_decodes cfg f' H V codes' d₂ hd₂ hh₂ hn₂ hv₂ hr₂
  refine ⟨image, image', e₁, e₂, a1, b1, a2, b2, ?_⟩
  intro y x hy hx wy wx j hj
  have ex := hf.x
  have ey := hf.y
  refine (pixel_of_upsampled hd₁ hd₂ hh₁ hh₂ hn₁ hn₂ hv₁ hv₂ hr₁ hr₂ (givenBy_blockwise f) (givenBy_blockwise f') a1 b1
    (y := y + 8 * V * R0) (x := x + 8 * H * C0) (y' := y) (x' := x) (by omega) (by omega) hy hx ?_ j hj).symm
  intro i hi
  unfold upsampledBy
  rcases forall₂_get hf.scales i with ⟨h1, h2⟩ | ⟨c, c', h1, h2, hh, hv, hq⟩
  · rw [h1, h2]
  have hc := List.mem_of_getElem? h1
  obtain ⟨f1, f2, f3, f4⟩ := hv₁.factors c hc
  have hH : c.h ≤ H := hv₁.hmax.1 c hc
  have hV : c.v ≤ V := hv₁.vmax.1 c hc
  obtain ⟨m1, m2, -, -⟩ := hr₁ c hc
  have hrow : (if cfg.rayon then (y + 8 * V * R0) / V else (y + 8 * V * R0) / V * V) =
      (if cfg.rayon then y / V else y / V * V) + 8 * V * R0 := by
    have e : (y + 8 * V * R0) / V = y / V + 8 * R0 := by
      rw [show 8 * V * R0 = V * (8 * R0) by ring, Nat.add_mul_div_left _ _ (by omega)]
    rw [e]
    rcases hray with h | h | h
    · rw [h]
      simp only [Bool.false_eq_true, if_false]
      ring
    · subst h
      split <;> omega
    · subst h
      simp
  rw [hrow, h1, h2]
  simp only [← hh, ← hv]
  have hle1 : y / V ≤ y := Nat.div_le_self _ _
  have hle2 : y / V * V ≤ y := Nat.div_mul_le_self _ _
  refine upsampled_shift f1 f3 m1 m2 (by omega) (by omega) (by split <;> omega) hx ex ey wx ?_ ?_
  · rcases wy with w | ⟨w1, w2⟩
    · exact .inl w
    · refine .inr ⟨?_, ?_⟩
      · rcases w1 with w1 | w1
        · left
          have h1 : 1 ≤ y / V := Nat.div_pos w1 (by omega)
          have : 1 * V ≤ y / V * V := Nat.mul_le_mul_right _ h1
          split <;> omega
        · exact .inr w1
      · rcases w2 with w2 | w2
        · left
          split <;> omega
        · exact .inr w2
  · intro r k hr hk
    congr 1
    obtain ⟨p1, p2, p3⟩ := crop_places (X := r) (C := R0) f3
    obtain ⟨q1, q2, q3⟩ := crop_places (X := k) (C := C0) f1
    refine (sample_of_mcu hf.scales p1 q1 ?_).symm
    intro c'' hc''
    cases h1.symm.trans hc''
    refine ⟨p2, q2, ?_⟩
    rw [p3, q3]
    exact (hf.mcus _ _ (lt_mcus (by omega) (by omega) hr) (lt_mcus (by omega) (by omega) hk)).symm

/-! ## The violation, and a case -/

/-- One column of MCUs of one luminance each, 16 lines high. -/
def columnMcus (vs : List Int) : List Mcu := vs.map fun v => [[dcBlock v, dcBlock v], [dcBlock 0], [dcBlock 0]]

/-- A picture of them, one pixel wide. -/
def columnFile (vs : List Int) (data : List UInt8) : BaselineFile :=
  codedFile (List.replicate 64 8) tallComps 1 (16 * vs.length) (columnMcus vs) data

theorem column_valid (vs : List Int) (h0 : vs.length < 100) (h : ∀ v ∈ vs, Codable (dcBlock v)) :
    ∃ data, (columnFile vs data).Valid 0 1 2 (List.replicate 3 (dcK3, acK5)) := by
  have hq : GoodTable (List.replicate 64 8) := ⟨by decide, by decide⟩
  refine codedFile_valid hq (comps := tallComps) (x := 1) (y := 16 * vs.length) (H := 1) (V := 2) (mcus := columnMcus vs)
    ⟨by decide, by omega, by decide, by decide, by decide, ⟨by decide, by decide⟩, ⟨by decide, by decide⟩,
      by decide, by decide, by decide, ?_, ?_⟩ ?_
  · simp [columnMcus, ceilDiv]
    omega
  · intro m hm
    obtain ⟨v, -, rfl⟩ := List.mem_map.1 hm
    rfl
  · intro m hm bs hbs b hb
    obtain ⟨v, hv, rfl⟩ := List.mem_map.1 hm
    have h00 : Codable (dcBlock 0) := by decide
    simp only [List.mem_cons, List.not_mem_nil, or_false] at hbs
    rcases hbs with rfl | rfl | rfl <;> simp only [List.mem_cons, List.not_mem_nil, or_false, or_self] at hb <;> subst hb
    · exact h v hv
    · exact h00
    · exact h00

theorem column_cropped (data data' : List UInt8) : Cropped (columnFile [0, 100] data) (columnFile [100] data') 1 2 1 0 := by
  refine ⟨.cons ⟨rfl, rfl, rfl⟩ (.cons ⟨rfl, rfl, rfl⟩ (.cons ⟨rfl, rfl, rfl⟩ .nil)),
    by show 8 * 1 * 0 + 1 ≤ 1; decide, by show 8 * 2 * 1 + 16 * 1 ≤ 16 * 2; decide, ?_⟩
  intro R C hR hC
  have hR' : R < 1 := by change R < ceilDiv 16 (8 * 2) at hR; simpa [ceilDiv] using hR
  have hC' : C < 1 := by change C < ceilDiv 1 (8 * 1) at hC; simpa [ceilDiv] using hC
  obtain rfl : R = 0 := by omega
  obtain rfl : C = 0 := by omega
  simp [BaselineFile.mcuAt, columnFile, columnMcus, codedFile, ceilDiv]

/-- The red byte of a pixel of such a picture, with the `rayon` feature. -/
theorem column_pixel (debug : Bool) (vs : List Int) (d : List UInt8) (y s : Nat) (hy : y < 16 * vs.length)
    (hv : (columnFile vs d).Valid 0 1 2 (List.replicate 3 (dcK3, acK5))) (hr : (columnFile vs d).Renderable 1 2)
    (hin : (columnFile vs d).InRange)
    (hs : ∀ i < 3, (columnFile vs []).upsampledSample 1 2 i (y / 2) 0 = if i = 0 then s else 128)
    (hc : ∃ p, ycbcrToRgb (UInt8.ofNat s) 128 128 = .ok p ∧ p.1 = UInt8.ofNat s) :
    ∃ image : List UInt8, decode ⟨debug, true⟩ (columnFile vs d).bytes = .ok image ∧
      image[3 * 1 * y + 3 * 0]? = some (UInt8.ofNat s) := by
  obtain ⟨image, d', e, -⟩ := C45_decodes ⟨debug, true⟩ (columnFile vs d) 1 2 _ Decoder.default .new (.nothing _) rfl (by
    show (none : Option Nat) ≠ some 0; decide) hv hr
  obtain ⟨r, g, b, h, p0, -, -⟩ := C45_pixels_partial ⟨debug, true⟩ (columnFile vs d) 1 2 _ Decoder.default .new (.nothing _) rfl (by
    show (none : Option Nat) ≠ some 0; decide) hv hr hin image d' e y 0 hy (by show 0 < 1; decide)
  refine ⟨image, by unfold decode; rw [e], ?_⟩
  obtain ⟨p, hp, hp1⟩ := hc
  have h0 := hs 0 (by decide)
  have h1 := hs 1 (by decide)
  have h2 := hs 2 (by decide)
  change (columnFile vs d).upsampledSample 1 2 0 (y / 2) 0 = s at h0
  change (columnFile vs d).upsampledSample 1 2 1 (y / 2) 0 = 128 at h1
  change (columnFile vs d).upsampledSample 1 2 2 (y / 2) 0 = 128 at h2
  simp only [if_true, h0, h1, h2] at h
  cases hp.symm.trans h
  rw [← hp1]
  exact p0

/-- **C93** (refutation). Two MCUs one above the other, the lower one lighter, with half of the chrominance lines; the lower one
is cut out. With the `rayon` feature the picture shows the lower MCU in lines 32 and on (of 32): line 2 of the part is
228, line 18 of the picture is 128. -/
theorem C93_rayon_violated : ∃ (f f' : BaselineFile) (codes : List (Code × Code)), Cropped f f' 1 2 1 0 ∧
    f.comps.length = 3 ∧ f.Valid 0 1 2 codes ∧ f'.Valid 0 1 2 codes ∧ f.Renderable 1 2 ∧ f'.Renderable 1 2 ∧ f.InRange ∧ f'.InRange ∧
    2 < f'.y ∧ 0 < f'.x ∧ OffCuts 2 2 (8 * 2 * 1) f'.y f.y 2 ∧ OffCuts 1 1 (8 * 1 * 0) f'.x f.x 0 ∧
    ∀ debug, ∃ image image' : List UInt8, decode ⟨debug, true⟩ f.bytes = .ok image ∧ decode ⟨debug, true⟩ f'.bytes = .ok image' ∧
      image[3 * f.x * (2 + 8 * 2 * 1) + (3 * (0 + 8 * 1 * 0) + 0)]? = some 128 ∧ image'[3 * f'.x * 2 + (3 * 0 + 0)]? = some 228 := by
  obtain ⟨data, hv⟩ := column_valid [0, 100] (by decide) (by decide)
  obtain ⟨data', hv'⟩ := column_valid [100] (by decide) (by decide)
  have hr : (columnFile [0, 100] data).Renderable 1 2 := by
    have hx : (columnFile [0, 100] data).x = 1 := rfl
    have hy : (columnFile [0, 100] data).y = 32 := rfl
    unfold BaselineFile.Renderable
    rw [hx, hy, show (columnFile [0, 100] data).comps = tallComps from rfl]
    decide
  have hr' : (columnFile [100] data').Renderable 1 2 := by
    have hx : (columnFile [100] data').x = 1 := rfl
    have hy : (columnFile [100] data').y = 16 := rfl
    unfold BaselineFile.Renderable
    rw [hx, hy, show (columnFile [100] data').comps = tallComps from rfl]
    decide
  have hin : (columnFile [0, 100] data).InRange := codedFile_inRange (by decide) (by decide +kernel)
  have hin' : (columnFile [100] data').InRange := codedFile_inRange (by decide) (by decide +kernel)
  refine ⟨_, _, _, column_cropped data data', rfl, hv, hv', hr, hr', hin, hin', by show 2 < 16; decide, by show 0 < 1; decide,
    .inr ⟨.inl (by decide), .inl (by show 3 < 16; decide)⟩, .inl rfl, ?_⟩
  intro debug
  obtain ⟨image, a1, a2⟩ := column_pixel debug [0, 100] data 18 128 (by decide) hv hr hin (by decide +kernel) ⟨_, rfl, by decide +kernel⟩
  obtain ⟨image', b1, b2⟩ := column_pixel debug [100] data' 2 228 (by decide) hv' hr' hin' (by decide +kernel) ⟨_, rfl, by decide +kernel⟩
  exact ⟨image, image', a1, b1, a2, b2⟩

/-- A case of C93: the right one of two MCUs of 16 by 16 pixels, with half of the chrominance lines and columns. -/
example : ∃ f f' codes, Cropped f f' 2 2 0 1 ∧ f.Coloured none 3 ∧ f'.Coloured none 3 ∧ f.Valid 0 2 2 codes ∧
    f'.Valid 0 2 2 codes ∧ f.Renderable 2 2 ∧ f'.Renderable 2 2 ∧
    ∀ cfg, ∃ image image' : List UInt8, decode cfg f.bytes = .ok image ∧ decode cfg f'.bytes = .ok image' ∧
      ∀ y x, y < 16 → 1 ≤ x → x < 16 → ∀ j, j < 3 → image'[48 * y + (3 * x + j)]? = image[96 * y + (3 * (x + 16) + j)]? := by
  have hq : GoodTable (List.replicate 64 1) := ⟨by decide, by decide⟩
  have ha : Arranged quarterComps 32 16 2 2 [leanMcu, leanMirrored] := by
    refine ⟨by decide, by decide, by decide, by decide, by decide, ⟨by decide, by decide⟩, ⟨by decide, by decide⟩,
      by decide, by decide, by decide, rfl, ?_⟩
    intro m' hm'
    simp only [List.mem_cons, List.not_mem_nil, or_false] at hm'
    rcases hm' with rfl | rfl <;> rfl
  have ha' : Arranged quarterComps 16 16 2 2 [leanMirrored] := by
    refine ⟨by decide, by decide, by decide, by decide, by decide, ⟨by decide, by decide⟩, ⟨by decide, by decide⟩,
      by decide, by decide, by decide, rfl, ?_⟩
    intro m' hm'
    simp only [List.mem_cons, List.not_mem_nil, or_false] at hm'
    subst hm'
    rfl
  obtain ⟨data, hv⟩ := codedFile_valid hq ha (by decide +kernel)
  obtain ⟨data', hv'⟩ := codedFile_valid hq ha' (by decide +kernel)
  have hc : Cropped (codedFile (List.replicate 64 1) quarterComps 32 16 [leanMcu, leanMirrored] data)
      (codedFile (List.replicate 64 1) quarterComps 16 16 [leanMirrored] data') 2 2 0 1 := by
    refine ⟨.cons ⟨rfl, rfl, rfl⟩ (.cons ⟨rfl, rfl, rfl⟩ (.cons ⟨rfl, rfl, rfl⟩ .nil)),
      by show 8 * 2 * 1 + 16 ≤ 32; decide, by show 8 * 2 * 0 + 16 ≤ 16; decide, ?_⟩
    intro R C hR hC
    have hR' : R < 1 := by change R < ceilDiv 16 (8 * 2) at hR; simpa [ceilDiv] using hR
    have hC' : C < 1 := by change C < ceilDiv 16 (8 * 2) at hC; simpa [ceilDiv] using hC
    obtain rfl : R = 0 := by omega
    obtain rfl : C = 0 := by omega
    simp [BaselineFile.mcuAt, codedFile, ceilDiv]
  have hr : (codedFile (List.replicate 64 1) quarterComps 32 16 [leanMcu, leanMirrored] data).Renderable 2 2 := by
    have hx : (codedFile (List.replicate 64 1) quarterComps 32 16 [leanMcu, leanMirrored] data).x = 32 := rfl
    have hy : (codedFile (List.replicate 64 1) quarterComps 32 16 [leanMcu, leanMirrored] data).y = 16 := rfl
    unfold BaselineFile.Renderable
    rw [hx, hy, show (codedFile (List.replicate 64 1) quarterComps 32 16 [leanMcu, leanMirrored] data).comps = quarterComps from rfl]
    decide
  have hr' : (codedFile (List.replicate 64 1) quarterComps 16 16 [leanMirrored] data').Renderable 2 2 := by
    have hx : (codedFile (List.replicate 64 1) quarterComps 16 16 [leanMirrored] data').x = 16 := rfl
    have hy : (codedFile (List.replicate 64 1) quarterComps 16 16 [leanMirrored] data').y = 16 := rfl
    unfold BaselineFile.Renderable
    rw [hx, hy, show (codedFile (List.replicate 64 1) quarterComps 16 16 [leanMirrored] data').comps = quarterComps from rfl]
    decide
  refine ⟨_, _, _, hc, ⟨rfl, .inl ⟨rfl, (by show (none : Option Nat) ≠ some 0; decide)⟩⟩,
    ⟨rfl, .inl ⟨rfl, (by show (none : Option Nat) ≠ some 0; decide)⟩⟩, hv, hv', hr, hr', ?_⟩
  intro cfg
  obtain ⟨image, image', e₁, e₂, h1, h2, -, -, h⟩ := C93_crop_partial cfg _ _ 2 2 0 1 hc (.inr (.inr rfl)) _ _ Decoder.default
    Decoder.default .new .new (.nothing _) (.nothing _) 3 ⟨rfl, .inl ⟨rfl, (by show (none : Option Nat) ≠ some 0; decide)⟩⟩
    ⟨rfl, .inl ⟨rfl, (by show (none : Option Nat) ≠ some 0; decide)⟩⟩ hv hv' hr hr'
  refine ⟨image, image', by unfold decode; rw [h1], by unfold decode; rw [h2], ?_⟩
  intro y x hy h1x hx j hj
  exact h y x hy hx (.inr ⟨.inr rfl, .inr rfl⟩) (.inr ⟨.inl h1x, .inr rfl⟩) j hj

end Jpeg
