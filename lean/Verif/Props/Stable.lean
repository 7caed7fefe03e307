import Verif.Spec.Stable
import Verif.Props.Requantised
import Verif.Props.MirrorWide
/-!
# C94: small changes of the coefficients are small changes of the image
-/

namespace Jpeg
open Spec Sample

/-- The scalar products of a row of at most 5683 in magnitude. -/
theorem dot_stable {m0 m1 m2 m3 m4 m5 m6 m7 : Int} (hm : ∀ m ∈ [m0, m1, m2, m3, m4, m5, m6, m7], |m| ≤ 5683)
    (a0 a1 a2 a3 a4 a5 a6 a7 b0 b1 b2 b3 b4 b5 b6 b7 : Int) :
    |dot [m0, m1, m2, m3, m4, m5, m6, m7] [a0, a1, a2, a3, a4, a5, a6, a7] -
      dot [m0, m1, m2, m3, m4, m5, m6, m7] [b0, b1, b2, b3, b4, b5, b6, b7]| ≤
    5683 * (|a0 - b0| + (|a1 - b1| + (|a2 - b2| + (|a3 - b3| + (|a4 - b4| + (|a5 - b5| + (|a6 - b6| + (|a7 - b7| + 0)))))))) := by
  have term : ∀ m ∈ [m0, m1, m2, m3, m4, m5, m6, m7], ∀ a b : Int, |m * a - m * b| ≤ 5683 * |a - b| := by
    intro m h a b
    rw [← Int.mul_sub, abs_mul]
    exact Int.mul_le_mul_of_nonneg_right (hm m h) (abs_nonneg _)
  have t0 := abs_le.1 (term m0 (by simp) a0 b0)
  have t1 := abs_le.1 (term m1 (by simp) a1 b1)
  have t2 := abs_le.1 (term m2 (by simp) a2 b2)
  have t3 := abs_le.1 (term m3 (by simp) a3 b3)
  have t4 := abs_le.1 (term m4 (by simp) a4 b4)
  have t5 := abs_le.1 (term m5 (by simp) a5 b5)
  have t6 := abs_le.1 (term m6 (by simp) a6 b6)
  have t7 := abs_le.1 (term m7 (by simp) a7 b7)
  simp only [dot, List.zipWith_cons_cons, List.zipWith_nil_left, List.sum_cons, List.sum_nil]
  rw [abs_le]
  constructor <;> linarith [t0.1, t0.2, t1.1, t1.2, t2.1, t2.2, t3.1, t3.2, t4.1, t4.2, t5.1, t5.2, t6.1, t6.2, t7.1, t7.2]

/-- The first pass. -/
theorem pass1_stable (F F' : Nat → Nat → Int) {r : Nat} (hr : r < 8) (i : Nat) :
    1024 * |idctPass1 F r i - idctPass1 F' r i| ≤
      5683 * (((List.range 8).map fun k => (F k i - F' k i).natAbs).sum : Nat) + 1023 := by
  have h : |dot (idctMatrixRow r) ((List.range 8).map fun k => F k i) - dot (idctMatrixRow r) ((List.range 8).map fun k => F' k i)| ≤
      5683 * (((List.range 8).map fun k => (F k i - F' k i).natAbs).sum : Nat) := by
    rw [show List.range 8 = [0, 1, 2, 3, 4, 5, 6, 7] from rfl]
    simp only [List.map_cons, List.map_nil, List.sum_cons, List.sum_nil]
    push_cast
    rcases (by omega : r = 0 ∨ r = 1 ∨ r = 2 ∨ r = 3 ∨ r = 4 ∨ r = 5 ∨ r = 6 ∨ r = 7) with rfl | rfl | rfl | rfl | rfl | rfl | rfl | rfl <;>
      exact dot_stable (by decide) ..
  unfold idctPass1
  rw [abs_le] at h
  generalize dot (idctMatrixRow r) ((List.range 8).map fun k => F k i) = p at h ⊢
  generalize dot (idctMatrixRow r) ((List.range 8).map fun k => F' k i) = q at h ⊢
  rcases abs_cases ((p + 512) / 1024 - (q + 512) / 1024) with ⟨e, -⟩ | ⟨e, -⟩ <;> rw [e] <;> omega

/-- A term of the second pass. -/
theorem weighted_stable {d D : Int} (h : 1024 * |d| ≤ 5683 * D + 1023) (hD : 0 ≤ D) (m : Int) (hm : |m| ≤ 5683) :
    1024 * |m * d| ≤ 32296489 * D + 1023 * |m| := by
  rw [abs_mul]
  have h0 := abs_nonneg m
  nlinarith [Int.mul_le_mul_of_nonneg_left h h0, Int.mul_le_mul_of_nonneg_right hm hD]

/-- The second pass. -/
theorem pass2_stable {m0 m1 m2 m3 m4 m5 m6 m7 : Int} (hm : ∀ m ∈ [m0, m1, m2, m3, m4, m5, m6, m7], |m| ≤ 5683)
    (hs : |m0| + |m1| + |m2| + |m3| + |m4| + |m5| + |m6| + |m7| ≤ 30610) (a b : Nat → Int) (D : Nat → Nat)
    (h : ∀ i, 1024 * |a i - b i| ≤ 5683 * (D i : Int) + 1023) :
    1024 * |dot [m0, m1, m2, m3, m4, m5, m6, m7] [a 0, a 1, a 2, a 3, a 4, a 5, a 6, a 7] -
      dot [m0, m1, m2, m3, m4, m5, m6, m7] [b 0, b 1, b 2, b 3, b 4, b 5, b 6, b 7]| ≤
    32296489 * ((D 0 : Int) + ((D 1 : Int) + ((D 2 : Int) + ((D 3 : Int) + ((D 4 : Int) + ((D 5 : Int) + ((D 6 : Int) +
      ((D 7 : Int) + 0)))))))) + 31314030 := by
  have term : ∀ m ∈ [m0, m1, m2, m3, m4, m5, m6, m7], ∀ i, -(32296489 * (D i : Int) + 1023 * |m|) ≤ 1024 * (m * a i - m * b i) ∧
      1024 * (m * a i - m * b i) ≤ 32296489 * (D i : Int) + 1023 * |m| := by
    intro m h' i
    have := weighted_stable (h i) (Int.natCast_nonneg _) m (hm m h')
    rw [Int.mul_sub] at this
    constructor <;> linarith [le_abs_self (m * a i - m * b i), neg_abs_le (m * a i - m * b i)]
  obtain ⟨t0, u0⟩ := term m0 (by simp) 0
  obtain ⟨t1, u1⟩ := term m1 (by simp) 1
  obtain ⟨t2, u2⟩ := term m2 (by simp) 2
  obtain ⟨t3, u3⟩ := term m3 (by simp) 3
  obtain ⟨t4, u4⟩ := term m4 (by simp) 4
  obtain ⟨t5, u5⟩ := term m5 (by simp) 5
  obtain ⟨t6, u6⟩ := term m6 (by simp) 6
  obtain ⟨t7, u7⟩ := term m7 (by simp) 7
  clear term hm h
  simp only [dot, List.zipWith_cons_cons, List.zipWith_nil_left, List.sum_cons, List.sum_nil]
  generalize hp : m0 * a 0 + (m1 * a 1 + (m2 * a 2 + (m3 * a 3 + (m4 * a 4 + (m5 * a 5 + (m6 * a 6 + (m7 * a 7 + 0))))))) -
    (m0 * b 0 + (m1 * b 1 + (m2 * b 2 + (m3 * b 3 + (m4 * b 4 + (m5 * b 5 + (m6 * b 6 + (m7 * b 7 + 0)))))))) = p
  rcases abs_cases p with ⟨e, -⟩ | ⟨e, -⟩ <;> rw [e] <;> linarith

/-- **C94.** The values of the inverse transform, before they are limited to samples, change by at most a quarter of
the sum of the changes of the coefficients, and 1. -/
theorem C94_idct (F F' : Nat → Nat → Int) (r x : Nat) (hr : r < 8) (hx : x < 8) :
    |idctSample F r x - idctSample F' r x| ≤ ((blockChange F F' / 4 + 1 : Nat) : Int) := by
  have key : 1024 * |dot (idctMatrixRow x) ((List.range 8).map fun k => idctPass1 F r k) -
      dot (idctMatrixRow x) ((List.range 8).map fun k => idctPass1 F' r k)| ≤ 32296489 * (blockChange F F' : Nat) + 31314030 := by
    unfold blockChange
    obtain ⟨D, hD⟩ : ∃ D : Nat → Nat, D = fun l => ((List.range 8).map fun k => (F k l - F' k l).natAbs).sum := ⟨_, rfl⟩
    have p : ∀ i, 1024 * |idctPass1 F r i - idctPass1 F' r i| ≤ 5683 * (D i : Int) + 1023 := by
      intro i
      rw [hD]
      exact pass1_stable F F' hr i
    rw [← hD, show List.range 8 = [0, 1, 2, 3, 4, 5, 6, 7] from rfl]
    simp only [List.map_cons, List.map_nil, List.sum_cons, List.sum_nil]
    push_cast
    rcases (by omega : x = 0 ∨ x = 1 ∨ x = 2 ∨ x = 3 ∨ x = 4 ∨ x = 5 ∨ x = 6 ∨ x = 7) with rfl | rfl | rfl | rfl | rfl | rfl | rfl | rfl <;>
      exact pass2_stable (by decide) (by decide) _ _ D p
  unfold idctSample
  generalize dot (idctMatrixRow x) ((List.range 8).map fun k => idctPass1 F r k) = p at key ⊢
  generalize dot (idctMatrixRow x) ((List.range 8).map fun k => idctPass1 F' r k) = q at key ⊢
  generalize blockChange F F' = D at key ⊢
  rw [abs_le]
  have l1 := le_abs_self (p - q)
  have l2 := neg_abs_le (p - q)
  constructor <;> push_cast <;> omega

/-- Numbers that differ by at most `E`. -/
def Apart (E a b : Nat) : Prop := a ≤ b + E ∧ b ≤ a + E

theorem tri_apart {E a b a' b' : Nat} (h1 : Apart E a a') (h2 : Apart E b b') : Apart E (tri a b) (tri a' b') := by
  unfold Apart tri at *
  omega

theorem doubleLine_apart {E w : Nat} {g g' : Nat → Nat} (h : ∀ k, Apart E (g k) (g' k)) (x : Nat) :
    Apart E (doubleLine w g x) (doubleLine w g' x) := by
  unfold doubleLine
  split
  · exact h _
  split
  · exact h _
  split <;> exact tri_apart (h _) (h _)

theorem doubleBoth_apart {E w h : Nat} {g g' : Nat → Nat → Nat} (hg : ∀ r k, Apart E (g r k) (g' r k)) (row x : Nat) :
    Apart E (doubleBoth w h g row x) (doubleBoth w h g' row x) := by
  have key : ∀ k, Apart (4 * E) (3 * g (row / 2) k + g (farRow h row) k) (3 * g' (row / 2) k + g' (farRow h row) k) := by
    intro k
    have a := hg (row / 2) k
    have b := hg (farRow h row) k
    unfold Apart at *
    omega
  unfold doubleBoth
  simp only
  generalize (fun k => 3 * g (row / 2) k + g (farRow h row) k) = t
  have k0 := key 0
  have k1 := key (w - 1)
  have k2 := key (x / 2)
  have k3 := key (x / 2 - 1)
  have k4 := key (x / 2 + 1)
  unfold Apart at *
  split
  · omega
  split
  · omega
  split <;> omega

/-- Components that differ by at most `E` do so after upsampling. -/
theorem upsampled_apart {E x0 y0 H V ch cv w h : Nat} {g g' : Nat → Nat → Nat} (hg : ∀ r k, Apart E (g r k) (g' r k)) (row x : Nat) :
    Apart E (upsampled x0 y0 H V ch cv w h g row x) (upsampled x0 y0 H V ch cv w h g' row x) := by
  unfold upsampled
  split
  · exact hg _ _
  split
  · exact doubleLine_apart (hg _) _
  split
  · exact tri_apart (hg _ _) (hg _ _)
  split
  · exact doubleBoth_apart hg _ _
  · exact hg _ _

/-- The channels of colours that differ by at most `E`. -/
theorem ycbcr_apart {E : Nat} {y cb cr y' cb' cr' r g b r' g' b' : UInt8} (h : ycbcrToRgb y cb cr = .ok (r, g, b))
    (h' : ycbcrToRgb y' cb' cr' = .ok (r', g', b')) (h0 : Apart E y.toNat y'.toNat)
    (h1 : Apart E cb.toNat cb'.toNat) (h2 : Apart E cr.toNat cr'.toNat) :
    Apart (3 * E) r.toNat r'.toNat ∧ Apart (3 * E) g.toNat g'.toNat ∧ Apart (3 * E) b.toNat b'.toNat := by
  rw [ycbcrToRgb_eq] at h h'
  cases h
  cases h'
  have s := fun v => saturate_toNat v
  unfold Apart at *
  refine ⟨?_, ?_, ?_⟩
  · have a := s (redSum y cb cr)
    have b := s (redSum y' cb' cr')
    unfold redSum at *
    omega
  · have a := s (greenSum y cb cr)
    have b := s (greenSum y' cb' cr')
    unfold greenSum at *
    omega
  · have a := s (blueSum y cb cr)
    have b := s (blueSum y' cb' cr')
    unfold blueSum at *
    omega

theorem ink_apart {E : Nat} {a b : UInt8} (h : Apart E a.toNat b.toNat) : Apart E (255 - a).toNat (255 - b).toNat := by
  have e : ∀ v : UInt8, (255 - v).toNat = 255 - v.toNat := by
    intro v
    rw [UInt8.toNat_sub_of_le _ _ (UInt8.le_iff_toNat_le.2 (by have := v.toNat_lt; show v.toNat ≤ 255; omega))]
    rfl
  rw [e, e]
  unfold Apart at *
  omega

section

variable {f f' : BaselineFile} {D : Nat}

theorem products_apart {Q Q' : Option (List Nat)} {B B' : Option BlockData} (r x : Nat) :
    (Q.bind fun q => B.map fun b => dequantised q b 0 0).isSome = (Q'.bind fun q => B'.map fun b => dequantised q b 0 0).isSome →
    blockChange (fun k l => (Q.bind fun q => B.map fun b => dequantised q b k l).getD 0)
      (fun k l => (Q'.bind fun q => B'.map fun b => dequantised q b k l).getD 0) ≤ D →
    Apart (D / 4 + 1) (match B, Q with | some b, some q => saturate (idctSample (dequantised q b) (r % 8) (x % 8)) | _, _ => 0).toNat
      (match B', Q' with | some b, some q => saturate (idctSample (dequantised q b) (r % 8) (x % 8)) | _, _ => 0).toNat := by
  intro hp hc
  have same : ∀ v, Apart (D / 4 + 1) v v := fun v => ⟨by omega, by omega⟩
  cases B <;> cases Q <;> cases B' <;> cases Q' <;> first | exact same _ | (simp at hp; done) | skip
  rename_i b q b' q'
  have k := C94_idct (dequantised q b) (dequantised q' b') (r % 8) (x % 8) (Nat.mod_lt _ (by decide)) (Nat.mod_lt _ (by decide))
  have hc' : blockChange (dequantised q b) (dequantised q' b') ≤ D := hc
  simp only
  have s1 := saturate_toNat (idctSample (dequantised q b) (r % 8) (x % 8))
  have s2 := saturate_toNat (idctSample (dequantised q' b') (r % 8) (x % 8))
  rw [abs_le] at k
  unfold Apart
  omega

/-- The samples. -/
theorem sample_apart (hs : NearCoefficients f f' D) (H i Y X : Nat) :
    Apart (D / 4 + 1) (f.sample H i Y X).toNat (f'.sample H i Y X).toNat := by
  unfold BaselineFile.sample
  rcases forall₂_get hs.factors i with ⟨g1, g2⟩ | ⟨c, c', g1, g2, hh, hv⟩
  · rw [g1, g2]; simp [Apart]
  · have hp := hs.present (Y / 8 / c.v * ceilDiv f.x (8 * H) + X / 8 / c.h) i (Y / 8 % c.v * c.h + X / 8 % c.h) 0 0
    have hc := hs.change (Y / 8 / c.v * ceilDiv f.x (8 * H) + X / 8 / c.h) i (Y / 8 % c.v * c.h + X / 8 % c.h)
    simp only [coefficient_eq, g1, g2, Option.bind_some] at hp hc
    rw [g1, g2]
    simp only
    unfold BaselineFile.blockAt
    rw [← hh, ← hv, ← hs.x]
    generalize (f.intervals.flatten[Y / 8 / c.v * ceilDiv f.x (8 * H) + X / 8 / c.h]?.bind fun m => m[i]?.bind fun blocks =>
      blocks[Y / 8 % c.v * c.h + X / 8 % c.h]?) = B at hp hc ⊢
    generalize (f'.intervals.flatten[Y / 8 / c.v * ceilDiv f.x (8 * H) + X / 8 / c.h]?.bind fun m => m[i]?.bind fun blocks =>
      blocks[Y / 8 % c.v * c.h + X / 8 % c.h]?) = B' at hp hc ⊢
    exact products_apart _ _ hp hc

end

/-- How much a channel changes if samples change by at most 1. -/
def channelGain (n : Nat) : Nat := if n = 3 then 3 else 1

/-- The pixels of files whose upsampled samples differ by at most `E`. -/
theorem pixels_apart {cfg : Cfg} {f f' : BaselineFile} {H V E : Nat} {codes codes' : List (Code × Code)} {d₁ d₂ e₁ e₂ : Decoder}
    (hd₁ : UsedDecoder d₁) (hd₂ : UsedDecoder d₂) (hh₁ : Holds cfg d₁ f.earlier) (hh₂ : Holds cfg d₂ f'.earlier) {n : Nat}
    (hn₁ : f.Coloured d₁.transform n) (hn₂ : f'.Coloured d₂.transform n)
    (hv₁ : f.Valid (f.interval d₁.restartInterval) H V codes) (hv₂ : f'.Valid (f'.interval d₂.restartInterval) H V codes')
    (hr₁ : f.Renderable H V) (hr₂ : f'.Renderable H V)
    (hin₁ : f.InRange) (hin₂ : f'.InRange) {image image' : List UInt8} (a : d₁.decode cfg f.bytes = .ok image e₁)
    (a' : d₂.decode cfg f'.bytes = .ok image' e₂) {y x : Nat} (hy : y < f.y) (hx : x < f.x) (hy' : y < f'.y)
    (hx' : x < f'.x) (h : ∀ i row col, Apart E (f.upsampledSample H V i row col) (f'.upsampledSample H V i row col)) (j : Nat)
    (hj : j < n) : ∃ v v', image[n * f.x * y + (n * x + j)]? = some v ∧ image'[n * f'.x * y + (n * x + j)]? = some v' ∧
      Apart (channelGain n * E) v.toNat v'.toNat := by
  have hu : ∀ (f : BaselineFile) (i r k : Nat), (UInt8.ofNat (f.upsampledSample H V i r k)).toNat = f.upsampledSample H V i r k := by
    intro f i r k
    have := upsampledSample_le (f := f) (H := H) (V := V) i r k
    exact UInt8.toNat_ofNat_of_lt' (by show _ < 256; omega)
  have h' : ∀ i row col, Apart E (UInt8.ofNat (f.upsampledSample H V i row col)).toNat
      (UInt8.ofNat (f'.upsampledSample H V i row col)).toNat := by
    intro i row col
    rw [hu, hu]
    exact h i row col
  obtain ⟨h3, ⟨rfl, hct₁⟩ | ⟨rfl, hct₁⟩⟩ := hn₁
  · obtain ⟨h3', ⟨-, hct₂⟩ | ⟨h, -⟩⟩ := hn₂
    · obtain ⟨r, g, b, p, p0, p1, p2⟩ := C45_pixels_partial cfg f H V codes d₁ hd₁ hh₁ h3 hct₁ hv₁ hr₁ hin₁ image e₁ a y x hy hx
      obtain ⟨r', g', b', p', p0', p1', p2'⟩ := C45_pixels_partial cfg f' H V codes' d₂ hd₂ hh₂ h3' hct₂ hv₂ hr₂ hin₂ image' e₂
        a' y x hy' hx'
      obtain ⟨k0, k1, k2⟩ := ycbcr_apart p p' (h' _ _ _) (h' _ _ _) (h' _ _ _)
      rcases (by omega : j = 0 ∨ j = 1 ∨ j = 2) with rfl | rfl | rfl
      · exact ⟨r, r', p0, p0', k0⟩
      · exact ⟨g, g', p1, p1', k1⟩
      · exact ⟨b, b', p2, p2', k2⟩
    · cases h
  · obtain ⟨h3', ⟨h, -⟩ | ⟨-, hct₂⟩⟩ := hn₂
    · cases h
    · have e := C54_pixels_partial cfg f H V codes d₁ hd₁ hh₁ h3 hct₁ hv₁ hr₁ hin₁ image e₁ a y x j hy hx hj
      have e' := C54_pixels_partial cfg f' H V codes' d₂ hd₂ hh₂ h3' hct₂ hv₂ hr₂ hin₂ image' e₂ a' y x j hy' hx' hj
      refine ⟨_, _, e, e', ?_⟩
      show Apart (1 * E) _ _
      rw [Nat.one_mul]
      exact ink_apart (h' _ _ _)

/-- **C94.** Two files of the same sizes whose dequantised coefficients differ by at most `D` in every block, in sum:
no byte of the CMYK image differs by more than `D / 4 + 1`, and no byte of the RGB image by more than three times that;
so much at most is lost by quantising a picture again. -/
theorem C94_stable (cfg : Cfg) (f f' : BaselineFile) (D : Nat) (hs : NearCoefficients f f' D) (H V : Nat)
    (codes codes' : List (Code × Code)) (d₁ d₂ : Decoder) (hd₁ : UsedDecoder d₁) (hd₂ : UsedDecoder d₂)
    (hh₁ : Holds cfg d₁ f.earlier) (hh₂ : Holds cfg d₂ f'.earlier) (n : Nat)
    (hn₁ : f.Coloured d₁.transform n) (hn₂ : f'.Coloured d₂.transform n)
    (hv₁ : f.Valid (f.interval d₁.restartInterval) H V codes) (hv₂ : f'.Valid (f'.interval d₂.restartInterval) H V codes')
    (hr₁ : f.Renderable H V) (hin₁ : f.InRange) (hin₂ : f'.InRange) :
    ∃ image image' e₁ e₂, d₁.decode cfg f.bytes = .ok image e₁ ∧ d₂.decode cfg f'.bytes = .ok image' e₂ ∧
      image.length = f.x * f.y * n ∧ image'.length = f.x * f.y * n ∧
      ∀ (k : Nat) (v v' : UInt8), image[k]? = some v → image'[k]? = some v' →
        |(v.toNat : Int) - (v'.toNat : Int)| ≤ ((if n = 3 then 3 * (D / 4 + 1) else D / 4 + 1 : Nat) : Int) := by
  have hr₂ : f'.Renderable H V := by
    intro c' hc'
    obtain ⟨i, hi⟩ := List.mem_iff_getElem?.1 hc'
    rcases forall₂_get hs.factors i with ⟨-, h2⟩ | ⟨c, c'', h1, h2, hh, hv⟩
    · rw [hi] at h2; cases h2
    · obtain rfl := Option.some.inj (hi.symm.trans h2)
      have := hr₁ c (List.mem_of_getElem? h1)
      rw [hs.x, hs.y, hh, hv] at this
      exact this
  obtain ⟨image, e₁, a1, a2⟩ := coloured_decodes cfg f H V codes d₁ hd₁ hh₁ hn₁ hv₁ hr₁
  obtain ⟨image', e₂, b1, b2⟩ := coloured_decodes cfg f' H V codes' d₂ hd₂ hh₂ hn₂ hv₂ hr₂
  refine ⟨image, image', e₁, e₂, a1, b1, a2, by rw [b2, hs.x, hs.y], ?_⟩
  intro m v v' hv hv'
  have hm : m < f.x * f.y * n := a2 ▸ (List.getElem?_eq_some_iff.1 hv).1
  have hX : 0 < f.x := by rcases Nat.eq_zero_or_pos f.x with h | h <;> [simp [h] at hm; exact h]
  have hn : 0 < n := by rcases Nat.eq_zero_or_pos n with rfl | h <;> [simp at hm; exact h]
  have e := Nat.div_add_mod m (n * f.x)
  have hr := Nat.mod_lt m (Nat.mul_pos hn hX)
  have hy : m / (n * f.x) < f.y := by
    rw [Nat.div_lt_iff_lt_mul (Nat.mul_pos hn hX)]
    calc m < f.x * f.y * n := hm
      _ = f.y * (n * f.x) := by ring
  have hx : m % (n * f.x) / n < f.x := by
    rw [Nat.div_lt_iff_lt_mul hn, Nat.mul_comm f.x n]; exact hr
  have hup : ∀ i row col, Apart (D / 4 + 1) (f.upsampledSample H V i row col) (f'.upsampledSample H V i row col) := by
    intro i row col
    unfold BaselineFile.upsampledSample
    rcases forall₂_get hs.factors i with ⟨h1, h2⟩ | ⟨c, c', h1, h2, hh, hv⟩
    · rw [h1, h2]; exact ⟨Nat.le_add_right .., Nat.le_add_right ..⟩
    · rw [h1, h2]
      simp only [← hh, ← hv, ← hs.x, ← hs.y]
      exact upsampled_apart (fun r k => sample_apart hs _ _ _ _) _ _
  obtain ⟨w, w', c1, c2, c3⟩ := pixels_apart hd₁ hd₂ hh₁ hh₂ hn₁ hn₂ hv₁ hv₂ hr₁ hr₂ hin₁ hin₂ a1 b1 (E := D / 4 + 1) hy hx
    (hs.y ▸ hy) (hs.x ▸ hx) hup (m % (n * f.x) % n) (Nat.mod_lt _ hn)
  · rw [← hs.x] at c2
    rw [Nat.div_add_mod, e] at c1 c2
    cases hv.symm.trans c1
    cases hv'.symm.trans c2
    unfold channelGain at c3
    unfold Apart at c3
    rw [abs_le]
    split
    · rename_i h
      rw [if_pos h] at c3
      omega
    · rename_i h
      rw [if_neg h] at c3
      omega

/-! ## A case -/

/-- The coefficients of `coarseMcu`, quantised again by 3. -/
def againMcu : Mcu := [[⟨5, -8 :: List.replicate 62 0⟩], [dcBlock 0], [dcBlock 13]]

theorem again_change : ∀ i < 3,
    blockChange (fun k l => ((codedFile (List.replicate 64 8) fullComps 7 5 [coarseMcu] []).coefficient 0 i 0 k l).getD 0)
      (fun k l => ((codedFile (List.replicate 64 3) fullComps 7 5 [againMcu] []).coefficient 0 i 0 k l).getD 0) ≤ 1 := by decide +kernel

theorem again_present : ∀ i < 3, ((codedFile (List.replicate 64 8) fullComps 7 5 [coarseMcu] []).coefficient 0 i 0 0 0).isSome = true ∧
    ((codedFile (List.replicate 64 3) fullComps 7 5 [againMcu] []).coefficient 0 i 0 0 0).isSome = true := by decide +kernel

/-- A case of `C94_stable`. -/
example : ∃ (f f' : BaselineFile) (image image' : List UInt8), ¬ SameCoefficients f f' ∧
    decode ⟨true, true⟩ f.bytes = .ok image ∧ decode ⟨true, true⟩ f'.bytes = .ok image' ∧ image.length = 7 * 5 * 3 ∧
    ∀ (k : Nat) (v v' : UInt8), image[k]? = some v → image'[k]? = some v' → |(v.toNat : Int) - (v'.toNat : Int)| ≤ 3 := by
  obtain ⟨data, hv⟩ := codedFile_valid (q := List.replicate 64 8) (comps := fullComps) (x := 7) (y := 5) (H := 1) (V := 1)
    (mcus := [coarseMcu]) ⟨by decide, by decide⟩
    ⟨by decide, by decide, by decide, by decide, by decide, ⟨by decide, by decide⟩, ⟨by decide, by decide⟩, by decide,
      by decide, by decide, by decide, by decide⟩ (by decide)
  obtain ⟨data', hv'⟩ := codedFile_valid (q := List.replicate 64 3) (comps := fullComps) (x := 7) (y := 5) (H := 1) (V := 1)
    (mcus := [againMcu]) ⟨by decide, by decide⟩
    ⟨by decide, by decide, by decide, by decide, by decide, ⟨by decide, by decide⟩, ⟨by decide, by decide⟩, by decide,
      by decide, by decide, by decide, by decide⟩ (by decide)
  have e : ∀ (q : List Nat) (a b c : BlockData) (d : List UInt8) (n i j k l : Nat), ¬ (n = 0 ∧ i < 3 ∧ j = 0) →
      (codedFile q fullComps 7 5 [[[a], [b], [c]]] d).coefficient n i j k l = none := by
    intro q a b c d n i j k l h
    rw [coefficient_eq]
    have : ([[[[a], [b], [c]]]].flatten[n]?.bind fun m : Mcu => m[i]?.bind fun blocks => blocks[j]?) = none := by
      match n, i, j, h with
      | n + 1, _, _, _ => simp
      | 0, i + 3, _, _ => simp
      | 0, 0, j + 1, _ | 0, 1, j + 1, _ | 0, 2, j + 1, _ => simp
    show (_ : Option (List Nat)).bind (fun q => Option.map _ ([[[[a], [b], [c]]]].flatten[n]?.bind fun m : Mcu => m[i]?.bind fun blocks => blocks[j]?)) = none
    rw [this]
    simp
  have some_of : ∀ (f : BaselineFile) (n i j k l : Nat), (f.coefficient n i j k l).isSome = (f.coefficient n i j 0 0).isSome := by
    intro f n i j k l
    rw [coefficient_eq, coefficient_eq]
    cases f.comps[i]?.bind f.quantOf with
    | none => rfl
    | some q => rw [Option.bind_some, Option.bind_some, Option.isSome_map, Option.isSome_map]
  have hs : NearCoefficients (codedFile (List.replicate 64 8) fullComps 7 5 [coarseMcu] data)
      (codedFile (List.replicate 64 3) fullComps 7 5 [againMcu] data') 1 := by
    refine ⟨.cons ⟨rfl, rfl⟩ (.cons ⟨rfl, rfl⟩ (.cons ⟨rfl, rfl⟩ .nil)), rfl, rfl, ?_, ?_⟩
    · intro n i j k l
      by_cases h : n = 0 ∧ i < 3 ∧ j = 0
      · obtain ⟨rfl, hi, rfl⟩ := h
        rw [some_of, some_of _ _ _ _ k l]
        exact (again_present i hi).1.trans (again_present i hi).2.symm
      · unfold coarseMcu againMcu dcBlock
        rw [e _ _ _ _ _ _ _ _ _ _ h, e _ _ _ _ _ _ _ _ _ _ h]
    · intro n i j
      by_cases h : n = 0 ∧ i < 3 ∧ j = 0
      · obtain ⟨rfl, hi, rfl⟩ := h
        exact again_change i hi
      · unfold coarseMcu againMcu dcBlock
        simp only [e _ _ _ _ _ _ _ _ _ _ h]
        decide
  obtain ⟨image, image', e₁, e₂, h1, h2, h3, -, h4⟩ := C94_stable ⟨true, true⟩ _ _ 1 hs 1 1 _ _ Decoder.default Decoder.default .new .new
    (.nothing _) (.nothing _) 3 ⟨rfl, .inl ⟨rfl, (by show (none : Option Nat) ≠ some 0; decide)⟩⟩
    ⟨rfl, .inl ⟨rfl, (by show (none : Option Nat) ≠ some 0; decide)⟩⟩ hv hv' (renderable_one hv.toLaid.ones)
    (codedFile_inRange (by decide) (by decide +kernel)) (codedFile_inRange (by decide) (by decide +kernel))
  refine ⟨_, _, image, image', ?_, by unfold decode; rw [h1], by unfold decode; rw [h2], h3, h4⟩
  intro h
  have := h.products 0 0 0 0 0 (by decide) (by decide)
  revert this
  show ¬ (codedFile (List.replicate 64 8) fullComps 7 5 [coarseMcu] []).coefficient 0 0 0 0 0 =
    (codedFile (List.replicate 64 3) fullComps 7 5 [againMcu] []).coefficient 0 0 0 0 0
  decide +kernel

end Jpeg
