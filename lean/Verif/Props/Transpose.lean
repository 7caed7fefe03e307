import Verif.Spec.Transpose
import Verif.Props.Flip
/-!
# Transposed and turned pictures (C91)
-/

namespace Jpeg
open Spec Sample

/-- Rounding of eight numbers, seen through a row of the matrix. -/
theorem dot_rounded (m0 m1 m2 m3 m4 m5 m6 m7 a0 a1 a2 a3 a4 a5 a6 a7 B : Int)
    (hB : |m0| + |m1| + |m2| + |m3| + |m4| + |m5| + |m6| + |m7| ≤ B) :
    |1024 * dot [m0, m1, m2, m3, m4, m5, m6, m7] [(a0 + 512) / 1024, (a1 + 512) / 1024, (a2 + 512) / 1024, (a3 + 512) / 1024,
        (a4 + 512) / 1024, (a5 + 512) / 1024, (a6 + 512) / 1024, (a7 + 512) / 1024] -
      dot [m0, m1, m2, m3, m4, m5, m6, m7] [a0, a1, a2, a3, a4, a5, a6, a7]| ≤ 512 * B := by
  have one : ∀ m a : Int, |m * (1024 * ((a + 512) / 1024) - a)| ≤ |m| * 512 := by
    intro m a
    rw [abs_mul]
    have : |1024 * ((a + 512) / 1024) - a| ≤ 512 := by rw [abs_le]; omega
    exact Int.mul_le_mul_of_nonneg_left this (abs_nonneg m)
  have h0 := one m0 a0
  have h1 := one m1 a1
  have h2 := one m2 a2
  have h3 := one m3 a3
  have h4 := one m4 a4
  have h5 := one m5 a5
  have h6 := one m6 a6
  have h7 := one m7 a7
  have e : 1024 * dot [m0, m1, m2, m3, m4, m5, m6, m7] [(a0 + 512) / 1024, (a1 + 512) / 1024, (a2 + 512) / 1024, (a3 + 512) / 1024,
        (a4 + 512) / 1024, (a5 + 512) / 1024, (a6 + 512) / 1024, (a7 + 512) / 1024] -
      dot [m0, m1, m2, m3, m4, m5, m6, m7] [a0, a1, a2, a3, a4, a5, a6, a7] =
      m0 * (1024 * ((a0 + 512) / 1024) - a0) + m1 * (1024 * ((a1 + 512) / 1024) - a1) +
      m2 * (1024 * ((a2 + 512) / 1024) - a2) + m3 * (1024 * ((a3 + 512) / 1024) - a3) +
      m4 * (1024 * ((a4 + 512) / 1024) - a4) + m5 * (1024 * ((a5 + 512) / 1024) - a5) +
      m6 * (1024 * ((a6 + 512) / 1024) - a6) + m7 * (1024 * ((a7 + 512) / 1024) - a7) := by
    simp only [dot, List.zipWith_cons_cons, List.zipWith_nil_left, List.sum_cons, List.sum_nil]
    ring
  rw [e]
  rw [abs_le] at *
  omega

/-- The entries of a row of the matrix: eight, and not too large. -/
theorem idctMatrix_sum : ∀ x < 8, ∃ m0 m1 m2 m3 m4 m5 m6 m7 : Int, idctMatrixRow x = [m0, m1, m2, m3, m4, m5, m6, m7] ∧
    |m0| + |m1| + |m2| + |m3| + |m4| + |m5| + |m6| + |m7| ≤ 131071 := by
  intro x hx
  rcases (by omega : x = 0 ∨ x = 1 ∨ x = 2 ∨ x = 3 ∨ x = 4 ∨ x = 5 ∨ x = 6 ∨ x = 7) with
    rfl | rfl | rfl | rfl | rfl | rfl | rfl | rfl <;>
  exact ⟨_, _, _, _, _, _, _, _, rfl, by decide⟩

/-- The order of the two passes does not matter but for the rounding. -/
theorem dot_dot (m0 m1 m2 m3 m4 m5 m6 m7 l0 l1 l2 l3 l4 l5 l6 l7 : Int) (F : Nat → Nat → Int) :
    dot [l0, l1, l2, l3, l4, l5, l6, l7] [dot [m0, m1, m2, m3, m4, m5, m6, m7] [F 0 0, F 0 1, F 0 2, F 0 3, F 0 4, F 0 5, F 0 6, F 0 7],
        dot [m0, m1, m2, m3, m4, m5, m6, m7] [F 1 0, F 1 1, F 1 2, F 1 3, F 1 4, F 1 5, F 1 6, F 1 7],
        dot [m0, m1, m2, m3, m4, m5, m6, m7] [F 2 0, F 2 1, F 2 2, F 2 3, F 2 4, F 2 5, F 2 6, F 2 7],
        dot [m0, m1, m2, m3, m4, m5, m6, m7] [F 3 0, F 3 1, F 3 2, F 3 3, F 3 4, F 3 5, F 3 6, F 3 7],
        dot [m0, m1, m2, m3, m4, m5, m6, m7] [F 4 0, F 4 1, F 4 2, F 4 3, F 4 4, F 4 5, F 4 6, F 4 7],
        dot [m0, m1, m2, m3, m4, m5, m6, m7] [F 5 0, F 5 1, F 5 2, F 5 3, F 5 4, F 5 5, F 5 6, F 5 7],
        dot [m0, m1, m2, m3, m4, m5, m6, m7] [F 6 0, F 6 1, F 6 2, F 6 3, F 6 4, F 6 5, F 6 6, F 6 7],
        dot [m0, m1, m2, m3, m4, m5, m6, m7] [F 7 0, F 7 1, F 7 2, F 7 3, F 7 4, F 7 5, F 7 6, F 7 7]] =
      dot [m0, m1, m2, m3, m4, m5, m6, m7] [dot [l0, l1, l2, l3, l4, l5, l6, l7] [F 0 0, F 1 0, F 2 0, F 3 0, F 4 0, F 5 0, F 6 0, F 7 0],
        dot [l0, l1, l2, l3, l4, l5, l6, l7] [F 0 1, F 1 1, F 2 1, F 3 1, F 4 1, F 5 1, F 6 1, F 7 1],
        dot [l0, l1, l2, l3, l4, l5, l6, l7] [F 0 2, F 1 2, F 2 2, F 3 2, F 4 2, F 5 2, F 6 2, F 7 2],
        dot [l0, l1, l2, l3, l4, l5, l6, l7] [F 0 3, F 1 3, F 2 3, F 3 3, F 4 3, F 5 3, F 6 3, F 7 3],
        dot [l0, l1, l2, l3, l4, l5, l6, l7] [F 0 4, F 1 4, F 2 4, F 3 4, F 4 4, F 5 4, F 6 4, F 7 4],
        dot [l0, l1, l2, l3, l4, l5, l6, l7] [F 0 5, F 1 5, F 2 5, F 3 5, F 4 5, F 5 5, F 6 5, F 7 5],
        dot [l0, l1, l2, l3, l4, l5, l6, l7] [F 0 6, F 1 6, F 2 6, F 3 6, F 4 6, F 5 6, F 6 6, F 7 6],
        dot [l0, l1, l2, l3, l4, l5, l6, l7] [F 0 7, F 1 7, F 2 7, F 3 7, F 4 7, F 5 7, F 6 7, F 7 7]] := by
  simp only [dot, List.zipWith_cons_cons, List.zipWith_nil_left, List.sum_cons, List.sum_nil]
  ring

/-- **C91** (part: the inverse DCT). With rows and columns of the coefficients exchanged the block comes out with rows and
columns exchanged, but for a difference of at most 1 in each sample.

Missing: exactly so, which is false: `C91_violated`. -/
theorem C91_transpose_idct_partial (F F' : Nat → Nat → Int) (h : ∀ k i, k < 8 → i < 8 → F' k i = F i k) (r x : Nat)
    (hr : r < 8) (hx : x < 8) : |idctSample F' r x - idctSample F x r| ≤ 1 := by
  rw [idctSample_congr (g' := fun k i => F i k) h]
  obtain ⟨m0, m1, m2, m3, m4, m5, m6, m7, em, hm⟩ := idctMatrix_sum r hr
  obtain ⟨l0, l1, l2, l3, l4, l5, l6, l7, el, hl⟩ := idctMatrix_sum x hx
  have e := dot_dot m0 m1 m2 m3 m4 m5 m6 m7 l0 l1 l2 l3 l4 l5 l6 l7 F
  unfold idctSample idctPass1
  simp only [range8, em, el]
  have h1 := fun a0 a1 a2 a3 a4 a5 a6 a7 => dot_rounded m0 m1 m2 m3 m4 m5 m6 m7 a0 a1 a2 a3 a4 a5 a6 a7 _ hm
  have h2 := fun a0 a1 a2 a3 a4 a5 a6 a7 => dot_rounded l0 l1 l2 l3 l4 l5 l6 l7 a0 a1 a2 a3 a4 a5 a6 a7 _ hl
  have key : ∀ a b A B : Int, |1024 * A - a| ≤ 512 * 131071 → |1024 * B - b| ≤ 512 * 131071 → a = b →
      |(A + 65536) / 131072 + 128 - ((B + 65536) / 131072 + 128)| ≤ 1 := by
    intro a b A B ha hb e
    rw [abs_le] at *
    omega
  exact key _ _ _ _ (h2 _ _ _ _ _ _ _ _) (h1 _ _ _ _ _ _ _ _) e

/-- Where the cells across the diagonal are. -/
theorem across_spec : ∀ k, k < 8 → ∀ i, i < 8 → ((List.range 64).map zigzag).idxOf (8 * k + i) < 64 ∧
    across (((List.range 64).map zigzag).idxOf (8 * k + i)) = ((List.range 64).map zigzag).idxOf (8 * i + k) ∧
    (((List.range 64).map zigzag).idxOf (8 * k + i) = 0 ↔ ((List.range 64).map zigzag).idxOf (8 * i + k) = 0) := by
  decide +kernel

theorem dequantised_transpose {q : List Nat} {b : BlockData} {k i : Nat} (hk : k < 8) (hi : i < 8) :
    dequantised (transposeTable q) (transposeBlock b) k i = dequantised q b i k := by
  unfold dequantised
  obtain ⟨h1, h2, h3⟩ := across_spec k hk i hi
  generalize ((List.range 64).map zigzag).idxOf (8 * k + i) = n at h1 h2 h3
  generalize ((List.range 64).map zigzag).idxOf (8 * i + k) = m at h2 h3
  simp only
  have hq : (transposeTable q).getD n 0 = q.getD m 0 := by
    unfold transposeTable
    rw [List.getD_eq_getElem?_getD, List.getElem?_map, List.getElem?_range h1, Option.map_some, Option.getD_some, h2]
  rw [hq]
  cases n with
  | zero => rw [h3.1 rfl]; rfl
  | succ n =>
    cases m with
    | zero => exact absurd (h3.2 rfl) (by omega)
    | succ m =>
      unfold transposeBlock
      simp only [List.getD_eq_getElem?_getD, List.getElem?_cons_succ]
      rw [List.getElem?_map, List.getElem?_range (by omega), Option.map_some, Option.getD_some, h2]
      rfl

section

variable {f f' : BaselineFile}

/-- The samples of the transposed picture. -/
theorem sample_transposed (hf : Transposed f f') (h1 : ∀ c ∈ f.comps, c.h = 1 ∧ c.v = 1) {i Y X : Nat} (hY : Y < f.x)
    (hX : X < f.y) : |((f'.sample 1 i Y X).toNat : Int) - ((f.sample 1 i X Y).toNat : Int)| ≤ 1 := by
  unfold BaselineFile.sample
  rcases forall₂_get hf.scales i with ⟨g1, g2⟩ | ⟨c, c', g1, g2, hh, hv, hq⟩
  · rw [g1, g2]; simp
  · obtain ⟨e1, e2⟩ := h1 c (List.mem_of_getElem? g1)
    have hm := hf.mcus (Y / 8) (X / 8) (lt_ceilDiv (by decide) (by omega)) (lt_ceilDiv (by decide) (by omega))
    unfold BaselineFile.mcuAt at hm
    rw [g1, g2]
    simp only [hq]
    unfold BaselineFile.blockAt
    rw [← hh, ← hv, e1, e2]
    simp only [Nat.div_one, Nat.mod_one, Nat.zero_mul, Nat.zero_add]
    rw [hm]
    cases f.intervals.flatten[X / 8 * ceilDiv f.x (8 * 1) + Y / 8]? with
    | none => simp
    | some m =>
      rw [Option.map_some, Option.bind_some, Option.bind_some, List.getElem?_map]
      cases m[i]? with
      | none => simp
      | some bs =>
        rw [Option.map_some, Option.bind_some, Option.bind_some, List.getElem?_map]
        cases bs[0]? with
        | none => simp
        | some b =>
          rw [Option.map_some]
          cases f.quantOf c with
          | none => simp
          | some q =>
            simp only [Option.map_some]
            exact saturate_near (C91_transpose_idct_partial (dequantised q b) (dequantised (transposeTable q) (transposeBlock b))
              (fun k i hk hi => dequantised_transpose hk hi) (Y % 8) (X % 8) (by omega) (by omega))

/-- The samples of the turned picture. -/
theorem sample_turned (hf : Turned f f') (h1 : ∀ c ∈ f.comps, c.h = 1 ∧ c.v = 1) {i Y X : Nat} (hY : Y < f.x)
    (hX : X < f.y) : |((f'.sample 1 i Y X).toNat : Int) - ((f.sample 1 i (f.y - 1 - X) Y).toNat : Int)| ≤ 1 := by
  unfold BaselineFile.sample
  rcases forall₂_get hf.scales i with ⟨g1, g2⟩ | ⟨c, c', g1, g2, hh, hv, hq⟩
  · rw [g1, g2]; simp
  · obtain ⟨e1, e2⟩ := h1 c (List.mem_of_getElem? g1)
    have hw := hf.whole
    have hm := hf.mcus (Y / 8) (X / 8) (lt_ceilDiv (by decide) (by omega)) (by omega)
    rw [show f.y / 8 - 1 - X / 8 = (f.y - 1 - X) / 8 by omega] at hm
    unfold BaselineFile.mcuAt at hm
    rw [g1, g2]
    simp only [hq]
    unfold BaselineFile.blockAt
    rw [← hh, ← hv, e1, e2]
    simp only [Nat.div_one, Nat.mod_one, Nat.zero_mul, Nat.zero_add]
    rw [hm]
    cases f.intervals.flatten[(f.y - 1 - X) / 8 * ceilDiv f.x (8 * 1) + Y / 8]? with
    | none => simp
    | some m =>
      rw [Option.map_some, Option.bind_some, Option.bind_some, List.getElem?_map]
      cases m[i]? with
      | none => simp
      | some bs =>
        rw [Option.map_some, Option.bind_some, Option.bind_some, List.getElem?_map]
        cases bs[0]? with
        | none => simp
        | some b =>
          rw [Option.map_some]
          cases f.quantOf c with
          | none => simp
          | some q =>
            simp only [Option.map_some]
            have a := C91_transpose_idct_partial (dequantised q (flipBlock b))
              (dequantised (transposeTable q) (transposeBlock (flipBlock b)))
              (fun k i hk hi => dequantised_transpose hk hi) (Y % 8) (X % 8) (by omega) (by omega)
            rw [C88_flip_idct (dequantised q b) (dequantised q (flipBlock b)) (fun k i hk hi => dequantised_flip hk hi)
              (X % 8) (Y % 8) (by omega), show 7 - X % 8 = (f.y - 1 - X) % 8 by omega] at a
            exact saturate_near a

end

/-- **C91** (part: transposed). A picture without subsampling whose rows and columns are exchanged without decoding it, of
any size: rows and columns of the image are exchanged, but for a difference of at most 3 in each channel.

Missing: exactly so, which is false: `C91_violated`. -/
theorem C91_transpose_partial (cfg : Cfg) (f f' : BaselineFile) (hf : Transposed f f') (codes codes' : List (Code × Code))
    (d₁ d₂ : Decoder) (hd₁ : UsedDecoder d₁) (hd₂ : UsedDecoder d₂) (hh₁ : Holds cfg d₁ f.earlier)
    (hh₂ : Holds cfg d₂ f'.earlier) (n : Nat) (hn₁ : f.Coloured d₁.transform n)
    (hn₂ : f'.Coloured d₂.transform n) (hv₁ : f.Valid (f.interval d₁.restartInterval) 1 1 codes)
    (hv₂ : f'.Valid (f'.interval d₂.restartInterval) 1 1 codes') (hin₁ : f.InRange) (hin₂ : f'.InRange) :
    ∃ image image' e₁ e₂, d₁.decode cfg f.bytes = .ok image e₁ ∧ d₂.decode cfg f'.bytes = .ok image' e₂ ∧
      image.length = f.x * f.y * n ∧ image'.length = f.y * f.x * n ∧
      ∀ y x, y < f.y → x < f.x → ∀ j, j < n →
        ∃ v v', image[n * f.x * y + (n * x + j)]? = some v ∧ image'[n * f.y * x + (n * y + j)]? = some v' ∧
          |(v'.toNat : Int) - (v.toNat : Int)| ≤ 3 := by
  have hr₁ := renderable_one hv₁.toLaid.ones
  have hr₂ := renderable_one hv₂.toLaid.ones
  obtain ⟨image, e₁, a1, a2⟩ := coloured_decodes cfg f 1 1 codes d₁ hd₁ hh₁ hn₁ hv₁ hr₁
  obtain ⟨image', e₂, b1, b2⟩ := coloured_decodes cfg f' 1 1 codes' d₂ hd₂ hh₂ hn₂ hv₂ hr₂
  refine ⟨image, image', e₁, e₂, a1, b1, a2, by rw [b2, hf.x, hf.y], ?_⟩
  intro y x hy hx j hj
  have key := pixels_near hd₁ hd₂ hh₁ hh₂ hn₁ hn₂ hv₁ hv₂ hin₁ hin₂ a1 b1 (y := y) (x := x) (y' := x) (x' := y) hy
    hx (by rw [hf.y]; exact hx) (by rw [hf.x]; exact hy) (fun i _ => sample_transposed hf hv₁.toLaid.ones hx hy) j hj
  rw [hf.x] at key
  exact key

/-- **C91** (part: turned). A picture without subsampling that is turned clockwise by a quarter without decoding it, and
whose last MCUs belong to the picture with all their lines: line `y` of the image, from its last pixel on, is column `y`
of the first, but for a difference of at most 3 in each channel.

Missing: exactly so, which is false: `C91_turn_violated`. -/
theorem C91_turn_partial (cfg : Cfg) (f f' : BaselineFile) (hf : Turned f f') (codes codes' : List (Code × Code))
    (d₁ d₂ : Decoder) (hd₁ : UsedDecoder d₁) (hd₂ : UsedDecoder d₂) (hh₁ : Holds cfg d₁ f.earlier)
    (hh₂ : Holds cfg d₂ f'.earlier) (n : Nat) (hn₁ : f.Coloured d₁.transform n)
    (hn₂ : f'.Coloured d₂.transform n) (hv₁ : f.Valid (f.interval d₁.restartInterval) 1 1 codes)
    (hv₂ : f'.Valid (f'.interval d₂.restartInterval) 1 1 codes') (hin₁ : f.InRange) (hin₂ : f'.InRange) :
    ∃ image image' e₁ e₂, d₁.decode cfg f.bytes = .ok image e₁ ∧ d₂.decode cfg f'.bytes = .ok image' e₂ ∧
      image.length = f.x * f.y * n ∧ image'.length = f.y * f.x * n ∧
      ∀ y x, y < f.x → x < f.y → ∀ j, j < n →
        ∃ v v', image[n * f.x * (f.y - 1 - x) + (n * y + j)]? = some v ∧ image'[n * f.y * y + (n * x + j)]? = some v' ∧
          |(v'.toNat : Int) - (v.toNat : Int)| ≤ 3 := by
  have hr₁ := renderable_one hv₁.toLaid.ones
  have hr₂ := renderable_one hv₂.toLaid.ones
  obtain ⟨image, e₁, a1, a2⟩ := coloured_decodes cfg f 1 1 codes d₁ hd₁ hh₁ hn₁ hv₁ hr₁
  obtain ⟨image', e₂, b1, b2⟩ := coloured_decodes cfg f' 1 1 codes' d₂ hd₂ hh₂ hn₂ hv₂ hr₂
  refine ⟨image, image', e₁, e₂, a1, b1, a2, by rw [b2, hf.x, hf.y], ?_⟩
  intro y x hy hx j hj
  have key := pixels_near hd₁ hd₂ hh₁ hh₂ hn₁ hn₂ hv₁ hv₂ hin₁ hin₂ a1 b1 (y := f.y - 1 - x) (x := y) (y' := y) (x' := x) (by omega)
    hy (by rw [hf.y]; exact hy) (by rw [hf.x]; exact hx) (fun i _ => sample_turned hf hv₁.toLaid.ones hy hx) j hj
  rw [hf.x] at key
  exact key

/-! ## The violations, and cases -/

/-- A block of one frequency, and not of the one across the diagonal. -/
def slantBlock : BlockData := ⟨9, (List.range 63).map fun n => if zigzag (n + 1) = 46 then 8 else 0⟩

/-- Its MCU. -/
def slantMcu : Mcu := [[slantBlock], [dcBlock 0], [dcBlock 0]]

/-- The same with rows and columns exchanged. -/
def slantAcross : Mcu := slantMcu.map fun bs => bs.map transposeBlock

/-- The same upside down. -/
def slantFlipped : Mcu := slantMcu.map fun bs => bs.map flipBlock

theorem slant_across : slantAcross = slantFlipped.map fun bs => bs.map fun b => transposeBlock (flipBlock b) := by
  decide +kernel

theorem slant_samples : ∀ i < 3, (oneMcu slantMcu []).upsampledSample 1 1 i 3 3 = (if i = 0 then 128 else 128) ∧
    (oneMcu slantAcross []).upsampledSample 1 1 i 3 3 = (if i = 0 then 129 else 128) ∧
    (oneMcu slantFlipped []).upsampledSample 1 1 i 4 3 = (if i = 0 then 128 else 128) := by decide +kernel

/-- A pixel of a grey picture of one MCU. -/
theorem oneMcu_pixel (cfg : Cfg) {m : Mcu} {d : List UInt8} {y x s : Nat} (hy : y < 8) (hx : x < 8)
    (hv : (oneMcu m d).Valid 0 1 1 (List.replicate fullComps.length (dcK3, acK5))) (hin : (oneMcu m d).InRange)
    (hs : ∀ i < 3, (oneMcu m []).upsampledSample 1 1 i y x = if i = 0 then s else 128) :
    ∃ image : List UInt8, decode cfg (oneMcu m d).bytes = .ok image ∧ image[3 * 8 * y + 3 * x]? = some (UInt8.ofNat s) := by
  have hr := renderable_one hv.toLaid.ones
  obtain ⟨image, d', e, -⟩ := C45_decodes cfg (oneMcu m d) 1 1 _ Decoder.default .new (.nothing _) rfl (by
    show (none : Option Nat) ≠ some 0; decide) hv hr
  obtain ⟨r, g, b, h, p0, -, -⟩ := C45_pixels_partial cfg (oneMcu m d) 1 1 _ Decoder.default .new (.nothing _) rfl (by
    show (none : Option Nat) ≠ some 0; decide) hv hr hin image d' e y x hy hx
  refine ⟨image, by unfold decode; rw [e], ?_⟩
  have hu : ∀ i, (oneMcu m d).upsampledSample 1 1 i y x = (oneMcu m []).upsampledSample 1 1 i y x := fun i => rfl
  have hrow : (if cfg.rayon = true then y / 1 else y / 1 * 1) = y := by simp
  simp only [hrow, hu, hs 0 (by decide), hs 1 (by decide), hs 2 (by decide)] at h
  cases (C27_grey (UInt8.ofNat s)).symm.trans h
  exact p0

/-- The three files. -/
theorem slant_files : ∃ data data' data'',
    (oneMcu slantMcu data).Valid 0 1 1 (List.replicate fullComps.length (dcK3, acK5)) ∧
    (oneMcu slantAcross data').Valid 0 1 1 (List.replicate fullComps.length (dcK3, acK5)) ∧
    (oneMcu slantFlipped data'').Valid 0 1 1 (List.replicate fullComps.length (dcK3, acK5)) ∧
    (oneMcu slantMcu data).InRange ∧ (oneMcu slantAcross data').InRange ∧ (oneMcu slantFlipped data'').InRange ∧
    Transposed (oneMcu slantMcu data) (oneMcu slantAcross data') ∧ Turned (oneMcu slantFlipped data'') (oneMcu slantAcross data') := by
  have hq : GoodTable (List.replicate 64 1) := ⟨by decide, by decide⟩
  obtain ⟨data, hv⟩ := codedFile_valid (comps := fullComps) (x := 8) (y := 8) (H := 1) (V := 1) (mcus := [slantMcu]) hq
    ⟨by decide, by decide, by decide, by decide, by decide, ⟨by decide, by decide⟩, ⟨by decide, by decide⟩, by decide,
      by decide, by decide, by decide, by decide⟩ (by decide +kernel)
  obtain ⟨data', hv'⟩ := codedFile_valid (comps := fullComps) (x := 8) (y := 8) (H := 1) (V := 1) (mcus := [slantAcross]) hq
    ⟨by decide, by decide, by decide, by decide, by decide, ⟨by decide, by decide⟩, ⟨by decide, by decide⟩, by decide,
      by decide, by decide, by decide, by decide⟩ (by decide +kernel)
  obtain ⟨data'', hv''⟩ := codedFile_valid (comps := fullComps) (x := 8) (y := 8) (H := 1) (V := 1) (mcus := [slantFlipped]) hq
    ⟨by decide, by decide, by decide, by decide, by decide, ⟨by decide, by decide⟩, ⟨by decide, by decide⟩, by decide,
      by decide, by decide, by decide, by decide⟩ (by decide +kernel)
  have hs : ∀ (m m' : Mcu) (a b : List UInt8), AcrossScales (oneMcu m a) (oneMcu m' b) := by
    intro m m' a b
    have one : some (List.replicate 64 1) = (some (List.replicate 64 1)).map transposeTable := by decide
    exact .cons ⟨rfl, rfl, one⟩ (.cons ⟨rfl, rfl, one⟩ (.cons ⟨rfl, rfl, one⟩ .nil))
  refine ⟨data, data', data'', hv, hv', hv'', codedFile_inRange (by decide) (by decide +kernel),
    codedFile_inRange (by decide) (by decide +kernel), codedFile_inRange (by decide) (by decide +kernel),
    ⟨hs _ _ _ _, rfl, rfl, ?_⟩, ⟨hs _ _ _ _, rfl, rfl, by show 8 % 8 = 0; decide, ?_⟩⟩
  · intro R C hR hC
    have hR' : R < 1 := by change R < ceilDiv 8 8 at hR; simpa [ceilDiv] using hR
    have hC' : C < 1 := by change C < ceilDiv 8 8 at hC; simpa [ceilDiv] using hC
    obtain rfl : R = 0 := by omega
    obtain rfl : C = 0 := by omega
    simp [BaselineFile.mcuAt, oneMcu, codedFile, ceilDiv, slantAcross]
  · intro R C hR hC
    have hR' : R < 1 := by change R < ceilDiv 8 8 at hR; simpa [ceilDiv] using hR
    have hC' : C < 1 := by change C < 8 / 8 at hC; omega
    obtain rfl : R = 0 := by omega
    obtain rfl : C = 0 := by omega
    simp [BaselineFile.mcuAt, oneMcu, codedFile, ceilDiv]
    exact slant_across

/-- **C91** (violated). A picture of 8 by 8 pixels and the same with rows and columns exchanged: the pixel in line 3,
column 3 of the one is 128, that of the other 129. -/
theorem C91_violated : ∃ (f f' : BaselineFile) (codes : List (Code × Code)), Transposed f f' ∧ f.comps.length = 3 ∧
    f.Valid 0 1 1 codes ∧ f'.Valid 0 1 1 codes ∧ f.InRange ∧ f'.InRange ∧ f.x = 8 ∧ f.y = 8 ∧
    ∀ cfg, ∃ image image' : List UInt8, decode cfg f.bytes = .ok image ∧ decode cfg f'.bytes = .ok image' ∧
      image[3 * f.x * 3 + 3 * 3]? = some 128 ∧ image'[3 * f.y * 3 + 3 * 3]? = some 129 := by
  obtain ⟨data, data', data'', hv, hv', hv'', hin, hin', hin'', ht, hu⟩ := slant_files
  refine ⟨oneMcu slantMcu data, oneMcu slantAcross data', _, ht, rfl, hv, hv', hin, hin', rfl, rfl, ?_⟩
  intro cfg
  obtain ⟨image, e1, p1⟩ := oneMcu_pixel cfg (by decide) (by decide) hv hin fun i hi => (slant_samples i hi).1
  obtain ⟨image', e2, p2⟩ := oneMcu_pixel cfg (by decide) (by decide) hv' hin' fun i hi => (slant_samples i hi).2.1
  exact ⟨image, image', e1, e2, p1, p2⟩

/-- **C91** (violated, turned). A picture of 8 by 8 pixels and the same turned by a quarter: the pixel in line 4,
column 3 of the one is 128; it goes to line 3, column 3 of the other, where there is 129. -/
theorem C91_turn_violated : ∃ (f f' : BaselineFile) (codes : List (Code × Code)), Turned f f' ∧ f.comps.length = 3 ∧
    f.Valid 0 1 1 codes ∧ f'.Valid 0 1 1 codes ∧ f.InRange ∧ f'.InRange ∧ f.x = 8 ∧ f.y = 8 ∧
    ∀ cfg, ∃ image image' : List UInt8, decode cfg f.bytes = .ok image ∧ decode cfg f'.bytes = .ok image' ∧
      image[3 * f.x * (f.y - 1 - 3) + 3 * 3]? = some 128 ∧ image'[3 * f.y * 3 + 3 * 3]? = some 129 := by
  obtain ⟨data, data', data'', hv, hv', hv'', hin, hin', hin'', ht, hu⟩ := slant_files
  refine ⟨oneMcu slantFlipped data'', oneMcu slantAcross data', _, hu, rfl, hv'', hv', hin'', hin', rfl, rfl, ?_⟩
  intro cfg
  obtain ⟨image, e1, p1⟩ := oneMcu_pixel cfg (by decide) (by decide) hv'' hin'' fun i hi => (slant_samples i hi).2.2
  obtain ⟨image', e2, p2⟩ := oneMcu_pixel cfg (by decide) (by decide) hv' hin' fun i hi => (slant_samples i hi).2.1
  exact ⟨image, image', e1, e2, p1, p2⟩

/-- A case of `C91_transpose_partial` and of `C91_turn_partial`: the pictures of the violations. -/
example : ∃ (f f' f'' : BaselineFile) (image image' image'' : List UInt8), decode ⟨true, true⟩ f.bytes = .ok image ∧
    decode ⟨true, true⟩ f'.bytes = .ok image' ∧ decode ⟨true, true⟩ f''.bytes = .ok image'' ∧ image.length = 8 * 8 * 3 ∧
    ∀ y x j, y < 8 → x < 8 → j < 3 →
      (∃ v v', image[24 * y + (3 * x + j)]? = some v ∧ image'[24 * x + (3 * y + j)]? = some v' ∧
        |(v'.toNat : Int) - (v.toNat : Int)| ≤ 3) ∧
      ∃ v v', image''[24 * (7 - x) + (3 * y + j)]? = some v ∧ image'[24 * y + (3 * x + j)]? = some v' ∧
        |(v'.toNat : Int) - (v.toNat : Int)| ≤ 3 := by
  obtain ⟨data, data', data'', hv, hv', hv'', hin, hin', hin'', ht, hu⟩ := slant_files
  obtain ⟨image, image', e₁, e₂, h1, h2, h3, h4, h5⟩ := C91_transpose_partial ⟨true, true⟩ _ _ ht _ _
    Decoder.default Decoder.default .new .new (.nothing _) (.nothing _) 3
    ⟨rfl, .inl ⟨rfl, (by show (none : Option Nat) ≠ some 0; decide)⟩⟩
    ⟨rfl, .inl ⟨rfl, (by show (none : Option Nat) ≠ some 0; decide)⟩⟩ hv hv' hin hin'
  obtain ⟨image₂, image₂', e₁', e₂', h1', h2', h3', h4', h5'⟩ := C91_turn_partial ⟨true, true⟩ _ _ hu _ _
    Decoder.default Decoder.default .new .new (.nothing _) (.nothing _) 3
    ⟨rfl, .inl ⟨rfl, (by show (none : Option Nat) ≠ some 0; decide)⟩⟩
    ⟨rfl, .inl ⟨rfl, (by show (none : Option Nat) ≠ some 0; decide)⟩⟩ hv'' hv' hin'' hin'
  obtain rfl : image₂' = image' := by rw [h2] at h2'; cases h2'; rfl
  exact ⟨_, _, _, image, image₂', image₂, by unfold decode; rw [h1], by unfold decode; rw [h2], by unfold decode; rw [h1'], h3,
    fun y x j hy hx hj => ⟨h5 y x hy hx j hj, h5' y x hy hx j hj⟩⟩

end Jpeg
