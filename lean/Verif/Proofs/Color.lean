import Verif.Model.Color
import Verif.Proofs.Idct
import Verif.Spec.Color
import Mathlib.Tactic.Linarith
import Mathlib.Tactic.NormNum
import Mathlib.Tactic.Positivity
import Mathlib.Algebra.Order.Group.MinMax
/-!
# Colour conversion
-/

namespace Jpeg
open Spec

/-- The red sum before clamping. -/
def redSum (y _cb cr : UInt8) : Int := y.toNat + (91881 * ((cr.toNat : Int) - 128) + 32768) / 65536
/-- The green sum before clamping. -/
def greenSum (y cb cr : UInt8) : Int :=
  y.toNat + (-22554 * ((cb.toNat : Int) - 128) + 32768 + -46802 * ((cr.toNat : Int) - 128)) / 65536
/-- The blue sum before clamping. -/
def blueSum (y cb _cr : UInt8) : Int := y.toNat + (116130 * ((cb.toNat : Int) - 128) + 32768) / 65536

theorem clampIdx_eq {x : Int} (h1 : -256 ≤ x) (h2 : x ≤ 767) : clampIdx x = .ok (saturate x) := by
  unfold clampIdx
  rw [if_neg (by omega), clampTable _ (by omega),
    show (((x + 256).toNat : Nat) : Int) - 256 = x by omega]

theorem sums_range (y cb cr : UInt8) :
    (-256 ≤ redSum y cb cr ∧ redSum y cb cr ≤ 767) ∧
    (-256 ≤ greenSum y cb cr ∧ greenSum y cb cr ≤ 767) ∧
    (-256 ≤ blueSum y cb cr ∧ blueSum y cb cr ≤ 767) := by
  have := y.toNat_lt
  have := cb.toNat_lt
  have := cr.toNat_lt
  unfold redSum greenSum blueSum
  omega

theorem ycbcrToRgb_eq (y cb cr : UInt8) : ycbcrToRgb y cb cr =
    .ok (saturate (redSum y cb cr), saturate (greenSum y cb cr), saturate (blueSum y cb cr)) := by
  obtain ⟨⟨r1, r2⟩, ⟨g1, g2⟩, ⟨b1, b2⟩⟩ := sums_range y cb cr
  have hr : clampIdx ((y.toNat : Int) + crToR cr) = .ok (saturate (redSum y cb cr)) :=
    clampIdx_eq r1 r2
  have hg : clampIdx ((y.toNat : Int) + (cbToG cb + crToG cr) / 65536) =
      .ok (saturate (greenSum y cb cr)) := clampIdx_eq g1 g2
  have hb : clampIdx ((y.toNat : Int) + cbToB cb) = .ok (saturate (blueSum y cb cr)) :=
    clampIdx_eq b1 b2
  simp only [ycbcrToRgb, hr, hg, hb]

theorem saturate_toNat (v : Int) : (((saturate v).toNat : Int)) = max 0 (min v 255) := by
  unfold saturate
  split
  · rw [show (0 : UInt8).toNat = 0 from rfl]; omega
  · split
    · rw [show (255 : UInt8).toNat = 255 from rfl]; omega
    · simp only [UInt8.toNat_ofNat']; omega

theorem saturate_limit (v : Int) : ((saturate v).toNat : ℚ) = limit v := by
  have h := saturate_toNat v
  have : (((saturate v).toNat : Int) : ℚ) = ((max 0 (min v 255) : Int) : ℚ) := by rw [h]
  unfold limit
  push_cast at this
  exact this

theorem limit_lip (a b : ℚ) : |limit a - limit b| ≤ |a - b| := by
  unfold limit
  rw [max_comm 0, max_comm 0]
  refine (abs_max_sub_max_le_abs _ _ _).trans ((abs_min_sub_min_le_max a 255 b 255).trans ?_)
  simp

theorem floor_half (n : Int) : |(((n + 32768) / 65536 : Int) : ℚ) - n / 65536| ≤ 1 / 2 := by
  have h1 : 65536 * ((n + 32768) / 65536) ≤ n + 32768 := by omega
  have h2 : n + 32768 ≤ 65536 * ((n + 32768) / 65536) + 65536 := by omega
  have h1' : (65536 : ℚ) * (((n + 32768) / 65536 : Int) : ℚ) ≤ n + 32768 := by exact_mod_cast h1
  have h2' : (n : ℚ) + 32768 ≤ 65536 * (((n + 32768) / 65536 : Int) : ℚ) + 65536 := by exact_mod_cast h2
  rw [abs_le]
  constructor <;> linarith

theorem chroma_range (c : UInt8) : (-128 : ℚ) ≤ (c.toNat : ℚ) - 128 ∧ (c.toNat : ℚ) - 128 ≤ 127 := by
  have h : c.toNat ≤ 255 := Nat.le_of_lt_succ c.toNat_lt
  have h' : (c.toNat : ℚ) ≤ 255 := by exact_mod_cast h
  have h0 : (0 : ℚ) ≤ c.toNat := Nat.cast_nonneg _
  constructor <;> linarith

theorem red_error (y cb cr : UInt8) : |(redSum y cb cr : ℚ) - bt601R y cb cr| ≤ 1 / 2 + 1 / 500 := by
  have h := floor_half (91881 * ((cr.toNat : Int) - 128))
  obtain ⟨c1, c2⟩ := chroma_range cr
  unfold redSum bt601R
  push_cast at h ⊢
  rw [abs_le] at *
  constructor <;> linarith [h.1, h.2]

theorem blue_error (y cb cr : UInt8) : |(blueSum y cb cr : ℚ) - bt601B y cb cr| ≤ 1 / 2 + 1 / 500 := by
  have h := floor_half (116130 * ((cb.toNat : Int) - 128))
  obtain ⟨c1, c2⟩ := chroma_range cb
  unfold blueSum bt601B
  push_cast at h ⊢
  rw [abs_le] at *
  constructor <;> linarith [h.1, h.2]

theorem green_error (y cb cr : UInt8) : |(greenSum y cb cr : ℚ) - bt601G y cb cr| ≤ 1 / 2 + 1 / 500 := by
  have h := floor_half (-22554 * ((cb.toNat : Int) - 128) + -46802 * ((cr.toNat : Int) - 128))
  obtain ⟨c1, c2⟩ := chroma_range cb
  obtain ⟨c3, c4⟩ := chroma_range cr
  have e : greenSum y cb cr = y.toNat +
      (-22554 * ((cb.toNat : Int) - 128) + -46802 * ((cr.toNat : Int) - 128) + 32768) / 65536 := by
    unfold greenSum
    congr 2
    omega
  rw [e]
  unfold bt601G
  push_cast at h ⊢
  rw [abs_le] at *
  constructor <;> linarith [h.1, h.2]

/-- The pixel of a triple. -/
def rgbPixel (y cb cr : UInt8) : List UInt8 :=
  [saturate (redSum y cb cr), saturate (greenSum y cb cr), saturate (blueSum y cb cr)]

theorem ycbcrGo_eq : ∀ (n : Nat) (data ys cbs crs : List UInt8), data.length = 3 * n →
    n ≤ ys.length → n ≤ cbs.length → n ≤ crs.length →
    ycbcrGo data ys cbs crs = .ok ((List.range n).flatMap fun i =>
      rgbPixel (ys.getD i 0) (cbs.getD i 0) (crs.getD i 0)) := by
  intro n
  induction n with
  | zero =>
    intro data ys cbs crs hd _ _ _
    obtain rfl := List.length_eq_zero_iff.1 (show data.length = 0 by omega)
    simp [ycbcrGo]
  | succ n ih =>
    intro data ys cbs crs hd h1 h2 h3
    match data, ys, cbs, crs, hd, h1, h2, h3 with
    | d0 :: d1 :: d2 :: data, y :: ys, cb :: cbs, cr :: crs, hd, h1, h2, h3 =>
      simp only [List.length_cons] at hd h1 h2 h3
      rw [ycbcrGo, ycbcrToRgb_eq]
      simp only
      rw [ih data ys cbs crs (by omega) (by omega) (by omega) (by omega)]
      simp only [List.range_succ_eq_map, List.flatMap_cons, List.flatMap_map]
      rfl

/-- YCCK lines: the first three bytes of a pixel are the converted samples, the fourth is the complement of
what stood in the output line. -/
theorem ycckGo_eq : ∀ (n : Nat) (data ys cbs crs : List UInt8), data.length = 4 * n →
    n ≤ ys.length → n ≤ cbs.length → n ≤ crs.length →
    ycckGo data ys cbs crs = .ok ((List.range n).flatMap fun i =>
      rgbPixel (ys.getD i 0) (cbs.getD i 0) (crs.getD i 0) ++ [255 - data.getD (4 * i + 3) 0]) := by
  intro n
  induction n with
  | zero =>
    intro data ys cbs crs hd _ _ _
    obtain rfl := List.length_eq_zero_iff.1 (show data.length = 0 by omega)
    simp [ycckGo]
  | succ n ih =>
    intro data ys cbs crs hd h1 h2 h3
    match data, ys, cbs, crs, hd, h1, h2, h3 with
    | d0 :: d1 :: d2 :: d3 :: data, y :: ys, cb :: cbs, cr :: crs, hd, h1, h2, h3 =>
      simp only [List.length_cons] at hd h1 h2 h3
      rw [ycckGo, ycbcrToRgb_eq]
      simp only
      rw [ih data ys cbs crs (by omega) (by omega) (by omega) (by omega)]
      simp only [List.range_succ_eq_map, List.flatMap_cons, List.flatMap_map]
      rfl

theorem cmykGo_eq : ∀ (n : Nat) (data cs ms ys ks : List UInt8), data.length = 4 * n →
    n ≤ cs.length → n ≤ ms.length → n ≤ ys.length → n ≤ ks.length →
    cmykGo data cs ms ys ks = (List.range n).flatMap fun i =>
      [255 - cs.getD i 0, 255 - ms.getD i 0, 255 - ys.getD i 0, 255 - ks.getD i 0] := by
  intro n
  induction n with
  | zero =>
    intro data cs ms ys ks hd _ _ _ _
    obtain rfl := List.length_eq_zero_iff.1 (show data.length = 0 by omega)
    simp [cmykGo]
  | succ n ih =>
    intro data cs ms ys ks hd h1 h2 h3 h4
    match data, cs, ms, ys, ks, hd, h1, h2, h3, h4 with
    | d0 :: d1 :: d2 :: d3 :: data, c :: cs, m :: ms, y :: ys, k :: ks, hd, h1, h2, h3, h4 =>
      simp only [List.length_cons] at hd h1 h2 h3 h4
      rw [cmykGo, ih data cs ms ys ks (by omega) (by omega) (by omega) (by omega) (by omega)]
      simp only [List.range_succ_eq_map, List.flatMap_cons, List.flatMap_map]
      rfl

/-- Conversion keeps the length of the line, whatever the inputs. -/
theorem ycbcrGo_length (data ys cbs crs out : List UInt8) (h : ycbcrGo data ys cbs crs = .ok out) :
    out.length = data.length := by
  fun_induction ycbcrGo data ys cbs crs generalizing out <;> simp_all
  rename_i ih
  subst h
  simp [ih]

theorem ycckGo_length (data ys cbs crs out : List UInt8) (h : ycckGo data ys cbs crs = .ok out) :
    out.length = data.length := by
  fun_induction ycckGo data ys cbs crs generalizing out <;> simp_all
  rename_i ih
  subst h
  simp [ih]

theorem cmykGo_length (data cs ms ys ks : List UInt8) :
    (cmykGo data cs ms ys ks).length = data.length := by
  fun_induction cmykGo data cs ms ys ks <;> simp_all

theorem convert_length {f : ColorConvertFunc} {data out : List UInt8} {input : List (List UInt8)}
    (h : f.convert data input = .ok out) : out.length = data.length := by
  unfold ColorConvertFunc.convert at h
  split at h
  · injection h with h; rw [h]
  · split at h
    · exact ycbcrGo_length _ _ _ _ _ h
    · cases h
  · split at h
    · exact ycckGo_length _ _ _ _ _ h
    · cases h
  · split at h
    · injection h with h; rw [← h]; exact cmykGo_length _ _ _ _ _
    · cases h

end Jpeg
