import Verif.Proofs.IdctReal
/-!
# The reduced transforms
-/

namespace Jpeg
open Spec Real Finset

/-- A 4x4 block spread over the even rows and columns of an 8x8 block. -/
def spread (F : Nat → Nat → Int) (k i : Nat) : Int := if k % 2 = 0 ∧ i % 2 = 0 then F (k / 2) (i / 2) else 0

/-- The 4-point transform is the 8-point transform of the even frequencies. -/
theorem reducedIdct_spread (F : Nat → Nat → Int) (y x : Nat) :
    reducedIdct 4 (fun k i => (F k i : ℝ)) y x = realIdct (fun k i => (spread F k i : ℝ)) y x := by
  have e : ∀ z k : ℝ, cos ((2 * z + 1) * k * π / (2 * ((4 : Nat) : ℝ))) = cos ((2 * z + 1) * (2 * k) * π / 16) := by
    intro z k
    congr 1
    push_cast
    ring
  unfold reducedIdct realIdct
  simp only [e]
  simp [Finset.sum_range_succ, spread, dctScale]
  norm_num

/-- First pass of the 4x4 transform. -/
def pass4 (F : Nat → Nat → Int) (r i : Nat) : Int :=
  let t0 := (2217 * F 1 i - 5350 * F 3 i + 512) / 1024
  let t2 := (5352 * F 1 i + 2217 * F 3 i + 512) / 1024
  match r with
  | 0 => 4 * (F 0 i + F 2 i) + t2
  | 1 => 4 * (F 0 i - F 2 i) + t0
  | 2 => 4 * (F 0 i - F 2 i) - t0
  | _ => 4 * (F 0 i + F 2 i) - t2

theorem shl2 (x : W32) : x <<< 2 = x * ((4 : Int) : W32) := by
  rw [BitVec.shiftLeft_eq_mul_twoPow]; rfl

theorem idct4Column_exact {c : List Int} {q : List Nat} {i : Nat}
    (h : ∀ k, k < 4 → -2 ^ 16 ≤ coefAt c q k i ∧ coefAt c q k i ≤ 2 ^ 16) :
    idct4Column c q i = (((pass4 (coefAt c q) 0 i : Int) : W32), ((pass4 (coefAt c q) 1 i : Int) : W32),
      ((pass4 (coefAt c q) 2 i : Int) : W32), ((pass4 (coefAt c q) 3 i : Int) : W32)) := by
  have h1 := h 1 (by omega)
  have h3 := h 3 (by omega)
  have d : ∀ k, dequant (coef c (i + 8 * k)) (quant q (i + 8 * k)) = ((coefAt c q k i : Int) : W32) := fun k => rfl
  obtain ⟨c1, c2, c3, -⟩ := constants
  have d0 := d 0
  have d1 := d 1
  have d2 := d 2
  have d3 := d 3
  simp only [Nat.mul_zero, Nat.add_zero, Nat.mul_one, show 8 * 2 = 16 from rfl, show 8 * 3 = 24 from rfl] at d0 d1 d2 d3
  unfold idct4Column
  simp only [d0, d1, d2, d3, c1, c2, c3, shl2, show (512#32 : W32) = ((512 : Int) : W32) from rfl,
    ← Int.cast_add, ← Int.cast_mul, ← Int.cast_sub]
  rw [sar_cast (by omega) (by omega), sar_cast (by omega) (by omega)]
  simp only [← Int.cast_add, ← Int.cast_sub, pass4]
  generalize coefAt c q 0 i = f0 at *
  generalize coefAt c q 1 i = f1 at *
  generalize coefAt c q 2 i = f2 at *
  generalize coefAt c q 3 i = f3 at *
  refine Prod.ext ?_ (Prod.ext ?_ (Prod.ext ?_ ?_)) <;>
    (simp only; congr 1; norm_num; first | omega | (congr 2 <;> omega))

theorem pass4_error (F : Nat → Nat → Int) {r : Nat} (hr : r < 4) (i : Nat) :
    |(pass4 F r i : ℝ) - realPass1 (spread F) r (2 * i)| ≤ 1 / 2 + colNorm (spread F) (2 * i) / 512 := by
  have h2 : |((∑ k ∈ range 8, entry r k * spread F k (2 * i) : Int) : ℝ) -
      ∑ k ∈ range 8, realEntry r k * spread F k (2 * i)| ≤ 2 * colNorm (spread F) (2 * i) := by
    push_cast
    rw [← Finset.sum_sub_distrib, colNorm, Finset.mul_sum]
    refine (Finset.abs_sum_le_sum_abs _ _).trans (Finset.sum_le_sum ?_)
    intro k hk
    rw [← sub_mul, abs_mul]
    exact mul_le_mul_of_nonneg_right (entry_error (by omega) (Finset.mem_range.1 hk)) (abs_nonneg _)
  have h1 : |(pass4 F r i : ℝ) - ((∑ k ∈ range 8, entry r k * spread F k (2 * i) : Int) : ℝ) / 1024| ≤ 1 / 2 := by
    have f0 := floor_error (2217 * F 1 i - 5350 * F 3 i) (n := 512) (by norm_num)
    have f2 := floor_error (5352 * F 1 i + 2217 * F 3 i) (n := 512) (by norm_num)
    have e : ∀ k, entry r k = (idctMatrixRow r).getD k 0 := fun _ => rfl
    norm_num at f0 f2
    rw [abs_le] at *
    interval_cases r <;>
      simp [Finset.sum_range_succ, spread, entry, idctMatrixRow, idctMatrix, pass4] <;>
      constructor <;> linarith [f0.1, f0.2, f2.1, f2.2]
  unfold realPass1
  generalize ∑ k ∈ range 8, realEntry r k * (spread F k (2 * i) : ℝ) = t at *
  rw [abs_le] at *
  constructor <;> linarith [h1.1, h1.2, h2.1, h2.2]

/-- Sample of the 4x4 transform before clamping. -/
def sample4 (F : Nat → Nat → Int) (r x : Nat) : Int :=
  (entry x 0 * pass4 F r 0 + entry x 2 * pass4 F r 1 + entry x 4 * pass4 F r 2 + entry x 6 * pass4 F r 3 +
    65536) / 131072 + 128

theorem sample4_error (F : Nat → Nat → Int) {r x : Nat} (hr : r < 4) (hx : x < 4) :
    |(sample4 F r x : ℝ) - (128 + reducedIdct 4 (fun k i => (F k i : ℝ)) r x)| ≤
      5 / 8 + (∑ i ∈ range 4, ∑ k ∈ range 4, |(F k i : ℝ)|) / 5000 := by
  have hz : ∀ i, i % 2 = 1 → ∀ k, spread F k i = 0 := by
    intro i hi k
    unfold spread
    rw [if_neg (by omega)]
  have := pass2_error (spread F) (r := r) (x := x) (by omega)
    (fun i => if i % 2 = 0 then pass4 F r (i / 2) else 0) (by
      intro i hi
      by_cases h : i % 2 = 0
      · rw [if_pos h]
        obtain ⟨j, rfl⟩ : ∃ j, i = 2 * j := ⟨i / 2, by omega⟩
        rw [show 2 * j / 2 = j by omega]
        exact pass4_error F hr j
      · rw [if_neg h]
        have h0 : realPass1 (spread F) r i = 0 := by
          unfold realPass1
          simp [hz i (by omega)]
        have := colNorm_nonneg (spread F) i
        rw [h0]
        norm_num
        positivity)
  rw [reducedIdct_spread]
  have e : sample4 F r x = (∑ i ∈ range 8, entry x i * (if i % 2 = 0 then pass4 F r (i / 2) else 0) + 65536) /
      131072 + 128 := by
    unfold sample4
    simp [Finset.sum_range_succ]
  have n : blockNorm (spread F) = ∑ i ∈ range 4, ∑ k ∈ range 4, |(F k i : ℝ)| := by
    unfold blockNorm colNorm
    simp [Finset.sum_range_succ, spread]
  rw [e, ← n]
  exact this

theorem idct4Row_exact (s0 s1 s2 s3 : Int) :
    idct4Row (s0 : W32) (s1 : W32) (s2 : W32) (s3 : W32) = (List.range 4).map fun x =>
      saturate (((entry x 0 * s0 + entry x 2 * s1 + entry x 4 * s2 + entry x 6 * s3 + 65536) / 131072 + 128 + 256)
        % 1024 - 256) := by
  obtain ⟨c1, c2, c3, -⟩ := constants
  unfold idct4Row
  simp only [c1, c2, c3, shl12, show BitVec.ofNat 32 (2 ^ 16) = ((65536 : Int) : W32) from rfl,
    show BitVec.ofNat 32 (128 * 2 ^ 17) = ((16777216 : Int) : W32) from rfl,
    ← Int.cast_add, ← Int.cast_mul, ← Int.cast_sub]
  have key : ∀ z d : Int, z = d + 16842752 → stbiClamp (((z : Int) : W32).sshiftRight 17) =
      saturate (((d + 65536) / 131072 + 128 + 256) % 1024 - 256) := by
    rintro z d rfl
    rw [stbiClamp_eq]
    have := sar17_mod (d + 16842752)
    congr 2
    omega
  show _ = [_, _, _, _]
  refine List.cons_eq_cons.2 ⟨key _ _ ?_, List.cons_eq_cons.2 ⟨key _ _ ?_, List.cons_eq_cons.2 ⟨key _ _ ?_,
    List.cons_eq_cons.2 ⟨key _ _ ?_, rfl⟩⟩⟩⟩ <;>
    (simp [entry, idctMatrixRow, idctMatrix]; ring)

theorem idct4x4_exact {c : List Int} {q : List Nat}
    (h : ∀ k i, k < 4 → i < 4 → -2 ^ 16 ≤ coefAt c q k i ∧ coefAt c q k i ≤ 2 ^ 16) :
    idct4x4 c q = (List.range 4).map fun r => (List.range 4).map fun x =>
      saturate ((sample4 (coefAt c q) r x + 256) % 1024 - 256) := by
  unfold idct4x4
  simp only [idct4Column_exact fun k hk => h k 0 hk (by omega), idct4Column_exact fun k hk => h k 1 hk (by omega),
    idct4Column_exact fun k hk => h k 2 hk (by omega), idct4Column_exact fun k hk => h k 3 hk (by omega),
    idct4Row_exact]
  rfl

/-! ## 2x2 -/

theorem reducedIdct_two (F : Nat → Nat → Int) {y x : Nat} (hy : y < 2) (hx : x < 2) :
    reducedIdct 2 (fun k i => (F k i : ℝ)) y x =
      ((F 0 0 + (if x = 0 then F 0 1 else -F 0 1) + (if y = 0 then F 1 0 else -F 1 0) +
        (if x = y then F 1 1 else -F 1 1) : Int) : ℝ) / 8 := by
  have h4 : cos (π / 4) = √2 / 2 := cos_pi_div_four
  have h34 : cos (3 * π / 4) = -(√2 / 2) := by
    rw [show 3 * π / 4 = π - π / 4 by ring, cos_pi_sub, h4]
  have hs : √2 * √2 = 2 := Real.mul_self_sqrt (by norm_num)
  have hs0 : √2 ≠ 0 := by positivity
  have hi : (1 / √2 : ℝ) = √2 / 2 := by
    field_simp
    linarith
  unfold reducedIdct
  rcases (show x = 0 ∨ x = 1 by omega) with rfl | rfl <;> rcases (show y = 0 ∨ y = 1 by omega) with rfl | rfl <;>
    simp only [Finset.sum_range_succ, Finset.sum_range_zero, dctScale, hi] <;>
    norm_num [h4, h34]
  · linear_combination ((F 0 0 : ℝ) + F 0 1 + F 1 0 + F 1 1) / 16 * hs
  · linear_combination ((F 0 0 : ℝ) + F 0 1 - F 1 0 - F 1 1) / 16 * hs
  · linear_combination ((F 0 0 : ℝ) - F 0 1 + F 1 0 - F 1 1) / 16 * hs
  · linear_combination ((F 0 0 : ℝ) - F 0 1 - F 1 0 + F 1 1) / 16 * hs

/-- Sample of the 2x2 transform before clamping. -/
def sample2 (F : Nat → Nat → Int) (r x : Nat) : Int :=
  (F 0 0 + (if x = 0 then F 0 1 else -F 0 1) + (if r = 0 then F 1 0 else -F 1 0) +
    (if x = r then F 1 1 else -F 1 1) + 4) / 8 + 128

theorem sample2_error (F : Nat → Nat → Int) {r x : Nat} (hr : r < 2) (hx : x < 2) :
    |(sample2 F r x : ℝ) - (128 + reducedIdct 2 (fun k i => (F k i : ℝ)) r x)| ≤ 1 / 2 := by
  rw [reducedIdct_two F hr hx]
  unfold sample2
  generalize F 0 0 + (if x = 0 then F 0 1 else -F 0 1) + (if r = 0 then F 1 0 else -F 1 0) +
    (if x = r then F 1 1 else -F 1 1) = d
  have := floor_error d (n := 4) (by norm_num)
  norm_num at this
  push_cast
  rw [abs_le] at *
  constructor <;> linarith [this.1, this.2]

theorem sar3_mod (z : Int) : (((z : Int) : W32).sshiftRight 3).toInt % 1024 = z / 8 % 1024 := by
  rw [BitVec.toInt_sshiftRight, Int.shiftRight_eq_div_pow]
  have h : ((z : Int) : W32).toInt = z.bmod (2 ^ 32) := BitVec.toInt_ofInt ..
  have h2 := Int.bmod_def z (2 ^ 32)
  rw [h, h2]
  norm_num
  split <;> omega

theorem idct2x2_exact (c : List Int) (q : List Nat) :
    idct2x2 c q = (List.range 2).map fun r => (List.range 2).map fun x =>
      saturate ((sample2 (coefAt c q) r x + 256) % 1024 - 256) := by
  have d : ∀ k i, dequant (coef c (i + 8 * k)) (quant q (i + 8 * k)) = ((coefAt c q k i : Int) : W32) :=
    fun _ _ => rfl
  have d00 := d 0 0
  have d01 := d 0 1
  have d10 := d 1 0
  have d11 := d 1 1
  norm_num at d00 d01 d10 d11
  have key : ∀ z v : Int, z / 8 = v → stbiClamp (((z : Int) : W32).sshiftRight 3) =
      saturate ((v + 256) % 1024 - 256) := by
    rintro z v rfl
    rw [stbiClamp_eq]
    have := sar3_mod z
    congr 2
    omega
  unfold idct2x2
  simp only [d00, d01, d10, d11, show (4#32 : W32) = ((4 : Int) : W32) from rfl,
    show (1024#32 : W32) = ((1024 : Int) : W32) from rfl, ← Int.cast_add, ← Int.cast_sub]
  show _ = [[_, _], [_, _]]
  rw [key _ _ ?_, key _ _ ?_, key _ _ ?_, key _ _ ?_] <;>
    · simp only [sample2]
      norm_num
      omega

/-! ## Writing -/

theorem writeCells_spec : ∀ (cells : List (Nat × UInt8)) (out : List (Option UInt8)),
    (∀ p ∈ cells, p.1 < out.length) → (cells.map (·.1)).Nodup →
    ∃ out', writeCells cells out = .ok out' ∧ out'.length = out.length ∧
      (∀ p ∈ cells, out'[p.1]? = some (some p.2)) ∧ ∀ i, (∀ p ∈ cells, p.1 ≠ i) → out'[i]? = out[i]? := by
  intro cells
  induction cells with
  | nil => intro out _ _; exact ⟨out, rfl, rfl, by simp, fun _ _ => rfl⟩
  | cons p cells ih =>
    intro out h hn
    obtain ⟨i, v⟩ := p
    rw [List.map_cons, List.nodup_cons] at hn
    have hi := h (i, v) (by simp)
    obtain ⟨out', e, hl, h1, h2⟩ := ih (out.set i (some v)) (by
      intro p hp
      rw [List.length_set]
      exact h p (by simp [hp])) hn.2
    have hni : ∀ p ∈ cells, p.1 ≠ i := fun p hp hpi => hn.1 (List.mem_map.2 ⟨p, hp, hpi⟩)
    refine ⟨out', by rw [writeCells, if_pos hi, e], by rw [hl, List.length_set], ?_, ?_⟩
    · intro p hp
      rcases List.mem_cons.1 hp with rfl | hp
      · rw [h2 i hni, List.getElem?_set_self hi]
      · exact h1 p hp
    · intro j hj
      rw [h2 j fun p hp => hj p (by simp [hp]), List.getElem?_set_ne (hj (i, v) (by simp))]

theorem writeCells_panics : ∀ (cells : List (Nat × UInt8)) (out : List (Option UInt8)),
    (∃ p ∈ cells, out.length ≤ p.1) → writeCells cells out = .error (.panic .index) := by
  intro cells
  induction cells with
  | nil => rintro out ⟨p, hp, -⟩; simp at hp
  | cons p cells ih =>
    rintro out ⟨p', hp', hl⟩
    obtain ⟨i, v⟩ := p
    rw [writeCells]
    split
    · rename_i hi
      rcases List.mem_cons.1 hp' with rfl | hp'
      · simp only at hl; omega
      · exact ih _ ⟨p', hp', by rw [List.length_set]; exact hl⟩
    · rfl

end Jpeg
