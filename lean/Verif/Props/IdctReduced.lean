import Verif.Proofs.IdctReduced
import Verif.Props.IdctReal
/-!
# C57: the reduced transforms
-/

namespace Jpeg
open Spec Real Finset

/-- From an accurate value in the window to the clamped one. -/
theorem clamped_error {v : Int} {t e : ℝ} (h : |(v : ℝ) - t| ≤ e) (h1 : -256 + e ≤ t) (h2 : t ≤ 767 - e) :
    |((saturate ((v + 256) % 1024 - 256)).toNat : ℝ) - clampReal t| ≤ e := by
  have hv : -256 ≤ v ∧ v ≤ 767 := by
    rw [abs_le] at h
    constructor
    · have : ((-256 : Int) : ℝ) ≤ v := by push_cast; linarith [h.1]
      exact_mod_cast this
    · have : (v : ℝ) ≤ ((767 : Int) : ℝ) := by push_cast; linarith [h.2]
      exact_mod_cast this
  rw [show (v + 256) % 1024 - 256 = v by omega, saturate_real]
  exact (clampReal_lip _ _).trans h

/-- **C57** (4x4). For every block whose 16 lowest dequantised coefficients are at most 2^16 in magnitude and
whose exact values stay in the window of the clamp table, each sample differs from the clamped 4-point inverse
DCT of the low frequencies by at most 5/8 plus 1/5000 of the sum of the magnitudes. -/
theorem C57_4x4 (c : List Int) (q : List Nat) (F : Nat → Nat → Int)
    (hF : F = fun k i => coef c (i + 8 * k) * quant q (i + 8 * k))
    (h : ∀ k i, k < 4 → i < 4 → -2 ^ 16 ≤ F k i ∧ F k i ≤ 2 ^ 16)
    (e : ℝ) (he : e = 5 / 8 + (∑ i ∈ range 4, ∑ k ∈ range 4, |(F k i : ℝ)|) / 5000)
    (r x : Nat) (hr : r < 4) (hx : x < 4)
    (hw : -256 + e ≤ 128 + reducedIdct 4 (fun k i => (F k i : ℝ)) r x ∧
      128 + reducedIdct 4 (fun k i => (F k i : ℝ)) r x ≤ 767 - e) :
    ∃ row v, (idct4x4 c q)[r]? = some row ∧ row[x]? = some v ∧
      |(v.toNat : ℝ) - clampReal (128 + reducedIdct 4 (fun k i => (F k i : ℝ)) r x)| ≤ e := by
  subst hF
  rw [idct4x4_exact h]
  refine ⟨_, _, by rw [List.getElem?_map, List.getElem?_range hr]; rfl,
    by rw [List.getElem?_map, List.getElem?_range hx]; rfl, ?_⟩
  refine clamped_error ?_ hw.1 hw.2
  rw [he]
  exact sample4_error _ hr hx

/-- **C57** (2x2). For every block whose exact values stay in the window of the clamp table, each sample is
the clamped 2-point inverse DCT of the low frequencies, rounded. -/
theorem C57_2x2 (c : List Int) (q : List Nat) (F : Nat → Nat → Int)
    (hF : F = fun k i => coef c (i + 8 * k) * quant q (i + 8 * k))
    (r x : Nat) (hr : r < 2) (hx : x < 2)
    (hw : -256 + 1 / 2 ≤ 128 + reducedIdct 2 (fun k i => (F k i : ℝ)) r x ∧
      128 + reducedIdct 2 (fun k i => (F k i : ℝ)) r x ≤ 767 - 1 / 2) :
    ∃ row v, (idct2x2 c q)[r]? = some row ∧ row[x]? = some v ∧
      |(v.toNat : ℝ) - clampReal (128 + reducedIdct 2 (fun k i => (F k i : ℝ)) r x)| ≤ 1 / 2 := by
  subst hF
  rw [idct2x2_exact]
  refine ⟨_, _, by rw [List.getElem?_map, List.getElem?_range hr]; rfl,
    by rw [List.getElem?_map, List.getElem?_range hx]; rfl, ?_⟩
  exact clamped_error (sample2_error _ hr hx) hw.1 hw.2

/-- The rows of a reduced block. -/
def reducedRows (scale : Nat) (c : List Int) (q : List Nat) : List (List UInt8) :=
  match scale with
  | 4 => idct4x4 c q
  | 2 => idct2x2 c q
  | _ => [[idct1x1 c q]]

/-- The places and values of a square of samples. -/
theorem cells_square {n stride : Nat} {rows : List (List UInt8)} {cells : List (Nat × UInt8)} (hs : n ≤ stride)
    (hn : 1 ≤ n) {out : List (Option UInt8)}
    (hnodup : (cells.map (·.1)).Nodup)
    (hcells : ∀ i v, (i, v) ∈ cells ↔ ∃ r x, r < n ∧ x < n ∧ i = r * stride + x ∧
      rows[r]?.bind (·[x]?) = some v)
    (hrows : ∀ r x, r < n → x < n → ∃ v, rows[r]?.bind (·[x]?) = some v) :
    (((n - 1) * stride + n ≤ out.length → ∃ out', writeCells cells out = .ok out' ∧ out'.length = out.length ∧
      (∀ r x, r < n → x < n → out'[r * stride + x]? = some (rows[r]?.bind (·[x]?))) ∧
      ∀ i, (∀ r x, r < n → x < n → i ≠ r * stride + x) → out'[i]? = out[i]?) ∧
    (out.length < (n - 1) * stride + n → writeCells cells out = .error (.panic .index))) := by
  constructor
  · intro hlen
    obtain ⟨out', e, hl, h1, h2⟩ := writeCells_spec cells out (by
      rintro ⟨i, v⟩ hp
      obtain ⟨r, x, hr, hx, rfl, -⟩ := (hcells i v).1 hp
      have : r * stride ≤ (n - 1) * stride := Nat.mul_le_mul_right _ (by omega)
      simp only
      omega) hnodup
    refine ⟨out', e, hl, ?_, ?_⟩
    · intro r x hr hx
      obtain ⟨v, hv⟩ := hrows r x hr hx
      rw [hv]
      exact h1 (_, v) ((hcells _ v).2 ⟨r, x, hr, hx, rfl, hv⟩)
    · intro i hi
      refine h2 i ?_
      rintro ⟨j, v⟩ hp rfl
      obtain ⟨r, x, hr, hx, e, -⟩ := (hcells j v).1 hp
      exact hi r x hr hx e
  · intro hlen
    apply writeCells_panics
    obtain ⟨v, hv⟩ := hrows (n - 1) (n - 1) (by omega) (by omega)
    exact ⟨(_, v), (hcells _ v).2 ⟨n - 1, n - 1, by omega, by omega, rfl, hv⟩, by simp only; omega⟩

/-- **C57** (where the samples go). At scale 4, 2 and 1 the samples of the block are written to a square of
that size, row by row with the given stride, and nothing else is written; if the square does not fit, it is a
panic (an index out of bounds), never a write elsewhere. Other scales than 8, 4, 2 and 1 panic. -/
theorem C57_writes (cfg : Cfg) (scale : Nat) (c : List Int) (q : List Nat) (stride : Nat)
    (out : List (Option UInt8)) (hsc : scale = 4 ∨ scale = 2 ∨ scale = 1) (hs : scale ≤ stride) :
    ((scale - 1) * stride + scale ≤ out.length → ∃ out', idctBlock cfg scale c q stride out = .ok out' ∧
      out'.length = out.length ∧
      (∀ r x, r < scale → x < scale →
        out'[r * stride + x]? = some ((reducedRows scale c q)[r]?.bind (·[x]?)) ∧
        ∃ v, (reducedRows scale c q)[r]?.bind (·[x]?) = some v) ∧
      ∀ i, (∀ r x, r < scale → x < scale → i ≠ r * stride + x) → out'[i]? = out[i]?) ∧
    (out.length < (scale - 1) * stride + scale →
      idctBlock cfg scale c q stride out = .error (.panic .index)) := by
  suffices key : ∃ cells : List (Nat × UInt8), idctBlock cfg scale c q stride out = writeCells cells out ∧
      (cells.map (·.1)).Nodup ∧
      (∀ i v, (i, v) ∈ cells ↔ ∃ r x, r < scale ∧ x < scale ∧ i = r * stride + x ∧
        (reducedRows scale c q)[r]?.bind (·[x]?) = some v) ∧
      (∀ r x, r < scale → x < scale → ∃ v, (reducedRows scale c q)[r]?.bind (·[x]?) = some v) by
    obtain ⟨cells, e, hn, hc, hr⟩ := key
    have := cells_square (out := out) hs (by omega) hn hc hr
    rw [e]
    refine ⟨fun h => ?_, this.2⟩
    obtain ⟨out', h1, h2, h3, h4⟩ := this.1 h
    exact ⟨out', h1, h2, fun r x hr' hx => ⟨h3 r x hr' hx, hr r x hr' hx⟩, h4⟩
  rcases hsc with rfl | rfl | rfl
  · have h4 : ∀ s0 s1 s2 s3, ∃ a b c d, idct4Row s0 s1 s2 s3 = [a, b, c, d] := fun _ _ _ _ => ⟨_, _, _, _, rfl⟩
    obtain ⟨r0, r1, r2, r3, hrows, ⟨a0, a1, a2, a3, rfl⟩, ⟨b0, b1, b2, b3, rfl⟩, ⟨c0, c1, c2, c3, rfl⟩,
        ⟨d0, d1, d2, d3, rfl⟩⟩ : ∃ r0 r1 r2 r3, idct4x4 c q = [r0, r1, r2, r3] ∧
        (∃ a b c d, r0 = [a, b, c, d]) ∧ (∃ a b c d, r1 = [a, b, c, d]) ∧ (∃ a b c d, r2 = [a, b, c, d]) ∧
        ∃ a b c d, r3 = [a, b, c, d] := ⟨_, _, _, _, rfl, h4 _ _ _ _, h4 _ _ _ _, h4 _ _ _ _, h4 _ _ _ _⟩
    refine ⟨reducedCells stride 0 (idct4x4 c q), rfl, ?_, ?_, ?_⟩
    · rw [hrows]
      simp [reducedCells]
      omega
    · intro i v
      simp only [reducedRows, hrows, reducedCells, List.mem_cons, Prod.mk.injEq, List.not_mem_nil, or_false]
      constructor
      · rintro (⟨rfl, rfl⟩ | ⟨rfl, rfl⟩ | ⟨rfl, rfl⟩ | ⟨rfl, rfl⟩ | ⟨rfl, rfl⟩ | ⟨rfl, rfl⟩ | ⟨rfl, rfl⟩ |
          ⟨rfl, rfl⟩ | ⟨rfl, rfl⟩ | ⟨rfl, rfl⟩ | ⟨rfl, rfl⟩ | ⟨rfl, rfl⟩ | ⟨rfl, rfl⟩ | ⟨rfl, rfl⟩ | ⟨rfl, rfl⟩ |
          ⟨rfl, rfl⟩)
        · exact ⟨0, 0, by omega, by omega, by omega, rfl⟩
        · exact ⟨0, 3, by omega, by omega, by omega, rfl⟩
        · exact ⟨0, 1, by omega, by omega, by omega, rfl⟩
        · exact ⟨0, 2, by omega, by omega, by omega, rfl⟩
        · exact ⟨1, 0, by omega, by omega, by omega, rfl⟩
        · exact ⟨1, 3, by omega, by omega, by omega, rfl⟩
        · exact ⟨1, 1, by omega, by omega, by omega, rfl⟩
        · exact ⟨1, 2, by omega, by omega, by omega, rfl⟩
        · exact ⟨2, 0, by omega, by omega, by omega, rfl⟩
        · exact ⟨2, 3, by omega, by omega, by omega, rfl⟩
        · exact ⟨2, 1, by omega, by omega, by omega, rfl⟩
        · exact ⟨2, 2, by omega, by omega, by omega, rfl⟩
        · exact ⟨3, 0, by omega, by omega, by omega, rfl⟩
        · exact ⟨3, 3, by omega, by omega, by omega, rfl⟩
        · exact ⟨3, 1, by omega, by omega, by omega, rfl⟩
        · exact ⟨3, 2, by omega, by omega, by omega, rfl⟩
      · rintro ⟨r, x, hr, hx, rfl, hv⟩
        interval_cases r <;> interval_cases x <;> (simp at hv; subst hv; simp)
    · intro r x hr hx
      simp only [reducedRows, hrows]
      interval_cases r <;> interval_cases x <;> exact ⟨_, rfl⟩
  · obtain ⟨a0, a1, b0, b1, hrows⟩ : ∃ a0 a1 b0 b1, idct2x2 c q = [[a0, a1], [b0, b1]] := ⟨_, _, _, _, rfl⟩
    refine ⟨reducedCells stride 0 (idct2x2 c q), rfl, ?_, ?_, ?_⟩
    · rw [hrows]
      simp [reducedCells]
      omega
    · intro i v
      simp only [reducedRows, hrows, reducedCells, List.mem_cons, Prod.mk.injEq, List.not_mem_nil, or_false]
      constructor
      · rintro (⟨rfl, rfl⟩ | ⟨rfl, rfl⟩ | ⟨rfl, rfl⟩ | ⟨rfl, rfl⟩)
        · exact ⟨0, 0, by omega, by omega, by omega, rfl⟩
        · exact ⟨0, 1, by omega, by omega, by omega, rfl⟩
        · exact ⟨1, 0, by omega, by omega, by omega, rfl⟩
        · exact ⟨1, 1, by omega, by omega, by omega, rfl⟩
      · rintro ⟨r, x, hr, hx, rfl, hv⟩
        interval_cases r <;> interval_cases x <;> (simp at hv; subst hv; simp)
    · intro r x hr hx
      simp only [reducedRows, hrows]
      interval_cases r <;> interval_cases x <;> exact ⟨_, rfl⟩
  · refine ⟨[(0, idct1x1 c q)], rfl, ?_, ?_, ?_⟩
    · simp
    · intro i v
      simp only [reducedRows, List.mem_singleton, Prod.mk.injEq]
      constructor
      · rintro ⟨rfl, rfl⟩
        exact ⟨0, 0, by omega, by omega, by omega, rfl⟩
      · rintro ⟨r, x, hr, hx, rfl, hv⟩
        interval_cases r; interval_cases x
        simp at hv; subst hv; simp
    · intro r x hr hx
      interval_cases r; interval_cases x
      exact ⟨_, rfl⟩

/-- **C57** (dispatch). Scale 8 is the transform used for decoding; anything else than the four sizes is a
panic with a message. -/
theorem C57_dispatch (cfg : Cfg) (scale : Nat) (c : List Int) (q : List Nat) (stride : Nat)
    (out : List (Option UInt8)) :
    idctBlock cfg 8 c q stride out = dequantizeAndIdct cfg c q stride out ∧
    (scale ∉ [8, 4, 2, 1] → idctBlock cfg scale c q stride out = .error (.panic .idctScale)) := by
  refine ⟨rfl, fun h => ?_⟩
  unfold idctBlock
  split <;> simp at h ⊢

/-- A case: a block with DC, one horizontal and one vertical coefficient, written with stride 5. -/
example : idctBlock ⟨true, false⟩ 4 ([37, 20, 0, 0, 0, 0, 0, 0, -9] ++ List.replicate 55 0) (List.replicate 64 8) 5
      (List.replicate 20 none) =
    .ok [some 179, some 164, some 142, some 127, none, some 186, some 171, some 149, some 134, none,
      some 196, some 181, some 159, some 144, none, some 203, some 188, some 166, some 151, none] := by
  decide +kernel

theorem dctScale_abs (k : Nat) : |dctScale k| ≤ 1 := by
  unfold dctScale
  split
  · rw [abs_of_pos (by positivity), div_le_one (by positivity)]
    linarith [sqrt2_bounds.1]
  · simp

/-- The exact values are at most a quarter of the sum of the magnitudes. -/
theorem reducedIdct_abs (n : Nat) (F : Nat → Nat → ℝ) (y x : Nat) :
    |reducedIdct n F y x| ≤ 1 / 4 * ∑ i ∈ range n, ∑ k ∈ range n, |F k i| := by
  unfold reducedIdct
  rw [abs_mul, abs_of_pos (by norm_num : (0 : ℝ) < 1 / 4)]
  apply mul_le_mul_of_nonneg_left _ (by norm_num)
  refine (Finset.abs_sum_le_sum_abs _ _).trans (Finset.sum_le_sum fun u _ => ?_)
  refine (Finset.abs_sum_le_sum_abs _ _).trans (Finset.sum_le_sum fun v _ => ?_)
  rw [abs_mul, abs_mul, abs_mul, abs_mul]
  have h1 := dctScale_abs u
  have h2 := dctScale_abs v
  have h3 := abs_cos_le_one ((2 * x + 1) * u * π / (2 * n))
  have h4 := abs_cos_le_one ((2 * y + 1) * v * π / (2 * n))
  have e : |dctScale u| * |dctScale v| ≤ 1 := mul_le_one₀ h1 (abs_nonneg _) h2
  calc _ ≤ 1 * |F v u| * 1 * 1 := by gcongr
    _ = |F v u| := by ring

/-- The hypotheses of `C57_4x4` are met by every block whose magnitudes add up to at most 1500; here one with DC, one horizontal and one vertical coefficient. -/
example (r x : Nat) (hr : r < 4) (hx : x < 4) :
    ∃ row v, (idct4x4 ([37, 20, 0, 0, 0, 0, 0, 0, -9] ++ List.replicate 55 0) (List.replicate 64 7))[r]? = some row ∧
      row[x]? = some v ∧ |(v.toNat : ℝ) - clampReal (128 + reducedIdct 4
        (fun k i => ((coef ([37, 20, 0, 0, 0, 0, 0, 0, -9] ++ List.replicate 55 0) (i + 8 * k) *
          quant (List.replicate 64 7) (i + 8 * k) : Int) : ℝ)) r x)| ≤ 0.72 := by
  have hsum : ∑ i ∈ range 4, ∑ k ∈ range 4, |((coef ([37, 20, 0, 0, 0, 0, 0, 0, -9] ++ List.replicate 55 0) (i + 8 * k) *
          quant (List.replicate 64 7) (i + 8 * k) : Int) : ℝ)| = 462 := by
    have : ∑ i ∈ range 4, ∑ k ∈ range 4, |coef ([37, 20, 0, 0, 0, 0, 0, 0, -9] ++ List.replicate 55 0) (i + 8 * k) *
          (quant (List.replicate 64 7) (i + 8 * k) : Int)| = 462 := by decide
    exact_mod_cast this
  have habs := reducedIdct_abs 4 (fun k i => ((coef ([37, 20, 0, 0, 0, 0, 0, 0, -9] ++ List.replicate 55 0) (i + 8 * k) *
          quant (List.replicate 64 7) (i + 8 * k) : Int) : ℝ)) r x
  rw [hsum, abs_le] at habs
  obtain ⟨row, v, h1, h2, h3⟩ := C57_4x4 ([37, 20, 0, 0, 0, 0, 0, 0, -9] ++ List.replicate 55 0)
    (List.replicate 64 7) _ rfl (by
      intro k i hk hi
      interval_cases k <;> interval_cases i <;> decide) _ rfl r x hr hx (by
    rw [hsum]
    constructor <;> linarith [habs.1, habs.2])
  exact ⟨row, v, h1, h2, h3.trans (by rw [hsum]; norm_num)⟩

end Jpeg
