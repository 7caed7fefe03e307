import Verif.Props.Stable
import Verif.Props.Transpose
import Verif.Props.Mean
/-!
# C86, C88, C91, C92, C94, C100, C102 for single blocks

What the transform of the code, `idct8x8`, does to the samples (bytes) of a block when coefficients are changed.
-/

namespace Jpeg
open Spec

/-- No dequantised coefficient is beyond `2^16`, no exact value is more than 256 below or 512 above the range of a
sample (see C24, C90). -/
structure Tame (c : List Int) (q : List Nat) : Prop where
  size : ∀ i, i < 64 → -2 ^ 16 ≤ coef c i * quant q i ∧ coef c i * quant q i ≤ 2 ^ 16
  window : ∀ r x, r < 8 → x < 8 → -256 ≤ idctSample (coefAt c q) r x ∧ idctSample (coefAt c q) r x ≤ 767

/-- The transform of the code gives rows whose sample in row `r`, column `x` is `s r x`. -/
def Gives (c : List Int) (q : List Nat) (s : Nat → Nat → UInt8) : Prop :=
  ∃ rows, idct8x8 c q = .ok rows ∧ ∀ r x, r < 8 → x < 8 → ∃ row, rows[r]? = some row ∧ row[x]? = some (s r x)

theorem Tame.gives {c : List Int} {q : List Nat} (h : Tame c q) {s : Nat → Nat → UInt8} :
    Gives c q s ↔ ∀ r x, r < 8 → x < 8 → s r x = saturate (idctSample (coefAt c q) r x) := by
  have e := C24_saturated c q h.size h.window
  constructor
  · rintro ⟨rows, e', k⟩ r x hr hx
    rw [e'] at e
    obtain rfl := Except.ok.inj e
    obtain ⟨row, k1, k2⟩ := k r x hr hx
    simp only [List.getElem?_map, List.getElem?_range hr, Option.map_some, Option.some.injEq] at k1
    subst k1
    simp only [List.getElem?_map, List.getElem?_range hx, Option.map_some, Option.some.injEq] at k2
    exact k2.symm
  · intro k
    refine ⟨_, e, fun r x hr hx => ⟨_, by rw [List.getElem?_map, List.getElem?_range hr, Option.map_some], ?_⟩⟩
    rw [List.getElem?_map, List.getElem?_range hx, Option.map_some, k r x hr hx]
    rfl

/-- **C86** (a block). A larger DC coefficient makes no sample smaller. -/
theorem C86_block (c c' : List Int) (q q' : List Nat) (h : Tame c q) (h' : Tame c' q') (s s' : Nat → Nat → UInt8)
    (hs : Gives c q s) (hs' : Gives c' q' s') (h0 : coef c 0 * quant q 0 ≤ coef c' 0 * quant q' 0)
    (he : ∀ i, 1 ≤ i → i < 64 → coef c i * quant q i = coef c' i * quant q' i) (r x : Nat) (hr : r < 8) (hx : x < 8) :
    s r x ≤ s' r x := by
  rw [h.gives.1 hs r x hr hx, h'.gives.1 hs' r x hr hx, UInt8.le_iff_toNat_le]
  refine saturate_mono (C86_idct_monotone _ _ r x hr hx h0 fun k i hk hi hne => he _ ?_ (by omega))
  simp only [ne_eq, Prod.mk.injEq, not_and] at hne
  omega

/-- **C88** (a block, turned upside down). With the coefficients of odd vertical frequency negated, the block is
turned upside down, exactly. -/
theorem C88_flip_block (c c' : List Int) (q q' : List Nat) (h : Tame c q) (h' : Tame c' q') (s s' : Nat → Nat → UInt8)
    (hs : Gives c q s) (hs' : Gives c' q' s')
    (he : ∀ k i, k < 8 → i < 8 → coef c' (i + 8 * k) * quant q' (i + 8 * k) =
      (if k % 2 = 1 then -1 else 1) * (coef c (i + 8 * k) * quant q (i + 8 * k))) (r x : Nat) (hr : r < 8) (hx : x < 8) :
    s' r x = s (7 - r) x := by
  rw [h.gives.1 hs (7 - r) x (by omega) hx, h'.gives.1 hs' r x hr hx,
    C88_flip_idct (coefAt c q) (coefAt c' q') he r x hr]

/-- **C88** (a block, mirrored; part: up to 1). With the coefficients of odd horizontal frequency negated, the block is
mirrored, up to 1.
Missing: exactly so, which is false: `C88_mirror_violated`. -/
theorem C88_mirror_block_partial (c c' : List Int) (q q' : List Nat) (h : Tame c q) (h' : Tame c' q')
    (s s' : Nat → Nat → UInt8) (hs : Gives c q s) (hs' : Gives c' q' s')
    (he : ∀ k i, k < 8 → i < 8 → coef c' (i + 8 * k) * quant q' (i + 8 * k) =
      (if i % 2 = 1 then -1 else 1) * (coef c (i + 8 * k) * quant q (i + 8 * k))) (r x : Nat) (hr : r < 8) (hx : x < 8) :
    |((s' r x).toNat : Int) - (s r (7 - x)).toNat| ≤ 1 := by
  rw [h.gives.1 hs r (7 - x) hr (by omega), h'.gives.1 hs' r x hr hx]
  exact saturate_near (C88_mirror_idct_partial _ _ he r x hx)

/-- **C91** (a block; part: up to 1). With the coefficients transposed, the block is transposed, up to 1.
Missing: exactly so, which is false: `C91_violated`. -/
theorem C91_transpose_block_partial (c c' : List Int) (q q' : List Nat) (h : Tame c q) (h' : Tame c' q')
    (s s' : Nat → Nat → UInt8) (hs : Gives c q s) (hs' : Gives c' q' s')
    (he : ∀ k i, k < 8 → i < 8 → coef c' (i + 8 * k) * quant q' (i + 8 * k) =
      coef c (k + 8 * i) * quant q (k + 8 * i)) (r x : Nat) (hr : r < 8) (hx : x < 8) :
    |((s' r x).toNat : Int) - (s x r).toNat| ≤ 1 := by
  rw [h.gives.1 hs x r hx hr, h'.gives.1 hs' r x hr hx]
  exact saturate_near (C91_transpose_idct_partial _ _ he r x hr hx)

/-- **C92** (a block). With `8 * k` added to the dequantised DC coefficient, every sample that was not limited
is larger by `k`, and then limited. -/
theorem C92_block (c c' : List Int) (q q' : List Nat) (h : Tame c q) (h' : Tame c' q') (s s' : Nat → Nat → UInt8)
    (hs : Gives c q s) (hs' : Gives c' q' s') (k : Int) (h0 : coef c' 0 * quant q' 0 = coef c 0 * quant q 0 + 8 * k)
    (he : ∀ i, 1 ≤ i → i < 64 → coef c' i * quant q' i = coef c i * quant q i) (r x : Nat) (hr : r < 8) (hx : x < 8)
    (hl : 0 < s r x ∧ s r x < 255) : ((s' r x).toNat : Int) = max 0 (min ((s r x).toNat + k) 255) := by
  have e := C92_idct (coefAt c q) (coefAt c' q') k r x hr hx h0 fun k i hk hi hne => he _ (by
    simp only [ne_eq, Prod.mk.injEq, not_and] at hne
    omega) (by omega)
  rw [h.gives.1 hs r x hr hx, UInt8.lt_iff_toNat_lt, UInt8.lt_iff_toNat_lt] at hl
  rw [h.gives.1 hs r x hr hx, h'.gives.1 hs' r x hr hx]
  have h1 := saturate_toNat (idctSample (coefAt c q) r x)
  have h2 := saturate_toNat (idctSample (coefAt c' q') r x)
  have hl1 : 0 < (saturate (idctSample (coefAt c q) r x)).toNat := hl.1
  have hl2 : (saturate (idctSample (coefAt c q) r x)).toNat < 255 := hl.2
  omega

/-- **C94** (a block). A change of the dequantised coefficients by `D`, in sum, changes no sample by more than
`D / 4 + 1`. -/
theorem C94_block (c c' : List Int) (q q' : List Nat) (h : Tame c q) (h' : Tame c' q') (s s' : Nat → Nat → UInt8)
    (hs : Gives c q s) (hs' : Gives c' q' s') (r x : Nat) (hr : r < 8) (hx : x < 8) :
    |((s r x).toNat : Int) - (s' r x).toNat| ≤ ((blockChange (fun k i => coef c (i + 8 * k) * quant q (i + 8 * k))
      (fun k i => coef c' (i + 8 * k) * quant q' (i + 8 * k)) / 4 + 1 : Nat) : Int) := by
  have e := C94_idct (coefAt c q) (coefAt c' q') r x hr hx
  rw [h.gives.1 hs r x hr hx, h'.gives.1 hs' r x hr hx]
  have h1 := saturate_toNat (idctSample (coefAt c q) r x)
  have h2 := saturate_toNat (idctSample (coefAt c' q') r x)
  change _ ≤ ((blockChange (coefAt c q) (coefAt c' q') / 4 + 1 : Nat) : Int)
  rw [abs_le] at e ⊢
  omega

/-- **C100** (a block). With the sums of the coefficients of two blocks, every sample that is limited in neither is the
sum of the two samples as differences from 128, limited, up to 1. -/
theorem C100_block (c c' t : List Int) (q q' u : List Nat) (h : Tame c q) (h' : Tame c' q') (ht : Tame t u)
    (s s' w : Nat → Nat → UInt8) (hs : Gives c q s) (hs' : Gives c' q' s') (hw : Gives t u w)
    (he : ∀ i, i < 64 → coef t i * quant u i = coef c i * quant q i + coef c' i * quant q' i)
    (r x : Nat) (hr : r < 8) (hx : x < 8) (hl : 0 < s r x ∧ s r x < 255) (hl' : 0 < s' r x ∧ s' r x < 255) :
    |((w r x).toNat : Int) - max 0 (min (((s r x).toNat : Int) + (s' r x).toNat - 128) 255)| ≤ 1 := by
  have e := C100_idct (coefAt c q) (coefAt c' q') (coefAt t u) (fun k i hk hi => he _ (by omega)) r x hr hx
  rw [h.gives.1 hs r x hr hx, UInt8.lt_iff_toNat_lt, UInt8.lt_iff_toNat_lt] at hl
  rw [h'.gives.1 hs' r x hr hx, UInt8.lt_iff_toNat_lt, UInt8.lt_iff_toNat_lt] at hl'
  rw [h.gives.1 hs r x hr hx, h'.gives.1 hs' r x hr hx, ht.gives.1 hw r x hr hx]
  have h1 := saturate_toNat (idctSample (coefAt c q) r x)
  have h2 := saturate_toNat (idctSample (coefAt c' q') r x)
  have h3 := saturate_toNat (idctSample (coefAt t u) r x)
  have a1 : 0 < (saturate (idctSample (coefAt c q) r x)).toNat := hl.1
  have a2 : (saturate (idctSample (coefAt c q) r x)).toNat < 255 := hl.2
  have b1 : 0 < (saturate (idctSample (coefAt c' q') r x)).toNat := hl'.1
  have b2 : (saturate (idctSample (coefAt c' q') r x)).toNat < 255 := hl'.2
  rw [abs_le] at e ⊢
  omega

/-- **C100** (a block, the negative). With all coefficients negated, every sample that is limited in neither block is
256 minus what it was, up to 1. -/
theorem C100_block_negative (c c' : List Int) (q q' : List Nat) (h : Tame c q) (h' : Tame c' q')
    (s s' : Nat → Nat → UInt8) (hs : Gives c q s) (hs' : Gives c' q' s')
    (he : ∀ i, i < 64 → coef c' i * quant q' i = -(coef c i * quant q i))
    (r x : Nat) (hr : r < 8) (hx : x < 8) (hl : 0 < s r x ∧ s r x < 255) (hl' : 0 < s' r x ∧ s' r x < 255) :
    |((s r x).toNat : Int) + (s' r x).toNat - 256| ≤ 1 := by
  have e := C100_idct_negative (coefAt c q) (coefAt c' q') (fun k i hk hi => he _ (by omega)) r x hr hx
  rw [h.gives.1 hs r x hr hx, UInt8.lt_iff_toNat_lt, UInt8.lt_iff_toNat_lt] at hl
  rw [h'.gives.1 hs' r x hr hx, UInt8.lt_iff_toNat_lt, UInt8.lt_iff_toNat_lt] at hl'
  rw [h.gives.1 hs r x hr hx, h'.gives.1 hs' r x hr hx]
  have h1 := saturate_toNat (idctSample (coefAt c q) r x)
  have h2 := saturate_toNat (idctSample (coefAt c' q') r x)
  have a1 : 0 < (saturate (idctSample (coefAt c q) r x)).toNat := hl.1
  have a2 : (saturate (idctSample (coefAt c q) r x)).toNat < 255 := hl.2
  have b1 : 0 < (saturate (idctSample (coefAt c' q') r x)).toNat := hl'.1
  have b2 : (saturate (idctSample (coefAt c' q') r x)).toNat < 255 := hl'.2
  rw [abs_le] at e ⊢
  omega

/-- **C102** (a block). The 64 samples, if none is limited, add up to `64 * 128` plus eight times the dequantised DC
coefficient, up to 33, whatever the other coefficients are. -/
theorem C102_block (c : List Int) (q : List Nat) (h : Tame c q) (s : Nat → Nat → UInt8) (hs : Gives c q s)
    (hl : ∀ r x, r < 8 → x < 8 → 0 < s r x ∧ s r x < 255) :
    |blockSum (fun r x => ((s r x).toNat : Int)) - (8192 + 8 * (coef c 0 * quant q 0))| ≤ 33 := by
  have e := C102_idct (coefAt c q)
  rw [blockSum_congr (g' := fun r x => ((s r x).toNat : Int))] at e
  · exact e
  · intro r x hr hx
    have hl := hl r x hr hx
    rw [h.gives.1 hs r x hr hx, UInt8.lt_iff_toNat_lt, UInt8.lt_iff_toNat_lt] at hl
    rw [h.gives.1 hs r x hr hx]
    have h1 := saturate_toNat (idctSample (coefAt c q) r x)
    have a1 : 0 < (saturate (idctSample (coefAt c q) r x)).toNat := hl.1
    have a2 : (saturate (idctSample (coefAt c q) r x)).toNat < 255 := hl.2
    show idctSample _ _ _ = ((saturate _).toNat : Int)
    omega

/-! ## Cases -/

/-- A block with three coefficients. -/
def toneBlock (d a b : Int) : List Int := d :: a :: List.replicate 6 0 ++ b :: List.replicate 55 0

theorem toneBlock_tame {t : Int × Int × Int} (ht : t ∈ [(30, 20, -15), (30, -20, -15), (30, 20, 15), (30, -15, 20),
    (50, 20, -15), (60, 0, -30), (-30, -20, 15)]) : Tame (toneBlock t.1 t.2.1 t.2.2) (List.replicate 64 2) ∧
    ∃ s, Gives (toneBlock t.1 t.2.1 t.2.2) (List.replicate 64 2) s ∧ (∀ r x, r < 8 → x < 8 → 0 < s r x ∧ s r x < 255) ∧
      (t = (30, 20, -15) → s 0 0 ≠ s 0 7 ∧ s 0 0 ≠ s 7 0) := by
  have h : Tame (toneBlock t.1 t.2.1 t.2.2) (List.replicate 64 2) := by
    have h1 : ∀ i, i < 64 → -2 ^ 16 ≤ coef (toneBlock t.1 t.2.1 t.2.2) i * quant (List.replicate 64 2) i ∧
        coef (toneBlock t.1 t.2.1 t.2.2) i * quant (List.replicate 64 2) i ≤ 2 ^ 16 := by
      revert t
      decide +kernel
    have h2 : ∀ r, r < 8 → ∀ x, x < 8 → -256 ≤ idctSample (coefAt (toneBlock t.1 t.2.1 t.2.2) (List.replicate 64 2)) r x ∧
        idctSample (coefAt (toneBlock t.1 t.2.1 t.2.2) (List.replicate 64 2)) r x ≤ 767 := by
      clear h1
      revert t
      decide +kernel
    exact ⟨h1, fun r x hr hx => h2 r hr x hx⟩
  refine ⟨h, fun r x => saturate (idctSample (coefAt (toneBlock t.1 t.2.1 t.2.2) (List.replicate 64 2)) r x),
    h.gives.2 fun r x _ _ => rfl, ?_, ?_⟩
  · have h2 : ∀ r, r < 8 → ∀ x, x < 8 →
        0 < saturate (idctSample (coefAt (toneBlock t.1 t.2.1 t.2.2) (List.replicate 64 2)) r x) ∧
        saturate (idctSample (coefAt (toneBlock t.1 t.2.1 t.2.2) (List.replicate 64 2)) r x) < 255 := by
      clear h
      revert t
      decide +kernel
    exact fun r x hr hx => h2 r hr x hx
  · rintro rfl
    decide +kernel

/-- Cases of all the theorems: a block that is the same neither upside down nor mirrored, and the blocks made of it. -/
example : ∃ s, Gives (toneBlock 30 20 (-15)) (List.replicate 64 2) s ∧ s 0 0 ≠ s 0 7 ∧ s 0 0 ≠ s 7 0 ∧
    ∃ flipped mirrored turned lighter sum negative,
      Gives (toneBlock 30 20 15) (List.replicate 64 2) flipped ∧
      Gives (toneBlock 30 (-20) (-15)) (List.replicate 64 2) mirrored ∧
      Gives (toneBlock 30 (-15) 20) (List.replicate 64 2) turned ∧
      Gives (toneBlock 50 20 (-15)) (List.replicate 64 2) lighter ∧
      Gives (toneBlock 60 0 (-30)) (List.replicate 64 2) sum ∧
      Gives (toneBlock (-30) (-20) 15) (List.replicate 64 2) negative ∧
      |blockSum (fun r x => ((s r x).toNat : Int)) - (8192 + 8 * 60)| ≤ 33 ∧
      ∀ r x, r < 8 → x < 8 → flipped r x = s (7 - r) x ∧
        |((mirrored r x).toNat : Int) - (s r (7 - x)).toNat| ≤ 1 ∧
        |((turned r x).toNat : Int) - (s x r).toNat| ≤ 1 ∧
        ((lighter r x).toNat : Int) = max 0 (min ((s r x).toNat + (5 : Int)) 255) ∧ s r x ≤ lighter r x ∧
        |((sum r x).toNat : Int) - max 0 (min (((s r x).toNat : Int) + (mirrored r x).toNat - 128) 255)| ≤ 1 ∧
        |((s r x).toNat : Int) + (negative r x).toNat - 256| ≤ 1 ∧
        |((s r x).toNat : Int) - (mirrored r x).toNat| ≤ 21 := by
  obtain ⟨t, s, g, l, hd⟩ := toneBlock_tame (t := (30, 20, -15)) (by decide)
  obtain ⟨t1, s1, g1, l1, -⟩ := toneBlock_tame (t := (30, 20, 15)) (by decide)
  obtain ⟨t2, s2, g2, l2, -⟩ := toneBlock_tame (t := (30, -20, -15)) (by decide)
  obtain ⟨t3, s3, g3, l3, -⟩ := toneBlock_tame (t := (30, -15, 20)) (by decide)
  obtain ⟨t4, s4, g4, l4, -⟩ := toneBlock_tame (t := (50, 20, -15)) (by decide)
  obtain ⟨t5, s5, g5, l5, -⟩ := toneBlock_tame (t := (60, 0, -30)) (by decide)
  obtain ⟨t6, s6, g6, l6, -⟩ := toneBlock_tame (t := (-30, -20, 15)) (by decide)
  have two : ∀ {P : Nat → Nat → Prop}, (∀ k, k < 8 → ∀ i, i < 8 → P k i) → ∀ k i, k < 8 → i < 8 → P k i :=
    fun h k i hk hi => h k hk i hi
  have hi : ∀ i, i < 64 → 1 ≤ i → coef (toneBlock 30 20 (-15)) i * quant (List.replicate 64 2) i =
      coef (toneBlock 50 20 (-15)) i * quant (List.replicate 64 2) i := by decide +kernel
  refine ⟨s, g, (hd rfl).1, (hd rfl).2, s1, s2, s3, s4, s5, s6, g1, g2, g3, g4, g5, g6, C102_block _ _ t s g l,
    fun r x hr hx => ⟨?_, ?_, ?_, ?_, ?_, ?_, ?_, ?_⟩⟩
  · exact C88_flip_block _ _ _ _ t t1 s s1 g g1 (two (by decide +kernel)) r x hr hx
  · exact C88_mirror_block_partial _ _ _ _ t t2 s s2 g g2 (two (by decide +kernel)) r x hr hx
  · exact C91_transpose_block_partial _ _ _ _ t t3 s s3 g g3 (two (by decide +kernel)) r x hr hx
  · refine C92_block (toneBlock 30 20 (-15)) (toneBlock 50 20 (-15)) (List.replicate 64 2) (List.replicate 64 2) t t4 s s4
      g g4 5 ?_ (fun i h1 h2 => (hi i h2 h1).symm) r x hr hx (l r x hr hx)
    decide
  · exact C86_block _ _ _ _ t t4 s s4 g g4 (by decide) (fun i h1 h2 => hi i h2 h1) r x hr hx
  · exact C100_block _ _ _ _ _ _ t t2 t5 s s2 s5 g g2 g5 (by decide +kernel) r x hr hx (l r x hr hx) (l2 r x hr hx)
  · exact C100_block_negative _ _ _ _ t t6 s s6 g g6 (by decide +kernel) r x hr hx (l r x hr hx) (l6 r x hr hx)
  · have := C94_block _ _ _ _ t t2 s s2 g g2 r x hr hx
    rwa [show blockChange _ _ = 80 by decide +kernel] at this

end Jpeg
