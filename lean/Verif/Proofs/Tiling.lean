import Verif.Model.Scan
import Verif.Spec.Geometry
import Verif.Proofs.Idct
import Mathlib.Tactic.Linarith
import Mathlib.Tactic.Ring
/-!
# Where the transformed blocks go

Planes are written `(List.range N).map g`.
-/

namespace Jpeg
open Spec

/-- The sample in row `r`, column `x` of the transformed block. -/
def sampleAt (b : List Int) (q : List Nat) (r x : Nat) : UInt8 :=
  match idct8x8 b q with
  | .ok rows => (rows.getD r []).getD x 0
  | .error _ => 0

theorem writeRows_get {S : Nat} (hS : 8 ≤ S) : ∀ (rows : List (List UInt8)) (out : List (Option UInt8)),
    (∀ row ∈ rows, row.length = 8) → (rows ≠ [] → (rows.length - 1) * S + 8 ≤ out.length) →
    ∃ out', writeRows S rows out = .ok out' ∧ out'.length = out.length ∧
      ∀ p, out'[p]? = if p / S < rows.length ∧ p % S < 8 then
        some (some ((rows.getD (p / S) []).getD (p % S) 0)) else out[p]? := by
  intro rows
  induction rows with
  | nil => intro out _ _; exact ⟨out, rfl, rfl, by simp⟩
  | cons row rows ih =>
    intro out hrow hlen
    have hlen := hlen (by simp)
    rw [List.length_cons, Nat.add_sub_cancel] at hlen
    have hne : out ≠ [] := by rintro rfl; simp at hlen
    obtain ⟨rest, e, hl, hg⟩ := ih (out.drop S) (fun r hr => hrow r (by simp [hr])) (by
      intro hr
      have hpos := List.length_pos_iff.2 hr
      obtain ⟨n, hn⟩ : ∃ n, rows.length = n + 1 := ⟨rows.length - 1, by omega⟩
      rw [hn] at hlen ⊢
      rw [Nat.add_sub_cancel, List.length_drop]
      rw [Nat.add_mul, Nat.one_mul] at hlen
      omega)
    have h8 : row.length = 8 := hrow row (by simp)
    have hle : 8 ≤ out.length := by
      have := Nat.zero_le (rows.length * S)
      omega
    rw [List.length_drop] at hl
    refine ⟨row.map some ++ (out.take S).drop 8 ++ rest, ?_, ?_, ?_⟩
    · rw [writeRows, if_neg hne, if_neg (by omega), e]
    · simp only [List.length_append, List.length_map, List.length_drop, List.length_take, hl, h8]
      omega
    · intro p
      have hA : (row.map some).length = 8 := by simp [h8]
      have hB : ((out.take S).drop 8).length = min S out.length - 8 := by simp
      rcases Nat.lt_or_ge p 8 with hp | hp
      · rw [List.append_assoc, List.getElem?_append_left (by omega), Nat.div_eq_of_lt (by omega),
          Nat.mod_eq_of_lt (by omega : p < S), if_pos ⟨by simp, hp⟩, List.getElem?_map]
        simp only [List.getD_eq_getElem?_getD, List.getElem?_cons_zero, Option.getD_some]
        rw [List.getElem?_eq_getElem (by omega)]
        rfl
      · rcases Nat.lt_or_ge p (min S out.length) with hp2 | hp2
        · rw [List.getElem?_append_left (by rw [List.length_append]; omega),
            List.getElem?_append_right (by omega), hA, List.getElem?_drop, List.getElem?_take,
            if_pos (by omega), show 8 + (p - 8) = p by omega,
            Nat.div_eq_of_lt (by omega : p < S), Nat.mod_eq_of_lt (by omega : p < S),
            if_neg (by omega)]
        · rw [List.getElem?_append_right (by rw [List.length_append]; omega), List.length_append, hA, hB,
            show 8 + (min S out.length - 8) = min S out.length by omega]
          rcases Nat.lt_or_ge out.length S with hs | hs
          · have hr0 : rest = [] := List.length_eq_zero_iff.1 (by omega)
            have hrows : rows.length = 0 := by
              by_contra h
              have : S ≤ rows.length * S := Nat.le_mul_of_pos_left _ (by omega)
              omega
            rw [hr0, List.getElem?_nil, List.getElem?_eq_none (by omega : out.length ≤ p), if_neg]
            rintro ⟨h1, h2⟩
            rw [List.length_cons, hrows] at h1
            have : p / S = 0 := Nat.lt_one_iff.1 (by simpa using h1)
            have : p < S := by
              by_contra h
              have := Nat.div_pos (Nat.le_of_not_lt h) (by omega : 0 < S)
              omega
            rw [Nat.mod_eq_of_lt this] at h2
            omega
          · rw [Nat.min_eq_left hs, hg, List.getElem?_drop, show S + (p - S) = p by omega]
            have hdiv : p / S = (p - S) / S + 1 := by
              rw [← Nat.add_div_right (p - S) (by omega : 0 < S), show p - S + S = p by omega]
            have hmod : p % S = (p - S) % S := by
              rw [← Nat.add_mod_right (p - S) S, show p - S + S = p by omega]
            rw [hdiv, hmod, List.length_cons]
            simp only [Nat.add_lt_add_iff_right, List.getD_eq_getElem?_getD, List.getElem?_cons_succ]

/-- Writing a block with its first sample at offset `o` of the plane. -/
theorem writeBlock (cfg : Cfg) (b : List Int) (q : List Nat) {S N by' bx BW BH : Nat}
    (hS : S = 8 * BW) (hN : N = S * 8 * BH) (hx : bx < BW) (hy : by' < BH) (g : Nat → Option UInt8) :
    ∃ out, dequantizeAndIdct cfg b q S (((List.range N).map g).drop (by' * (8 * S) + bx * 8)) = .ok out ∧
      ((List.range N).map g).take (by' * (8 * S) + bx * 8) ++ out = (List.range N).map fun p =>
        if p / S / 8 = by' ∧ p % S / 8 = bx then some (sampleAt b q (p / S % 8) (p % S % 8)) else g p := by
  have hidct : ∃ rows, idct8x8 b q = .ok rows ∧ rows.length = 8 ∧ ∀ row ∈ rows, row.length = 8 := by
    rw [idct8x8_temp, idctRows_range]
    refine ⟨_, rfl, by simp, ?_⟩
    intro row hrow
    simp only [List.mem_map] at hrow
    obtain ⟨r, -, rfl⟩ := hrow
    unfold idctRow
    split <;> rfl
  obtain ⟨rows, er, hr8, hrow⟩ := hidct
  have hS8 : 8 ≤ S := by omega
  set o := by' * (8 * S) + bx * 8 with ho
  have hfit : o + 7 * S + 8 ≤ N := by
    have h1 : (by' + 1) * (8 * S) ≤ BH * (8 * S) := Nat.mul_le_mul_right _ hy
    have h2 : N = BH * (8 * S) := by rw [hN]; ring
    have h3 : (by' + 1) * (8 * S) = by' * (8 * S) + 8 * S := by ring
    omega
  obtain ⟨out, e, hl, hg⟩ := writeRows_get hS8 rows (((List.range N).map g).drop o) hrow (by
    intro _
    rw [hr8, List.length_drop, List.length_map, List.length_range]
    omega)
  have hlen : (((List.range N).map g).drop o).length = N - o := by simp
  refine ⟨out, ?_, ?_⟩
  · unfold dequantizeAndIdct
    rw [if_neg (by omega), if_neg, er]
    · exact e
    · rintro ⟨-, h⟩
      rw [hlen] at h
      have : 8 ≤ (N - o + S - 1) / S := by
        rw [Nat.le_div_iff_mul_le (by omega)]
        omega
      omega
  · apply List.ext_getElem?
    intro p
    have htl : (((List.range N).map g).take o).length = o := by simp; omega
    rcases Nat.lt_or_ge p N with hp | hp
    swap
    · rw [List.getElem?_eq_none, List.getElem?_eq_none]
      · simp [hp]
      · rw [List.length_append, htl, hl, hlen]; omega
    have hrhs : ∀ f : Nat → Option UInt8, ((List.range N).map f)[p]? = some (f p) := by
      intro f
      rw [List.getElem?_map, List.getElem?_range hp]
      rfl
    rw [hrhs]
    have hfoot : (p / S / 8 = by' ∧ p % S / 8 = bx) ↔ o ≤ p ∧ (p - o) / S < 8 ∧ (p - o) % S < 8 := by
      have hdm := Nat.div_add_mod p S
      have hmlt := Nat.mod_lt p (by omega : 0 < S)
      constructor
      · rintro ⟨h1, h2⟩
        have e1 : p / S = 8 * by' + p / S % 8 := by omega
        have e2 : p % S = 8 * bx + p % S % 8 := by omega
        have e3 : p = o + (S * (p / S % 8) + p % S % 8) := by
          have : S * (p / S) = S * (8 * by') + S * (p / S % 8) := by rw [← Nat.mul_add, ← e1]
          have : by' * (8 * S) = S * (8 * by') := by ring
          omega
        have e4 : p - o = p % S % 8 + S * (p / S % 8) := by omega
        refine ⟨by omega, ?_, ?_⟩
        · rw [e4, Nat.add_mul_div_left _ _ (by omega), Nat.div_eq_of_lt (by omega)]
          omega
        · rw [e4, Nat.add_mul_mod_self_left, Nat.mod_eq_of_lt (by omega)]
          omega
      · rintro ⟨h1, h2, h3⟩
        have hdm' := Nat.div_add_mod (p - o) S
        have e1 : p = S * (8 * by' + (p - o) / S) + (8 * bx + (p - o) % S) := by
          have : by' * (8 * S) = S * (8 * by') := by ring
          rw [Nat.mul_add]
          omega
        have hlt : 8 * bx + (p - o) % S < S := by omega
        have e2 : p / S = 8 * by' + (p - o) / S := by
          rw [e1, Nat.mul_add_div (by omega), Nat.div_eq_of_lt hlt, Nat.add_zero]
          rw [← e1]
        have e3 : p % S = 8 * bx + (p - o) % S := by
          rw [e1, Nat.mul_add_mod, Nat.mod_eq_of_lt hlt]
          rw [← e1]
        rw [e2, e3]
        clear e1 e2 e3 hdm hdm' hlt hmlt
        generalize (p - o) / S = u at *
        generalize (p - o) % S = w at *
        omega
    rcases Nat.lt_or_ge p o with hpo | hpo
    · rw [List.getElem?_append_left (by omega), List.getElem?_take, if_pos hpo, hrhs, if_neg]
      rw [hfoot]; omega
    · rw [List.getElem?_append_right (by omega), htl, hg, hr8, List.getElem?_drop,
        show o + (p - o) = p by omega, hrhs]
      by_cases hf : p / S / 8 = by' ∧ p % S / 8 = bx
      · rw [if_pos hf, if_pos (hfoot.1 hf).2]
        congr 2
        unfold sampleAt
        rw [er]
        simp only
        have hdm := Nat.div_add_mod p S
        have hmlt := Nat.mod_lt p (by omega : 0 < S)
        obtain ⟨h1, h2⟩ := hf
        have e1 : p / S = 8 * by' + p / S % 8 := by omega
        have e2 : p % S = 8 * bx + p % S % 8 := by omega
        have e4 : p - o = p % S % 8 + S * (p / S % 8) := by
          have : S * (p / S) = S * (8 * by') + S * (p / S % 8) := by rw [← Nat.mul_add, ← e1]
          have : by' * (8 * S) = S * (8 * by') := by ring
          omega
        rw [e4, Nat.add_mul_div_left _ _ (by omega), Nat.div_eq_of_lt (by omega : p % S % 8 < S),
          Nat.add_mul_mod_self_left, Nat.mod_eq_of_lt (by omega : p % S % 8 < S), Nat.zero_add]
      · rw [if_neg hf, if_neg]
        intro h
        exact hf (hfoot.2 ⟨hpo, h⟩)

theorem stepRangeGo_eq (step : Nat) (hs : 0 < step) : ∀ (n i : Nat),
    stepRangeGo ((i + n) * step) step n (i * step) = (List.range' i n).map (· * step) := by
  intro n
  induction n with
  | zero => intro i; rfl
  | succ n ih =>
    intro i
    rw [stepRangeGo, if_pos, List.range'_succ, List.map_cons]
    · rw [show i * step + step = (i + 1) * step by ring, show i + (n + 1) = i + 1 + n by ring, ih]
    · exact Nat.mul_lt_mul_of_pos_right (by omega) hs

theorem stepRange_eq (n step : Nat) (hs : 0 < step) : stepRange n step = (List.range' 0 n).map (· * step) := by
  have := stepRangeGo_eq step hs n 0
  rwa [Nat.zero_add, Nat.zero_mul] at this

/-- What a component's plane looks like in terms of MCUs. -/
structure PlaneGeom (W H : Nat) (c : Component) : Prop where
  blocks : c.blockSize = ⟨W * c.h, H * c.v⟩
  stride : c.lineStride = 8 * (W * c.h)
  mcuLine : c.bytesPerMcuLine = c.lineStride * (8 * c.v)
  mcuWidth : c.mcuSampleSize.width = 8 * c.h
  hpos : 1 ≤ c.h
  vpos : 1 ≤ c.v

/-- Number of samples of the plane. -/
def planeSize (c : Component) : Nat := c.blockSize.area * BLOCK_SIZE

theorem PlaneGeom.size {W H : Nat} {c : Component} (h : PlaneGeom W H c) :
    planeSize c = c.lineStride * 8 * (H * c.v) := by
  unfold planeSize Dim.area BLOCK_SIZE
  rw [h.blocks, h.stride]
  ring

theorem dequantCols_eq (cfg : Cfg) {W H : Nat} {c : Component} (hg : PlaneGeom W H c) (q : List Nat)
    {y x0 : Nat} (hy : y < H * c.v) : ∀ (n i : Nat) (chunks : List (List Int)) (g : Nat → Option UInt8),
    x0 + i + n ≤ W * c.h → n ≤ chunks.length →
    dequantCols cfg c q (y * (8 * c.lineStride) + x0 * 8) ((List.range' i n).map (· * 8)) chunks
      ((List.range (planeSize c)).map g) =
    .ok (chunks.drop n, (List.range (planeSize c)).map fun p =>
      if p / c.lineStride / 8 = y ∧ x0 + i ≤ p % c.lineStride / 8 ∧ p % c.lineStride / 8 < x0 + i + n then
        some (sampleAt (chunks.getD (p % c.lineStride / 8 - (x0 + i)) []) q (p / c.lineStride % 8)
          (p % c.lineStride % 8))
      else g p) := by
  intro n
  induction n with
  | zero =>
    intro i chunks g _ _
    simp only [List.range'_zero, List.map_nil, dequantCols, List.drop_zero]
    congr 2
    apply List.map_congr_left
    intro p _
    rw [if_neg (by omega)]
  | succ n ih =>
    intro i chunks g hx hn
    match chunks, hn with
    | b :: chunks, hn =>
      rw [List.length_cons] at hn
      have hoff : y * (8 * c.lineStride) + x0 * 8 + i * 8 = y * (8 * c.lineStride) + (x0 + i) * 8 := by ring
      rw [List.range'_succ, List.map_cons, dequantCols]
      rw [hoff]
      obtain ⟨out, e1, e2⟩ := writeBlock cfg b q (S := c.lineStride) (N := planeSize c) (by' := y)
        (bx := x0 + i) hg.stride hg.size (by omega) hy g
      have hle : y * (8 * c.lineStride) + (x0 + i) * 8 ≤ planeSize c := by
        have h1 : (y + 1) * (8 * c.lineStride) ≤ (H * c.v) * (8 * c.lineStride) := Nat.mul_le_mul_right _ hy
        have h2 : planeSize c = (H * c.v) * (8 * c.lineStride) := by rw [hg.size]; ring
        have h3 : (y + 1) * (8 * c.lineStride) = y * (8 * c.lineStride) + 8 * c.lineStride := by ring
        have h4 := hg.stride
        omega
      rw [if_neg (by rw [List.length_map, List.length_range]; omega), e1]
      simp only
      rw [e2, ih (i + 1) chunks _ (by omega) (by omega)]
      congr 2
      apply List.map_congr_left
      intro p _
      generalize p / c.lineStride = a
      generalize p % c.lineStride = m
      by_cases h1 : a / 8 = y
      · by_cases h2 : m / 8 = x0 + i
        · rw [if_neg (by omega), if_pos ⟨h1, h2⟩, if_pos (by omega), h2, Nat.sub_self]
          rfl
        · by_cases h3 : x0 + i ≤ m / 8 ∧ m / 8 < x0 + i + (n + 1)
          · rw [if_pos (by omega), if_pos (by omega),
              show m / 8 - (x0 + i) = m / 8 - (x0 + (i + 1)) + 1 by omega]
            rfl
          · rw [if_neg (by omega), if_neg (by omega), if_neg (by omega)]
      · rw [if_neg (by omega), if_neg (by omega), if_neg (by omega)]

theorem dequantRows_eq (cfg : Cfg) {W H : Nat} {c : Component} (hg : PlaneGeom W H c) (q : List Nat)
    {y0 x0 : Nat} (hx : x0 + c.h ≤ W * c.h) :
    ∀ (n i : Nat) (chunks : List (List Int)) (g : Nat → Option UInt8),
    y0 + i + n ≤ H * c.v → n * c.h ≤ chunks.length →
    dequantRows cfg c q (y0 * (8 * c.lineStride) + x0 * 8)
      ((List.range' i n).map (· * (c.lineStride * 8))) chunks ((List.range (planeSize c)).map g) =
    .ok (chunks.drop (n * c.h), (List.range (planeSize c)).map fun p =>
      if (y0 + i ≤ p / c.lineStride / 8 ∧ p / c.lineStride / 8 < y0 + i + n) ∧
        (x0 ≤ p % c.lineStride / 8 ∧ p % c.lineStride / 8 < x0 + c.h) then
        some (sampleAt (chunks.getD ((p / c.lineStride / 8 - (y0 + i)) * c.h +
          (p % c.lineStride / 8 - x0)) []) q (p / c.lineStride % 8) (p % c.lineStride % 8))
      else g p) := by
  intro n
  induction n with
  | zero =>
    intro i chunks g _ _
    simp only [List.range'_zero, List.map_nil, dequantRows, List.drop_zero, Nat.zero_mul]
    congr 2
    apply List.map_congr_left
    intro p _
    rw [if_neg (by omega)]
  | succ n ih =>
    intro i chunks g hy hn
    rw [Nat.add_mul, Nat.one_mul] at hn
    have hoff : y0 * (8 * c.lineStride) + x0 * 8 + i * (c.lineStride * 8) =
        (y0 + i) * (8 * c.lineStride) + x0 * 8 := by ring
    have hle : (y0 + i) * (8 * c.lineStride) + x0 * 8 ≤ planeSize c := by
      have h1 : (y0 + i + 1) * (8 * c.lineStride) ≤ (H * c.v) * (8 * c.lineStride) :=
        Nat.mul_le_mul_right _ (by omega)
      have h2 : planeSize c = (H * c.v) * (8 * c.lineStride) := by rw [hg.size]; ring
      have h3 : (y0 + i + 1) * (8 * c.lineStride) = (y0 + i) * (8 * c.lineStride) + 8 * c.lineStride := by
        ring
      have h4 := hg.stride
      omega
    rw [List.range'_succ, List.map_cons, dequantRows]
    rw [hoff, if_pos (by rw [List.length_map, List.length_range]; omega), stepRange_eq _ _ (by decide)]
    have := dequantCols_eq cfg hg q (y := y0 + i) (x0 := x0) (by omega) c.h 0 chunks g (by omega) (by omega)
    unfold DCT_SIZE
    rw [this]
    simp only
    rw [ih (i + 1) (chunks.drop c.h) _ (by omega) (by rw [List.length_drop]; omega), List.drop_drop,
      Nat.add_mul, Nat.one_mul, Nat.add_comm c.h]
    congr 2
    apply List.map_congr_left
    intro p _
    generalize p / c.lineStride = a
    generalize p % c.lineStride = m
    simp only [Nat.add_zero]
    by_cases h2 : x0 ≤ m / 8 ∧ m / 8 < x0 + c.h
    · by_cases h1 : a / 8 = y0 + i
      · rw [if_neg (by omega), if_pos (by omega), if_pos (by omega), h1, Nat.sub_self, Nat.zero_mul,
          Nat.zero_add]
      · by_cases h3 : y0 + i ≤ a / 8 ∧ a / 8 < y0 + i + (n + 1)
        · rw [if_pos (by omega), if_pos (by omega),
            show a / 8 - (y0 + i) = a / 8 - (y0 + (i + 1)) + 1 by omega, Nat.add_mul, Nat.one_mul]
          simp only [List.getD_eq_getElem?_getD, List.getElem?_drop]
          congr 4
          omega
        · rw [if_neg (by omega), if_neg (by omega), if_neg (by omega)]
    · rw [if_neg (by omega), if_neg (by omega), if_neg (by omega)]

/-- Index of the MCU a sample belongs to. -/
def mcuIndex (W : Nat) (c : Component) (p : Nat) : Nat :=
  p / c.lineStride / 8 / c.v * W + p % c.lineStride / 8 / c.h

/-- Index of its block among the blocks the component has in that MCU. -/
def blockIndex (c : Component) (p : Nat) : Nat :=
  p / c.lineStride / 8 % c.v * c.h + p % c.lineStride / 8 % c.h

/-- The plane once the MCUs with the given blocks (of this component) are done: `none` where nothing
has been written. -/
def planeFn (W : Nat) (c : Component) (q : List Nat) (l : List (List (List Int))) (p : Nat) :
    Option UInt8 :=
  (l[mcuIndex W c p]?).map fun blocks =>
    sampleAt (blocks.getD (blockIndex c p) []) q (p / c.lineStride % 8) (p % c.lineStride % 8)

/-- The plane as a list. -/
def planeOf (W : Nat) (c : Component) (q : List Nat) (l : List (List (List Int))) : List (Option UInt8) :=
  (List.range (planeSize c)).map (planeFn W c q l)

/-- Where a sample index lies. -/
theorem sample_pos {W H : Nat} {c : Component} (hg : PlaneGeom W H c) {p : Nat} (hp : p < planeSize c) :
    p / c.lineStride / 8 < H * c.v ∧ p % c.lineStride / 8 < W * c.h ∧ 0 < c.lineStride := by
  have hsz := hg.size
  have hst := hg.stride
  have hpos : 0 < c.lineStride := by
    rcases Nat.eq_zero_or_pos c.lineStride with h | h
    · rw [hsz, h] at hp; simp at hp
    · exact h
  refine ⟨?_, ?_, hpos⟩
  · rw [Nat.div_div_eq_div_mul, Nat.div_lt_iff_lt_mul (by omega)]
    calc p < _ := hp
      _ = _ := by rw [hsz]; ring
  · have := Nat.mod_lt p hpos
    omega

theorem mcuIndex_lt {W H : Nat} {c : Component} (hg : PlaneGeom W H c) {p : Nat} (hp : p < planeSize c) :
    mcuIndex W c p < W * H := by
  obtain ⟨h1, h2, _⟩ := sample_pos hg hp
  have a1 : p / c.lineStride / 8 / c.v < H := by
    rw [Nat.div_lt_iff_lt_mul (by have := hg.vpos; omega)]; exact h1
  have a2 : p % c.lineStride / 8 / c.h < W := by
    rw [Nat.div_lt_iff_lt_mul (by have := hg.hpos; omega)]; exact h2
  unfold mcuIndex
  calc _ < p / c.lineStride / 8 / c.v * W + W := by omega
    _ = (p / c.lineStride / 8 / c.v + 1) * W := by ring
    _ ≤ H * W := Nat.mul_le_mul_right _ a1
    _ = W * H := Nat.mul_comm _ _

/-- One component of one MCU. -/
theorem dequantComponent_eq (cfg : Cfg) {W H : Nat} {c : Component} (hg : PlaneGeom W H c) (q : List Nat)
    (l : List (List (List Int))) (chunks : List (List Int)) (hl : l.length < W * H)
    (hc : c.v * c.h ≤ chunks.length) :
    (l.length / W) * c.bytesPerMcuLine + (l.length % W) * c.mcuSampleSize.width ≤ planeSize c ∧
    dequantRows cfg c q ((l.length / W) * c.bytesPerMcuLine + (l.length % W) * c.mcuSampleSize.width)
      (stepRange c.v (c.lineStride * DCT_SIZE)) chunks (planeOf W c q l) =
    .ok (chunks.drop (c.v * c.h), planeOf W c q (l ++ [chunks.take (c.v * c.h)])) := by
  have hW : 0 < W := by
    rcases Nat.eq_zero_or_pos W with h | h
    · subst h; simp at hl
    · exact h
  have hst := hg.stride
  have hmx : l.length % W < W := Nat.mod_lt _ hW
  have hmy : l.length / W < H := by
    rw [Nat.div_lt_iff_lt_mul hW, Nat.mul_comm]; exact hl
  have hSpos : 0 < c.lineStride := by
    have := Nat.mul_pos hW hg.hpos
    omega
  have hoff : (l.length / W) * c.bytesPerMcuLine + (l.length % W) * c.mcuSampleSize.width =
      (l.length / W * c.v) * (8 * c.lineStride) + (l.length % W * c.h) * 8 := by
    rw [hg.mcuLine, hg.mcuWidth]; ring
  have hx : l.length % W * c.h + c.h ≤ W * c.h := by
    calc l.length % W * c.h + c.h = (l.length % W + 1) * c.h := by ring
      _ ≤ W * c.h := Nat.mul_le_mul_right _ hmx
  have hy : l.length / W * c.v + 0 + c.v ≤ H * c.v := by
    calc l.length / W * c.v + 0 + c.v = (l.length / W + 1) * c.v := by ring
      _ ≤ H * c.v := Nat.mul_le_mul_right _ hmy
  rw [hoff]
  constructor
  · have h2 : planeSize c = (H * c.v) * (8 * c.lineStride) := by rw [hg.size]; ring
    have h1 : (l.length / W * c.v + 1) * (8 * c.lineStride) ≤ (H * c.v) * (8 * c.lineStride) :=
      Nat.mul_le_mul_right _ (by have := hg.vpos; omega)
    have h3 : (l.length / W * c.v + 1) * (8 * c.lineStride) =
      (l.length / W * c.v) * (8 * c.lineStride) + 8 * c.lineStride := by ring
    omega
  · unfold DCT_SIZE
    rw [stepRange_eq _ _ (by omega)]
    unfold planeOf
    rw [dequantRows_eq cfg hg q hx c.v 0 chunks _ hy hc]
    congr 2
    apply List.map_congr_left
    intro p hp
    rw [List.mem_range] at hp
    obtain ⟨hb1, hb2, _⟩ := sample_pos hg hp
    unfold planeFn mcuIndex blockIndex
    generalize hA : p / c.lineStride / 8 = A at *
    generalize hB : p % c.lineStride / 8 = B at *
    have hhp := hg.hpos
    have hvp := hg.vpos
    have hBW : B / c.h < W := by rw [Nat.div_lt_iff_lt_mul (by omega)]; exact hb2
    have hiff : ((l.length / W * c.v + 0 ≤ A ∧ A < l.length / W * c.v + 0 + c.v) ∧
        (l.length % W * c.h ≤ B ∧ B < l.length % W * c.h + c.h)) ↔ A / c.v * W + B / c.h = l.length := by
      have k1 : (l.length / W * c.v + 0 ≤ A ∧ A < l.length / W * c.v + 0 + c.v) ↔ A / c.v = l.length / W := by
        rw [Nat.add_zero, Nat.div_eq_iff (by omega)]
        constructor <;> rintro ⟨h1, h2⟩ <;> constructor <;> omega
      have k2 : (l.length % W * c.h ≤ B ∧ B < l.length % W * c.h + c.h) ↔ B / c.h = l.length % W := by
        rw [Nat.div_eq_iff (by omega)]
        constructor <;> rintro ⟨h1, h2⟩ <;> constructor <;> omega
      rw [k1, k2]
      constructor
      · rintro ⟨h1, h2⟩
        rw [h1, h2, Nat.mul_comm, Nat.div_add_mod]
      · intro h
        rw [← h]
        constructor
        · rw [Nat.mul_comm, Nat.mul_add_div hW, Nat.div_eq_of_lt hBW, Nat.add_zero]
        · rw [Nat.mul_comm, Nat.mul_add_mod, Nat.mod_eq_of_lt hBW]
    by_cases h : A / c.v * W + B / c.h = l.length
    · rw [if_pos (hiff.2 h), h, List.getElem?_append_right (Nat.le_refl _), Nat.sub_self]
      obtain ⟨⟨y1, y2⟩, ⟨x1, x2⟩⟩ := hiff.2 h
      have m1 : A % c.v = A - (l.length / W * c.v + 0) := by
        have e : A = A - (l.length / W * c.v + 0) + l.length / W * c.v := by omega
        conv_lhs => rw [e]
        rw [Nat.add_mul_mod_self_right, Nat.mod_eq_of_lt (by omega)]
      have m2 : B % c.h = B - l.length % W * c.h := by
        have e : B = B - l.length % W * c.h + l.length % W * c.h := by omega
        conv_lhs => rw [e]
        rw [Nat.add_mul_mod_self_right, Nat.mod_eq_of_lt (by omega)]
      rw [← m1, ← m2]
      simp only [List.getElem?_cons_zero, Option.map_some, List.getD_eq_getElem?_getD]
      rw [List.getElem?_take, if_pos]
      have h1 := Nat.mod_lt A (by omega : 0 < c.v)
      have h2 := Nat.mod_lt B (by omega : 0 < c.h)
      calc A % c.v * c.h + B % c.h < A % c.v * c.h + c.h := by omega
        _ = (A % c.v + 1) * c.h := by ring
        _ ≤ c.v * c.h := Nat.mul_le_mul_right _ h1
    · rw [if_neg (fun h' => h (hiff.1 h'))]
      congr 1
      rcases Nat.lt_or_ge (A / c.v * W + B / c.h) l.length with hlt | hge
      · rw [List.getElem?_append_left hlt]
      · rw [List.getElem?_eq_none hge, List.getElem?_eq_none]
        rw [List.length_append, List.length_singleton]
        omega

/-- Cutting the coefficient buffer of an MCU into the blocks of the components. -/
def splitBlocks : List Component → List (List Int) → List (List (List Int))
  | [], _ => []
  | c :: cs, chunks => chunks.take (c.v * c.h) :: splitBlocks cs (chunks.drop (c.v * c.h))

/-- The planes of all components; `ls` has for each component the blocks of the MCUs done. -/
def planesOf (W : Nat) (qf : Component → List Nat) (cs : List Component)
    (ls : List (List (List (List Int)))) : List (List (Option UInt8)) :=
  List.zipWith (fun c l => planeOf W c (qf c) l) cs ls

/-- Number of blocks of an MCU. -/
def mcuBlocks (cs : List Component) : Nat := (cs.map fun c => c.v * c.h).sum

theorem dequantComponents_eq (cfg : Cfg) {W H k : Nat} {qts : List (Option (List Nat))}
    (qf : Component → List Nat) (hk : k < W * H) : ∀ (cs : List Component)
    (ls : List (List (List (List Int)))) (chunks : List (List Int)),
    (∀ c ∈ cs, PlaneGeom W H c) → (∀ c ∈ cs, qts[c.tq]? = some (some (qf c))) →
    ls.length = cs.length → (∀ l ∈ ls, l.length = k) → mcuBlocks cs ≤ chunks.length →
    dequantComponents cfg qts (k % W) (k / W) cs (planesOf W qf cs ls) chunks =
      .ok (planesOf W qf cs (List.zipWith (fun l b => l ++ [b]) ls (splitBlocks cs chunks))) := by
  intro cs
  induction cs with
  | nil =>
    intro ls chunks _ _ hl _ _
    obtain rfl := List.length_eq_zero_iff.1 hl
    rfl
  | cons c cs ih =>
    intro ls chunks hg hq hl hk' hm
    match ls, hl with
    | l :: ls, hl =>
      have hlk : l.length = k := hk' l (by simp)
      simp only [mcuBlocks, List.map_cons, List.sum_cons] at hm
      obtain ⟨e1, e2⟩ := dequantComponent_eq cfg (hg c (by simp)) (qf c) l chunks (by omega) (by omega)
      rw [hlk] at e1 e2
      have hpl : (planeOf W c (qf c) l).length = planeSize c := by simp [planeOf]
      have hrec := ih ls (chunks.drop (c.v * c.h)) (fun c hc => hg c (by simp [hc]))
        (fun c hc => hq c (by simp [hc])) (by simpa using hl) (fun l hl => hk' l (by simp [hl]))
        (by rw [List.length_drop]; unfold mcuBlocks; omega)
      simp only [planesOf, List.zipWith_cons_cons, splitBlocks]
      rw [dequantComponents]
      simp only [hq c (by simp), hpl, if_pos e1, e2]
      rw [show List.zipWith (fun c l => planeOf W c (qf c) l) cs ls = planesOf W qf cs ls from rfl, hrec]
      rfl

/-- If the MCU has more blocks than the buffer, the decoder panics. -/
theorem splitBlocks_length (cs : List Component) (chunks : List (List Int)) :
    (splitBlocks cs chunks).length = cs.length := by
  induction cs generalizing chunks with
  | nil => rfl
  | cons c cs ih => simp [splitBlocks, ih]

theorem planesOf_init (W : Nat) (qf : Component → List Nat) (cs : List Component) :
    planesOf W qf cs (cs.map fun _ => []) = cs.map allocPlane := by
  unfold planesOf
  induction cs with
  | nil => rfl
  | cons c cs ih =>
    simp only [List.map_cons, List.zipWith_cons_cons, ih]
    congr 1
    unfold planeOf allocPlane planeFn planeSize
    simp only [List.getElem?_nil, Option.map_none]
    rw [List.map_const', List.length_range]

theorem PlaneGeom.of {x y hmax vmax : Nat} {c : Component} (h : ComponentGeometry x y hmax vmax c) :
    PlaneGeom (ceilDiv x (8 * hmax)) (ceilDiv y (8 * vmax)) c :=
  ⟨h.blocks, h.lineStride, h.bytesPerMcuLine, by rw [h.mcuSampleSize], h.factors.1, h.factors.2.2.1⟩

end Jpeg
