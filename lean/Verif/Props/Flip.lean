import Verif.Spec.Flip
import Verif.Props.Limited
/-!
# Flipped and mirrored pictures (C88)
-/

namespace Jpeg
open Spec Sample

/-- A sign. -/
def signOf (n : Nat) : Int := if n % 2 = 1 then -1 else 1

theorem idctMatrix_flip : ∀ j < 8, ∀ l0 l1 l2 l3 l4 l5 l6 l7 : Int,
    dot (idctMatrixRow (7 - j)) [l0, l1, l2, l3, l4, l5, l6, l7] =
      dot (idctMatrixRow j) [l0, -l1, l2, -l3, l4, -l5, l6, -l7] := by
  intro j hj l0 l1 l2 l3 l4 l5 l6 l7
  rcases (by omega : j = 0 ∨ j = 1 ∨ j = 2 ∨ j = 3 ∨ j = 4 ∨ j = 5 ∨ j = 6 ∨ j = 7) with
    rfl | rfl | rfl | rfl | rfl | rfl | rfl | rfl <;>
  simp [dot, idctMatrixRow, idctMatrix]

theorem range8 {α : Type} (g : Nat → α) : (List.range 8).map g = [g 0, g 1, g 2, g 3, g 4, g 5, g 6, g 7] := rfl

theorem idctPass1_flip {F F' : Nat → Nat → Int} {j i : Nat} (hj : j < 8) (h : ∀ k, k < 8 → F' k i = signOf k * F k i) :
    idctPass1 F' j i = idctPass1 F (7 - j) i := by
  unfold idctPass1
  rw [range8, range8, idctMatrix_flip j hj]
  simp only [h 0 (by decide), h 1 (by decide), h 2 (by decide), h 3 (by decide), h 4 (by decide), h 5 (by decide),
    h 6 (by decide), h 7 (by decide)]
  simp [signOf]

/-- **C88** (the inverse DCT, upside down). With the signs of the odd vertical frequencies changed the block comes out
upside down, exactly. -/
theorem C88_flip_idct (F F' : Nat → Nat → Int) (h : ∀ k i, k < 8 → i < 8 → F' k i = (if k % 2 = 1 then -1 else 1) * F k i)
    (r x : Nat) (hr : r < 8) : idctSample F' r x = idctSample F (7 - r) x := by
  unfold idctSample
  have : ∀ i, i < 8 → idctPass1 F' r i = idctPass1 F (7 - r) i := fun i hi => idctPass1_flip hr fun k hk => h k i hk hi
  rw [range8, range8, this 0 (by decide), this 1 (by decide), this 2 (by decide), this 3 (by decide), this 4 (by decide),
    this 5 (by decide), this 6 (by decide), this 7 (by decide)]

/-- Rounding of the negative: the same, or one more. -/
theorem round_neg (D : Int) : (-D + 512) / 1024 = -((D + 512) / 1024) ∨ (-D + 512) / 1024 = -((D + 512) / 1024) + 1 := by omega

theorem dot_neg8 (m a b c d e f g h : Int) (l : List Int) :
    dot l [-a, -b, -c, -d, -e, -f, -g, -h] = - dot l [a, b, c, d, e, f, g, h] := by
  unfold dot
  match l with
  | [] => rfl
  | [_] | [_, _] | [_, _, _] | [_, _, _, _] | [_, _, _, _, _] | [_, _, _, _, _, _] | [_, _, _, _, _, _, _] =>
    simp <;> omega
  | _ :: _ :: _ :: _ :: _ :: _ :: _ :: _ :: _ => simp; omega

theorem idctPass1_mirror {F F' : Nat → Nat → Int} {j i : Nat} (h : ∀ k, k < 8 → F' k i = signOf i * F k i) :
    (i % 2 = 0 → idctPass1 F' j i = idctPass1 F j i) ∧
    (i % 2 = 1 → idctPass1 F' j i = -idctPass1 F j i ∨ idctPass1 F' j i = -idctPass1 F j i + 1) := by
  unfold idctPass1
  rw [range8, range8]
  simp only [h 0 (by decide), h 1 (by decide), h 2 (by decide), h 3 (by decide), h 4 (by decide), h 5 (by decide),
    h 6 (by decide), h 7 (by decide)]
  constructor
  · intro hi
    rw [show signOf i = 1 by unfold signOf; rw [if_neg (by omega)]]
    simp only [Int.one_mul]
  · intro hi
    rw [show signOf i = -1 by unfold signOf; rw [if_pos hi]]
    simp only [Int.neg_one_mul, dot_neg8 0]
    exact round_neg _

theorem idctMatrix_odd : ∀ x < 8, ∀ a b c d : Int, (0 ≤ a ∧ a ≤ 1) → (0 ≤ b ∧ b ≤ 1) → (0 ≤ c ∧ c ≤ 1) → (0 ≤ d ∧ d ≤ 1) →
    -131072 < dot (idctMatrixRow x) [0, a, 0, b, 0, c, 0, d] ∧ dot (idctMatrixRow x) [0, a, 0, b, 0, c, 0, d] < 131072 := by
  intro x hx a b c d ha hb hc hd
  rcases (by omega : x = 0 ∨ x = 1 ∨ x = 2 ∨ x = 3 ∨ x = 4 ∨ x = 5 ∨ x = 6 ∨ x = 7) with
    rfl | rfl | rfl | rfl | rfl | rfl | rfl | rfl <;>
  simp [dot, idctMatrixRow, idctMatrix] <;> omega

theorem dot_add8 (l : List Int) (hl : l.length = 8) (a0 a1 a2 a3 a4 a5 a6 a7 b0 b1 b2 b3 b4 b5 b6 b7 : Int) :
    dot l [a0 + b0, a1 + b1, a2 + b2, a3 + b3, a4 + b4, a5 + b5, a6 + b6, a7 + b7] =
      dot l [a0, a1, a2, a3, a4, a5, a6, a7] + dot l [b0, b1, b2, b3, b4, b5, b6, b7] := by
  match l, hl with
  | [l0, l1, l2, l3, l4, l5, l6, l7], _ =>
    simp only [dot, List.zipWith_cons_cons, List.zipWith_nil_left, List.sum_cons, List.sum_nil]
    ring

/-- **C88** (part: the inverse DCT, left to right). With the signs of the odd horizontal frequencies changed the block
comes out left to right, but for a difference of at most 1 in each sample.

Missing: exactly so, which is false: `C88_mirror_violated`. -/
theorem C88_mirror_idct_partial (F F' : Nat → Nat → Int)
    (h : ∀ k i, k < 8 → i < 8 → F' k i = (if i % 2 = 1 then -1 else 1) * F k i) (r x : Nat) (hx : x < 8) :
    |idctSample F' r x - idctSample F r (7 - x)| ≤ 1 := by
  have key : ∀ i, i < 8 → ∃ e : Int, (0 ≤ e ∧ e ≤ 1) ∧ idctPass1 F' r i = signOf i * idctPass1 F r i + e ∧ (i % 2 = 0 → e = 0) := by
    intro i hi
    obtain ⟨h0, h1⟩ := idctPass1_mirror (F := F) (F' := F') (j := r) (i := i) fun k hk => h k i hk hi
    by_cases hp : i % 2 = 1
    · rw [show signOf i = -1 by unfold signOf; rw [if_pos hp]]
      rcases h1 hp with e | e
      · exact ⟨0, by omega, by omega, fun _ => rfl⟩
      · exact ⟨1, by omega, by omega, by omega⟩
    · rw [show signOf i = 1 by unfold signOf; rw [if_neg hp]]
      exact ⟨0, by omega, by rw [h0 (by omega)]; omega, fun _ => rfl⟩
  obtain ⟨e0, -, k0, z0⟩ := key 0 (by decide)
  obtain ⟨e1, b1, k1, -⟩ := key 1 (by decide)
  obtain ⟨e2, -, k2, z2⟩ := key 2 (by decide)
  obtain ⟨e3, b3, k3, -⟩ := key 3 (by decide)
  obtain ⟨e4, -, k4, z4⟩ := key 4 (by decide)
  obtain ⟨e5, b5, k5, -⟩ := key 5 (by decide)
  obtain ⟨e6, -, k6, z6⟩ := key 6 (by decide)
  obtain ⟨e7, b7, k7, -⟩ := key 7 (by decide)
  rw [z0 rfl] at k0
  rw [z2 rfl] at k2
  rw [z4 rfl] at k4
  rw [z6 rfl] at k6
  unfold idctSample
  rw [range8, range8, idctMatrix_flip x hx, k0, k1, k2, k3, k4, k5, k6, k7,
    dot_add8 _ (by rcases (by omega : x = 0 ∨ x = 1 ∨ x = 2 ∨ x = 3 ∨ x = 4 ∨ x = 5 ∨ x = 6 ∨ x = 7) with
      rfl | rfl | rfl | rfl | rfl | rfl | rfl | rfl <;> rfl)]
  have hb := idctMatrix_odd x hx e1 e3 e5 e7 b1 b3 b5 b7
  simp only [signOf]
  simp only [show (0 % 2 = 1) = False by decide, show (1 % 2 = 1) = True by decide, show (2 % 2 = 1) = False by decide,
    show (3 % 2 = 1) = True by decide, show (4 % 2 = 1) = False by decide, show (5 % 2 = 1) = True by decide,
    show (6 % 2 = 1) = False by decide, show (7 % 2 = 1) = True by decide, if_true, if_false, Int.one_mul, Int.neg_one_mul]
  generalize dot (idctMatrixRow x) [0, e1, 0, e3, 0, e5, 0, e7] = E at hb
  generalize dot (idctMatrixRow x) _ = D
  rw [abs_le]
  omega

theorem idxOf_zigzag : ∀ p, p < 64 → ((List.range 64).map zigzag).idxOf p < 64 ∧
    zigzag (((List.range 64).map zigzag).idxOf p) = p ∧ (((List.range 64).map zigzag).idxOf p = 0 → p = 0) := by
  decide +kernel

theorem dequantised_signs {q : List Nat} {b : BlockData} {s : Nat → Bool} {k i : Nat} (hk : k < 8) (hi : i < 8)
    (h0 : s 0 = false) :
    dequantised q ⟨b.dc, b.zz.mapIdx fun n v => if s (zigzag (n + 1)) = true then -v else v⟩ k i =
      (if s (8 * k + i) = true then -1 else 1) * dequantised q b k i := by
  unfold dequantised
  obtain ⟨h1, h2, h3⟩ := idxOf_zigzag (8 * k + i) (by omega)
  generalize ((List.range 64).map zigzag).idxOf (8 * k + i) = n at h1 h2 h3
  cases n with
  | zero =>
    rw [h3 rfl, h0]
    simp
  | succ n =>
    simp only [List.getD_eq_getElem?_getD, List.getElem?_cons_succ, List.getElem?_mapIdx]
    cases b.zz[n]? with
    | none => simp
    | some v =>
      simp only [Option.map_some, Option.getD_some, h2]
      split
      · rw [Int.neg_mul, Int.neg_one_mul]
      · rw [Int.one_mul]

theorem dequantised_flip {q : List Nat} {b : BlockData} {k i : Nat} (hk : k < 8) (hi : i < 8) :
    dequantised q (flipBlock b) k i = (if k % 2 = 1 then -1 else 1) * dequantised q b k i := by
  have := dequantised_signs (q := q) (b := b) (s := fun p => decide (p / 8 % 2 = 1)) hk hi (by decide)
  simp only [decide_eq_true_eq] at this
  rw [show (8 * k + i) / 8 = k by omega] at this
  exact this

theorem dequantised_mirror {q : List Nat} {b : BlockData} {k i : Nat} (hk : k < 8) (hi : i < 8) :
    dequantised q (mirrorBlock b) k i = (if i % 2 = 1 then -1 else 1) * dequantised q b k i := by
  have := dequantised_signs (q := q) (b := b) (s := fun p => decide (p % 8 % 2 = 1)) hk hi (by decide)
  simp only [decide_eq_true_eq] at this
  rw [show (8 * k + i) % 8 = i by omega] at this
  exact this

section

variable {f f' : BaselineFile} {H : Nat}

/-- The samples of the flipped picture. -/
theorem sample_flipped (hf : Flipped f f' H) (h1 : ∀ c ∈ f.comps, c.v = 1 ∧ 0 < c.h) {i Y X : Nat} (hY : Y < f.y)
    (hX : ∀ c, f.comps[i]? = some c → X / 8 / c.h < ceilDiv f.x (8 * H)) :
    sampleBy wrapping f' H i Y X = sampleBy wrapping f H i (f.y - 1 - Y) X := by
  unfold sampleBy
  rcases forall₂_get hf.scales i with ⟨g1, g2⟩ | ⟨c, c', g1, g2, hh, hv, hq⟩
  · rw [g1, g2]
  · obtain ⟨v1, -⟩ := h1 c (List.mem_of_getElem? g1)
    have hw := hf.whole
    have hm := hf.mcus (Y / 8) (X / 8 / c.h) (by omega) (hX c g1)
    rw [show f.y / 8 - 1 - Y / 8 = (f.y - 1 - Y) / 8 by omega] at hm
    unfold BaselineFile.mcuAt at hm
    rw [g1, g2]
    simp only [hq]
    unfold BaselineFile.blockAt
    rw [← hh, ← hv, v1]
    simp only [Nat.div_one, Nat.mod_one, Nat.zero_mul, Nat.zero_add]
    rw [hm]
    cases f.intervals.flatten[(f.y - 1 - Y) / 8 * ceilDiv f.x (8 * H) + X / 8 / c.h]? with
    | none => rfl
    | some m =>
      rw [Option.map_some, Option.bind_some, Option.bind_some, List.getElem?_map]
      cases m[i]? with
      | none => rfl
      | some bs =>
        rw [Option.map_some, Option.bind_some, Option.bind_some, List.getElem?_map]
        cases bs[X / 8 % c.h]? with
        | none => rfl
        | some b =>
          rw [Option.map_some]
          cases f'.quantOf c' with
          | none => rfl
          | some q =>
            simp only [wrapping]
            rw [C88_flip_idct (dequantised q b) (dequantised q (flipBlock b)) (fun k i hk hi => dequantised_flip hk hi)
              (Y % 8) (X % 8) (by omega), show 7 - Y % 8 = (f.y - 1 - Y) % 8 by omega]

/-- Without vertical subsampling a row of the picture comes from one row of the component. -/
theorem upsampled_row {W Ht H ch : Nat} {g g' : Nat → Nat → Nat} {row row' x : Nat} (hc : 1 ≤ ch ∧ ch ≤ 4) (hH : H % ch = 0)
    (hHp : 1 ≤ H) (hx : x < W) (h : ∀ k, k < ceilDiv (W * ch) H → g row k = g' row' k) :
    upsampled W Ht H 1 ch 1 (ceilDiv (W * ch) H) (ceilDiv (Ht * 1) 1) g row x =
      upsampled W Ht H 1 ch 1 (ceilDiv (W * ch) H) (ceilDiv (Ht * 1) 1) g' row' x := by
  have e : ∀ (g : Nat → Nat → Nat) (row : Nat), upsampled W Ht H 1 ch 1 (ceilDiv (W * ch) H) (ceilDiv (Ht * 1) 1) g row x =
      upsampled W 1 H 1 ch 1 (ceilDiv (W * ch) H) (ceilDiv (1 * 1) 1) (fun _ => g row) 0 x := by
    intro g row
    unfold upsampled doubleRows doubleBoth nearest
    simp
  rw [e, e]
  exact upsampled_nextTo hc ⟨by omega, by omega⟩ hH (by omega) hHp (by omega) hx fun r k _ _ hk => h k hk

end

/-- **C88** (upside down). A picture without vertical subsampling that is turned upside down without decoding it, and
whose last MCUs belong to the picture with all their lines: the image is upside down, exactly, whatever the tables and
however the two files are written, on whatever decoders, in every build. -/
theorem C88_flip (cfg : Cfg) (f f' : BaselineFile) (H : Nat) (hf : Flipped f f' H) (codes codes' : List (Code × Code))
    (d₁ d₂ : Decoder) (hd₁ : UsedDecoder d₁) (hd₂ : UsedDecoder d₂) (hh₁ : Holds cfg d₁ f.earlier)
    (hh₂ : Holds cfg d₂ f'.earlier) (n : Nat) (hn₁ : f.Coloured d₁.transform n)
    (hn₂ : f'.Coloured d₂.transform n) (hv₁ : f.Valid (f.interval d₁.restartInterval) H 1 codes)
    (hv₂ : f'.Valid (f'.interval d₂.restartInterval) H 1 codes') (hr₁ : f.Renderable H 1) (hin₁ : f.Moderately) (hin₂ : f'.Moderately) :
    ∃ image image' e₁ e₂, d₁.decode cfg f.bytes = .ok image e₁ ∧ d₂.decode cfg f'.bytes = .ok image' e₂ ∧
      image.length = f.x * f.y * n ∧ image'.length = f.x * f.y * n ∧
      ∀ y x, y < f.y → x < f.x →
        ∀ j, j < n → image'[n * f.x * y + (n * x + j)]? = image[n * f.x * (f.y - 1 - y) + (n * x + j)]? := by
  have hr₂ : f'.Renderable H 1 := by
    intro c' hc'
    obtain ⟨i, hi⟩ := List.mem_iff_getElem?.1 hc'
    rcases forall₂_get hf.scales i with ⟨-, h2⟩ | ⟨c, c'', h1, h2, hh, hv, -⟩
    · rw [hi] at h2; cases h2
    · obtain rfl := Option.some.inj (hi.symm.trans h2)
      have := hr₁ c (List.mem_of_getElem? h1)
      rw [hf.x, hf.y, hh, hv] at this
      exact this
  obtain ⟨image, e₁, a1, a2⟩ := coloured_decodes cfg f H 1 codes d₁ hd₁ hh₁ hn₁ hv₁ hr₁
  obtain ⟨image', e₂, b1, b2⟩ := coloured_decodes cfg f' H 1 codes' d₂ hd₂ hh₂ hn₂ hv₂ hr₂
  refine ⟨image, image', e₁, e₂, a1, b1, a2, by rw [b2, hf.x, hf.y], ?_⟩
  intro y x hy hx j hj
  have hones : ∀ c ∈ f.comps, c.v = 1 ∧ 0 < c.h := by
    intro c hc
    have a := hv₁.factors c hc
    have b : c.v ≤ 1 := hv₁.vmax.1 c hc
    omega
  have hyx : y < f'.y ∧ x < f'.x := by rw [← hf.x, ← hf.y]; exact ⟨hy, hx⟩
  have key := pixel_of_upsampled hd₂ hd₁ hh₂ hh₁ hn₂ hn₁ hv₂ hv₁ hr₂ hr₁ (givenBy_wrapping hin₂) (givenBy_wrapping hin₁) b1 a1 hyx.1 hyx.2
    (y' := f.y - 1 - y) (x' := x) (by omega) hx (j := j) (hj := hj) ?_
  · rw [← hf.x] at key; exact key
  intro i hi
  have hrow : ∀ y, (if cfg.rayon then y / 1 else y / 1 * 1) = y := by intro y; simp
  rw [hrow, hrow]
  unfold upsampledBy
  rcases forall₂_get hf.scales i with ⟨h1, h2⟩ | ⟨c, c', h1, h2, hh, hv, hq⟩
  · rw [h1, h2]
  · have hc := List.mem_of_getElem? h1
    obtain ⟨f1, f2, f3, f4⟩ := hv₁.factors c hc
    have hH : c.h ≤ H := hv₁.hmax.1 c hc
    obtain ⟨m1, -, -, -⟩ := hr₁ c hc
    obtain ⟨v1, -⟩ := hones c hc
    rw [h1, h2]
    simp only [← hh, ← hv, ← hf.x, ← hf.y, v1]
    refine upsampled_row ⟨f1, f2⟩ m1 (by omega) hx ?_
    intro k hk
    rw [sample_flipped hf hones hy]
    intro c'' hc''
    cases h1.symm.trans hc''
    exact lt_mcus (by omega) (by omega) hk

section

variable {f f' : BaselineFile}

theorem saturate_near {a b : Int} (h : |a - b| ≤ 1) : |((saturate a).toNat : Int) - ((saturate b).toNat : Int)| ≤ 1 := by
  have h1 := saturate_toNat a
  have h2 := saturate_toNat b
  rw [abs_le] at *
  omega

/-- The samples of the mirrored picture. -/
theorem sample_mirrored (hf : Mirrored f f') (h1 : ∀ c ∈ f.comps, c.h = 1 ∧ c.v = 1) {i Y X : Nat} (hY : Y < f.y) (hX : X < f.x) :
    |((f'.sample 1 i Y X).toNat : Int) - ((f.sample 1 i Y (f.x - 1 - X)).toNat : Int)| ≤ 1 := by
  unfold BaselineFile.sample
  rcases forall₂_get hf.scales i with ⟨g1, g2⟩ | ⟨c, c', g1, g2, hh, hv, hq⟩
  · rw [g1, g2]; simp
  · obtain ⟨e1, e2⟩ := h1 c (List.mem_of_getElem? g1)
    have hw := hf.whole
    have hm := hf.mcus (Y / 8) (X / 8) (lt_ceilDiv (by decide) (by omega)) (by omega)
    rw [show f.x / 8 - 1 - X / 8 = (f.x - 1 - X) / 8 by omega] at hm
    unfold BaselineFile.mcuAt at hm
    rw [g1, g2]
    simp only [hq]
    unfold BaselineFile.blockAt
    rw [← hh, ← hv, e1, e2]
    simp only [Nat.div_one, Nat.mod_one, Nat.zero_mul, Nat.zero_add]
    rw [hm]
    cases f.intervals.flatten[Y / 8 * ceilDiv f.x (8 * 1) + (f.x - 1 - X) / 8]? with
    | none => simp
    | some m =>
      rw [Option.map_some, Option.bind_some, Option.bind_some, List.getElem?_map]
      cases m[i]? with
      | none => simp
      | some bs =>
        rw [Option.map_some, Option.bind_some, Option.bind_some, List.getElem?_map]
        cases bs[0]? with
        | none => simp
        | some b =>
          rw [Option.map_some]
          cases f'.quantOf c' with
          | none => simp
          | some q =>
            simp only
            rw [show (f.x - 1 - X) % 8 = 7 - X % 8 by omega]
            exact saturate_near (C88_mirror_idct_partial (dequantised q b) (dequantised q (mirrorBlock b))
              (fun k i hk hi => dequantised_mirror hk hi) (Y % 8) (X % 8) (by omega))

end

/-- Samples that differ by at most 1 give channels that differ by at most 3. -/
theorem ycbcr_near {y cb cr y' cb' cr' r g b r' g' b' : UInt8} (h : ycbcrToRgb y cb cr = .ok (r, g, b))
    (h' : ycbcrToRgb y' cb' cr' = .ok (r', g', b')) (h0 : |(y.toNat : Int) - (y'.toNat : Int)| ≤ 1)
    (h1 : |(cb.toNat : Int) - (cb'.toNat : Int)| ≤ 1) (h2 : |(cr.toNat : Int) - (cr'.toNat : Int)| ≤ 1) :
    |(r.toNat : Int) - (r'.toNat : Int)| ≤ 3 ∧ |(g.toNat : Int) - (g'.toNat : Int)| ≤ 3 ∧
      |(b.toNat : Int) - (b'.toNat : Int)| ≤ 3 := by
  rw [ycbcrToRgb_eq] at h h'
  cases h
  cases h'
  rw [abs_le] at h0 h1 h2
  have s := fun v => saturate_toNat v
  refine ⟨?_, ?_, ?_⟩ <;> rw [abs_le, s, s]
  · unfold redSum; omega
  · unfold greenSum; omega
  · unfold blueSum; omega

/-- Inks that differ by at most 1. -/
theorem ink_near {a b : UInt8} (h : |(a.toNat : Int) - (b.toNat : Int)| ≤ 1) :
    |((255 - a).toNat : Int) - ((255 - b).toNat : Int)| ≤ 3 := by
  have e : ∀ v : UInt8, (255 - v).toNat = 255 - v.toNat := by
    intro v
    rw [UInt8.toNat_sub_of_le _ _ (UInt8.le_iff_toNat_le.2 (by have := v.toNat_lt; show v.toNat ≤ 255; omega))]
    rfl
  have := a.toNat_lt
  have := b.toNat_lt
  rw [e, e]
  rw [abs_le] at *
  omega

/-- The pixels at two places of files without subsampling, whose samples differ by at most 1. -/
theorem pixels_near {cfg : Cfg} {f f' : BaselineFile} {codes codes' : List (Code × Code)} {d₁ d₂ e₁ e₂ : Decoder}
    (hd₁ : UsedDecoder d₁) (hd₂ : UsedDecoder d₂) (hh₁ : Holds cfg d₁ f.earlier) (hh₂ : Holds cfg d₂ f'.earlier) {n : Nat}
    (hn₁ : f.Coloured d₁.transform n) (hn₂ : f'.Coloured d₂.transform n)
    (hv₁ : f.Valid (f.interval d₁.restartInterval) 1 1 codes) (hv₂ : f'.Valid (f'.interval d₂.restartInterval) 1 1 codes')
    (hin₁ : f.InRange) (hin₂ : f'.InRange) {image image' : List UInt8} (a : d₁.decode cfg f.bytes = .ok image e₁)
    (a' : d₂.decode cfg f'.bytes = .ok image' e₂) {y x y' x' : Nat} (hy : y < f.y) (hx : x < f.x) (hy' : y' < f'.y)
    (hx' : x' < f'.x) (h : ∀ i, i < n → |((f'.sample 1 i y' x').toNat : Int) - ((f.sample 1 i y x).toNat : Int)| ≤ 1) (j : Nat)
    (hj : j < n) : ∃ v v', image[n * f.x * y + (n * x + j)]? = some v ∧ image'[n * f'.x * y' + (n * x' + j)]? = some v' ∧
      |(v'.toNat : Int) - (v.toNat : Int)| ≤ 3 := by
  have hr₁ := renderable_one hv₁.toLaid.ones
  have hr₂ := renderable_one hv₂.toLaid.ones
  have hrow : ∀ y, (if cfg.rayon then y / 1 else y / 1 * 1) = y := by intro y; simp
  have hup : ∀ (f : BaselineFile) (h1 : ∀ c ∈ f.comps, c.h = 1 ∧ c.v = 1) (h3 : f.comps.length = n) (i y x : Nat), i < n →
      UInt8.ofNat (f.upsampledSample 1 1 i y x) = f.sample 1 i y x := by
    intro f h1 h3 i y x hi
    unfold BaselineFile.upsampledSample
    rw [List.getElem?_eq_getElem (by omega)]
    have o := h1 f.comps[i] (List.getElem_mem _)
    simp only [o.1, o.2]
    unfold upsampled
    rw [if_pos ⟨.inl rfl, .inl rfl⟩]
    simp
  obtain ⟨h3, ⟨rfl, hct₁⟩ | ⟨rfl, hct₁⟩⟩ := hn₁
  · obtain ⟨h3', ⟨-, hct₂⟩ | ⟨h, -⟩⟩ := hn₂
    · obtain ⟨r, g, b, p, p0, p1, p2⟩ := C45_pixels_partial cfg f 1 1 codes d₁ hd₁ hh₁ h3 hct₁ hv₁ hr₁ hin₁ image e₁ a y x hy hx
      obtain ⟨r', g', b', p', p0', p1', p2'⟩ := C45_pixels_partial cfg f' 1 1 codes' d₂ hd₂ hh₂ h3' hct₂ hv₂ hr₂ hin₂ image' e₂
        a' y' x' hy' hx'
      simp only [hrow, hup f hv₁.toLaid.ones h3 0 _ _ (by decide), hup f hv₁.toLaid.ones h3 1 _ _ (by decide),
        hup f hv₁.toLaid.ones h3 2 _ _ (by decide)] at p
      simp only [hrow, hup f' hv₂.toLaid.ones h3' 0 _ _ (by decide), hup f' hv₂.toLaid.ones h3' 1 _ _ (by decide),
        hup f' hv₂.toLaid.ones h3' 2 _ _ (by decide)] at p'
      obtain ⟨k0, k1, k2⟩ := ycbcr_near p' p (h 0 (by decide)) (h 1 (by decide)) (h 2 (by decide))
      rcases (by omega : j = 0 ∨ j = 1 ∨ j = 2) with rfl | rfl | rfl
      · exact ⟨r, r', p0, p0', k0⟩
      · exact ⟨g, g', p1, p1', k1⟩
      · exact ⟨b, b', p2, p2', k2⟩
    · cases h
  · obtain ⟨h3', ⟨h, -⟩ | ⟨-, hct₂⟩⟩ := hn₂
    · cases h
    · have e := C54_pixels_partial cfg f 1 1 codes d₁ hd₁ hh₁ h3 hct₁ hv₁ hr₁ hin₁ image e₁ a y x j hy hx hj
      have e' := C54_pixels_partial cfg f' 1 1 codes' d₂ hd₂ hh₂ h3' hct₂ hv₂ hr₂ hin₂ image' e₂ a' y' x' j hy' hx' hj
      simp only [hrow, hup f hv₁.toLaid.ones h3 j _ _ hj] at e
      simp only [hrow, hup f' hv₂.toLaid.ones h3' j _ _ hj] at e'
      exact ⟨_, _, e, e', ink_near (h j hj)⟩

/-- **C88** (part: left to right). A picture without subsampling that is turned left to right without decoding it, and
whose last MCUs belong to the picture with all their columns: the image is left to right, but for a difference of at
most 3 in each channel.

Missing: exactly so, as for a picture turned upside down; this is false: `C88_mirror_violated`. -/
theorem C88_mirror_partial (cfg : Cfg) (f f' : BaselineFile) (hf : Mirrored f f') (codes codes' : List (Code × Code))
    (d₁ d₂ : Decoder) (hd₁ : UsedDecoder d₁) (hd₂ : UsedDecoder d₂) (hh₁ : Holds cfg d₁ f.earlier)
    (hh₂ : Holds cfg d₂ f'.earlier) (n : Nat) (hn₁ : f.Coloured d₁.transform n)
    (hn₂ : f'.Coloured d₂.transform n) (hv₁ : f.Valid (f.interval d₁.restartInterval) 1 1 codes)
    (hv₂ : f'.Valid (f'.interval d₂.restartInterval) 1 1 codes') (hin₁ : f.InRange) (hin₂ : f'.InRange) :
    ∃ image image' e₁ e₂, d₁.decode cfg f.bytes = .ok image e₁ ∧ d₂.decode cfg f'.bytes = .ok image' e₂ ∧
      image.length = f.x * f.y * n ∧ image'.length = f.x * f.y * n ∧
      ∀ y x, y < f.y → x < f.x → ∀ j, j < n →
        ∃ v v', image[n * f.x * y + (n * (f.x - 1 - x) + j)]? = some v ∧ image'[n * f.x * y + (n * x + j)]? = some v' ∧
          |(v'.toNat : Int) - (v.toNat : Int)| ≤ 3 := by
  have hr₁ := renderable_one hv₁.toLaid.ones
  have hr₂ := renderable_one hv₂.toLaid.ones
  obtain ⟨image, e₁, a1, a2⟩ := coloured_decodes cfg f 1 1 codes d₁ hd₁ hh₁ hn₁ hv₁ hr₁
  obtain ⟨image', e₂, b1, b2⟩ := coloured_decodes cfg f' 1 1 codes' d₂ hd₂ hh₂ hn₂ hv₂ hr₂
  refine ⟨image, image', e₁, e₂, a1, b1, a2, by rw [b2, hf.x, hf.y], ?_⟩
  intro y x hy hx j hj
  have key := pixels_near hd₁ hd₂ hh₁ hh₂ hn₁ hn₂ hv₁ hv₂ hin₁ hin₂ a1 b1 (y := y) (x := f.x - 1 - x) (y' := y) (x' := x) hy
    (by omega) (hf.y ▸ hy) (hf.x ▸ hx) (fun i _ => sample_mirrored hf hv₁.toLaid.ones hy hx) j hj
  rw [← hf.x] at key
  exact key

/-! ## The violation, and cases -/

/-- A block whose rounding depends on the side. -/
def sideBlock : BlockData :=
  ⟨17, (List.range 63).map fun n => if zigzag (n + 1) = 1 then -5 else if zigzag (n + 1) = 25 then 7 else
    if zigzag (n + 1) = 41 then -15 else 0⟩

/-- Its MCU. -/
def sideMcu : Mcu := [[sideBlock], [dcBlock 0], [dcBlock 0]]

/-- A picture of one MCU. -/
def oneMcu (m : Mcu) (data : List UInt8) : BaselineFile := codedFile (List.replicate 64 1) fullComps 8 8 [m] data

theorem side_first : ∀ i < 3, (oneMcu sideMcu []).upsampledSample 1 1 i 1 2 = if i = 0 then 132 else 128 := by decide +kernel

/-- The same left to right. -/
def sideMirrored : Mcu := sideMcu.map fun bs => bs.map mirrorBlock

theorem side_second : ∀ i < 3, (oneMcu sideMirrored []).upsampledSample 1 1 i 1 5 = if i = 0 then 131 else 128 := by
  decide +kernel

/-- The two files. -/
theorem side_files : ∃ data data', Mirrored (oneMcu sideMcu data) (oneMcu sideMirrored data') ∧
    (oneMcu sideMcu data).Valid 0 1 1 (List.replicate fullComps.length (dcK3, acK5)) ∧
    (oneMcu sideMirrored data').Valid 0 1 1 (List.replicate fullComps.length (dcK3, acK5)) ∧
    (oneMcu sideMcu data).InRange ∧ (oneMcu sideMirrored data').InRange := by
  have hq : GoodTable (List.replicate 64 1) := ⟨by decide, by decide⟩
  obtain ⟨data, hv⟩ := codedFile_valid (comps := fullComps) (x := 8) (y := 8) (H := 1) (V := 1) (mcus := [sideMcu]) hq
    ⟨by decide, by decide, by decide, by decide, by decide, ⟨by decide, by decide⟩, ⟨by decide, by decide⟩, by decide,
      by decide, by decide, by decide, by decide⟩ (by decide +kernel)
  obtain ⟨data', hv'⟩ := codedFile_valid (comps := fullComps) (x := 8) (y := 8) (H := 1) (V := 1) (mcus := [sideMirrored]) hq
    ⟨by decide, by decide, by decide, by decide, by decide, ⟨by decide, by decide⟩, ⟨by decide, by decide⟩, by decide,
      by decide, by decide, by decide, by decide⟩ (by decide +kernel)
  refine ⟨data, data', ⟨.cons ⟨rfl, rfl, rfl⟩ (.cons ⟨rfl, rfl, rfl⟩ (.cons ⟨rfl, rfl, rfl⟩ .nil)), rfl, rfl,
    by show 8 % 8 = 0; decide, ?_⟩, hv, hv', codedFile_inRange (by decide) (by decide +kernel),
    codedFile_inRange (by decide) (by decide +kernel)⟩
  intro R C hR hC
  have hR' : R < 1 := by change R < ceilDiv 8 8 at hR; simpa [ceilDiv] using hR
  have hC' : C < 1 := by change C < 8 / 8 at hC; omega
  obtain rfl : R = 0 := by omega
  obtain rfl : C = 0 := by omega
  simp [BaselineFile.mcuAt, oneMcu, codedFile, ceilDiv, sideMirrored]

/-- **C88** (violated). A picture of 8 by 8 pixels and the same left to right: the pixel in line 1, column 2 of the one is
132, that in line 1, column 5 of the other 131. -/
theorem C88_mirror_violated : ∃ (f f' : BaselineFile) (codes : List (Code × Code)), Mirrored f f' ∧ f.comps.length = 3 ∧
    f.Valid 0 1 1 codes ∧ f'.Valid 0 1 1 codes ∧ f.InRange ∧ f'.InRange ∧ f.x = 8 ∧ f.y = 8 ∧
    ∀ cfg, ∃ image image' : List UInt8, decode cfg f.bytes = .ok image ∧ decode cfg f'.bytes = .ok image' ∧
      image[3 * f.x * 1 + 3 * 2]? = some 132 ∧ image'[3 * f.x * 1 + 3 * (f.x - 1 - 2)]? = some 131 := by
  obtain ⟨data, data', hm, hv, hv', hin, hin'⟩ := side_files
  refine ⟨oneMcu sideMcu data, oneMcu sideMirrored data', _, hm, rfl, hv, hv', hin, hin', rfl, rfl, ?_⟩
  intro cfg
  have key : ∀ (m : Mcu) (d : List UInt8) (x s : Nat), x < 8 →
      (oneMcu m d).Valid 0 1 1 (List.replicate fullComps.length (dcK3, acK5)) → (oneMcu m d).InRange →
      (∀ i < 3, (oneMcu m []).upsampledSample 1 1 i 1 x = if i = 0 then s else 128) →
      ∃ image : List UInt8, decode cfg (oneMcu m d).bytes = .ok image ∧ image[3 * 8 * 1 + 3 * x]? = some (UInt8.ofNat s) := by
    intro m d x s hx hv hin hs
    have hr := renderable_one hv.toLaid.ones
    obtain ⟨image, d', e, -⟩ := C45_decodes cfg (oneMcu m d) 1 1 _ Decoder.default .new (.nothing _) rfl (by
      show (none : Option Nat) ≠ some 0; decide) hv hr
    obtain ⟨r, g, b, h, p0, -, -⟩ := C45_pixels_partial cfg (oneMcu m d) 1 1 _ Decoder.default .new (.nothing _) rfl (by
      show (none : Option Nat) ≠ some 0; decide) hv hr hin image d' e 1 x (by show 1 < 8; decide) hx
    refine ⟨image, by unfold decode; rw [e], ?_⟩
    have hu : ∀ i, (oneMcu m d).upsampledSample 1 1 i 1 x = (oneMcu m []).upsampledSample 1 1 i 1 x := fun i => rfl
    have hrow : (if cfg.rayon = true then 1 / 1 else 1 / 1 * 1) = 1 := by split <;> rfl
    simp only [hrow, hu, hs 0 (by decide), hs 1 (by decide), hs 2 (by decide)] at h
    cases (C27_grey (UInt8.ofNat s)).symm.trans h
    exact p0
  obtain ⟨image, e1, p1⟩ := key sideMcu data 2 132 (by decide) hv hin side_first
  obtain ⟨image', e2, p2⟩ := key _ data' 5 131 (by decide) hv' hin' side_second
  exact ⟨image, image', e1, e2, p1, p2⟩

/-- A case of `C88_flip`: two MCUs, one above the other. -/
example : ∃ (f f' : BaselineFile) (image image' : List UInt8), f.intervals ≠ f'.intervals ∧ decode ⟨true, true⟩ f.bytes = .ok image ∧
    decode ⟨true, true⟩ f'.bytes = .ok image' ∧ image.length = 5 * 16 * 3 ∧ image'.length = 5 * 16 * 3 ∧
    ∀ y x j, y < 16 → x < 5 → j < 3 → image'[15 * y + (3 * x + j)]? = image[15 * (15 - y) + (3 * x + j)]? := by
  have hq : GoodTable (List.replicate 64 8) := ⟨by decide, by decide⟩
  obtain ⟨data, hv⟩ := codedFile_valid (comps := fullComps) (x := 5) (y := 16) (H := 1) (V := 1) (mcus := [someMcu, otherMcu]) hq
    ⟨by decide, by decide, by decide, by decide, by decide, ⟨by decide, by decide⟩, ⟨by decide, by decide⟩, by decide,
      by decide, by decide, by decide, by decide⟩ (by decide)
  obtain ⟨data', hv'⟩ := codedFile_valid (comps := fullComps) (x := 5) (y := 16) (H := 1) (V := 1)
    (mcus := [otherMcu.map fun bs => bs.map flipBlock, someMcu.map fun bs => bs.map flipBlock]) hq
    ⟨by decide, by decide, by decide, by decide, by decide, ⟨by decide, by decide⟩, ⟨by decide, by decide⟩, by decide,
      by decide, by decide, by decide, by decide⟩ (by decide +kernel)
  have hf : Flipped (codedFile (List.replicate 64 8) fullComps 5 16 [someMcu, otherMcu] data)
      (codedFile (List.replicate 64 8) fullComps 5 16
        [otherMcu.map fun bs => bs.map flipBlock, someMcu.map fun bs => bs.map flipBlock] data') 1 := by
    refine ⟨.cons ⟨rfl, rfl, rfl⟩ (.cons ⟨rfl, rfl, rfl⟩ (.cons ⟨rfl, rfl, rfl⟩ .nil)), rfl, rfl, by show 16 % 8 = 0; decide, ?_⟩
    intro R C hR hC
    have hR' : R < 2 := by change R < 16 / 8 at hR; omega
    have hC' : C < 1 := by change C < ceilDiv 5 (8 * 1) at hC; simpa [ceilDiv] using hC
    obtain rfl : C = 0 := by omega
    rcases (by omega : R = 0 ∨ R = 1) with rfl | rfl <;> simp [BaselineFile.mcuAt, codedFile, ceilDiv]
  obtain ⟨image, image', e₁, e₂, h1, h2, h3, h4, h5⟩ := C88_flip ⟨true, true⟩ _ _ 1 hf _ _
    Decoder.default Decoder.default .new .new (.nothing _) (.nothing _) 3 ⟨rfl, .inl ⟨rfl, (by show (none : Option Nat) ≠ some 0; decide)⟩⟩
    ⟨rfl, .inl ⟨rfl, (by show (none : Option Nat) ≠ some 0; decide)⟩⟩ hv hv' (renderable_one hv.toLaid.ones)
    (InRange.moderately (codedFile_inRange (by decide) (by decide +kernel))) (InRange.moderately (codedFile_inRange (by decide) (by decide +kernel)))
  refine ⟨_, _, image, image', ?_, by unfold decode; rw [h1], by unfold decode; rw [h2], h3, h4, fun y x j hy hx hj => ?_⟩
  · show [[someMcu, otherMcu]] ≠ [[otherMcu.map fun bs => bs.map flipBlock, someMcu.map fun bs => bs.map flipBlock]]
    decide
  · exact h5 y x hy hx j hj

/-- A case of `C88_mirror_partial`: the picture of the violation. -/
example : ∃ (f f' : BaselineFile) (image image' : List UInt8), decode ⟨true, true⟩ f.bytes = .ok image ∧
    decode ⟨true, true⟩ f'.bytes = .ok image' ∧ image.length = 8 * 8 * 3 ∧
    ∀ y x j, y < 8 → x < 8 → j < 3 → ∃ v v', image[24 * y + (3 * (7 - x) + j)]? = some v ∧
      image'[24 * y + (3 * x + j)]? = some v' ∧ |(v'.toNat : Int) - (v.toNat : Int)| ≤ 3 := by
  obtain ⟨data, data', hm, hv, hv', hin, hin'⟩ := side_files
  obtain ⟨image, image', e₁, e₂, h1, h2, h3, h4, h5⟩ := C88_mirror_partial ⟨true, true⟩ _ _ hm _ _
    Decoder.default Decoder.default .new .new (.nothing _) (.nothing _) 3 ⟨rfl, .inl ⟨rfl, (by show (none : Option Nat) ≠ some 0; decide)⟩⟩
    ⟨rfl, .inl ⟨rfl, (by show (none : Option Nat) ≠ some 0; decide)⟩⟩ hv hv' hin hin'
  exact ⟨_, _, image, image', by unfold decode; rw [h1], by unfold decode; rw [h2], h3, fun y x j hy hx hj => h5 y x hy hx j hj⟩

end Jpeg
