import Verif.Props.RoundTrip
import Verif.Props.Block
import Mathlib.Algebra.Order.Round
/-!
# C64: a file for every picture

A baseline encoder with the typical Huffman tables of T.81 annex K; for every picture it produces a file to
which `C64_round_trip` applies.
-/

namespace Jpeg
open Spec Real Finset

/-! ## Tables -/

/-- T.81 table K.3. -/
def dcK3 : Code := ⟨[0, 1, 5, 1, 1, 1, 1, 1, 1, 0, 0, 0, 0, 0, 0, 0], [0, 1, 2, 3, 4, 5, 6, 7, 8, 9, 10, 11]⟩

/-- T.81 table K.5. -/
def acK5 : Code := ⟨[0, 2, 1, 3, 3, 2, 4, 3, 5, 5, 4, 4, 0, 0, 1, 0x7d],
  [0x01, 0x02, 0x03, 0x00, 0x04, 0x11, 0x05, 0x12, 0x21, 0x31, 0x41, 0x06, 0x13, 0x51, 0x61, 0x07, 0x22, 0x71,
   0x14, 0x32, 0x81, 0x91, 0xa1, 0x08, 0x23, 0x42, 0xb1, 0xc1, 0x15, 0x52, 0xd1, 0xf0, 0x24, 0x33, 0x62, 0x72,
   0x82, 0x09, 0x0a, 0x16, 0x17, 0x18, 0x19, 0x1a, 0x25, 0x26, 0x27, 0x28, 0x29, 0x2a, 0x34, 0x35, 0x36, 0x37,
   0x38, 0x39, 0x3a, 0x43, 0x44, 0x45, 0x46, 0x47, 0x48, 0x49, 0x4a, 0x53, 0x54, 0x55, 0x56, 0x57, 0x58, 0x59,
   0x5a, 0x63, 0x64, 0x65, 0x66, 0x67, 0x68, 0x69, 0x6a, 0x73, 0x74, 0x75, 0x76, 0x77, 0x78, 0x79, 0x7a, 0x83,
   0x84, 0x85, 0x86, 0x87, 0x88, 0x89, 0x8a, 0x92, 0x93, 0x94, 0x95, 0x96, 0x97, 0x98, 0x99, 0x9a, 0xa2, 0xa3,
   0xa4, 0xa5, 0xa6, 0xa7, 0xa8, 0xa9, 0xaa, 0xb2, 0xb3, 0xb4, 0xb5, 0xb6, 0xb7, 0xb8, 0xb9, 0xba, 0xc2, 0xc3,
   0xc4, 0xc5, 0xc6, 0xc7, 0xc8, 0xc9, 0xca, 0xd2, 0xd3, 0xd4, 0xd5, 0xd6, 0xd7, 0xd8, 0xd9, 0xda, 0xe1, 0xe2,
   0xe3, 0xe4, 0xe5, 0xe6, 0xe7, 0xe8, 0xe9, 0xea, 0xf1, 0xf2, 0xf3, 0xf4, 0xf5, 0xf6, 0xf7, 0xf8, 0xf9, 0xfa]⟩

/-- The codes of three components. -/
abbrev codesK : List (Code × Code) := List.replicate 3 (dcK3, acK5)

theorem category_le {v : Int} {m : Nat} (h1 : -2 ^ m < v) (h2 : v < 2 ^ m) : category v ≤ m := by
  unfold category
  split
  · omega
  · rename_i h
    have : v.natAbs < 2 ^ m := by
      have : |v| < 2 ^ m := abs_lt.2 ⟨h1, h2⟩
      rw [Int.abs_eq_natAbs] at this
      exact_mod_cast this
    have := (Nat.log2_lt (by omega)).2 this
    omega

/-! ## Coefficients -/

theorem basis_sum {u : Nat} (hu : u < 8) : ∑ x ∈ range 8, basis u x = if u = 0 then 2 * √2 else 0 := by
  have h0 : ∀ x, basis 0 x = 1 / (2 * √2) := by
    intro x
    unfold basis dctScale
    simp
    ring
  have hs : √2 ≠ 0 := by positivity
  split
  · rename_i h
    subst h
    simp only [h0]
    rw [Finset.sum_const, Finset.card_range, nsmul_eq_mul]
    field_simp
    rw [Real.sq_sqrt (by norm_num)]
    norm_num
  · rename_i h
    have := basis_columns hu (v := 0) (by norm_num)
    rw [if_neg h] at this
    simp only [h0] at this
    rw [← Finset.sum_mul] at this
    rcases mul_eq_zero.1 this with h | h
    · exact h
    · exact absurd h (by positivity)

theorem realFdct_shift (s : Nat → Nat → ℝ) (a : ℝ) {v u : Nat} (hv : v < 8) (hu : u < 8) :
    realFdct (fun y x => s y x - a) v u = realFdct s v u - if v = 0 ∧ u = 0 then 8 * a else 0 := by
  simp only [realFdct_basis]
  have e : ∑ x ∈ range 8, ∑ y ∈ range 8, (s y x - a) * (basis u x * basis v y) =
      ∑ x ∈ range 8, ∑ y ∈ range 8, s y x * (basis u x * basis v y) -
        a * ((∑ x ∈ range 8, basis u x) * ∑ y ∈ range 8, basis v y) := by
    rw [Finset.sum_mul_sum, Finset.mul_sum, ← Finset.sum_sub_distrib]
    refine Finset.sum_congr rfl fun x _ => ?_
    rw [Finset.mul_sum, ← Finset.sum_sub_distrib]
    refine Finset.sum_congr rfl fun y _ => ?_
    ring
  rw [e, basis_sum hu, basis_sum hv]
  congr 1
  by_cases h1 : u = 0 <;> by_cases h2 : v = 0 <;> simp [h1, h2]
  have : √2 * √2 = 2 := Real.mul_self_sqrt (by norm_num)
  linear_combination (4 * a) * this

theorem realFdct_le {s : Nat → Nat → ℝ} {B : ℝ} (hB : 0 ≤ B) (h : ∀ y x, |s y x| ≤ B) {v u : Nat} (hv : v < 8) (hu : u < 8) :
    |realFdct s v u| ≤ 8 * B := by
  apply abs_le_of_sq_le_sq _ (by positivity)
  have h1 : realFdct s v u ^ 2 ≤ ∑ u ∈ range 8, ∑ v ∈ range 8, realFdct s v u ^ 2 := by
    refine le_trans ?_ (Finset.single_le_sum (f := fun u => ∑ v ∈ range 8, realFdct s v u ^ 2)
      (fun i _ => Finset.sum_nonneg fun _ _ => sq_nonneg _) (Finset.mem_range.2 hu))
    exact Finset.single_le_sum (f := fun v => realFdct s v u ^ 2) (fun i _ => sq_nonneg _) (Finset.mem_range.2 hv)
  rw [realFdct_sq] at h1
  have : ∀ x ∈ range 8, ∑ y ∈ range 8, s y x ^ 2 ≤ 8 * B ^ 2 := by
    intro x _
    refine (Finset.sum_le_card_nsmul _ _ (B ^ 2) fun y _ => ?_).trans (by simp)
    have := h y x
    rw [← sq_abs]
    exact pow_le_pow_left₀ (abs_nonneg _) this 2
  refine h1.trans ((Finset.sum_le_card_nsmul _ _ (8 * B ^ 2) this).trans ?_)
  simp; linarith

/-- Coefficients of eight bit samples: eleven bits for DC, AC at most 1020. -/
theorem fdct_range {s : Nat → Nat → ℝ} (hr : ∀ y x, 0 ≤ s y x ∧ s y x ≤ 255) {v u : Nat} (hv : v < 8) (hu : u < 8) :
    -1024 ≤ realFdct (fun y x => s y x - 128) v u ∧ realFdct (fun y x => s y x - 128) v u ≤ 1020 ∧
    (v = 0 ∧ u = 0 → realFdct (fun y x => s y x - 128) v u ≤ 1016) ∧
    (¬ (v = 0 ∧ u = 0) → -1020 ≤ realFdct (fun y x => s y x - 128) v u) := by
  have h1 := realFdct_shift s 128 hv hu
  have h2 := realFdct_shift s (255 / 2) hv hu
  have h3 := realFdct_le (s := fun y x => s y x - 255 / 2) (B := 255 / 2) (by norm_num) (fun y x => by
    have := hr y x
    rw [abs_le]; constructor <;> linarith [this.1, this.2]) hv hu
  rw [abs_le] at h3
  rw [h1]
  rw [h2] at h3
  by_cases h : v = 0 ∧ u = 0
  · rw [if_pos h] at h3 ⊢
    exact ⟨by linarith [h3.1], by linarith [h3.2], fun _ => by linarith [h3.2], fun h' => absurd h h'⟩
  · rw [if_neg h] at h3 ⊢
    exact ⟨by linarith [h3.1], by linarith [h3.2], fun h' => absurd h' h, fun _ => by linarith [h3.1]⟩

/-- The quantised coefficient with number `n`. -/
noncomputable def quantised (q : List Nat) (s : Nat → Nat → ℝ) (n : Nat) : Int :=
  round (realFdct (fun y x => s y x - 128) (zigzag n / 8) (zigzag n % 8) / (q.getD n 0 : Nat))

/-- The block an encoder makes of 64 samples. -/
noncomputable def quantBlock (q : List Nat) (s : Nat → Nat → ℝ) : BlockData :=
  ⟨quantised q s 0, (List.range 63).map fun n => quantised q s (n + 1)⟩

theorem quantBlock_list (q : List Nat) (s : Nat → Nat → ℝ) :
    (quantBlock q s).dc :: (quantBlock q s).zz = (List.range 64).map (quantised q s) := by
  unfold quantBlock
  rw [show (64 : Nat) = 63 + 1 from rfl, List.range_succ_eq_map, List.map_cons, List.map_map]
  rfl

/-- The table has 64 entries from 1 to 255. -/
def GoodTable (q : List Nat) : Prop := q.length = 64 ∧ ∀ v ∈ q, 1 ≤ v ∧ v ≤ 255

theorem GoodTable.getD {q : List Nat} (h : GoodTable q) {n : Nat} (hn : n < 64) : 1 ≤ q.getD n 0 ∧ q.getD n 0 ≤ 255 := by
  have hn' : n < q.length := by rw [h.1]; exact hn
  rw [List.getD_eq_getElem?_getD, List.getElem?_eq_getElem hn']
  exact h.2 _ (List.getElem_mem hn')

theorem quantised_near {q : List Nat} (hq : GoodTable q) (s : Nat → Nat → ℝ) {n : Nat} (hn : n < 64) :
    |(quantised q s n : ℝ) * (q.getD n 0 : Nat) -
      realFdct (fun y x => s y x - 128) (zigzag n / 8) (zigzag n % 8)| ≤ ((q.getD n 0 : Nat) : ℝ) / 2 := by
  have h1 : (0 : ℝ) < (q.getD n 0 : Nat) := by exact_mod_cast (hq.getD hn).1
  unfold quantised
  generalize realFdct (fun y x => s y x - 128) (zigzag n / 8) (zigzag n % 8) = F at *
  generalize ((q.getD n 0 : Nat) : ℝ) = Q at *
  have := abs_sub_round (F / Q)
  rw [show (round (F / Q) : ℝ) * Q - F = -((F / Q - round (F / Q)) * Q) by field_simp; ring, abs_neg, abs_mul,
    abs_of_pos h1]
  nlinarith

theorem zigzag_small {n : Nat} (hn : n < 64) : zigzag n < 64 := by
  have : ∀ n : Fin 64, zigzag n < 64 := by decide +kernel
  exact this ⟨n, hn⟩

theorem zigzag_first {n : Nat} (hn : n < 64) : zigzag n = 0 ↔ n = 0 := by
  have : ∀ n : Fin 64, zigzag n = 0 ↔ n.1 = 0 := by decide +kernel
  exact this ⟨n, hn⟩

theorem quantised_range {q : List Nat} (hq : GoodTable q) {s : Nat → Nat → ℝ}
    (hr : ∀ y x, 0 ≤ s y x ∧ s y x ≤ 255) {n : Nat} (hn : n < 64) :
    -1024 ≤ quantised q s n ∧ quantised q s n ≤ 1020 ∧ (n = 0 → quantised q s n ≤ 1016) ∧
    (n ≠ 0 → -1020 ≤ quantised q s n) := by
  have hz := zigzag_small hn
  obtain ⟨f1, f2, f3, f4⟩ := fdct_range hr (v := zigzag n / 8) (u := zigzag n % 8) (by omega) (by omega)
  have hn0 := zigzag_first hn
  have hcell : (zigzag n / 8 = 0 ∧ zigzag n % 8 = 0) ↔ n = 0 := by rw [← hn0]; omega
  rw [hcell] at f3 f4
  have near := quantised_near hq s hn
  have h1 : (1 : ℝ) ≤ (q.getD n 0 : Nat) := by exact_mod_cast (hq.getD hn).1
  rw [abs_le] at near
  generalize realFdct (fun y x => s y x - 128) (zigzag n / 8) (zigzag n % 8) = F at *
  generalize ((q.getD n 0 : Nat) : ℝ) = Q at *
  generalize quantised q s n = t at *
  have lower : ∀ B : ℤ, 0 ≤ B → -(B : ℝ) ≤ F → -B ≤ t := by
    intro B hB hF
    by_contra hlt
    have : t ≤ -B - 1 := by omega
    have : (t : ℝ) ≤ -B - 1 := by exact_mod_cast this
    have hB' : (0 : ℝ) ≤ B := by exact_mod_cast hB
    nlinarith [near.1, near.2]
  have upper : ∀ B : ℤ, 0 ≤ B → F ≤ (B : ℝ) → t ≤ B := by
    intro B hB hF
    by_contra hlt
    have : B + 1 ≤ t := by omega
    have : (B : ℝ) + 1 ≤ t := by exact_mod_cast this
    have hB' : (0 : ℝ) ≤ B := by exact_mod_cast hB
    nlinarith [near.1, near.2]
  exact ⟨lower 1024 (by norm_num) (by push_cast; exact f1), upper 1020 (by norm_num) (by push_cast; exact f2),
    fun h => upper 1016 (by norm_num) (by push_cast; exact f3 h),
    fun h => lower 1020 (by norm_num) (by push_cast; exact f4 h)⟩

/-! ## Entropy code -/

/-- What the tables of annex K can code. -/
structure Codable (b : BlockData) : Prop where
  length : b.zz.length = 63
  dc : -1024 ≤ b.dc ∧ b.dc ≤ 1016
  ac : ∀ v ∈ b.zz, category v ≤ 10

theorem quantBlock_codable {q : List Nat} (hq : GoodTable q) {s : Nat → Nat → ℝ}
    (hr : ∀ y x, 0 ≤ s y x ∧ s y x ≤ 255) : Codable (quantBlock q s) := by
  refine ⟨by simp [quantBlock], ?_, ?_⟩
  · obtain ⟨h1, -, h2, -⟩ := quantised_range hq hr (n := 0) (by norm_num)
    exact ⟨h1, h2 rfl⟩
  · intro v hv
    obtain ⟨n, hn, rfl⟩ := List.mem_map.1 hv
    have hn := List.mem_range.1 hn
    obtain ⟨-, h1, -, h2⟩ := quantised_range hq hr (n := n + 1) (by omega)
    have h2 := h2 (by omega)
    exact category_le (by norm_num; omega) (by norm_num; omega)

theorem codable_bits {b : BlockData} (h : Codable b) {p : Int} (hp : -1024 ≤ p ∧ p ≤ 1016) :
    ∃ bits, BlocksBits dcK3 acK5 p [b] bits b.dc := by
  have hcd : ∀ c, c ≤ 11 → (dcK3.find c).isSome := by
    have : ∀ c : Fin 12, (dcK3.find c).isSome := by decide +kernel
    exact fun c hc => this ⟨c, by omega⟩
  have hca : ∀ r c, r ≤ 15 → 1 ≤ c → c ≤ 10 → (acK5.find (16 * r + c)).isSome := by
    have : ∀ r : Fin 16, ∀ c : Fin 10, (acK5.find (16 * r + (c + 1))).isSome := by decide +kernel
    intro r c h1 h2 h3
    have := this ⟨r, by omega⟩ ⟨c - 1, by omega⟩
    simpa [Nat.sub_add_cancel h2] using this
  obtain ⟨hd1, hd2⟩ := h.dc
  obtain ⟨bits, e⟩ := C13_encoder_total dcK3 acK5 (b.dc - p) b.zz 10 (by norm_num) hcd (by decide +kernel)
    (by decide +kernel) hca (category_le (by norm_num; omega) (by norm_num; omega)) h.ac
  refine ⟨bits ++ [], .cons (C13_standard_encoder _ _ _ _ _ h.length e) ?_ .nil⟩
  unfold wrap16; omega

theorem mcus_bits : ∀ (ms : List (BlockData × BlockData × BlockData))
    (_ : ∀ m ∈ ms, Codable m.1 ∧ Codable m.2.1 ∧ Codable m.2.2) (p0 p1 p2 : Int) (_ : -1024 ≤ p0 ∧ p0 ≤ 1016)
    (_ : -1024 ≤ p1 ∧ p1 ≤ 1016) (_ : -1024 ≤ p2 ∧ p2 ≤ 1016),
    ∃ bits qs, McusBits codesK [p0, p1, p2] (ms.map fun m => [[m.1], [m.2.1], [m.2.2]]) bits qs
  | [], _, _, _, _, _, _, _ => ⟨_, _, .nil⟩
  | m :: ms, h, p0, p1, p2, h0, h1, h2 => by
    obtain ⟨c0, c1, c2⟩ := h m (by simp)
    obtain ⟨b0, e0⟩ := codable_bits c0 h0
    obtain ⟨b1, e1⟩ := codable_bits c1 h1
    obtain ⟨b2, e2⟩ := codable_bits c2 h2
    obtain ⟨bits, qs, e⟩ := mcus_bits ms (fun m hm => h m (by simp [hm])) _ _ _ c0.dc c1.dc c2.dc
    exact ⟨_, qs, .cons (.cons e0 (.cons e1 (.cons e2 .nil))) e⟩

theorem byte_of_bits (l : List Bool) (h : l.length = 8) : ∃ b : UInt8, bitsN 8 b.toNat = l := by
  obtain ⟨b0, b1, b2, b3, b4, b5, b6, b7, rfl⟩ : ∃ b0 b1 b2 b3 b4 b5 b6 b7 : Bool, l = [b0, b1, b2, b3, b4, b5, b6, b7] := by
    match l, h with
    | [b0, b1, b2, b3, b4, b5, b6, b7], _ => exact ⟨b0, b1, b2, b3, b4, b5, b6, b7, rfl⟩
  refine ⟨UInt8.ofNat (natOfBits [b0, b1, b2, b3, b4, b5, b6, b7]), ?_⟩
  revert b0 b1 b2 b3 b4 b5 b6 b7
  decide +kernel

/-- Packing bits into bytes. -/
theorem pack_bits (l : List Bool) : ∃ (data : List UInt8) (pad : List Bool), pad.length < 8 ∧ bitsOf data = l ++ pad := by
  generalize hn : l.length = n
  induction n using Nat.strongRecOn generalizing l with
  | _ n ih =>
    by_cases h0 : l = []
    · exact ⟨[], [], by simp, by rw [h0]; rfl⟩
    by_cases h8 : l.length < 8
    · have hpos : 0 < l.length := List.length_pos_iff.2 h0
      obtain ⟨b, hb⟩ := byte_of_bits (l ++ List.replicate (8 - l.length) true) (by simp; omega)
      exact ⟨[b], List.replicate (8 - l.length) true, by simp; omega, by simpa [bitsOf] using hb⟩
    · obtain ⟨b, hb⟩ := byte_of_bits (l.take 8) (by simp; omega)
      obtain ⟨data, pad, h1, h2⟩ := ih (l.drop 8).length (by simp; omega) (l.drop 8) rfl
      refine ⟨b :: data, pad, h1, ?_⟩
      show bitsN 8 b.toNat ++ bitsOf data = _
      rw [hb, h2, ← List.append_assoc, List.take_append_drop]

/-! ## The file -/

/-- The part of a component that a block covers. -/
def covered (s : Nat → Nat → ℝ) (row col : Nat) (y x : Nat) : ℝ := s (8 * row + y) (8 * col + x)

/-- The blocks of MCU `n`. -/
noncomputable def tripleAt (q0 q1 : List Nat) (s : Nat → Nat → Nat → ℝ) (w n : Nat) :
    BlockData × BlockData × BlockData :=
  (quantBlock q0 (covered (s 0) (n / w) (n % w)), quantBlock q1 (covered (s 1) (n / w) (n % w)),
    quantBlock q1 (covered (s 2) (n / w) (n % w)))

/-- The blocks of the file. -/
noncomputable def triples (q0 q1 : List Nat) (s : Nat → Nat → Nat → ℝ) (w h : Nat) :
    List (BlockData × BlockData × BlockData) :=
  (List.range (w * h)).map (tripleAt q0 q1 s w)

/-- Its components: the first with quantisation table 0, the others with table 1. -/
def filesComps : List FileComponent := [⟨⟨1, 1, 1, 0⟩, 0, 0⟩, ⟨⟨2, 1, 1, 1⟩, 0, 0⟩, ⟨⟨3, 1, 1, 1⟩, 0, 0⟩]

/-- The file with entropy coded data `data`. -/
noncomputable def fileFor (q0 q1 : List Nat) (s : Nat → Nat → Nat → ℝ) (x y : Nat) (data : List UInt8) :
    BaselineFile where
  before := [.adobe 100 0 0 1, .dqt [⟨false, 0, q0⟩, ⟨false, 1, q1⟩]]
  sof := 0
  precision := 8
  y := y
  x := x
  comps := filesComps
  after := [.dht [⟨false, 0, dcK3.counts, dcK3.values⟩, ⟨true, 0, acK5.counts, acK5.values⟩], .dri 0]
  intervals := [(triples q0 q1 s (ceilDiv x 8) (ceilDiv y 8)).map fun m => [[m.1], [m.2.1], [m.2.2]]]
  data := stuff data ++ markerBytes .EOI

theorem fileFor_valid {q0 q1 : List Nat} (h0 : GoodTable q0) (h1 : GoodTable q1) {s : Nat → Nat → Nat → ℝ}
    (hr : ∀ i Y X, 0 ≤ s i Y X ∧ s i Y X ≤ 255) {x y : Nat} (hx : 1 ≤ x) (hx' : x < 2 ^ 16) (hy : y < 2 ^ 16) :
    ∃ data, (fileFor q0 q1 s x y data).Valid 0 1 1 codesK := by
  have hc : ∀ m ∈ triples q0 q1 s (ceilDiv x 8) (ceilDiv y 8), Codable m.1 ∧ Codable m.2.1 ∧ Codable m.2.2 := by
    intro m hm
    obtain ⟨n, -, rfl⟩ := List.mem_map.1 hm
    exact ⟨quantBlock_codable h0 fun _ _ => hr _ _ _, quantBlock_codable h1 fun _ _ => hr _ _ _,
      quantBlock_codable h1 fun _ _ => hr _ _ _⟩
  obtain ⟨bits, qs, hb⟩ := mcus_bits _ hc 0 0 0 (by omega) (by omega) (by omega)
  obtain ⟨data, pad, hp, hd⟩ := pack_bits bits
  have hcomps : (fileFor q0 q1 s x y data).comps = filesComps := rfl
  refine ⟨data, ⟨?_, Nat.zero_le 1, ⟨hx, hx'⟩, hy, by rw [hcomps]; decide, by rw [hcomps]; decide,
    by rw [hcomps]; decide, by rw [hcomps]; exact ⟨by decide, by decide⟩,
    by rw [hcomps]; exact ⟨by decide, by decide⟩, by rw [hcomps]; decide, fun _ => ⟨rfl, rfl⟩, ?_, ?_, ?_, ?_, ?_⟩,
    ⟨0, .last ⟨bits, pad, qs, hb, hd⟩⟩⟩
  · intro t ht
    simp only [fileFor, BaselineFile.tables, BaselineFile.segments, List.cons_append, List.nil_append, List.mem_cons,
      List.not_mem_nil, or_false] at ht
    have hq : ∀ q, GoodTable q → ∀ dest, dest ≤ 3 → (⟨false, dest, q⟩ : QuantDef).Ok := by
      intro q hq dest hdest
      refine ⟨hdest, hq.1, fun v hv => ?_⟩
      have := (hq.2 v hv).2
      show v < 256
      omega
    rcases ht with rfl | rfl | rfl | rfl
    · exact ⟨by decide, by decide⟩
    · refine ⟨?_, ?_⟩
      · simp [TableSegment.content, QuantDef.bytes, h0.1, h1.1]
      · intro t ht
        simp only [List.mem_cons, List.not_mem_nil, or_false] at ht
        rcases ht with rfl | rfl
        · exact hq _ h0 _ (by decide)
        · exact hq _ h1 _ (by decide)
    · refine ⟨by decide +kernel, ?_⟩
      intro t ht
      simp only [List.mem_cons, List.not_mem_nil, or_false] at ht
      rcases ht with rfl | rfl
      · exact ⟨⟨by decide, by decide, by decide⟩, by decide, by decide, by unfold KraftOk; decide +kernel⟩
      · exact ⟨⟨by decide, by decide, by decide +kernel⟩, by decide +kernel, by decide +kernel, by unfold KraftOk; decide +kernel⟩
    · exact ⟨by decide, by show (0 : Nat) < 65536; decide⟩
  · intro c hc
    simp only [fileFor, filesComps, List.mem_cons, List.not_mem_nil, or_false] at hc
    rcases hc with rfl | rfl | rfl
    · exact ⟨q0, rfl⟩
    · exact ⟨q1, rfl⟩
    · exact ⟨q1, rfl⟩
  · exact .cons ⟨rfl, rfl⟩ (.cons ⟨rfl, rfl⟩ (.cons ⟨rfl, rfl⟩ .nil))
  · simp [fileFor, triples]
  · intro m hm
    simp only [fileFor, List.flatten_cons, List.flatten_nil, List.append_nil] at hm
    obtain ⟨t, -, rfl⟩ := List.mem_map.1 hm
    rfl
  · unfold IntervalsOk
    rw [if_pos rfl]; rfl

theorem quantBlock_near {q : List Nat} (hq : GoodTable q) (s : Nat → Nat → ℝ) {k j : Nat} (hk : k < 8) (hj : j < 8) :
    |(dequantised q (quantBlock q s) k j : ℝ) - realFdct (fun y x => s y x - 128) k j| ≤ (tableEntry q k j : ℝ) / 2 := by
  obtain ⟨h1, h2⟩ := zigzag_idxOf (p := 8 * k + j) (by omega)
  have := quantised_near hq s h1
  unfold dequantised tableEntry
  rw [quantBlock_list]
  simp only
  rw [List.getD_eq_getElem?_getD (l := (List.range 64).map (quantised q s)), List.getElem?_map, List.getElem?_range h1,
    Option.map_some, Option.getD_some]
  rw [h2, show (8 * k + j) / 8 = k by omega, show (8 * k + j) % 8 = j by omega] at this
  push_cast
  exact this

theorem fileFor_encoded {q0 q1 : List Nat} (h0 : GoodTable q0) (h1 : GoodTable q1) {s : Nat → Nat → Nat → ℝ}
    (hr : ∀ i Y X, 0 ≤ s i Y X ∧ s i Y X ≤ 255) {x y : Nat} (data : List UInt8) :
    EncodedFrom (fileFor q0 q1 s x y data) s := by
  refine ⟨hr, ?_⟩
  intro i c q hc hq row col b hrow hcol hb k j hk hj
  have hrow : row < ceilDiv y 8 := hrow
  have hcol : col < ceilDiv x 8 := hcol
  have hidx : row * ceilDiv x 8 + col < ceilDiv x 8 * ceilDiv y 8 := by
    calc row * ceilDiv x 8 + col < row * ceilDiv x 8 + ceilDiv x 8 := by omega
      _ = (row + 1) * ceilDiv x 8 := by rw [Nat.add_mul, Nat.one_mul]
      _ ≤ ceilDiv y 8 * ceilDiv x 8 := Nat.mul_le_mul_right _ hrow
      _ = _ := Nat.mul_comm _ _
  have hdiv : (row * ceilDiv x 8 + col) / ceilDiv x 8 = row := by
    rw [Nat.add_comm, Nat.add_mul_div_right _ _ (by omega), Nat.div_eq_of_lt hcol, Nat.zero_add]
  have hmod : (row * ceilDiv x 8 + col) % ceilDiv x 8 = col := by
    rw [Nat.add_comm, Nat.add_mul_mod_self_right, Nat.mod_eq_of_lt hcol]
  have hm : (fileFor q0 q1 s x y data).intervals.flatten[row * ceilDiv x 8 + col]? =
      some [[(tripleAt q0 q1 s (ceilDiv x 8) (row * ceilDiv x 8 + col)).1],
        [(tripleAt q0 q1 s (ceilDiv x 8) (row * ceilDiv x 8 + col)).2.1],
        [(tripleAt q0 q1 s (ceilDiv x 8) (row * ceilDiv x 8 + col)).2.2]] := by
    simp only [fileFor, List.flatten_cons, List.flatten_nil, List.append_nil, triples]
    rw [List.getElem?_map, List.getElem?_map, List.getElem?_range hidx]
    rfl
  simp only [tripleAt, hdiv, hmod] at hm
  unfold BaselineFile.blockAt at hb
  rw [Nat.mul_div_cancel_left _ (by norm_num), Nat.mul_div_cancel_left _ (by norm_num)] at hb
  match i, hc with
  | 0, hc =>
    cases (Option.some.inj hc)
    simp only [Nat.div_one, Nat.mod_one, Nat.mul_one] at hb
    have hb := (congrArg (fun o => Option.bind o _) hm).symm.trans hb
    cases (Option.some.inj hb)
    cases (Option.some.inj hq)
    exact quantBlock_near h0 _ hk hj
  | 1, hc =>
    cases (Option.some.inj hc)
    simp only [Nat.div_one, Nat.mod_one, Nat.mul_one] at hb
    have hb := (congrArg (fun o => Option.bind o _) hm).symm.trans hb
    cases (Option.some.inj hb)
    cases (Option.some.inj hq)
    exact quantBlock_near h1 _ hk hj
  | 2, hc =>
    cases (Option.some.inj hc)
    simp only [Nat.div_one, Nat.mod_one, Nat.mul_one] at hb
    have hb := (congrArg (fun o => Option.bind o _) hm).symm.trans hb
    cases (Option.some.inj hb)
    cases (Option.some.inj hq)
    exact quantBlock_near h1 _ hk hj
  | i + 3, hc => cases hc

/-- Samples of a picture: components of the nearest pixel inside it, limited to 255 (the differences reach
255.5). -/
noncomputable def samplesOf (r g b : Nat → Nat → ℝ) (w h i Y X : Nat) : ℝ :=
  let p := fun (f : Nat → Nat → ℝ) => f (min Y (h - 1)) (min X (w - 1))
  match i with
  | 0 => lumaOf (p r) (p g) (p b)
  | 1 => min 255 (cbOf (p r) (p g) (p b))
  | _ => min 255 (crOf (p r) (p g) (p b))

/-- **C64** (every picture). For every picture, of any size up to 65535 by 65535, and all quantisation tables
(up to length 500) there is a baseline file, with the typical Huffman tables of annex K, that every decoder, in
whatever state earlier files left it, turns into that picture up to the error of `C64_round_trip`. -/
theorem C64_every_picture (x y : Nat) (hx : 1 ≤ x) (hx' : x < 2 ^ 16) (hy : 1 ≤ y) (hy' : y < 2 ^ 16)
    (r g b : Nat → Nat → ℝ)
    (hrgb : ∀ Y X, (0 ≤ r Y X ∧ r Y X ≤ 255) ∧ (0 ≤ g Y X ∧ g Y X ≤ 255) ∧ (0 ≤ b Y X ∧ b Y X ≤ 255))
    (q0 q1 : List Nat) (h0 : GoodTable q0) (h1 : GoodTable q1) (n0 : tableNorm q0 ≤ 500) (n1 : tableNorm q1 ≤ 500) :
    let luma := 19 / 6 + tableNorm q0 / 2
    let chroma := 19 / 6 + tableNorm q1 / 2
    ∃ file, ∀ (cfg : Cfg) (d : Decoder), UsedDecoder d →
      ∃ image d', d.decode cfg file = .ok image d' ∧ image.length = x * y * 3 ∧
        ∀ Y X, Y < y → X < x → ∃ r' g' b' : UInt8,
          image[3 * x * Y + 3 * X]? = some r' ∧
          image[3 * x * Y + (3 * X + 1)]? = some g' ∧
          image[3 * x * Y + (3 * X + 2)]? = some b' ∧
          |(r'.toNat : ℝ) - r Y X| ≤ 251 / 500 + (luma + 1402 / 1000 * chroma) ∧
          |(g'.toNat : ℝ) - g Y X| ≤ 252 / 500 + (luma + 34414 / 100000 * chroma + 71414 / 100000 * chroma) ∧
          |(b'.toNat : ℝ) - b Y X| ≤ 251 / 500 + (luma + 1772 / 1000 * chroma) := by
  intro luma chroma
  have hr : ∀ i Y X, 0 ≤ samplesOf r g b x y i Y X ∧ samplesOf r g b x y i Y X ≤ 255 := by
    intro i Y X
    obtain ⟨hr, hg, hb⟩ := hrgb (min Y (y - 1)) (min X (x - 1))
    unfold samplesOf
    split
    · unfold lumaOf; constructor <;> linarith [hr.1, hr.2, hg.1, hg.2, hb.1, hb.2]
    · unfold cbOf lumaOf
      refine ⟨le_min (by norm_num) ?_, min_le_left _ _⟩
      linarith [hr.1, hr.2, hg.1, hg.2, hb.1, hb.2]
    · unfold crOf lumaOf
      refine ⟨le_min (by norm_num) ?_, min_le_left _ _⟩
      linarith [hr.1, hr.2, hg.1, hg.2, hb.1, hb.2]
  obtain ⟨data, hv⟩ := fileFor_valid h0 h1 hr hx hx' hy'
  refine ⟨(fileFor q0 q1 (samplesOf r g b x y) x y data).bytes, fun cfg d hd => ?_⟩
  obtain ⟨image, d', e, hl, h⟩ := C64_round_trip cfg (fileFor q0 q1 (samplesOf r g b x y) x y data) codesK d hd
    (.nothing _) rfl (by show some 1 ≠ some 0; decide) hv _ (fileFor_encoded h0 h1 hr data)
    (fun i => if i = 0 then tableNorm q0 else tableNorm q1) (by
      intro i c q hc hq
      match i, hc with
      | 0, hc =>
        cases (Option.some.inj hc)
        cases (Option.some.inj hq)
        exact ⟨le_refl _, n0⟩
      | 1, hc =>
        cases (Option.some.inj hc)
        cases (Option.some.inj hq)
        exact ⟨le_refl _, n1⟩
      | 2, hc =>
        cases (Option.some.inj hc)
        cases (Option.some.inj hq)
        exact ⟨le_refl _, n1⟩
      | i + 3, hc => cases hc)
    r g b (1 / 2) (fun Y X _ _ => hrgb Y X) (by
      intro Y X hY hX
      have hY : Y < y := hY
      have hX : X < x := hX
      obtain ⟨hr, hg, hb⟩ := hrgb Y X
      have m1 : min Y (y - 1) = Y := by omega
      have m2 : min X (x - 1) = X := by omega
      have near : ∀ v : ℝ, v ≤ 255 + 1 / 2 → |min 255 v - v| ≤ 1 / 2 := by
        intro v hv
        rw [abs_le]
        rcases le_total v 255 with h | h
        · rw [min_eq_right h]; constructor <;> linarith
        · rw [min_eq_left h]; constructor <;> linarith
      unfold samplesOf
      simp only [m1, m2]
      refine ⟨by simp, near _ ?_, near _ ?_⟩
      · unfold cbOf lumaOf; linarith [hr.1, hr.2, hg.1, hg.2, hb.1, hb.2]
      · unfold crOf lumaOf; linarith [hr.1, hr.2, hg.1, hg.2, hb.1, hb.2])
  refine ⟨image, d', e, hl, fun Y X hY hX => ?_⟩
  obtain ⟨r', g', b', a1, a2, a3, a4, a5, a6⟩ := h Y X hY hX
  simp only [if_pos, if_neg (show ¬ (1 = 0) by decide), if_neg (show ¬ (2 = 0) by decide)] at a4 a5 a6
  refine ⟨r', g', b', a1, a2, a3, a4.trans ?_, a5.trans ?_, a6.trans ?_⟩ <;> (simp only [luma, chroma]; linarith)

/-- **C64** (nearest). With tables of ones: every picture can be stored so that every channel of every pixel
is decoded to within 21 of 255. -/
theorem C64_every_picture_nearest (x y : Nat) (hx : 1 ≤ x) (hx' : x < 2 ^ 16) (hy : 1 ≤ y) (hy' : y < 2 ^ 16)
    (r g b : Nat → Nat → UInt8) :
    ∃ file, ∀ (cfg : Cfg) (d : Decoder), UsedDecoder d →
      ∃ image d', d.decode cfg file = .ok image d' ∧ image.length = x * y * 3 ∧
        ∀ Y X, Y < y → X < x → ∃ r' g' b' : UInt8,
          image[3 * x * Y + 3 * X]? = some r' ∧
          image[3 * x * Y + (3 * X + 1)]? = some g' ∧
          image[3 * x * Y + (3 * X + 2)]? = some b' ∧
          |(r'.toNat : ℤ) - (r Y X).toNat| ≤ 17 ∧
          |(g'.toNat : ℤ) - (g Y X).toNat| ≤ 15 ∧
          |(b'.toNat : ℤ) - (b Y X).toNat| ≤ 20 := by
  have hb : ∀ c : UInt8, (0 : ℝ) ≤ (c.toNat : ℝ) ∧ (c.toNat : ℝ) ≤ 255 := by
    intro c
    have : c.toNat ≤ 255 := by have := c.toNat_lt; omega
    exact ⟨by positivity, by exact_mod_cast this⟩
  have hg : GoodTable (List.replicate 64 1) := ⟨by simp, fun v hv => by rw [List.eq_of_mem_replicate hv]; omega⟩
  have hn : tableNorm (List.replicate 64 1) = 8 := by
    have h : ∑ j ∈ range 8, ∑ k ∈ range 8, tableEntry (List.replicate 64 1) k j ^ 2 = 64 := by decide +kernel
    have h' : ∑ j ∈ range 8, ∑ k ∈ range 8, (tableEntry (List.replicate 64 1) k j : ℝ) ^ 2 = 64 := by exact_mod_cast h
    unfold tableNorm
    rw [h', show (64 : ℝ) = 8 ^ 2 by norm_num, Real.sqrt_sq (by norm_num)]
  obtain ⟨file, h⟩ := C64_every_picture x y hx hx' hy hy' (fun Y X => ((r Y X).toNat : ℝ)) (fun Y X => ((g Y X).toNat : ℝ))
    (fun Y X => ((b Y X).toNat : ℝ)) (fun Y X => ⟨hb _, hb _, hb _⟩) _ _ hg hg (by rw [hn]; norm_num) (by rw [hn]; norm_num)
  refine ⟨file, fun cfg d hd => ?_⟩
  obtain ⟨image, d', e, hl, h⟩ := h cfg d hd
  refine ⟨image, d', e, hl, fun Y X hY hX => ?_⟩
  obtain ⟨r', g', b', a1, a2, a3, a4, a5, a6⟩ := h Y X hY hX
  rw [hn] at a4 a5 a6
  have lift : ∀ (m n B : ℤ), |(m : ℝ) - n| < B + 1 → |m - n| ≤ B := by
    intro m n B h
    have : (((|m - n| : ℤ)) : ℝ) < ((B + 1 : ℤ) : ℝ) := by push_cast; exact h
    have : |m - n| < B + 1 := by exact_mod_cast this
    omega
  refine ⟨r', g', b', a1, a2, a3, lift _ _ _ ?_, lift _ _ _ ?_, lift _ _ _ ?_⟩
  · push_cast; exact a4.trans_lt (by norm_num)
  · push_cast; exact a5.trans_lt (by norm_num)
  · push_cast; exact a6.trans_lt (by norm_num)

end Jpeg
