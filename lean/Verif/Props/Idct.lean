import Verif.Proofs.Idct
/-!
# C21 to C25, C48, C49: the inverse DCT and the clamp

`coefAt c q k i` is the dequantised coefficient in row `k`, column `i` of the block. A sample
computed as the integer `v` is `saturate v` as long as `v` is in `-256..767`; the clamp table of the
decoder repeats with period 1024 outside (`window`).
-/

namespace Jpeg
open Spec

/-- What the clamp table does to values outside its window. -/
def window (v : Int) : Int := (v + 256) % 1024 - 256

theorem window_id {v : Int} (h : -256 ≤ v ∧ v ≤ 767) : window v = v := by unfold window; omega

/-! ## C21 -/

/-- **C21.** For every block and every table the transform finds all its intermediate values
written, and returns eight rows of eight samples. -/
theorem C21_all_initialised (c : List Int) (q : List Nat) :
    ∃ rows, idct8x8 c q = .ok rows ∧ rows.length = 8 ∧ ∀ row ∈ rows, row.length = 8 := by
  rw [idct8x8_temp, idctRows_range]
  refine ⟨_, rfl, by simp, ?_⟩
  intro row hrow
  simp only [List.mem_map] at hrow
  obtain ⟨r, -, rfl⟩ := hrow
  unfold idctRow
  split <;> rfl

/-- **C21** (clamp table). The unchecked index is inside the table for every 32 bit value. -/
theorem C21_clamp_index (x : W32) : clampIndex x < CLAMP_TABLE.length := by
  have : CLAMP_TABLE.length = 1024 := by decide +kernel
  rw [this, clampIndex, BitVec.toNat_and]
  exact lt_of_le_of_lt Nat.and_le_right (by decide)

/-- **C21** (the addition in front of the clamp table). All arguments of `stbi_clamp` are results of shifts by 17 or 3
or of the division by 8; adding 256 to those does not leave `i32`, so the checked addition does not panic and is the
one of the model. -/
theorem C21_clamp_add (x : W32) : ∀ v ∈ [x.sshiftRight 17, x.sshiftRight 3, x.sdiv 8#32],
    -2 ^ 31 ≤ v.toInt + 256 ∧ v.toInt + 256 < 2 ^ 31 ∧ (v + 256#32).toInt = v.toInt + 256 := by
  have hx : -2 ^ 31 ≤ x.toInt ∧ x.toInt < 2 ^ 31 := ⟨BitVec.le_toInt x, BitVec.toInt_lt⟩
  have key : ∀ v : W32, -2 ^ 28 ≤ v.toInt → v.toInt ≤ 2 ^ 28 →
      -2 ^ 31 ≤ v.toInt + 256 ∧ v.toInt + 256 < 2 ^ 31 ∧ (v + 256#32).toInt = v.toInt + 256 := by
    intro v h1 h2
    refine ⟨by omega, by omega, ?_⟩
    rw [BitVec.toInt_add, show (256#32).toInt = 256 by decide, Int.bmod_eq_of_le (by omega) (by omega)]
  intro v hv
  simp only [List.mem_cons, List.not_mem_nil, or_false] at hv
  rcases hv with rfl | rfl | rfl
  · apply key <;> rw [BitVec.toInt_sshiftRight, Int.shiftRight_eq_div_pow] <;> omega
  · apply key <;> rw [BitVec.toInt_sshiftRight, Int.shiftRight_eq_div_pow] <;> omega
  · have b : -2 ^ 28 ≤ x.toInt.tdiv 8 ∧ x.toInt.tdiv 8 ≤ 2 ^ 28 := by
      rw [Int.tdiv_eq_ediv, show (8 : Int).sign = 1 by decide]
      split <;> omega
    have e : (x.sdiv 8#32).toInt = x.toInt.tdiv 8 := by
      rw [BitVec.toInt_sdiv, show (8#32).toInt = 8 by decide, Int.bmod_eq_of_le] <;> omega
    apply key <;> rw [e] <;> omega

/-- The largest values. -/
example : (BitVec.ofInt 32 (2 ^ 31 - 1)).sdiv 8#32 + 256#32 = 268435711#32 := by decide

/-- **C21** (products). Dequantisation of an `i16` by a `u16` does not overflow an `i32`. -/
theorem C21_dequant_exact (c : Int) (q : Nat) (h1 : -2 ^ 15 ≤ c) (h2 : c < 2 ^ 15) (hq : q < 2 ^ 16) :
    (dequant c q).toInt = c * q := by
  rw [dequant_cast]
  have hq' : (q : Int) ≤ 2 ^ 16 - 1 := by omega
  apply toInt_cast
  · have : -(2 ^ 15) * (2 ^ 16 - 1) ≤ c * (q : Int) := by
      have a : -(2 ^ 15) * (q : Int) ≤ c * q := by
        apply Int.mul_le_mul_of_nonneg_right <;> omega
      omega
    omega
  · have : c * (q : Int) ≤ (2 ^ 15) * (q : Int) := by
      apply Int.mul_le_mul_of_nonneg_right <;> omega
    omega

/-! ## C22 -/

/-- Only the first coefficient of the block is present. -/
def DcOnly (c : List Int) : Prop := ∀ i, 1 ≤ i → i < 64 → coef c i = 0

theorem DcOnly.coefAt {c : List Int} (h : DcOnly c) (q : List Nat) {k i : Nat} (hk : k < 8) (hi : i < 8)
    (hne : (k, i) ≠ (0, 0)) : coefAt c q k i = 0 := by
  unfold Jpeg.coefAt
  rw [h (i + 8 * k) (by simp only [ne_eq, Prod.mk.injEq, not_and] at hne; omega) (by omega), Int.zero_mul]

theorem DcOnly.columns {c : List Int} (h : DcOnly c) (q : List Nat) : ∀ i, i < 8 → ColumnOk c q i :=
  fun i hi => .inl fun k h1 h2 => h (i + 8 * k) (by omega) (by omega)

/-- **C22** (any product). A block with only a DC coefficient becomes 64 equal samples, whatever the
coefficient and the table: 128 plus the dequantised coefficient divided by eight and rounded, put
through the clamp table. -/
theorem C22_flat (c : List Int) (q : List Nat) (h : DcOnly c) :
    idct8x8 c q = .ok (List.replicate 8 (List.replicate 8
      (saturate (window ((coef c 0 * quant q 0 + 4) / 8 + 128))))) := by
  rw [idct8x8_exact (h.columns q)]
  congr 1
  rw [show ∀ v : UInt8, List.replicate 8 (List.replicate 8 v) =
    (List.range 8).map fun _ => (List.range 8).map fun _ => v from fun _ => rfl]
  apply List.map_congr_left
  intro r hr
  apply List.map_congr_left
  intro x hx
  rw [List.mem_range] at hr hx
  rw [idctSample_dc hr hx fun k i hk hi hne => h.coefAt q hk hi hne]
  rfl

/-- **C22.** For dequantised values whose sample is at most 256 below or 512 above the sample range
it is the saturated value. -/
theorem C22_flat_saturated (c : List Int) (q : List Nat) (h : DcOnly c)
    (h1 : -3076 ≤ coef c 0 * quant q 0) (h2 : coef c 0 * quant q 0 ≤ 5115) :
    idct8x8 c q = .ok (List.replicate 8 (List.replicate 8
      (saturate ((coef c 0 * quant q 0 + 4) / 8 + 128)))) := by
  rw [C22_flat c q h, window_id (by omega)]

/-- The bound of `C22_flat_saturated` is exact: at 5116 the sample is black instead of white, at
-3077 white instead of black. -/
theorem C22_beyond_bound :
    idct8x8 (5116 :: List.replicate 63 0) (List.replicate 64 1) =
      .ok (List.replicate 8 (List.replicate 8 0)) ∧
    idct8x8 (-3077 :: List.replicate 63 0) (List.replicate 64 1) =
      .ok (List.replicate 8 (List.replicate 8 255)) := by
  decide +kernel

example : DcOnly (-37 :: List.replicate 63 0) ∧
    idct8x8 (-37 :: List.replicate 63 0) (16 :: List.replicate 63 1) =
      .ok (List.replicate 8 (List.replicate 8 54)) := by
  refine ⟨?_, by decide +kernel⟩
  intro i h1 h2
  obtain ⟨j, rfl⟩ : ∃ j, i = j + 1 := ⟨i - 1, by omega⟩
  simp only [coef, List.getElem?_cons_succ, List.getElem?_replicate]
  split <;> rfl

/-! ## C23 -/

/-- The column pass with the shortcut left out. -/
def plainColumn (c : List Int) (q : List Nat) (i : Nat) : List W32 :=
  let s := fun k => dequant (coef c (i + 8 * k)) (quant q (i + 8 * k))
  let k := kernel (s 0) (s 1) (s 2) (s 3) (s 4) (s 5) (s 6) (s 7) 512#32
  [(k.x0 + k.t3).sshiftRight 10, (k.x1 + k.t2).sshiftRight 10,
   (k.x2 + k.t1).sshiftRight 10, (k.x3 + k.t0).sshiftRight 10,
   (k.x3 - k.t0).sshiftRight 10, (k.x2 - k.t1).sshiftRight 10,
   (k.x1 - k.t2).sshiftRight 10, (k.x0 - k.t3).sshiftRight 10]

/-- The row pass with the shortcut left out. -/
def plainRow (s : Nat → W32) : List UInt8 :=
  let k := kernel (s 0) (s 1) (s 2) (s 3) (s 4) (s 5) (s 6) (s 7) X_SCALE
  [stbiClamp ((k.x0 + k.t3).sshiftRight 17), stbiClamp ((k.x1 + k.t2).sshiftRight 17),
   stbiClamp ((k.x2 + k.t1).sshiftRight 17), stbiClamp ((k.x3 + k.t0).sshiftRight 17),
   stbiClamp ((k.x3 - k.t0).sshiftRight 17), stbiClamp ((k.x2 - k.t1).sshiftRight 17),
   stbiClamp ((k.x1 - k.t2).sshiftRight 17), stbiClamp ((k.x0 - k.t3).sshiftRight 17)]

/-- The transform without shortcuts. -/
def plainIdct (c : List Int) (q : List Nat) : List (List UInt8) :=
  (List.range 8).map fun r => plainRow fun i => ((plainColumn c q i)[r]?).getD 0#32

theorem plainColumn_eq (c : List Int) (q : List Nat) (i : Nat) :
    plainColumn c q i = idctColumnKernel (coefAt c q) i := by
  have := kernel_linear (coefAt c q 0 i) (coefAt c q 1 i) (coefAt c q 2 i) (coefAt c q 3 i)
    (coefAt c q 4 i) (coefAt c q 5 i) (coefAt c q 6 i) (coefAt c q 7 i) 512
  exact congrArg (List.map fun x : W32 => x.sshiftRight 10) this

theorem plainRow_eq (s : Nat → W32) :
    plainRow s = idctRow (s 0) (s 1) (s 2) (s 3) (s 4) (s 5) (s 6) (s 7) := by
  have h := idctRow_eq (s 0).toInt (s 1).toInt (s 2).toInt (s 3).toInt (s 4).toInt (s 5).toInt
    (s 6).toInt (s 7).toInt
  have hk := kernel_linear (s 0).toInt (s 1).toInt (s 2).toInt (s 3).toInt (s 4).toInt (s 5).toInt
    (s 6).toInt (s 7).toInt 16842752
  simp only [castToInt] at h hk
  rw [h]
  exact congrArg (List.map fun x : W32 => stbiClamp (x.sshiftRight 17)) hk

/-- **C23.** The transform with the shortcuts equals the transform without, provided no column that
takes the shortcut has a dequantised first coefficient of 2^19 or more. -/
theorem C23_shortcuts_invisible (c : List Int) (q : List Nat)
    (h : ∀ i, i < 8 → (∀ k, 1 ≤ k → k < 8 → coef c (i + 8 * k) = 0) →
      -2 ^ 19 ≤ coef c i * quant q i ∧ coef c i * quant q i < 2 ^ 19) :
    idct8x8 c q = .ok (plainIdct c q) := by
  rw [idct8x8_temp, idctRows_range]
  congr 1
  unfold plainIdct
  apply List.map_congr_left
  intro r hr
  rw [List.mem_range] at hr
  rw [plainRow_eq]
  have hc : ∀ i, i < 8 → idctColumn c q i = plainColumn c q i := by
    intro i hi
    rw [idctColumn_eq, plainColumn_eq]
    split
    · rename_i hz
      have hb : -2 ^ 19 ≤ coefAt c q 0 i ∧ coefAt c q 0 i < 2 ^ 19 := by
        apply h i hi
        intro k h1 h2
        obtain ⟨e1, e2, e3, e4, e5, e6, e7⟩ := hz
        interval_cases k <;> assumption
      unfold idctColumnKernel
      rw [show List.replicate 8 ((4 * coefAt c q 0 i : Int) : W32) =
        (List.range 8).map fun _ => ((4 * coefAt c q 0 i : Int) : W32) from rfl]
      apply List.map_congr_left
      intro j hj
      rw [List.mem_range] at hj
      rw [show (List.range 8).map (fun k => coefAt c q k i) = [coefAt c q 0 i, coefAt c q 1 i,
        coefAt c q 2 i, coefAt c q 3 i, coefAt c q 4 i, coefAt c q 5 i, coefAt c q 6 i,
        coefAt c q 7 i] from rfl]
      rw [coefAt_zero hz 1 (by omega) (by omega), coefAt_zero hz 2 (by omega) (by omega),
        coefAt_zero hz 3 (by omega) (by omega), coefAt_zero hz 4 (by omega) (by omega),
        coefAt_zero hz 5 (by omega) (by omega), coefAt_zero hz 6 (by omega) (by omega),
        coefAt_zero hz 7 (by omega) (by omega)]
      have hd : dot (idctMatrixRow j) [coefAt c q 0 i, 0, 0, 0, 0, 0, 0, 0] = 4096 * coefAt c q 0 i := by
        interval_cases j <;>
          simp only [idctMatrixRow, idctMatrix, List.getD_eq_getElem?_getD, List.getElem?_cons_zero,
            List.getElem?_cons_succ, Option.getD_some, dot, List.zipWith_cons_cons,
            List.zipWith_nil_left, List.sum_cons, List.sum_nil] <;> omega
      rw [hd, sar_cast (by omega) (by omega)]
      congr 1
      omega
    · rfl
  have ht : ∀ i, i < 8 → idctTemp c q (8 * r + i) = ((plainColumn c q i)[r]?).getD 0#32 := by
    intro i hi
    unfold idctTemp
    rw [show (8 * r + i) % 8 = i by omega, show (8 * r + i) / 8 = r by omega, hc i hi]
    rfl
  rw [show 8 * r = 8 * r + 0 from rfl, ht 0 (by omega), ht 1 (by omega), ht 2 (by omega),
    ht 3 (by omega), ht 4 (by omega), ht 5 (by omega), ht 6 (by omega), ht 7 (by omega)]

/-- Beyond the bound the shortcut shows: coefficient 16 with quantiser 32768 in column one. -/
theorem C23_beyond_bound :
    idct8x8 (0 :: 16 :: List.replicate 62 0) (List.replicate 64 32768) ≠
      .ok (plainIdct (0 :: 16 :: List.replicate 62 0) (List.replicate 64 32768)) := by
  decide +kernel

/-! ## C24 -/

/-- **C24.** If every dequantised coefficient is at most 2^16 in magnitude, the samples are those of
the two-pass formula evaluated over the integers, put through the clamp table: no wrapping of the 32
bit arithmetic shows. -/
theorem C24_no_visible_wrap (c : List Int) (q : List Nat)
    (h : ∀ i, i < 64 → -2 ^ 16 ≤ coef c i * quant q i ∧ coef c i * quant q i ≤ 2 ^ 16) :
    idct8x8 c q = .ok ((List.range 8).map fun r => (List.range 8).map fun x =>
      saturate (window (idctSample (fun k i => coef c (i + 8 * k) * quant q (i + 8 * k)) r x))) :=
  idct8x8_exact fun i hi => .inr fun k hk => h (i + 8 * k) (by omega)

/-- **C24** (saturated). If moreover no exact value is more than 256 below or 512 above the sample
range, the samples are the saturated exact values. -/
theorem C24_saturated (c : List Int) (q : List Nat)
    (h : ∀ i, i < 64 → -2 ^ 16 ≤ coef c i * quant q i ∧ coef c i * quant q i ≤ 2 ^ 16)
    (hr : ∀ r x, r < 8 → x < 8 →
      -256 ≤ idctSample (fun k i => coef c (i + 8 * k) * quant q (i + 8 * k)) r x ∧
        idctSample (fun k i => coef c (i + 8 * k) * quant q (i + 8 * k)) r x ≤ 767) :
    idct8x8 c q = .ok ((List.range 8).map fun r => (List.range 8).map fun x =>
      saturate (idctSample (fun k i => coef c (i + 8 * k) * quant q (i + 8 * k)) r x)) := by
  rw [C24_no_visible_wrap c q h]
  congr 1
  apply List.map_congr_left
  intro r hr'
  apply List.map_congr_left
  intro x hx
  rw [List.mem_range] at hr' hx
  rw [window_id (hr r x hr' hx)]

/-- **C24** (no wrap at all). If every dequantised coefficient is at most 2^11 in magnitude, the
values before the shifts of both passes are exact: each output word of the kernel, read as a signed
number, is the integer matrix product. -/
theorem C24_no_wrap (F : Nat → Nat → Int) (h : ∀ k i, k < 8 → i < 8 → -2 ^ 11 ≤ F k i ∧ F k i ≤ 2 ^ 11) :
    (∀ i, i < 8 →
      (kernelOut (kernel (F 0 i : W32) (F 1 i : W32) (F 2 i : W32) (F 3 i : W32) (F 4 i : W32)
        (F 5 i : W32) (F 6 i : W32) (F 7 i : W32) 512#32)).map BitVec.toInt =
      idctMatrix.map fun row => dot row ((List.range 8).map fun k => F k i) + 512) ∧
    ∀ r, r < 8 →
      (kernelOut (kernel (idctPass1 F r 0 : W32) (idctPass1 F r 1 : W32) (idctPass1 F r 2 : W32)
        (idctPass1 F r 3 : W32) (idctPass1 F r 4 : W32) (idctPass1 F r 5 : W32)
        (idctPass1 F r 6 : W32) (idctPass1 F r 7 : W32) X_SCALE)).map BitVec.toInt =
      idctMatrix.map fun row => dot row ((List.range 8).map fun i => idctPass1 F r i) + 16842752 := by
  constructor
  · intro i hi
    have hk := kernel_linear (F 0 i) (F 1 i) (F 2 i) (F 3 i) (F 4 i) (F 5 i) (F 6 i) (F 7 i) 512
    refine (congrArg (List.map BitVec.toInt) hk).trans ?_
    rw [List.map_map]
    apply List.map_congr_left
    intro row hrow
    have hb := dot_bound hrow (h 0 i (by omega) hi) (h 1 i (by omega) hi) (h 2 i (by omega) hi)
      (h 3 i (by omega) hi) (h 4 i (by omega) hi) (h 5 i (by omega) hi) (h 6 i (by omega) hi)
      (h 7 i (by omega) hi)
    exact toInt_cast (by omega) (by omega)
  · intro r hr
    have hk := kernel_linear (idctPass1 F r 0) (idctPass1 F r 1) (idctPass1 F r 2) (idctPass1 F r 3)
      (idctPass1 F r 4) (idctPass1 F r 5) (idctPass1 F r 6) (idctPass1 F r 7) 16842752
    refine (congrArg (List.map BitVec.toInt) hk).trans ?_
    rw [List.map_map]
    apply List.map_congr_left
    intro row hrow
    have hp : ∀ i, i < 8 → -61221 ≤ idctPass1 F r i ∧ idctPass1 F r i ≤ 61221 :=
      fun i hi => idctPass1_bound hr fun k hk => h k i hk hi
    have hb := dot_bound hrow (hp 0 (by omega)) (hp 1 (by omega)) (hp 2 (by omega)) (hp 3 (by omega))
      (hp 4 (by omega)) (hp 5 (by omega)) (hp 6 (by omega)) (hp 7 (by omega))
    exact toInt_cast (by omega) (by omega)

/-- Beyond 2^16 wrapping shows: all coefficients of column one 32767 with quantiser 4. -/
theorem C24_beyond_bound :
    ∃ c q, (∀ i, i < 64 → -2 ^ 17 ≤ coef c i * quant q i ∧ coef c i * quant q i ≤ 2 ^ 17) ∧
      idct8x8 c q ≠ .ok ((List.range 8).map fun r => (List.range 8).map fun x =>
        saturate (window (idctSample (fun k i => coef c (i + 8 * k) * quant q (i + 8 * k)) r x))) :=
  ⟨(List.range 64).map fun i => if i % 8 = 1 then 32767 else 0, List.replicate 64 4, by
    constructor <;> decide +kernel⟩

/-- A block within the bounds of all the above, with a full spectrum in one column. -/
example : (∀ i, i < 64 → -2 ^ 11 ≤ coef ((List.range 64).map fun i => if i % 8 = 1 then 9 else 0) i *
    quant (List.replicate 64 4) i ∧ coef ((List.range 64).map fun i => if i % 8 = 1 then 9 else 0) i *
    quant (List.replicate 64 4) i ≤ 2 ^ 11) ∧
    idct8x8 ((List.range 64).map fun i => if i % 8 = 1 then 9 else 0) (List.replicate 64 4) =
      .ok [[175, 168, 154, 137, 119, 102, 88, 81], [115, 117, 121, 125, 131, 135, 139, 141],
        [138, 137, 134, 130, 126, 122, 119, 118], [124, 125, 126, 127, 129, 130, 131, 132],
        [133, 133, 131, 129, 127, 125, 123, 123], [127, 128, 128, 128, 128, 128, 128, 129],
        [131, 131, 130, 129, 127, 126, 125, 125], [129, 129, 129, 128, 128, 127, 127, 127]] := by
  decide +kernel

/-! ## C25 -/

/-- **C25.** The clamp of every 32 bit value: saturation after reduction to the table's window. -/
theorem C25_clamp (x : W32) : stbiClamp x = saturate (window x.toInt) := stbiClamp_eq x

/-- **C25** (window). Saturation for every value in `-256..767`. -/
theorem C25_clamp_saturates (x : W32) (h1 : -256 ≤ x.toInt) (h2 : x.toInt ≤ 767) :
    stbiClamp x = saturate x.toInt := by rw [C25_clamp, window_id ⟨h1, h2⟩]

/-- Outside the window the clamp does not saturate: 768 gives 0, -257 gives 255. -/
theorem C25_clamp_outside : stbiClamp (BitVec.ofInt 32 768) = 0 ∧
    stbiClamp (BitVec.ofInt 32 (-257)) = 255 := by decide +kernel

example : stbiClamp (BitVec.ofInt 32 (-7)) = 0 ∧ stbiClamp (BitVec.ofInt 32 300) = 255 ∧
    stbiClamp (BitVec.ofInt 32 77) = 77 := by decide +kernel

/-! ## C48 -/

/-- The size of an image of `len` samples decoded at `scale / 8`. -/
def scaledSize (len scale : Nat) : Nat := (len * scale + 7) / 8

theorem scaled_eq (cfg : Cfg) {len scale : Nat} (h1 : 1 ≤ len) (h2 : len < 2 ^ 16) (hs : 1 ≤ scale)
    (hs8 : scale ≤ 8) : scaled cfg len scale = .ok (scaledSize len scale) := by
  have hpos : 0 < len * scale := Nat.mul_pos h1 hs
  have hle : len * scale ≤ len * 8 := Nat.mul_le_mul_left _ hs8
  unfold scaled scaledSize
  rw [if_neg (by omega)]
  congr 1
  omega

/-- **C48.** For every non-empty image size and every requested size the chosen scale is the smallest
of 1, 2, 4 that reaches the requested width or the requested height, and 8 if none does. -/
theorem C48_scale (cfg : Cfg) (full req : Dim) (hw : 1 ≤ full.width) (hw2 : full.width < 2 ^ 16)
    (hh : 1 ≤ full.height) (hh2 : full.height < 2 ^ 16) :
    ∃ s, chooseIdctSize cfg full req = .ok s ∧ s ∈ [1, 2, 4, 8] ∧
      (s = 8 ∨ req.width ≤ scaledSize full.width s ∨ req.height ≤ scaledSize full.height s) ∧
      ∀ s' ∈ [1, 2, 4], s' < s →
        scaledSize full.width s' < req.width ∧ scaledSize full.height s' < req.height := by
  unfold chooseIdctSize
  simp only [chooseIdctGo, scaled_eq cfg hw hw2 (by omega : 1 ≤ 1) (by omega),
    scaled_eq cfg hw hw2 (by omega : 1 ≤ 2) (by omega),
    scaled_eq cfg hw hw2 (by omega : 1 ≤ 4) (by omega),
    scaled_eq cfg hh hh2 (by omega : 1 ≤ 1) (by omega),
    scaled_eq cfg hh hh2 (by omega : 1 ≤ 2) (by omega),
    scaled_eq cfg hh hh2 (by omega : 1 ≤ 4) (by omega)]
  split_ifs <;> refine ⟨_, rfl, by simp, ?_, ?_⟩ <;>
    first
      | exact .inl rfl
      | omega
      | (simp only [List.mem_cons, List.not_mem_nil, or_false, forall_eq_or_imp, forall_eq]; omega)

/-- An image of width zero is a panic in debug builds. -/
theorem C48_zero_width (cfg : Cfg) (full req : Dim) (hw : full.width = 0) :
    cfg.debug = true → chooseIdctSize cfg full req = .error (.panic .overflow) := by
  intro h
  simp [chooseIdctSize, chooseIdctGo, scaled, hw, h]

example : chooseIdctSize ⟨true, false⟩ ⟨5472, 3648⟩ ⟨1000, 1000⟩ = .ok 2 ∧
    chooseIdctSize ⟨true, false⟩ ⟨5472, 3648⟩ ⟨16384, 16384⟩ = .ok 8 := by decide +kernel

/-! ## C49 -/

/-- **C49** (4x4). On a block with only a DC coefficient the 4x4 transform has the flat value of the
8x8 transform, whatever the values. -/
theorem C49_4x4 (c : List Int) (q : List Nat) (h : DcOnly c) :
    idct4x4 c q = List.replicate 4 (List.replicate 4
      (saturate (window ((coef c 0 * quant q 0 + 4) / 8 + 128)))) := by
  have hz : ∀ i, 1 ≤ i → i < 64 → dequant (coef c i) (quant q i) = 0#32 := by
    intro i h1 h2
    rw [h i h1 h2]
    simp [dequant]
  have hcol0 : idct4Column c q 0 = (dequant (coef c 0) (quant q 0) <<< 2,
      dequant (coef c 0) (quant q 0) <<< 2, dequant (coef c 0) (quant q 0) <<< 2,
      dequant (coef c 0) (quant q 0) <<< 2) := by
    simp only [idct4Column, hz (0 + 8) (by omega) (by omega), hz (0 + 16) (by omega) (by omega),
      hz (0 + 24) (by omega) (by omega)]
    simp
  have hcol : ∀ i, 1 ≤ i → i < 4 → idct4Column c q i = (0#32, 0#32, 0#32, 0#32) := by
    intro i h1 h4
    simp only [idct4Column, hz i h1 (by omega), hz (i + 8) (by omega) (by omega),
      hz (i + 16) (by omega) (by omega), hz (i + 24) (by omega) (by omega)]
    decide
  have hrow : idct4Row (dequant (coef c 0) (quant q 0) <<< 2) 0#32 0#32 0#32 =
      List.replicate 4 (saturate (window ((coef c 0 * quant q 0 + 4) / 8 + 128))) := by
    have e : (dequant (coef c 0) (quant q 0) <<< 2) <<< 12 + BitVec.ofNat 32 (2 ^ 16) +
        BitVec.ofNat 32 (128 * 2 ^ 17) =
        ((16384 * (coef c 0 * quant q 0) + 16842752 : Int) : W32) := by
      rw [dequant_cast, ← BitVec.shiftLeft_add, BitVec.shiftLeft_eq_mul_twoPow]
      show _ * ((16384 : Int) : W32) + ((65536 : Int) : W32) + ((16777216 : Int) : W32) = _
      simp only [← Int.cast_add, ← Int.cast_mul]
      congr 1
      ring
    have hs := sar17_mod (16384 * (coef c 0 * quant q 0) + 16842752)
    have hv : stbiClamp (((16384 * (coef c 0 * quant q 0) + 16842752 : Int) : W32).sshiftRight 17) =
        saturate (window ((coef c 0 * quant q 0 + 4) / 8 + 128)) := by
      rw [stbiClamp_eq]
      unfold window
      generalize coef c 0 * (quant q 0 : Int) = p at hs ⊢
      congr 2
      omega
    simp only [idct4Row, BitVec.add_zero, BitVec.sub_zero, BitVec.zero_mul, e, hv]
    rfl
  simp only [idct4x4, hcol0, hcol 1 (by omega) (by omega), hcol 2 (by omega) (by omega),
    hcol 3 (by omega) (by omega), hrow]
  rfl

/-- **C49** (2x2). Likewise the 2x2 transform, for all 16 bit coefficients and quantisers. -/
theorem C49_2x2 (c : List Int) (q : List Nat) (h : DcOnly c) (h1 : -2 ^ 15 ≤ coef c 0)
    (h2 : coef c 0 < 2 ^ 15) (hq : quant q 0 < 2 ^ 16) :
    idct2x2 c q = List.replicate 2 (List.replicate 2
      (saturate (window ((coef c 0 * quant q 0 + 4) / 8 + 128)))) := by
  have hz : ∀ i, 1 ≤ i → i < 64 → dequant (coef c i) (quant q i) = 0#32 := by
    intro i h1 h2
    rw [h i h1 h2]
    simp [dequant]
  have hp : -2 ^ 31 ≤ coef c 0 * quant q 0 ∧ coef c 0 * quant q 0 < 2 ^ 31 - 2000 := by
    have a : -(2 ^ 15) * (quant q 0 : Int) ≤ coef c 0 * quant q 0 :=
      Int.mul_le_mul_of_nonneg_right (by omega) (by omega)
    have b : coef c 0 * (quant q 0 : Int) ≤ (2 ^ 15 - 1) * (quant q 0 : Int) :=
      Int.mul_le_mul_of_nonneg_right (by omega) (by omega)
    omega
  have e : dequant (coef c 0) (quant q 0) + 4#32 + 1024#32 =
      ((coef c 0 * quant q 0 + 1028 : Int) : W32) := by
    rw [dequant_cast]
    show _ + ((4 : Int) : W32) + ((1024 : Int) : W32) = _
    simp only [← Int.cast_add]
    congr 1
    ring
  have hv : stbiClamp (((coef c 0 * quant q 0 + 1028 : Int) : W32).sshiftRight 3) =
      saturate (window ((coef c 0 * quant q 0 + 4) / 8 + 128)) := by
    generalize coef c 0 * (quant q 0 : Int) = p at hp ⊢
    rw [sar_cast (by omega) (by omega), C25_clamp, toInt_cast (by omega) (by omega)]
    congr 2
    omega
  simp only [idct2x2, hz 1 (by omega) (by omega), hz 8 (by omega) (by omega),
    hz 9 (by omega) (by omega), BitVec.add_zero, BitVec.sub_zero, e, hv]
  rfl

/-- **C49** (1x1). The single sample truncates where the others round: it differs by at most one, for
all values within the clamp window. -/
theorem C49_1x1 (c : List Int) (q : List Nat) (h1 : -3076 ≤ coef c 0 * quant q 0)
    (h2 : coef c 0 * quant q 0 ≤ 5115) :
    idct1x1 c q = saturate ((coef c 0 * quant q 0 + 1024).tdiv 8) ∧
    (idct1x1 c q).toNat ≤ (saturate ((coef c 0 * quant q 0 + 4) / 8 + 128)).toNat ∧
    (saturate ((coef c 0 * quant q 0 + 4) / 8 + 128)).toNat ≤ (idct1x1 c q).toNat + 1 := by
  have ht : ∀ z : Int, (0 ≤ z ∧ z.tdiv 8 = z / 8) ∨ (z < 0 ∧ z.tdiv 8 = -(-z / 8)) := by
    intro z
    rcases Int.lt_or_le z 0 with hz | hz
    · right
      refine ⟨hz, ?_⟩
      have := Int.neg_tdiv (a := -z) (b := 8)
      rw [Int.neg_neg, Int.tdiv_eq_ediv_of_nonneg (a := -z) (by omega)] at this
      exact this
    · exact .inl ⟨hz, Int.tdiv_eq_ediv_of_nonneg hz⟩
  have ht := ht (coef c 0 * quant q 0 + 1024)
  have e : idct1x1 c q = saturate ((coef c 0 * quant q 0 + 1024).tdiv 8) := by
    unfold idct1x1
    rw [C25_clamp, dequant_cast]
    have e : ((coef c 0 * quant q 0 : Int) : W32) + 1024#32 = ((coef c 0 * quant q 0 + 1024 : Int) : W32) := by
      show _ + ((1024 : Int) : W32) = _
      simp only [← Int.cast_add]
    rw [e]
    generalize coef c 0 * (quant q 0 : Int) = p at h1 h2 ht ⊢
    rw [BitVec.toInt_sdiv_of_ne_or_ne _ _ (.inr (by decide)), toInt_cast (by omega) (by omega)]
    rw [show (8#32).toInt = 8 from rfl]
    rw [window_id]
    omega
  refine ⟨e, ?_⟩
  rw [e]
  generalize coef c 0 * (quant q 0 : Int) = p at h1 h2 ht ⊢
  unfold saturate
  split_ifs <;> simp only [UInt8.toNat_ofNat', UInt8.toNat_ofNat] <;> omega

example : idct4x4 (-37 :: List.replicate 63 0) (16 :: List.replicate 63 1) =
      List.replicate 4 (List.replicate 4 54) ∧
    idct2x2 (-37 :: List.replicate 63 0) (15 :: List.replicate 63 1) =
      List.replicate 2 (List.replicate 2 59) ∧
    idct1x1 (-37 :: List.replicate 63 0) (15 :: List.replicate 63 1) = 58 := by decide +kernel

end Jpeg
