import Verif.Props.Exact
import Verif.Props.Colors
import Verif.Proofs.Forward
/-!
# C64: encoding and decoding again
-/

namespace Jpeg
open Spec Real Finset

theorem tableNorm_nonneg (q : List Nat) : 0 ≤ tableNorm q := Real.sqrt_nonneg _

/-- Quantisation moves a block by at most half the length of the table. -/
theorem quant_length {F G : Nat → Nat → ℝ} {q : List Nat}
    (h : ∀ k j, k < 8 → j < 8 → |F k j - G k j| ≤ (tableEntry q k j : ℝ) / 2) :
    √(∑ j ∈ range 8, ∑ k ∈ range 8, (F k j - G k j) ^ 2) ≤ tableNorm q / 2 := by
  have e : tableNorm q / 2 = √(1 / 4 * ∑ j ∈ range 8, ∑ k ∈ range 8, (tableEntry q k j : ℝ) ^ 2) := by
    unfold tableNorm
    rw [Real.sqrt_mul (by norm_num), show (1 / 4 : ℝ) = (1 / 2) ^ 2 by norm_num, Real.sqrt_sq (by norm_num)]
    ring
  rw [e]
  apply Real.sqrt_le_sqrt
  rw [Finset.mul_sum]
  refine Finset.sum_le_sum fun j hj => ?_
  rw [Finset.mul_sum]
  refine Finset.sum_le_sum fun k hk => ?_
  have := h k j (Finset.mem_range.1 hk) (Finset.mem_range.1 hj)
  rw [← sq_abs]
  have h0 := abs_nonneg (F k j - G k j)
  nlinarith

/-- A block that was transformed and quantised. -/
theorem block_back {F : Nat → Nat → ℝ} {s : Nat → Nat → ℝ} {q : List Nat}
    (hr : ∀ y x, 0 ≤ s y x ∧ s y x ≤ 255)
    (h : ∀ k j, k < 8 → j < 8 → |F k j - realFdct (fun y x => s y x - 128) k j| ≤ (tableEntry q k j : ℝ) / 2) :
    ∑ j ∈ range 8, ∑ k ∈ range 8, |F k j| ≤ 8192 + 4 * tableNorm q ∧
    ∀ y x, y < 8 → x < 8 → |128 + realIdct F y x - s y x| ≤ tableNorm q / 2 := by
  have hq := quant_length h
  constructor
  · have h1 := sum_abs_le (realFdct fun y x => s y x - 128)
    have h2 := sum_abs_le (fun k j => F k j - realFdct (fun y x => s y x - 128) k j)
    have h3 : √(∑ j ∈ range 8, ∑ k ∈ range 8, realFdct (fun y x => s y x - 128) k j ^ 2) ≤ 1024 := by
      rw [realFdct_sq, Real.sqrt_le_left (by norm_num)]
      have : ∀ x ∈ range 8, ∑ y ∈ range 8, (s y x - 128) ^ 2 ≤ 8 * 128 ^ 2 := by
        intro x _
        refine (Finset.sum_le_card_nsmul _ _ (128 ^ 2) fun y _ => ?_).trans (by simp)
        have := hr y x
        nlinarith
      refine (Finset.sum_le_card_nsmul _ _ (8 * 128 ^ 2) this).trans ?_
      simp; norm_num
    have h4 : ∑ j ∈ range 8, ∑ k ∈ range 8, |F k j| ≤
        ∑ j ∈ range 8, ∑ k ∈ range 8, |F k j - realFdct (fun y x => s y x - 128) k j| +
        ∑ j ∈ range 8, ∑ k ∈ range 8, |realFdct (fun y x => s y x - 128) k j| := by
      rw [← Finset.sum_add_distrib]
      refine Finset.sum_le_sum fun j _ => ?_
      rw [← Finset.sum_add_distrib]
      refine Finset.sum_le_sum fun k _ => ?_
      have := abs_add_le (F k j - realFdct (fun y x => s y x - 128) k j) (realFdct (fun y x => s y x - 128) k j)
      rwa [sub_add_cancel] at this
    linarith
  · intro y x hy hx
    have e := realIdct_fdct (fun y x => s y x - 128) hy hx
    have e2 := realIdct_sub F (realFdct fun y x => s y x - 128) y x
    rw [show 128 + realIdct F y x - s y x =
      realIdct (fun v u => F v u - realFdct (fun y x => s y x - 128) v u) y x by rw [← e2, e]; ring]
    refine le_trans ?_ hq
    rw [← Real.sqrt_sq_eq_abs]
    exact Real.sqrt_le_sqrt (realIdct_sq _ hy hx)

section
variable {f : BaselineFile}

/-- With factors 1 every block has its place. -/
theorem block_place {r : Nat} {codes : List (Code × Code)} (hv : f.Valid r 1 1 codes)
    {i : Nat} {c : FileComponent} (hc : f.comps[i]? = some c) {m : Mcu} (hm : m ∈ f.intervals.flatten)
    {bs : List BlockData} (hbs : m[i]? = some bs) {b : BlockData} (hb : b ∈ bs) :
    ∃ row col, row < ceilDiv f.y 8 ∧ col < ceilDiv f.x 8 ∧ f.blockAt 1 i c (8 * row) (8 * col) = some b := by
  have hone : c.h = 1 ∧ c.v = 1 := by
    have h1 := hv.hmax.1 c (List.mem_of_getElem? hc)
    have h2 := hv.vmax.1 c (List.mem_of_getElem? hc)
    obtain ⟨a, -, b, -⟩ := hv.factors c (List.mem_of_getElem? hc)
    simp only at h1 h2
    omega
  obtain ⟨n, hn, en⟩ := List.getElem_of_mem hm
  have hcount := hv.mcus
  rw [hcount] at hn
  simp only [Nat.mul_one] at hn
  have hW : 0 < ceilDiv f.x 8 := by
    rcases Nat.eq_zero_or_pos (ceilDiv f.x 8) with h | h
    · rw [h] at hn; omega
    · exact h
  have hlen : bs.length = 1 := by
    have := hv.blocks m hm
    have h1 : (m.map List.length)[i]? = some bs.length := by rw [List.getElem?_map, hbs]; rfl
    rw [this, List.getElem?_map, hc] at h1
    have h1 : c.h * c.v = bs.length := Option.some.inj h1
    rw [← h1, hone.1, hone.2]
  refine ⟨n / ceilDiv f.x 8, n % ceilDiv f.x 8, ?_, Nat.mod_lt _ hW, ?_⟩
  · rw [Nat.div_lt_iff_lt_mul hW, Nat.mul_comm]; exact hn
  · unfold BaselineFile.blockAt
    rw [hone.1, hone.2, Nat.mul_div_cancel_left _ (by norm_num), Nat.mul_div_cancel_left _ (by norm_num)]
    simp only [Nat.div_one, Nat.mul_one, Nat.mod_one, Nat.add_zero]
    rw [show n / ceilDiv f.x 8 * ceilDiv f.x 8 + n % ceilDiv f.x 8 = n by
      rw [Nat.mul_comm]; exact Nat.div_add_mod n _]
    rw [List.getElem?_eq_getElem (by rw [hcount]; simpa using hn), en]
    simp only [Option.bind_some, hbs]
    obtain ⟨b', rfl⟩ : ∃ b', bs = [b'] := List.length_eq_one_iff.1 hlen
    simp only [List.mem_singleton] at hb
    rw [hb]; rfl

/-- The tables of component `i` have length at most `N i`, at most 500. -/
def TablesWithin (f : BaselineFile) (N : Nat → ℝ) : Prop :=
  ∀ (i : Nat) (c : FileComponent) (q : List Nat), f.comps[i]? = some c → f.quantOf c = some q →
    tableNorm q ≤ N i ∧ N i ≤ 500

theorem EncodedFrom_moderate {r : Nat} {codes : List (Code × Code)} (hv : f.Valid r 1 1 codes)
    {s : Nat → Nat → Nat → ℝ} (hs : EncodedFrom f s) {N : Nat → ℝ} (hN : TablesWithin f N) :
    f.Moderate 10192 (5 / 8 + 10192 / 5000) := by
  refine ⟨by norm_num, fun i c q hc hq m hm bs hbs b hb => ?_⟩
  obtain ⟨row, col, hrow, hcol, hat⟩ := block_place hv hc hm hbs hb
  obtain ⟨h1, h2⟩ := block_back (s := fun y x => s i (8 * row + y) (8 * col + x)) (fun y x => hs.range _ _ _)
    (hs.blocks i c q hc hq row col b hrow hcol hat)
  obtain ⟨n1, n2⟩ := hN i c q hc hq
  refine ⟨by linarith, fun k j hk hj => ?_⟩
  have h := h2 k j hk hj
  have hr := hs.range i (8 * row + k) (8 * col + j)
  rw [abs_le] at h
  constructor <;> linarith [h.1, h.2, hr.1, hr.2]

theorem limitReal_back {v t e : ℝ} (ht : 0 ≤ t ∧ t ≤ 255) (h : |v - t| ≤ e) : |limitReal v - t| ≤ e := by
  have : limitReal t = t := by
    unfold limitReal
    rw [min_eq_left ht.2, max_eq_right ht.1]
  have h' := limitReal_lip v t
  rw [this] at h'
  exact h'.trans h

theorem exact_back {r : Nat} {codes : List (Code × Code)} (hv : f.Valid r 1 1 codes)
    {s : Nat → Nat → Nat → ℝ} (hs : EncodedFrom f s) {N : Nat → ℝ} (hN : TablesWithin f N)
    {i : Nat} (hi : i < f.comps.length) {y x : Nat} (hy : y < f.y) (hx : x < f.x) :
    |f.exactUpsampled 1 1 i y x - s i y x| ≤ N i / 2 := by
  obtain ⟨c, hc⟩ : ∃ c, f.comps[i]? = some c := ⟨_, List.getElem?_eq_getElem hi⟩
  have hmem := List.mem_of_getElem? hc
  have hone : c.h = 1 ∧ c.v = 1 := by
    have h1 := hv.hmax.1 c hmem
    have h2 := hv.vmax.1 c hmem
    obtain ⟨a, -, b, -⟩ := hv.factors c hmem
    simp only at h1 h2
    omega
  obtain ⟨q, hq⟩ := hv.quant c hmem
  have hcy : y / 8 < ceilDiv f.y 8 := by unfold ceilDiv; omega
  have hcx : x / 8 < ceilDiv f.x 8 := by unfold ceilDiv; omega
  have hidx : y / 8 * ceilDiv f.x 8 + x / 8 < f.intervals.flatten.length := by
    rw [hv.mcus]
    simp only [Nat.mul_one]
    calc y / 8 * ceilDiv f.x 8 + x / 8 < y / 8 * ceilDiv f.x 8 + ceilDiv f.x 8 := by omega
      _ = (y / 8 + 1) * ceilDiv f.x 8 := by rw [Nat.add_mul, Nat.one_mul]
      _ ≤ ceilDiv f.y 8 * ceilDiv f.x 8 := Nat.mul_le_mul_right _ hcy
      _ = _ := Nat.mul_comm _ _
  obtain ⟨m, hm⟩ : ∃ m, f.intervals.flatten[y / 8 * ceilDiv f.x 8 + x / 8]? = some m :=
    ⟨_, List.getElem?_eq_getElem hidx⟩
  have hbl := hv.blocks m (List.mem_of_getElem? hm)
  obtain ⟨bs, hbs, hlen⟩ : ∃ bs, m[i]? = some bs ∧ bs.length = 1 := by
    have h1 : (m.map List.length)[i]? = some (c.h * c.v) := by rw [hbl, List.getElem?_map, hc]; rfl
    rw [List.getElem?_map] at h1
    cases hmi : m[i]? with
    | none => rw [hmi] at h1; cases h1
    | some bs =>
      rw [hmi] at h1
      have h1 := Option.some.inj h1
      exact ⟨bs, rfl, by rw [h1, hone.1, hone.2]⟩
  obtain ⟨b, rfl⟩ := List.length_eq_one_iff.1 hlen
  have at8 : ∀ Y X, Y / 8 = y / 8 → X / 8 = x / 8 → f.blockAt 1 i c Y X = some b := by
    intro Y X hY hX
    unfold BaselineFile.blockAt
    rw [hone.1, hone.2, hY, hX]
    simp only [Nat.div_one, Nat.mul_one, Nat.mod_one, Nat.add_zero, hm, hbs, Option.bind_some]
    rfl
  obtain ⟨-, h2⟩ := block_back (s := fun y' x' => s i (8 * (y / 8) + y') (8 * (x / 8) + x')) (fun y x => hs.range _ _ _)
    (hs.blocks i c q hc hq (y / 8) (x / 8) b hcy hcx (at8 _ _ (by omega) (by omega)))
  have h2 := h2 (y % 8) (x % 8) (Nat.mod_lt _ (by norm_num)) (Nat.mod_lt _ (by norm_num))
  simp only [Nat.div_add_mod] at h2
  unfold BaselineFile.exactUpsampled
  rw [hc]
  simp only
  unfold upsampledReal
  rw [if_pos ⟨.inl hone.1, .inl hone.2⟩]
  unfold BaselineFile.exactSample
  rw [hc]
  simp only [at8 y x rfl rfl, hq]
  exact limitReal_back (hs.range _ _ _) (h2.trans (by linarith [(hN i c q hc hq).1]))

/-- **C64**. Encode and decode. `r`, `g`, `b` are the channels of a picture. An encoder converts them to luma
and colour differences (BT.601, with an error of up to `δ`, say by rounding), transforms blocks of eight by
eight samples and rounds the coefficients to multiples of the entries of the quantisation tables; the result is
laid out as the standard says, in any way (tables, restart intervals, entropy code). Then every such file decodes
to a picture of the same size, and every channel of every pixel is the original one up to half the Euclidean
length `N i` of the quantisation tables (combined with the weights of BT.601), `δ`, and rounding in the decoder. -/
theorem C64_round_trip (cfg : Cfg) (f : BaselineFile) (codes : List (Code × Code)) (d : Decoder)
    (hd : UsedDecoder d) (hh : Holds cfg d f.earlier) (h3 : f.comps.length = 3)
    (hct : f.transform d.transform ≠ some 0)
    (hv : f.Valid (f.interval d.restartInterval) 1 1 codes)
    (s : Nat → Nat → Nat → ℝ) (hs : EncodedFrom f s) (N : Nat → ℝ) (hN : TablesWithin f N)
    (r g b : Nat → Nat → ℝ) (δ : ℝ)
    (hrgb : ∀ y x, y < f.y → x < f.x → (0 ≤ r y x ∧ r y x ≤ 255) ∧ (0 ≤ g y x ∧ g y x ≤ 255) ∧
      (0 ≤ b y x ∧ b y x ≤ 255))
    (hycc : ∀ y x, y < f.y → x < f.x →
      |s 0 y x - lumaOf (r y x) (g y x) (b y x)| ≤ δ ∧
      |s 1 y x - cbOf (r y x) (g y x) (b y x)| ≤ δ ∧
      |s 2 y x - crOf (r y x) (g y x) (b y x)| ≤ δ) :
    let err := fun i => 8 / 3 + N i / 2 + δ
    ∃ image d', d.decode cfg f.bytes = .ok image d' ∧ image.length = f.x * f.y * 3 ∧
      ∀ y x, y < f.y → x < f.x → ∃ r' g' b' : UInt8,
        image[3 * f.x * y + 3 * x]? = some r' ∧
        image[3 * f.x * y + (3 * x + 1)]? = some g' ∧
        image[3 * f.x * y + (3 * x + 2)]? = some b' ∧
        |(r'.toNat : ℝ) - r y x| ≤ 251 / 500 + (err 0 + 1402 / 1000 * err 2) ∧
        |(g'.toNat : ℝ) - g y x| ≤ 252 / 500 + (err 0 + 34414 / 100000 * err 1 + 71414 / 100000 * err 2) ∧
        |(b'.toNat : ℝ) - b y x| ≤ 251 / 500 + (err 0 + 1772 / 1000 * err 1) := by
  intro err
  have hone : ∀ c ∈ f.comps, c.h = 1 ∧ c.v = 1 := by
    intro c hc
    have h1 := hv.hmax.1 c hc
    have h2 := hv.vmax.1 c hc
    obtain ⟨a, -, b, -⟩ := hv.factors c hc
    simp only at h1 h2
    omega
  have hr : f.Renderable 1 1 := by
    intro c hc
    obtain ⟨h1, h2⟩ := hone c hc
    rw [h1, h2]
    refine ⟨rfl, rfl, by omega, fun h => absurd ⟨.inl rfl, .inl rfl⟩ h⟩
  obtain ⟨image, d', e, hl⟩ := C45_decodes cfg f 1 1 codes d hd hh h3 hct hv hr
  refine ⟨image, d', e, hl, fun y x hy hx => ?_⟩
  obtain ⟨r', g', b', h1, h2, h3', h4, h5, h6⟩ := C63_accuracy_own_row_partial cfg f 1 codes d hd hh h3 hct hv hr 10192
    _ (by norm_num) rfl (EncodedFrom_moderate hv hs hN) image d' e y x hy hx
  have hz : ∀ i, f.upError 1 1 i = 0 := by
    intro i
    unfold BaselineFile.upError
    cases hc : f.comps[i]? with
    | none => rfl
    | some c => simp only; rw [if_pos (hone c (List.mem_of_getElem? hc))]
  simp only [hz] at h4 h5 h6
  obtain ⟨br, bg, bb⟩ := hrgb y x hy hx
  obtain ⟨c0, c1, c2⟩ := hycc y x hy hx
  have e0 := exact_back hv hs hN (i := 0) (by omega) hy hx
  have e1 := exact_back hv hs hN (i := 1) (by omega) hy hx
  have e2 := exact_back hv hs hN (i := 2) (by omega) hy hx
  unfold lumaOf at c0
  unfold cbOf lumaOf at c1
  unfold crOf lumaOf at c2
  rw [abs_le] at c0 c1 c2 e0 e1 e2
  refine ⟨r', g', b', h1, h2, h3', ?_, ?_, ?_⟩
  · have : |f.exactRed 1 1 y x - r y x| ≤ N 0 / 2 + δ + 1402 / 1000 * (N 2 / 2 + δ) := by
      apply limitReal_back br
      rw [abs_le]
      constructor <;> linarith [c0.1, c0.2, c2.1, c2.2, e0.1, e0.2, e2.1, e2.2]
    refine (abs_sub_le _ _ _).trans ((add_le_add h4 this).trans ?_)
    simp only [err]
    linarith
  · have : |f.exactGreen 1 1 y x - g y x| ≤ 1 / 500 + (N 0 / 2 + δ + 34414 / 100000 * (N 1 / 2 + δ) +
        71414 / 100000 * (N 2 / 2 + δ)) := by
      apply limitReal_back bg
      rw [abs_le]
      constructor <;> linarith [c0.1, c0.2, c1.1, c1.2, c2.1, c2.2, e0.1, e0.2, e1.1, e1.2, e2.1, e2.2, br.1, br.2,
        bg.1, bg.2, bb.1, bb.2]
    refine (abs_sub_le _ _ _).trans ((add_le_add h5 this).trans ?_)
    simp only [err]
    linarith
  · have : |f.exactBlue 1 1 y x - b y x| ≤ N 0 / 2 + δ + 1772 / 1000 * (N 1 / 2 + δ) := by
      apply limitReal_back bb
      rw [abs_le]
      constructor <;> linarith [c0.1, c0.2, c1.1, c1.2, e0.1, e0.2, e1.1, e1.2]
    refine (abs_sub_le _ _ _).trans ((add_le_add h6 this).trans ?_)
    simp only [err]
    linarith

/-- **C64** (CMYK). The same for four components with Adobe transform 0: the samples are the inks inverted
(Adobe's convention), and every ink of every pixel comes back up to half the length of its table, `δ`, and
rounding in the decoder. -/
theorem C64_round_trip_cmyk (cfg : Cfg) (f : BaselineFile) (codes : List (Code × Code)) (d : Decoder)
    (hd : UsedDecoder d) (hh : Holds cfg d f.earlier) (h4 : f.comps.length = 4)
    (hct : f.transform d.transform = some 0)
    (hv : f.Valid (f.interval d.restartInterval) 1 1 codes)
    (s : Nat → Nat → Nat → ℝ) (hs : EncodedFrom f s) (N : Nat → ℝ) (hN : TablesWithin f N)
    (ink : Nat → Nat → Nat → ℝ) (δ : ℝ)
    (hink : ∀ i y x, i < 4 → y < f.y → x < f.x → |s i y x - (255 - ink i y x)| ≤ δ) :
    ∃ image d', d.decode cfg f.bytes = .ok image d' ∧ image.length = f.x * f.y * 4 ∧
      ∀ i y x, i < 4 → y < f.y → x < f.x → ∃ v : UInt8,
        image[4 * f.x * y + (4 * x + i)]? = some v ∧ |(v.toNat : ℝ) - ink i y x| ≤ 8 / 3 + N i / 2 + δ := by
  have hone : ∀ c ∈ f.comps, c.h = 1 ∧ c.v = 1 := by
    intro c hc
    have h1 := hv.hmax.1 c hc
    have h2 := hv.vmax.1 c hc
    obtain ⟨a, -, b, -⟩ := hv.factors c hc
    simp only at h1 h2
    omega
  have hr : f.Renderable 1 1 := by
    intro c hc
    obtain ⟨h1, h2⟩ := hone c hc
    rw [h1, h2]
    refine ⟨rfl, rfl, by omega, fun h => absurd ⟨.inl rfl, .inl rfl⟩ h⟩
  obtain ⟨image, d', e, hl⟩ := C54_decodes cfg f 1 1 codes d hd hh h4 hct hv hr
  refine ⟨image, d', e, hl, fun i y x hi hy hx => ?_⟩
  have hm := EncodedFrom_moderate hv hs hN
  have h1 := C54_pixels_own_row_partial cfg f 1 codes d hd hh h4 hct hv hr hm.inRange image d' e y x i hy hx hi
  refine ⟨_, h1, ?_⟩
  have h2 := up_error (H := 1) (V := 1) hm (by norm_num) i y x
  have h3 : f.upError 1 1 i = 0 := by
    unfold BaselineFile.upError
    cases hc : f.comps[i]? with
    | none => rfl
    | some c => simp only; rw [if_pos (hone c (List.mem_of_getElem? hc))]
  rw [h3] at h2
  have h4' := exact_back hv hs hN (i := i) (by omega) hy hx
  have h5 := hink i y x hi hy hx
  have h6 : ((255 - UInt8.ofNat (f.upsampledSample 1 1 i y x)).toNat : ℝ) =
      255 - ((UInt8.ofNat (f.upsampledSample 1 1 i y x)).toNat : ℝ) := by
    have hlt := (UInt8.ofNat (f.upsampledSample 1 1 i y x)).toNat_lt
    rw [UInt8.toNat_sub_of_le _ _ (by rw [UInt8.le_iff_toNat_le]; simp at hlt ⊢; omega)]
    rw [Nat.cast_sub (by simp at hlt ⊢; omega), show (255 : UInt8).toNat = 255 from rfl]
    norm_num
  rw [h6]
  rw [abs_le] at h2 h4' h5 ⊢
  constructor <;> linarith [h2.1, h2.2, h4'.1, h4'.2, h5.1, h5.2]

end

/-! A case of C64: the example file, made from the picture with these (real) channels. -/

/-- The samples less 128. -/
noncomputable def exampleWave (Y X : Nat) : ℝ :=
  realIdct (fun k j => (dequantised (List.replicate 64 2) ⟨-5, exampleZz⟩ k j : ℝ)) (Y % 8) (X % 8)

theorem exampleWave_le (Y X : Nat) : |exampleWave Y X| ≤ 5 := by
  have h : ∑ j ∈ range 8, ∑ k ∈ range 8, |dequantised (List.replicate 64 2) ⟨-5, exampleZz⟩ k j| ≤ 20 := by
    decide +kernel
  have h' : ∑ j ∈ range 8, ∑ k ∈ range 8, |(dequantised (List.replicate 64 2) ⟨-5, exampleZz⟩ k j : ℝ)| ≤ 20 := by
    exact_mod_cast h
  exact (realIdct_le h' _ _).trans (by norm_num)

theorem realFdct_congr {s t : Nat → Nat → ℝ} (h : ∀ y x, y < 8 → x < 8 → s y x = t y x) (v u : Nat) :
    realFdct s v u = realFdct t v u := by
  unfold realFdct
  congr 1
  refine Finset.sum_congr rfl fun x hx => Finset.sum_congr rfl fun y hy => ?_
  rw [h y x (Finset.mem_range.1 hy) (Finset.mem_range.1 hx)]

theorem example_block {i : Nat} {c : FileComponent} {q : List Nat} (hc : exampleFile.comps[i]? = some c)
    (hq : exampleFile.quantOf c = some q) {Y X : Nat} {b : BlockData} (hb : exampleFile.blockAt 1 i c Y X = some b) :
    q = List.replicate 64 2 ∧ b = ⟨-5, exampleZz⟩ := by
  constructor
  · have := List.mem_of_getElem? hc
    simp only [exampleFile, List.mem_cons, List.not_mem_nil, or_false] at this
    rcases this with rfl | rfl | rfl <;> exact (Option.some.inj hq).symm
  · unfold BaselineFile.blockAt at hb
    rw [Option.bind_eq_some_iff] at hb
    obtain ⟨m, hm, hb⟩ := hb
    rw [Option.bind_eq_some_iff] at hb
    obtain ⟨bs, hbs, hb⟩ := hb
    have hm := List.mem_of_getElem? hm
    have hm : m = exampleMcu3 := by simpa [exampleFile] using hm
    subst hm
    have := List.mem_of_getElem? hbs
    simp only [exampleMcu3, List.mem_cons, List.not_mem_nil, or_false, or_self] at this
    subst this
    simpa using List.mem_of_getElem? hb

theorem exampleFile_encoded : EncodedFrom exampleFile fun _ Y X => 128 + exampleWave Y X := by
  constructor
  · intro i Y X
    have := exampleWave_le Y X
    rw [abs_le] at this
    constructor <;> linarith [this.1, this.2]
  · intro i c q hc hq row col b _ _ hb k j hk hj
    obtain ⟨rfl, rfl⟩ := example_block hc hq hb
    rw [realFdct_congr (t := realIdct fun k j => (dequantised (List.replicate 64 2) ⟨-5, exampleZz⟩ k j : ℝ)),
      realFdct_idct _ hk hj]
    · simp; positivity
    · intro y x hy hx
      unfold exampleWave
      rw [show (8 * row + y) % 8 = y by omega, show (8 * col + x) % 8 = x by omega]
      ring

theorem exampleFile_within : TablesWithin exampleFile fun _ => 16 := by
  intro i c q hc hq
  have hq' : q = List.replicate 64 2 := by
    have := List.mem_of_getElem? hc
    simp only [exampleFile, List.mem_cons, List.not_mem_nil, or_false] at this
    rcases this with rfl | rfl | rfl <;> exact (Option.some.inj hq).symm
  refine ⟨?_, by norm_num⟩
  have h : ∑ j ∈ range 8, ∑ k ∈ range 8, tableEntry (List.replicate 64 2) k j ^ 2 ≤ 256 := by decide +kernel
  have h' : ∑ j ∈ range 8, ∑ k ∈ range 8, (tableEntry (List.replicate 64 2) k j : ℝ) ^ 2 ≤ 256 := by exact_mod_cast h
  unfold tableNorm
  rw [hq', Real.sqrt_le_left (by norm_num)]
  exact h'.trans (by norm_num)

example : ∃ image d', Decoder.default.decode ⟨true, false⟩ exampleFile.bytes = .ok image d' ∧
    ∃ r : UInt8, image[3 * 16 * 3 + 3 * 9]? = some r ∧
      |(r.toNat : ℝ) - (128 + 2402 / 1000 * exampleWave 3 9)| ≤ 27 := by
  obtain ⟨image, d', e, -, h⟩ := C64_round_trip ⟨true, false⟩ exampleFile _ Decoder.default .new (.nothing _) rfl
    (by decide) exampleFile_valid _ exampleFile_encoded _ exampleFile_within
    (fun Y X => 128 + 2402 / 1000 * exampleWave Y X)
    (fun Y X => 128 + (1 - 299 / 1000 * (2402 / 1000) - 114 / 1000 * (2772 / 1000)) / (587 / 1000) * exampleWave Y X)
    (fun Y X => 128 + 2772 / 1000 * exampleWave Y X) 0
    (fun y x _ _ => by
      have := exampleWave_le y x
      rw [abs_le] at this
      refine ⟨⟨?_, ?_⟩, ⟨?_, ?_⟩, ⟨?_, ?_⟩⟩ <;> linarith [this.1, this.2])
    (fun y x _ _ => by
      unfold cbOf crOf lumaOf
      refine ⟨?_, ?_, ?_⟩ <;> (rw [abs_le]; constructor <;> linarith))
  obtain ⟨r, -, -, h1, -, -, h2, -⟩ := h 3 9 (by decide) (by decide)
  exact ⟨image, d', e, r, h1, h2.trans (by norm_num)⟩

end Jpeg
