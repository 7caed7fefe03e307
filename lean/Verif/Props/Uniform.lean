import Verif.Spec.Uniform
import Verif.Props.EndToEnd
import Verif.Props.Colors
import Verif.Props.LeftOver
import Verif.Props.Color
/-!
# C85: pictures of one colour
-/

namespace Jpeg

open Spec

variable {f : BaselineFile} {H V : Nat}

theorem dequantised_flat {q : List Nat} {b : BlockData} (hz : ∀ z ∈ b.zz, z = 0) {k i : Nat} (hk : k < 8) (hi : i < 8)
    (hne : (k, i) ≠ (0, 0)) : dequantised q b k i = 0 := by
  unfold dequantised
  simp only
  have h0 : ((List.range 64).map zigzag).idxOf (8 * k + i) ≠ 0 := by
    have : 8 * k + i < 64 ∧ 8 * k + i ≠ 0 := by
      refine ⟨by omega, fun h => hne ?_⟩
      rw [show k = 0 by omega, show i = 0 by omega]
    generalize 8 * k + i = p at this ⊢
    obtain ⟨h1, h2⟩ := this
    have : ∀ p, p < 64 → p ≠ 0 → ((List.range 64).map zigzag).idxOf p ≠ 0 := by decide +kernel
    exact this p h1 h2
  obtain ⟨n, hn⟩ := Nat.exists_eq_succ_of_ne_zero h0
  rw [hn, List.getD_eq_getElem?_getD, List.getElem?_cons_succ]
  cases e : b.zz[n]? with
  | none => simp
  | some z => rw [Option.getD_some, hz z (List.mem_of_getElem? e), Int.zero_mul]

theorem dequantised_dc (q : List Nat) (b : BlockData) : dequantised q b 0 0 = b.dc * (q.getD 0 0 : Nat) := by
  unfold dequantised
  have : ((List.range 64).map zigzag).idxOf (8 * 0 + 0) = 0 := by decide +kernel
  simp only [this]
  rfl

theorem idctSample_flat {q : List Nat} {b : BlockData} (hz : ∀ z ∈ b.zz, z = 0) {r x : Nat} (hr : r < 8) (hx : x < 8) :
    idctSample (dequantised q b) r x = (b.dc * (q.getD 0 0 : Nat) + 4) / 8 + 128 := by
  rw [idctSample_dc hr hx fun k i hk hi hne => dequantised_flat hz hk hi hne, dequantised_dc]

theorem uniform_inRange (h : ∀ i, i < f.comps.length → ∃ s, f.Uniform i s) : f.InRange := by
  intro i c q hc hq m hm bs hbs b hb
  obtain ⟨s, hs⟩ := h i (List.getElem?_eq_some_iff.1 hc).1
  obtain ⟨hz, v, hv, h1, h2, -⟩ := hs c q hc hq m hm bs hbs b hb
  refine ⟨fun k j hk hj => ?_, fun k j hk hj => ?_⟩
  · by_cases h0 : (k, j) = (0, 0)
    · obtain ⟨rfl, rfl⟩ := Prod.mk.inj h0
      rw [dequantised_dc, ← hv]; omega
    · rw [dequantised_flat hz hk hj h0]; omega
  · rw [idctSample_flat hz hk hj, ← hv]; omega

theorem saturate_uniform {s : UInt8} {v : Int} (h : (s.toNat : Int) = min 255 (max 0 v)) : saturate v = s := by
  apply UInt8.toNat.inj
  have := saturate_toNat v
  omega

/-- Every sample belongs to a block. -/
theorem blockAt_some {r : Nat} {codes : List (Code × Code)} (hv : f.Laid r H V codes) {i : Nat} {c : FileComponent}
    (hc : f.comps[i]? = some c) {Y X : Nat} (hY : Y < 8 * (ceilDiv f.y (8 * V) * c.v))
    (hX : X < 8 * (ceilDiv f.x (8 * H) * c.h)) :
    ∃ m ∈ f.intervals.flatten, ∃ blocks, m[i]? = some blocks ∧ ∃ b ∈ blocks, f.blockAt H i c Y X = some b := by
  obtain ⟨f1, f2, f3, f4⟩ := hv.factors c (List.mem_of_getElem? hc)
  have hm1 : Y / 8 / c.v < ceilDiv f.y (8 * V) := by
    rw [Nat.div_lt_iff_lt_mul f3]; omega
  have hm2 : X / 8 / c.h < ceilDiv f.x (8 * H) := by
    rw [Nat.div_lt_iff_lt_mul f1]; omega
  have hm : Y / 8 / c.v * ceilDiv f.x (8 * H) + X / 8 / c.h < f.intervals.flatten.length := by
    rw [hv.mcus]
    calc Y / 8 / c.v * ceilDiv f.x (8 * H) + X / 8 / c.h
        < Y / 8 / c.v * ceilDiv f.x (8 * H) + ceilDiv f.x (8 * H) := by omega
      _ = (Y / 8 / c.v + 1) * ceilDiv f.x (8 * H) := by ring
      _ ≤ ceilDiv f.y (8 * V) * ceilDiv f.x (8 * H) := Nat.mul_le_mul_right _ hm1
      _ = _ := Nat.mul_comm _ _
  have hmcu := List.getElem?_eq_getElem hm
  generalize f.intervals.flatten[Y / 8 / c.v * ceilDiv f.x (8 * H) + X / 8 / c.h] = m at hmcu
  have hmm := List.mem_of_getElem? hmcu
  have hlen := hv.blocks m hmm
  have hbs : (m.map List.length)[i]? = some (c.h * c.v) := by
    rw [hlen, List.getElem?_map, hc]; rfl
  rw [List.getElem?_map] at hbs
  obtain ⟨bs, hbs, hbl⟩ := Option.map_eq_some_iff.1 hbs
  have hk : Y / 8 % c.v * c.h + X / 8 % c.h < bs.length := by
    have h1 := Nat.mod_lt (Y / 8) (show c.v > 0 by omega)
    have h2 := Nat.mod_lt (X / 8) (show c.h > 0 by omega)
    rw [hbl]
    calc Y / 8 % c.v * c.h + X / 8 % c.h < Y / 8 % c.v * c.h + c.h := by omega
      _ = (Y / 8 % c.v + 1) * c.h := by ring
      _ ≤ c.v * c.h := Nat.mul_le_mul_right _ h1
      _ = _ := Nat.mul_comm _ _
  have hb := List.getElem?_eq_getElem hk
  generalize bs[Y / 8 % c.v * c.h + X / 8 % c.h] = b at hb
  refine ⟨m, hmm, bs, hbs, b, List.mem_of_getElem? hb, ?_⟩
  unfold BaselineFile.blockAt
  rw [hmcu, Option.bind_some, hbs, Option.bind_some, hb]

/-- All samples of the component. -/
theorem uniform_sample {r : Nat} {codes : List (Code × Code)} (hv : f.Laid r H V codes) {i : Nat} {s : UInt8}
    (hu : f.Uniform i s) {c : FileComponent} (hc : f.comps[i]? = some c) {Y X : Nat}
    (hY : Y < 8 * (ceilDiv f.y (8 * V) * c.v)) (hX : X < 8 * (ceilDiv f.x (8 * H) * c.h)) :
    f.sample H i Y X = s := by
  obtain ⟨q, hq⟩ := hv.quant c (List.mem_of_getElem? hc)
  obtain ⟨m, hm, bs, hbs, b, hb, e⟩ := blockAt_some hv hc hY hX
  obtain ⟨hz, v, hv', -, -, hs⟩ := hu c q hc hq m hm bs hbs b hb
  unfold BaselineFile.sample
  rw [hc]
  simp only [e, hq]
  rw [idctSample_flat hz (Nat.mod_lt _ (by omega)) (Nat.mod_lt _ (by omega)), ← hv']
  exact saturate_uniform hs

theorem upsampled_const (x0 y0 hmax vmax ch cv w h s row x : Nat) :
    upsampled x0 y0 hmax vmax ch cv w h (fun _ _ => s) row x = s := by
  unfold upsampled
  split
  · rfl
  split
  · unfold doubleLine tri; simp only; split <;> [rfl; skip]; split <;> [rfl; skip]; split <;> omega
  split
  · unfold doubleRows tri; simp only; omega
  split
  · unfold doubleBoth; simp only; split <;> [omega; skip]; split <;> [omega; skip]; split <;> omega
  · rfl

/-- The component upsampled. -/
theorem uniform_upsampled {r : Nat} {codes : List (Code × Code)} (hv : f.Laid r H V codes) (hr : f.Renderable H V)
    {i : Nat} {s : UInt8} (hi : i < f.comps.length) (hu : f.Uniform i s) {row x : Nat} (hrow : row < f.y) (hx : x < f.x) :
    UInt8.ofNat (f.upsampledSample H V i row x) = s := by
  have hc := List.getElem?_eq_getElem hi
  generalize f.comps[i] = c at hc
  have hcm := List.mem_of_getElem? hc
  have g := fileComponent_geometry hv hcm
  have F := Facts.of g (hv.hmax.1 c hcm) (hv.vmax.1 c hcm) hv.x.1 (by omega)
  unfold BaselineFile.upsampledSample
  rw [hc]
  simp only
  have := (upsampled_congr g (hv.hmax.1 c hcm) (hv.vmax.1 c hcm) hv.x.1 hrow
    ⟨(hr c hcm).1, (hr c hcm).2.1⟩ hx (fun r k => (f.sample H i r k).toNat) (fun _ _ => s.toNat) ?_).trans
    (upsampled_const ..)
  · rw [show upsampled f.x f.y H V c.h c.v (ceilDiv (f.x * c.h) H) (ceilDiv (f.y * c.v) V)
      (fun r k => (f.sample H i r k).toNat) row x = s.toNat from this]
    exact UInt8.ofNat_toNat
  · intro r k h1 h2
    have e1 := F.w_le
    have e2 := F.h_le
    have e3 : (fileComponent f H V c).lineStride = 8 * (ceilDiv f.x (8 * H) * c.h) := g.lineStride
    have e4 : (fileComponent f H V c).blockSize.height = ceilDiv f.y (8 * V) * c.v := by rw [g.blocks]; rfl
    rw [uniform_sample hv hu hc (by omega) (by omega)]

theorem row_lt {cfg : Cfg} {y Y : Nat} (h : y < Y) : (if cfg.rayon then y / V else y / V * V) < Y := by
  have := Nat.div_le_self y V
  have := Nat.div_mul_le_self y V
  split <;> omega

/-- Lists of pixels. -/
theorem pixels_ext {k X Y : Nat} {p image : List UInt8} (hp : p.length = k) (hl : image.length = X * Y * k)
    (h : ∀ y x i, y < Y → x < X → i < k → image[k * X * y + (k * x + i)]? = p[i]?) :
    image = (List.replicate (X * Y) p).flatten := by
  rw [show (List.replicate (X * Y) p).flatten = (List.range (X * Y)).flatMap fun _ => p by
    rw [List.flatMap_def, List.map_const', List.length_range]]
  apply List.ext_getElem?
  intro n
  by_cases hn : n < X * Y * k
  · have hk : 0 < k := by rcases Nat.eq_zero_or_pos k with rfl | h <;> [simp at hn; exact h]
    have hX : 0 < X := by rcases Nat.eq_zero_or_pos X with rfl | h <;> [simp at hn; exact h]
    have h1 : n / k < X * Y := (Nat.div_lt_iff_lt_mul hk).2 hn
    have h2 : n / k / X < Y := (Nat.div_lt_iff_lt_mul hX).2 (by rw [Nat.mul_comm]; exact h1)
    have e1 : n = k * (n / k) + n % k := (Nat.div_add_mod n k).symm
    have e2 : n / k = X * (n / k / X) + n / k % X := (Nat.div_add_mod _ X).symm
    have e3 : n = k * X * (n / k / X) + (k * (n / k % X) + n % k) := by
      rw [Nat.mul_assoc, ← Nat.add_assoc, ← Nat.mul_add, ← e2]; exact e1
    have hi := Nat.mod_lt n hk
    have hx := Nat.mod_lt (n / k) hX
    have := h _ _ _ h2 hx hi
    rw [← e3] at this
    rw [this]
    conv_rhs => rw [e1]
    rw [flatMap_get (k := k) (fun _ => hp) _ _ _ h1 hi]
  · rw [List.getElem?_eq_none (by omega), List.getElem?_eq_none]
    rw [List.length_flatMap, List.map_const', List.length_range, List.sum_replicate, hp, Nat.nsmul_eq_mul]
    omega

/-- All pixels have the colour of the three values. -/
theorem decode_uniform (cfg : Cfg) (f : BaselineFile) (H V : Nat) (codes : List (Code × Code)) (d : Decoder)
    (hd : UsedDecoder d) (hh : Holds cfg d f.earlier) (h3 : f.comps.length = 3)
    (hct : f.transform d.transform ≠ some 0) (hv : f.Valid (f.interval d.restartInterval) H V codes)
    (hr : f.Renderable H V) {y cb cr r g b : UInt8} (h0 : f.Uniform 0 y) (h1 : f.Uniform 1 cb) (h2 : f.Uniform 2 cr)
    (hc : ycbcrToRgb y cb cr = .ok (r, g, b)) :
    ∃ d', d.decode cfg f.bytes = .ok (List.replicate (f.x * f.y) [r, g, b]).flatten d' := by
  obtain ⟨image, d', e, hl⟩ := C45_decodes cfg f H V codes d hd hh h3 hct hv hr
  refine ⟨d', ?_⟩
  rw [e]
  congr 1
  have hin : f.InRange := uniform_inRange fun i hi => by
    rcases (by omega : i = 0 ∨ i = 1 ∨ i = 2) with rfl | rfl | rfl
    exacts [⟨_, h0⟩, ⟨_, h1⟩, ⟨_, h2⟩]
  refine pixels_ext (k := 3) rfl hl ?_
  intro Y X i hY hX hi
  obtain ⟨r', g', b', h, p0, p1, p2⟩ := C45_pixels_partial cfg f H V codes d hd hh h3 hct hv hr hin image
    d' e Y X hY hX
  simp only at h
  rw [uniform_upsampled hv.toLaid hr (by omega) h0 (row_lt hY) hX,
    uniform_upsampled hv.toLaid hr (by omega) h1 (row_lt hY) hX,
    uniform_upsampled hv.toLaid hr (by omega) h2 (row_lt hY) hX, hc] at h
  cases h
  rcases (by omega : i = 0 ∨ i = 1 ∨ i = 2) with rfl | rfl | rfl
  · rw [Nat.add_zero]; exact p0
  · exact p1
  · exact p2

/-- **C85** (YCbCr). A three-component baseline file laid out as the standard says, with sampling factors that
this decoder can render, all of whose components have one sample value everywhere, decodes to a picture in
which all pixels have the same colour, that of BT.601 for the three values: whatever the size, the sampling factors, the Huffman and
quantisation tables, the restart interval, and in every build (debug or release, with rayon or without). -/
theorem C85_one_colour (cfg : Cfg) (f : BaselineFile) (H V : Nat) (codes : List (Code × Code)) (d : Decoder)
    (hd : UsedDecoder d) (hh : Holds cfg d f.earlier) (h3 : f.comps.length = 3)
    (hct : f.transform d.transform ≠ some 0) (hv : f.Valid (f.interval d.restartInterval) H V codes)
    (hr : f.Renderable H V) (y cb cr : UInt8) (h0 : f.Uniform 0 y) (h1 : f.Uniform 1 cb) (h2 : f.Uniform 2 cr) :
    ∃ r g b d', d.decode cfg f.bytes = .ok (List.replicate (f.x * f.y) [r, g, b]).flatten d' ∧
      |(r.toNat : ℚ) - limit (bt601R y cb cr)| ≤ 1 / 2 + 1 / 500 ∧
      |(g.toNat : ℚ) - limit (bt601G y cb cr)| ≤ 1 / 2 + 1 / 500 ∧
      |(b.toNat : ℚ) - limit (bt601B y cb cr)| ≤ 1 / 2 + 1 / 500 := by
  obtain ⟨r, g, b, hc, a1, a2, a3⟩ := C27_accuracy y cb cr
  obtain ⟨d', e⟩ := decode_uniform cfg f H V codes d hd hh h3 hct hv hr h0 h1 h2 hc
  exact ⟨r, g, b, d', e, a1, a2, a3⟩

/-- **C85** (grey). With both colour components at 128 every byte of the picture is the value of the first. -/
theorem C85_grey (cfg : Cfg) (f : BaselineFile) (H V : Nat) (codes : List (Code × Code)) (d : Decoder)
    (hd : UsedDecoder d) (hh : Holds cfg d f.earlier) (h3 : f.comps.length = 3)
    (hct : f.transform d.transform ≠ some 0) (hv : f.Valid (f.interval d.restartInterval) H V codes)
    (hr : f.Renderable H V) (y : UInt8) (h0 : f.Uniform 0 y) (h1 : f.Uniform 1 128) (h2 : f.Uniform 2 128) :
    ∃ d', d.decode cfg f.bytes = .ok (List.replicate (f.x * f.y * 3) y) d' := by
  obtain ⟨d', e⟩ := decode_uniform cfg f H V codes d hd hh h3 hct hv hr h0 h1 h2 (C27_grey y)
  refine ⟨d', e.trans ?_⟩
  congr 1
  rw [show [y, y, y] = List.replicate 3 y from rfl, List.flatten_replicate_replicate]

/-- **C85** (CMYK). Likewise with four components, the Adobe transform 0: all pixels are the inverted values. -/
theorem C85_cmyk (cfg : Cfg) (f : BaselineFile) (H V : Nat) (codes : List (Code × Code)) (d : Decoder)
    (hd : UsedDecoder d) (hh : Holds cfg d f.earlier) (h4 : f.comps.length = 4)
    (hct : f.transform d.transform = some 0) (hv : f.Valid (f.interval d.restartInterval) H V codes)
    (hr : f.Renderable H V) (c m y k : UInt8) (h0 : f.Uniform 0 c) (h1 : f.Uniform 1 m) (h2 : f.Uniform 2 y)
    (h3 : f.Uniform 3 k) :
    ∃ d', d.decode cfg f.bytes =
      .ok (List.replicate (f.x * f.y) [255 - c, 255 - m, 255 - y, 255 - k]).flatten d' := by
  obtain ⟨image, d', e, hl⟩ := C54_decodes cfg f H V codes d hd hh h4 hct hv hr
  refine ⟨d', ?_⟩
  rw [e]
  congr 1
  refine pixels_ext (k := 4) rfl hl ?_
  intro Y X i hY hX hi
  have hin : f.InRange := uniform_inRange fun i hi => by
    rcases (by omega : i = 0 ∨ i = 1 ∨ i = 2 ∨ i = 3) with rfl | rfl | rfl | rfl
    exacts [⟨_, h0⟩, ⟨_, h1⟩, ⟨_, h2⟩, ⟨_, h3⟩]
  rw [C54_pixels_partial cfg f H V codes d hd hh h4 hct hv hr hin image d' e Y X i hY hX hi]
  rcases (by omega : i = 0 ∨ i = 1 ∨ i = 2 ∨ i = 3) with rfl | rfl | rfl | rfl
  · rw [uniform_upsampled hv.toLaid hr (by omega) h0 (row_lt hY) hX]; rfl
  · rw [uniform_upsampled hv.toLaid hr (by omega) h1 (row_lt hY) hX]; rfl
  · rw [uniform_upsampled hv.toLaid hr (by omega) h2 (row_lt hY) hX]; rfl
  · rw [uniform_upsampled hv.toLaid hr (by omega) h3 (row_lt hY) hX]; rfl

/-- **C85** (grey pictures in three components). With both colour components at 128 everywhere and the first component at full
resolution, vertical factors 1, with whatever content: every pixel is three times the sample of the first
component there, without any rounding of the colour conversion. (For larger vertical factors the row is
`y / V * V`, see C33.) -/
theorem C85_neutral (cfg : Cfg) (f : BaselineFile) (H : Nat) (codes : List (Code × Code)) (d : Decoder)
    (hd : UsedDecoder d) (hh : Holds cfg d f.earlier) (h3 : f.comps.length = 3)
    (hct : f.transform d.transform ≠ some 0) (hv : f.Valid (f.interval d.restartInterval) H 1 codes)
    (hr : f.Renderable H 1) (hin : f.InRange) (hfull : (f.comps.map (·.h)).head? = some H)
    (h1 : f.Uniform 1 128) (h2 : f.Uniform 2 128) :
    ∃ image d', d.decode cfg f.bytes = .ok image d' ∧ image.length = f.x * f.y * 3 ∧
      ∀ y x i, y < f.y → x < f.x → i < 3 → image[3 * f.x * y + (3 * x + i)]? = some (f.sample H 0 y x) := by
  obtain ⟨image, d', e, hl⟩ := C45_decodes cfg f H 1 codes d hd hh h3 hct hv hr
  refine ⟨image, d', e, hl, ?_⟩
  intro y x i hy hx hi
  obtain ⟨r, g, b, h, p0, p1, p2⟩ := C45_pixels_own_row_partial cfg f H codes d hd hh h3 hct hv hr hin image d' e y x hy hx
  simp only at h
  rw [uniform_upsampled hv.toLaid hr (by omega) h1 hy hx, uniform_upsampled hv.toLaid hr (by omega) h2 hy hx,
    C27_grey] at h
  have hs : UInt8.ofNat (f.upsampledSample H 1 0 y x) = f.sample H 0 y x := by
    unfold BaselineFile.upsampledSample
    match hc : f.comps, hfull with
    | c :: cs, hfull =>
      have h1 : c.h = H := by simpa using hfull
      have hv1 : c.v = 1 := by
        have hcm : c ∈ f.comps := by rw [hc]; exact List.mem_cons_self
        have a := hv.factors c hcm
        have b : c.v ≤ 1 := hv.vmax.1 c hcm
        omega
      rw [List.getElem?_cons_zero]
      simp only
      unfold upsampled
      rw [if_pos ⟨.inl h1, .inl hv1⟩, UInt8.ofNat_toNat]
  rw [hs] at h
  cases h
  rcases (by omega : i = 0 ∨ i = 1 ∨ i = 2) with rfl | rfl | rfl
  · exact p0
  · exact p1
  · exact p2

/-! ## A case -/

/-- A block with DC coefficient only. -/
def dcBlock (v : Int) : BlockData := ⟨v, List.replicate 63 0⟩

/-- An MCU with four blocks of the first component and one of each other. -/
def colourMcu (v : Int) : Mcu := [List.replicate 4 (dcBlock v), [dcBlock 100], [dcBlock (-40)]]

/-- 16 by 16 pixels, 4:2:0, of one colour. -/
def colourFile (v : Int) (data : List UInt8) : BaselineFile :=
  { exampleFile with
    y := 16
    comps := [⟨⟨1, 2, 2, 1⟩, 0, 2⟩, ⟨⟨2, 1, 1, 1⟩, 0, 2⟩, ⟨⟨3, 1, 1, 1⟩, 0, 2⟩]
    intervals := [[colourMcu v]]
    data := stuff data ++ markerBytes .EOI }

def colourData : List UInt8 := [248, 223, 24, 198, 246, 77, 203, 239]

def dcBits (diff : Int) : List Bool := (encodeBlock exampleDc exampleAc diff (List.replicate 63 0)).getD []

theorem dcBits_block (diff : Int) (h : (encodeBlock exampleDc exampleAc diff (List.replicate 63 0)).isSome) :
    BlockBits exampleDc exampleAc diff (List.replicate 63 0) (dcBits diff) := by
  obtain ⟨b, hb⟩ := Option.isSome_iff_exists.1 h
  have := C13_standard_encoder _ _ _ _ _ (by decide) hb
  unfold dcBits
  rw [hb]
  exact this

theorem colourFile_valid (v : Int) (data : List UInt8) (pad : List Bool)
    (h1 : (encodeBlock exampleDc exampleAc v (List.replicate 63 0)).isSome) (h2 : v = wrap16 (0 + v))
    (h3 : v = wrap16 (v + 0)) (hdata : bitsOf data = dcBits v ++ dcBits 0 ++ dcBits 0 ++ dcBits 0 ++ dcBits 100 ++
      dcBits (-40) ++ pad) : (colourFile v data).Valid 1 2 2 (List.replicate 3 (exampleDc, exampleAc)) := by
  have h0 := dcBits_block 0 (by decide +kernel)
  have hy : BlocksBits exampleDc exampleAc 0 (List.replicate 4 (dcBlock v)) _ v :=
    .cons (dcBits_block v h1) h2 (.cons h0 h3 (.cons h0 h3 (.cons h0 h3 .nil)))
  have hb : BlocksBits exampleDc exampleAc 0 [dcBlock 100] _ 100 :=
    .cons (dcBits_block 100 (by decide +kernel)) (by decide +kernel) .nil
  have hr : BlocksBits exampleDc exampleAc 0 [dcBlock (-40)] _ (-40) :=
    .cons (dcBits_block (-40) (by decide +kernel)) (by decide +kernel) .nil
  have hm : McuBits (List.replicate 3 (exampleDc, exampleAc)) [0, 0, 0] (colourMcu v) _ [v, 100, -40] :=
    .cons hy (.cons hb (.cons hr (.nil (ps := []))))
  have hi : IntervalData (List.replicate 3 (exampleDc, exampleAc)) [colourMcu v] data :=
    ⟨_, pad, _, .cons hm .nil, by rw [hdata]; simp only [List.append_assoc, List.append_nil]⟩
  have hv := exampleFile_valid
  have hc : (colourFile v data).comps = [⟨⟨1, 2, 2, 1⟩, 0, 2⟩, ⟨⟨2, 1, 1, 1⟩, 0, 2⟩, ⟨⟨3, 1, 1, 1⟩, 0, 2⟩] := rfl
  refine ⟨⟨hv.tables, hv.sof, hv.x, show (16 : Nat) < 2 ^ 16 by decide, ?_, ?_, ?_, ?_, ?_, ?_,
    fun h => (by cases h), ?_, ?_, show 1 = ceilDiv 16 (8 * 2) * ceilDiv 16 (8 * 2) by decide, ?_, ?_⟩, ⟨0, .last hi⟩⟩
  · rw [hc]; decide
  · rw [hc]; decide
  · rw [hc]; decide
  · rw [hc]; exact ⟨by decide, by decide⟩
  · rw [hc]; exact ⟨by decide, by decide⟩
  · rw [hc]; decide
  · intro c hc
    simp only [colourFile, List.mem_cons, List.not_mem_nil, or_false] at hc
    rcases hc with rfl | rfl | rfl <;> exact ⟨List.replicate 64 2, rfl⟩
  · exact .cons ⟨rfl, rfl⟩ (.cons ⟨rfl, rfl⟩ (.cons ⟨rfl, rfl⟩ .nil))
  · intro m hm
    have : m = colourMcu v := by simpa [colourFile] using hm
    rw [this]; rfl
  · unfold IntervalsOk
    rw [if_neg (by decide)]
    exact Or.inr ⟨[], [colourMcu v], rfl, by simp, by simp, by simp⟩

theorem colourFile_uniform {y : Int} {data : List UInt8} (i : Nat) (v : Int) (s : UInt8)
    (h : ∀ bs, (colourMcu y)[i]? = some bs → ∀ b ∈ bs, b = dcBlock v) (h1 : -3076 ≤ v * 2) (h2 : v * 2 ≤ 5115)
    (hs : (s.toNat : Int) = min 255 (max 0 ((v * 2 + 4) / 8 + 128))) : (colourFile y data).Uniform i s := by
  intro c q hc hq m hm bs hbs b hb
  have hm : m = colourMcu y := by simpa [colourFile] using hm
  subst hm
  have hq' : q = List.replicate 64 2 := by
    have := List.mem_of_getElem? hc
    simp only [colourFile, List.mem_cons, List.not_mem_nil, or_false] at this
    rcases this with rfl | rfl | rfl <;> exact (Option.some.inj hq).symm
  obtain rfl := h bs hbs b hb
  subst hq'
  refine ⟨fun z hz => (List.mem_replicate.1 hz).2, v * 2, rfl, h1, h2, hs⟩

theorem colourData_valid : (colourFile (-200) colourData).Valid 1 2 2 (List.replicate 3 (exampleDc, exampleAc)) :=
  colourFile_valid _ _ [true, true, true, true] (by decide +kernel) (by decide) (by decide) (by decide +kernel)

/-- A case of C85: 4:2:0 subsampled, all pixels the same, on a new decoder, in every build. -/
example (cfg : Cfg) : ∃ d', Decoder.default.decode cfg (colourFile (-200) colourData).bytes =
    .ok (List.replicate 256 [64, 77, 122]).flatten d' :=
  decode_uniform cfg (colourFile (-200) colourData) 2 2 _ Decoder.default .new (.nothing _) rfl (by decide) colourData_valid
    (by unfold BaselineFile.Renderable; decide)
    (colourFile_uniform 0 (-200) 78 (by decide +kernel) (by decide) (by decide) (by decide))
    (colourFile_uniform 1 100 153 (by decide +kernel) (by decide) (by decide) (by decide))
    (colourFile_uniform 2 (-40) 118 (by decide +kernel) (by decide) (by decide) (by decide))
    (by decide +kernel)

/-- One MCU, luminance of the example block, neutral colour. -/
def neutralMcu : Mcu := [[⟨-5, exampleZz⟩], [dcBlock 0], [dcBlock 0]]

def neutralFile : BaselineFile :=
  { exampleFile with
    x := 8
    intervals := [[neutralMcu]]
    data := stuff [136, 177, 140, 111] ++ markerBytes .EOI }

theorem neutralFile_valid : neutralFile.Valid 1 1 1 (List.replicate 3 (exampleDc, exampleAc)) := by
  have hy : BlocksBits exampleDc exampleAc 0 [⟨-5, exampleZz⟩] _ (-5) :=
    .cons (C13_standard_encoder _ _ _ _ _ (by decide) exampleBits_eq) (by decide) .nil
  have h0 : BlocksBits exampleDc exampleAc 0 [dcBlock 0] _ 0 :=
    .cons (dcBits_block 0 (by decide +kernel)) (by decide +kernel) .nil
  have hm : McuBits (List.replicate 3 (exampleDc, exampleAc)) [0, 0, 0] neutralMcu _ [-5, 0, 0] :=
    .cons hy (.cons h0 (.cons h0 (.nil (ps := []))))
  have hi : IntervalData (List.replicate 3 (exampleDc, exampleAc)) [neutralMcu] [136, 177, 140, 111] :=
    ⟨_, List.replicate 4 true, _, .cons hm .nil, by decide +kernel⟩
  have hv := exampleFile_valid
  refine ⟨⟨hv.tables, hv.sof, by decide, by decide, hv.count, hv.ids, hv.factors, hv.hmax, hv.vmax, hv.ten,
    hv.single, hv.quant, hv.huffman, by decide, ?_, ?_⟩, ⟨0, .last hi⟩⟩
  · intro m hm
    have : m = neutralMcu := by simpa [neutralFile] using hm
    rw [this]; rfl
  · unfold IntervalsOk
    rw [if_neg (by decide)]
    exact Or.inr ⟨[], [neutralMcu], rfl, by simp, by simp, by simp⟩

theorem neutralFile_uniform (i : Nat) (h : i = 1 ∨ i = 2) : neutralFile.Uniform i 128 := by
  intro c q hc hq m hm bs hbs b hb
  have hm : m = neutralMcu := by simpa [neutralFile] using hm
  subst hm
  have hb : b = dcBlock 0 := by
    rcases h with rfl | rfl <;> (cases hbs; exact List.mem_singleton.1 hb)
  subst hb
  exact ⟨fun z hz => (List.mem_replicate.1 hz).2, 0, (Int.zero_mul _).symm, by decide, by decide, by decide⟩

theorem neutralFile_inRange : neutralFile.InRange := by
  intro i c q hc hq m hm bs hbs b hb
  have hq' : q = List.replicate 64 2 := by
    have := List.mem_of_getElem? hc
    simp only [neutralFile, exampleFile, List.mem_cons, List.not_mem_nil, or_false] at this
    rcases this with rfl | rfl | rfl <;> exact (Option.some.inj hq).symm
  have hm : m = neutralMcu := by simpa [neutralFile] using hm
  subst hm hq'
  have h : b = ⟨-5, exampleZz⟩ ∨ b = dcBlock 0 := by
    have := List.mem_of_getElem? hbs
    simp only [neutralMcu, List.mem_cons, List.not_mem_nil, or_false, or_self] at this
    rcases this with rfl | rfl
    · exact .inl (List.mem_singleton.1 hb)
    · exact .inr (List.mem_singleton.1 hb)
  rcases h with rfl | rfl
  · exact exampleBlock_inRange
  · have hz : ∀ z ∈ (dcBlock 0).zz, z = 0 := fun z hz => (List.mem_replicate.1 hz).2
    have h0 : (dcBlock 0).dc * (((List.replicate 64 2).getD 0 0 : Nat) : Int) = 0 := Int.zero_mul _
    refine ⟨fun k j hk hj => ?_, fun k j hk hj => ?_⟩
    · by_cases h : (k, j) = (0, 0)
      · obtain ⟨rfl, rfl⟩ := Prod.mk.inj h
        rw [dequantised_dc, h0]; decide
      · rw [dequantised_flat hz hk hj h]; decide
    · rw [idctSample_flat hz hk hj, h0]; decide

/-- A case of C85_neutral: the picture is not flat. -/
example (cfg : Cfg) : ∃ image d', Decoder.default.decode cfg neutralFile.bytes = .ok image d' ∧
    image.take 3 = List.replicate 3 (neutralFile.sample 1 0 0 0) ∧
    image[3 * 8 * 4 + (3 * 7 + 2)]? = some (neutralFile.sample 1 0 4 7) ∧
    neutralFile.sample 1 0 0 0 ≠ neutralFile.sample 1 0 4 7 := by
  obtain ⟨image, d', e, hl, h⟩ := C85_neutral cfg neutralFile 1 _ Decoder.default .new (.nothing _) rfl (by decide)
    neutralFile_valid (by unfold BaselineFile.Renderable; decide) neutralFile_inRange rfl
    (neutralFile_uniform 1 (.inl rfl)) (neutralFile_uniform 2 (.inr rfl))
  refine ⟨image, d', e, ?_, h 4 7 2 (by decide) (by decide) (by decide), by decide +kernel⟩
  have h0 := h 0 0 0 (by decide) (by decide) (by decide)
  have h1 := h 0 0 1 (by decide) (by decide) (by decide)
  have h2 := h 0 0 2 (by decide) (by decide) (by decide)
  match image, h0, h1, h2 with
  | a :: b :: c :: _, h0, h1, h2 => cases h0; cases h1; cases h2; rfl

end Jpeg
