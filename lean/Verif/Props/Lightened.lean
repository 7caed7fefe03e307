import Verif.Props.MirrorWide
import Verif.Spec.Lightened
import Verif.Props.Limited
/-!
# C92: change of brightness without decoding
-/

namespace Jpeg
open Spec Sample

theorem idctMatrixRow_head {j : Nat} (hj : j < 8) : ∃ t, idctMatrixRow j = 4096 :: t := by
  rcases (by omega : j = 0 ∨ j = 1 ∨ j = 2 ∨ j = 3 ∨ j = 4 ∨ j = 5 ∨ j = 6 ∨ j = 7) with
    rfl | rfl | rfl | rfl | rfl | rfl | rfl | rfl <;> exact ⟨_, rfl⟩

theorem dot_add_head {j : Nat} (hj : j < 8) (a v : Int) (l : List Int) :
    dot (idctMatrixRow j) ((a + v) :: l) = dot (idctMatrixRow j) (a :: l) + 4096 * v := by
  obtain ⟨t, ht⟩ := idctMatrixRow_head hj
  unfold dot
  rw [ht]
  simp only [List.zipWith_cons_cons, List.sum_cons]
  omega

theorem idctPass1_light {F F' : Nat → Nat → Int} {k : Int} {j : Nat} (hj : j < 8) (h0 : F' 0 0 = F 0 0 + 8 * k)
    (h : ∀ k i, k < 8 → i < 8 → (k, i) ≠ (0, 0) → F' k i = F k i) : idctPass1 F' j 0 = idctPass1 F j 0 + 32 * k := by
  unfold idctPass1
  have e : ∀ G : Nat → Nat → Int, (List.range 8).map (fun k => G k 0) = G 0 0 :: (List.range' 1 7).map fun k => G k 0 :=
    fun _ => rfl
  rw [e F, e F', show (List.range' 1 7).map (fun k => F' k 0) = (List.range' 1 7).map fun k => F k 0 from
    List.map_congr_left fun k hk => by
      have := List.mem_range'_1.1 hk
      exact h k 0 (by omega) (by omega) (by simp; omega), h0, dot_add_head hj]
  omega

/-- **C92** (the inverse DCT). With `8 k` more in the DC coefficient every sample is larger by `k`, exactly. -/
theorem C92_idct (F F' : Nat → Nat → Int) (k : Int) (r x : Nat) (hr : r < 8) (hx : x < 8) (h0 : F' 0 0 = F 0 0 + 8 * k)
    (h : ∀ k i, k < 8 → i < 8 → (k, i) ≠ (0, 0) → F' k i = F k i) : idctSample F' r x = idctSample F r x + k := by
  unfold idctSample
  have e : ∀ G : Nat → Int, (List.range 8).map G = G 0 :: (List.range' 1 7).map G := fun _ => rfl
  rw [e, e, show (List.range' 1 7).map (fun k => idctPass1 F' r k) = (List.range' 1 7).map fun k => idctPass1 F r k from
    List.map_congr_left fun i hi => by
      have := List.mem_range'_1.1 hi
      unfold idctPass1
      rw [show (List.range 8).map (fun k => F' k i) = (List.range 8).map fun k => F k i from
        List.map_congr_left fun k hk => h k i (List.mem_range.1 hk) (by omega) (by simp; omega)],
    idctPass1_light hr h0 h, dot_add_head hx]
  omega

/-- A case of C92: the flat block. -/
example : idctSample (fun k i => if k = 0 ∧ i = 0 then 24 else if k = 1 ∧ i = 2 then 100 else 0) 3 4 =
    idctSample (fun k i => if k = 1 ∧ i = 2 then 100 else 0) 3 4 + 3 :=
  C92_idct _ _ 3 3 4 (by decide) (by decide) (by decide) (by
    intro k i _ _ h
    rw [if_neg (by rintro ⟨rfl, rfl⟩; exact h rfl)])

section

variable {f f' : BaselineFile} {H V n : Nat} {k : Int}

theorem dequantised_light {q : List Nat} {b b' : BlockData} (h : LighterBlock q k b b') :
    dequantised q b' 0 0 = dequantised q b 0 0 + 8 * k ∧
    ∀ k i, k < 8 → i < 8 → (k, i) ≠ (0, 0) → dequantised q b' k i = dequantised q b k i := by
  obtain ⟨h1, h2⟩ := h
  have h0 : ((List.range 64).map zigzag).idxOf 0 = 0 := by decide +kernel
  constructor
  · unfold dequantised
    simp only [Nat.mul_zero, Nat.add_zero, h0, List.getD_cons_zero]
    exact h1
  · intro k i hk hi hne
    rcases Int.le_total b.dc b'.dc with hle | hle
    · exact ((dequantised_mono q hle h2.symm).2 k i hk hi hne).symm
    · exact (dequantised_mono q hle h2).2 k i hk hi hne

/-- The values of the other components. -/
theorem value_other (hf : Lightened f f' n k) {i : Nat} (hi : i ≠ n) (Y X : Nat) : f'.value H i Y X = f.value H i Y X := by
  unfold BaselineFile.value
  rcases forall₂_get hf.scales i with ⟨g1, g2⟩ | ⟨c, c', g1, g2, hh, hv, hq⟩
  · rw [g1, g2]
  · rw [g1, g2]
    simp only [hq]
    have : f'.blockAt H i c' Y X = f.blockAt H i c Y X := by
      unfold BaselineFile.blockAt
      rw [← hf.x, ← hh, ← hv]
      rcases forall₂_get hf.mcus (Y / 8 / c.v * ceilDiv f.x (8 * H) + X / 8 / c.h) with ⟨h1, h2⟩ | ⟨m, m', h1, h2, h, -⟩
      · rw [h1, h2]
      · rw [h1, h2, Option.bind_some, Option.bind_some, h i hi]
    rw [this]

/-- The values of the component that is made lighter. -/
theorem value_light (hf : Lightened f f' n k) {c : FileComponent} (hc : f.comps[n]? = some c) {Y X : Nat} {b : BlockData}
    (hb : f.blockAt H n c Y X = some b) : f'.value H n Y X = f.value H n Y X + k := by
  unfold BaselineFile.value
  rcases forall₂_get hf.scales n with ⟨g1, g2⟩ | ⟨c0, c', g1, g2, hh, hv, hq⟩
  · rw [hc] at g1; cases g1
  cases hc.symm.trans g1
  rw [g1, g2]
  simp only [hb, ← hq]
  unfold BaselineFile.blockAt at hb ⊢
  rw [← hf.x, ← hh, ← hv]
  rcases forall₂_get hf.mcus (Y / 8 / c.v * ceilDiv f.x (8 * H) + X / 8 / c.h) with ⟨h1, -⟩ | ⟨m, m', h1, h2, -, h⟩
  · rw [h1] at hb; cases hb
  obtain ⟨c0, q, bs, bs', e0, e1, e2, e3, e4⟩ := h
  cases hc.symm.trans e0
  rw [h1, Option.bind_some, e2, Option.bind_some] at hb
  rw [h2, Option.bind_some, e3, Option.bind_some, e1]
  rcases forall₂_get e4 (Y / 8 % c.v * c.h + X / 8 % c.h) with ⟨h1, -⟩ | ⟨b0, b', h1, h2, h3⟩
  · rw [h1] at hb; cases hb
  cases hb.symm.trans h1
  rw [h2]
  simp only
  obtain ⟨d0, d1⟩ := dequantised_light h3
  exact C92_idct _ _ k _ _ (Nat.mod_lt _ (by omega)) (Nat.mod_lt _ (by omega)) d0 d1

theorem aroundSample_other (hf : Lightened f f' n k) {i : Nat} (hi : i ≠ n) (row col : Nat) :
    f'.aroundSample H V i row col = f.aroundSample H V i row col := by
  unfold BaselineFile.aroundSample
  rcases forall₂_get hf.scales i with ⟨g1, g2⟩ | ⟨c, c', g1, g2, hh, hv, hq⟩
  · rw [g1, g2]
  · rw [g1, g2]
    simp only [← hh, ← hv, ← hf.x, ← hf.y, value_other hf hi]

/-- At full resolution. -/
theorem aroundSample_full {c : FileComponent} (hc : f.comps[n]? = some c) (hfull : c.h = H ∧ c.v = V) (row col : Nat)
    (h : 0 ≤ f.value H n row col ∧ f.value H n row col ≤ 255) : (f.aroundSample H V n row col : Int) = f.value H n row col := by
  unfold BaselineFile.aroundSample
  rw [hc]
  simp only
  unfold upsampled
  rw [if_pos ⟨.inl hfull.1, .inl hfull.2⟩]
  have e : around (f.value H n row col) = f.value H n row col := by unfold around; omega
  show ((saturate (around (f.value H n row col))).toNat : Int) = _
  rw [e, saturate_toNat]
  omega

theorem aroundSample_light {r : Nat} {codes : List (Code × Code)} (hv : f.Laid r H V codes) (hf : Lightened f f' n k)
    {c : FileComponent} (hc : f.comps[n]? = some c) (hfull : c.h = H ∧ c.v = V) {row col : Nat} (hrow : row < f.y)
    (hcol : col < f.x) (h : 0 ≤ f.value H n row col ∧ f.value H n row col ≤ 255)
    (h' : 0 ≤ f.value H n row col + k ∧ f.value H n row col + k ≤ 255) :
    (f'.aroundSample H V n row col : Int) = f.aroundSample H V n row col + k ∧ f.aroundSample H V n row col < 256 ∧
      f'.aroundSample H V n row col < 256 := by
  obtain ⟨f1, f2, f3, f4⟩ := hv.factors c (List.mem_of_getElem? hc)
  have full : ∀ (a A m : Nat), 0 < m → a < A → a < 8 * (ceilDiv A (8 * m) * m) := by
    intro a A m hm ha
    have : a / 8 / m < ceilDiv A (8 * m) := by
      refine lt_ceilDiv (by omega) ?_
      rw [Nat.div_div_eq_div_mul]
      exact Nat.lt_of_le_of_lt (Nat.div_mul_le_self _ _) ha
    rw [Nat.div_lt_iff_lt_mul hm] at this
    omega
  obtain ⟨-, -, -, -, b, -, hb⟩ := blockAt_some hv hc (Y := row) (X := col)
    (by rw [hfull.2]; exact full _ _ _ (by omega) hrow) (by rw [hfull.1]; exact full _ _ _ (by omega) hcol)
  have e := value_light hf hc hb
  rcases forall₂_get hf.scales n with ⟨g1, -⟩ | ⟨c0, c', g1, g2, hh, hv, -⟩
  · rw [hc] at g1; cases g1
  cases hc.symm.trans g1
  have a := aroundSample_full hc hfull row col h
  have a' := aroundSample_full (f := f') g2 ⟨hh.symm.trans hfull.1, hv.symm.trans hfull.2⟩ row col (by rw [e]; exact h')
  omega

end

theorem saturate_raised (s k : Int) : Raised k (saturate s) (saturate (s + k)) := by
  have h1 := saturate_toNat s
  have h2 := saturate_toNat (s + k)
  unfold Raised
  refine ⟨fun _ _ => ?_, fun _ => ?_, fun _ => ?_⟩ <;> omega

theorem Spec.Lightened.renderable {f f' : BaselineFile} {n H V : Nat} {k : Int} (hf : Lightened f f' n k) (hr : f.Renderable H V) :
    f'.Renderable H V := by
  intro c' hc'
  obtain ⟨i, hi⟩ := List.mem_iff_getElem?.1 hc'
  rcases forall₂_get hf.scales i with ⟨-, h2⟩ | ⟨c, c'', h1, h2, hh, hv, -⟩
  · rw [hi] at h2; cases h2
  · obtain rfl := Option.some.inj (hi.symm.trans h2)
    have := hr c (List.mem_of_getElem? h1)
    rw [hf.x, hf.y, hh, hv] at this
    exact this

/-- **C92**. A three-component baseline picture whose luminance (at full resolution) is made lighter (or darker) by `k`
without decoding it: every channel of every pixel is larger by `k`, exactly, wherever the luminance was and stays
within 0..255 and up to the limits of the channel; whatever the subsampling of the chrominance (of those that this
decoder can render), the tables, the way the two files are written, the decoders and the build. -/
theorem C92_brightness (cfg : Cfg) (f f' : BaselineFile) (k : Int) (hf : Lightened f f' 0 k) (H V : Nat)
    (codes codes' : List (Code × Code)) (d₁ d₂ : Decoder) (hd₁ : UsedDecoder d₁) (hd₂ : UsedDecoder d₂)
    (hh₁ : Holds cfg d₁ f.earlier) (hh₂ : Holds cfg d₂ f'.earlier) (h3 : f.comps.length = 3)
    (hct₁ : f.transform d₁.transform ≠ some 0) (hct₂ : f'.transform d₂.transform ≠ some 0)
    (hv₁ : f.Valid (f.interval d₁.restartInterval) H V codes) (hv₂ : f'.Valid (f'.interval d₂.restartInterval) H V codes')
    (hr₁ : f.Renderable H V) (hin₁ : f.Moderately) (hin₂ : f'.Moderately)
    (hfull : ∀ c, f.comps[0]? = some c → c.h = H ∧ c.v = V) :
    ∃ image image' e₁ e₂, d₁.decode cfg f.bytes = .ok image e₁ ∧ d₂.decode cfg f'.bytes = .ok image' e₂ ∧
      image.length = f.x * f.y * 3 ∧ image'.length = f.x * f.y * 3 ∧
      ∀ y x, y < f.y → x < f.x →
        let row := if cfg.rayon then y / V else y / V * V
        0 ≤ f.value H 0 row x ∧ f.value H 0 row x ≤ 255 → 0 ≤ f.value H 0 row x + k ∧ f.value H 0 row x + k ≤ 255 →
        ∀ j, j < 3 → ∃ v v', image[3 * f.x * y + (3 * x + j)]? = some v ∧ image'[3 * f.x * y + (3 * x + j)]? = some v' ∧
          Raised k v v' := by
  have h3' : f'.comps.length = 3 := by have := hf.scales.length_eq; omega
  have hr₂ := hf.renderable hr₁
  obtain ⟨image, e₁, a1, a2, p⟩ := C90_reduced cfg f H V codes d₁ hd₁ hh₁ h3 hct₁ hv₁ hr₁ hin₁
  obtain ⟨image', e₂, b1, b2, p'⟩ := C90_reduced cfg f' H V codes' d₂ hd₂ hh₂ h3' hct₂ hv₂ hr₂ hin₂
  refine ⟨image, image', e₁, e₂, a1, b1, a2, by rw [b2, hf.x, hf.y], ?_⟩
  intro y x hy hx row h h' j hj
  obtain ⟨r, g, b, q, p0, p1, p2⟩ := p y x hy hx
  obtain ⟨r', g', b', q', p0', p1', p2'⟩ := p' y x (hf.y ▸ hy) (hf.x ▸ hx)
  rw [← hf.x] at p0' p1' p2'
  have hrow : row < f.y := by
    have := Nat.div_le_self y V
    have := Nat.div_mul_le_self y V
    show (if cfg.rayon then y / V else y / V * V) < f.y
    split <;> omega
  change ycbcrToRgb (UInt8.ofNat (f.aroundSample H V 0 row x)) (UInt8.ofNat (f.aroundSample H V 1 row x))
    (UInt8.ofNat (f.aroundSample H V 2 row x)) = _ at q
  change ycbcrToRgb (UInt8.ofNat (f'.aroundSample H V 0 row x)) (UInt8.ofNat (f'.aroundSample H V 1 row x))
    (UInt8.ofNat (f'.aroundSample H V 2 row x)) = _ at q'
  rw [aroundSample_other hf (i := 1) (by decide), aroundSample_other hf (i := 2) (by decide)] at q'
  have hc : f.comps[0]? = some (f.comps[0]'(by omega)) := List.getElem?_eq_getElem _
  obtain ⟨l1, l2, l3⟩ := aroundSample_light hv₁.toLaid hf hc (hfull _ hc) hrow hx h h'
  generalize UInt8.ofNat (f.aroundSample H V 1 row x) = cb at q q'
  generalize UInt8.ofNat (f.aroundSample H V 2 row x) = cr at q q'
  have t : (UInt8.ofNat (f.aroundSample H V 0 row x)).toNat = f.aroundSample H V 0 row x := UInt8.toNat_ofNat_of_lt' l2
  have t' : (UInt8.ofNat (f'.aroundSample H V 0 row x)).toNat = f'.aroundSample H V 0 row x := UInt8.toNat_ofNat_of_lt' l3
  rw [ycbcrToRgb_eq] at q q'
  cases q
  cases q'
  have s1 : redSum (UInt8.ofNat (f'.aroundSample H V 0 row x)) cb cr =
      redSum (UInt8.ofNat (f.aroundSample H V 0 row x)) cb cr + k := by unfold redSum; omega
  have s2 : greenSum (UInt8.ofNat (f'.aroundSample H V 0 row x)) cb cr =
      greenSum (UInt8.ofNat (f.aroundSample H V 0 row x)) cb cr + k := by unfold greenSum; omega
  have s3 : blueSum (UInt8.ofNat (f'.aroundSample H V 0 row x)) cb cr =
      blueSum (UInt8.ofNat (f.aroundSample H V 0 row x)) cb cr + k := by unfold blueSum; omega
  rw [s1] at p0'
  rw [s2] at p1'
  rw [s3] at p2'
  rcases (by omega : j = 0 ∨ j = 1 ∨ j = 2) with rfl | rfl | rfl
  · exact ⟨_, _, p0, p0', saturate_raised _ _⟩
  · exact ⟨_, _, p1, p1', saturate_raised _ _⟩
  · exact ⟨_, _, p2, p2', saturate_raised _ _⟩

/-- **C92** (CMYK). One ink of a CMYK picture, at full resolution: its byte is smaller by `k`, exactly, wherever the
sample was and stays within 0..255; the other bytes are the same. -/
theorem C92_ink (cfg : Cfg) (f f' : BaselineFile) (n : Nat) (k : Int) (hf : Lightened f f' n k) (H V : Nat)
    (codes codes' : List (Code × Code)) (d₁ d₂ : Decoder) (hd₁ : UsedDecoder d₁) (hd₂ : UsedDecoder d₂)
    (hh₁ : Holds cfg d₁ f.earlier) (hh₂ : Holds cfg d₂ f'.earlier) (h4 : f.comps.length = 4)
    (hct₁ : f.transform d₁.transform = some 0) (hct₂ : f'.transform d₂.transform = some 0)
    (hv₁ : f.Valid (f.interval d₁.restartInterval) H V codes) (hv₂ : f'.Valid (f'.interval d₂.restartInterval) H V codes')
    (hr₁ : f.Renderable H V) (hin₁ : f.Moderately) (hin₂ : f'.Moderately)
    (hfull : ∀ c, f.comps[n]? = some c → c.h = H ∧ c.v = V) :
    ∃ image image' e₁ e₂, d₁.decode cfg f.bytes = .ok image e₁ ∧ d₂.decode cfg f'.bytes = .ok image' e₂ ∧
      image.length = f.x * f.y * 4 ∧ image'.length = f.x * f.y * 4 ∧
      ∀ y x, y < f.y → x < f.x → ∀ j, j < 4 → ∃ v v', image[4 * f.x * y + (4 * x + j)]? = some v ∧
        image'[4 * f.x * y + (4 * x + j)]? = some v' ∧ (j ≠ n → v' = v) ∧
        (j = n → let row := if cfg.rayon then y / V else y / V * V
          0 ≤ f.value H n row x ∧ f.value H n row x ≤ 255 → 0 ≤ f.value H n row x + k ∧ f.value H n row x + k ≤ 255 →
          (v'.toNat : Int) = v.toNat - k) := by
  have h4' : f'.comps.length = 4 := by have := hf.scales.length_eq; omega
  have hr₂ := hf.renderable hr₁
  obtain ⟨image, e₁, a1, a2, p⟩ := C90_reduced_cmyk cfg f H V codes d₁ hd₁ hh₁ h4 hct₁ hv₁ hr₁ hin₁
  obtain ⟨image', e₂, b1, b2, p'⟩ := C90_reduced_cmyk cfg f' H V codes' d₂ hd₂ hh₂ h4' hct₂ hv₂ hr₂ hin₂
  refine ⟨image, image', e₁, e₂, a1, b1, a2, by rw [b2, hf.x, hf.y], ?_⟩
  intro y x hy hx j hj
  have q := p y x j hy hx hj
  have q' := p' y x j (hf.y ▸ hy) (hf.x ▸ hx) hj
  rw [← hf.x] at q'
  refine ⟨_, _, q, q', fun hne => ?_, ?_⟩
  · rw [aroundSample_other hf hne]
  · rintro rfl row h h'
    have hrow : row < f.y := by
      have := Nat.div_le_self y V
      have := Nat.div_mul_le_self y V
      show (if cfg.rayon then y / V else y / V * V) < f.y
      split <;> omega
    have hc : f.comps[j]? = some (f.comps[j]'(by omega)) := List.getElem?_eq_getElem _
    obtain ⟨l1, l2, l3⟩ := aroundSample_light hv₁.toLaid hf hc (hfull _ hc) hrow hx h h'
    have comp : ∀ a, a < 256 → (255 - UInt8.ofNat a).toNat = 255 - a := by
      intro a ha
      have t : (UInt8.ofNat a).toNat = a := UInt8.toNat_ofNat_of_lt' ha
      rw [UInt8.toNat_sub_of_le _ _ (UInt8.le_iff_toNat_le.2 (by show (UInt8.ofNat a).toNat ≤ 255; omega)), t]
      rfl
    rw [comp _ l3, comp _ l2]
    omega

/-- `leanMcu` with 80 added to each DC coefficient of the luminance. -/
def lighterMcu : Mcu := [[⟨81, (leanBlock 1).zz⟩, dcBlock 82, dcBlock 83, ⟨84, (leanBlock 4).zz⟩], [leanBlock 5], [dcBlock 6]]

/-- A case of C92: a picture of 16 by 16 pixels with half of the chrominance lines and columns, lighter by 10. -/
example : ∃ f f' codes, Lightened f f' 0 10 ∧ f.Valid 0 2 2 codes ∧ f'.Valid 0 2 2 codes ∧
    ∀ cfg, ∃ image image' : List UInt8, decode cfg f.bytes = .ok image ∧ decode cfg f'.bytes = .ok image' ∧
      ∀ i, i < 768 → ∃ v v', image[i]? = some v ∧ image'[i]? = some v' ∧ Raised 10 v v' := by
  have hq : GoodTable (List.replicate 64 1) := ⟨by decide, by decide⟩
  have ha : ∀ m ∈ [leanMcu, lighterMcu], Arranged quarterComps 16 16 2 2 [m] := by
    intro m hm
    refine ⟨by decide, by decide, by decide, by decide, by decide, ⟨by decide, by decide⟩, ⟨by decide, by decide⟩,
      by decide, by decide, by decide, rfl, ?_⟩
    intro m' hm'
    simp only [List.mem_cons, List.not_mem_nil, or_false] at hm hm'
    subst hm'
    rcases hm with rfl | rfl <;> rfl
  obtain ⟨data, hv⟩ := codedFile_valid hq (ha leanMcu (by simp)) (by decide +kernel)
  obtain ⟨data', hv'⟩ := codedFile_valid hq (ha lighterMcu (by simp)) (by decide +kernel)
  have hr : (leanFile leanMcu data).Renderable 2 2 := by
    have hx : (leanFile leanMcu data).x = 16 := rfl
    have hy : (leanFile leanMcu data).y = 16 := rfl
    unfold BaselineFile.Renderable
    rw [hx, hy, show (leanFile leanMcu data).comps = quarterComps from rfl]
    decide
  have hin : (leanFile leanMcu data).InRange := codedFile_inRange (by decide) (by decide +kernel)
  have hin' : (leanFile lighterMcu data').InRange := codedFile_inRange (by decide) (by decide +kernel)
  have hl : Lightened (leanFile leanMcu data) (leanFile lighterMcu data') 0 10 := by
    refine ⟨rfl, rfl, .cons ⟨rfl, rfl, rfl⟩ (.cons ⟨rfl, rfl, rfl⟩ (.cons ⟨rfl, rfl, rfl⟩ .nil)), .cons ⟨?_, ?_⟩ .nil⟩
    · intro i hi
      match i with
      | 0 => exact absurd rfl hi
      | i + 1 => rfl
    · exact ⟨_, List.replicate 64 1, _, _, rfl, rfl, rfl, rfl, .cons ⟨rfl, rfl⟩ (.cons ⟨rfl, rfl⟩ (.cons ⟨rfl, rfl⟩ (.cons ⟨rfl, rfl⟩ .nil)))⟩
  refine ⟨_, _, _, hl, hv, hv', ?_⟩
  intro cfg
  obtain ⟨image, image', e₁, e₂, h1, h2, -, -, h⟩ := C92_brightness cfg _ _ 10 hl 2 2 _ _ Decoder.default
    Decoder.default .new .new (.nothing _) (.nothing _) rfl (by show (none : Option Nat) ≠ some 0; decide)
    (by show (none : Option Nat) ≠ some 0; decide) hv hv' hr (InRange.moderately hin) (InRange.moderately hin')
    (fun c hc => by cases hc; exact ⟨rfl, rfl⟩)
  refine ⟨image, image', by unfold decode; rw [h1], by unfold decode; rw [h2], ?_⟩
  intro i hi
  have hval : ∀ Y, Y < 16 → ∀ X, X < 16 → 0 ≤ (leanFile leanMcu []).value 2 0 Y X ∧ (leanFile leanMcu []).value 2 0 Y X ≤ 245 := by
    decide +kernel
  have hrow : (if cfg.rayon then i / 48 / 2 else i / 48 / 2 * 2) < 16 := by split <;> omega
  have := hval _ hrow (i % 48 / 3) (by omega)
  change 0 ≤ (leanFile leanMcu data).value 2 0 _ _ ∧ (leanFile leanMcu data).value 2 0 _ _ ≤ 245 at this
  have e : 3 * 16 * (i / 48) + (3 * (i % 48 / 3) + i % 3) = i := by omega
  have := h (i / 48) (i % 48 / 3) (by show i / 48 < 16; omega) (by show i % 48 / 3 < 16; omega) (by omega) (by omega) (i % 3) (by omega)
  change ∃ v v', image[3 * 16 * (i / 48) + (3 * (i % 48 / 3) + i % 3)]? = some v ∧
    image'[3 * 16 * (i / 48) + (3 * (i % 48 / 3) + i % 3)]? = some v' ∧ _ at this
  rwa [e] at this

/-- A file with an Adobe segment in front. -/
def withAdobe (t : Nat) (f : BaselineFile) : BaselineFile := { f with before := .adobe 100 0 0 t :: f.before }

theorem withAdobe_defs (t : Nat) (f : BaselineFile) : quantDefs (withAdobe t f).tables = quantDefs f.tables ∧
    huffmanDefs (withAdobe t f).tables = huffmanDefs f.tables := by
  simp [withAdobe, BaselineFile.tables, BaselineFile.segments, quantDefs, huffmanDefs]

theorem withAdobe_quantOf (t : Nat) (f : BaselineFile) (c : FileComponent) : (withAdobe t f).quantOf c = f.quantOf c := by
  unfold BaselineFile.quantOf
  rw [(withAdobe_defs t f).1]

theorem withAdobe_valid {t r H V : Nat} {f : BaselineFile} {codes : List (Code × Code)} (ht : t ≤ 2) (h : f.Valid r H V codes) :
    (withAdobe t f).Valid r H V codes := by
  obtain ⟨⟨h1, h2, h3, h4, h5, h6, h7, h8, h9, h10, h11, h12, h13, h14, h15, h16⟩, h17⟩ := h
  refine ⟨⟨?_, h2, h3, h4, h5, h6, h7, h8, h9, h10, h11, fun c hc => ?_,
    List.Forall₂.imp (fun c code hc => ?_) h13, h14, h15, h16⟩, h17⟩
  · intro s hs
    simp only [withAdobe, BaselineFile.tables, BaselineFile.segments, List.cons_append, List.mem_append, List.mem_cons] at hs
    have ok : ∀ s, (s ∈ f.earlier ∨ s ∈ f.before ∨ s ∈ f.after) → s.Ok := fun s hs =>
      h1 s (by simpa [BaselineFile.tables, BaselineFile.segments] using hs)
    rcases hs with hs | rfl | hs | hs
    · exact ok s (.inl hs)
    · exact ⟨by simp [TableSegment.content, be16], by decide, ht⟩
    · exact ok s (.inr (.inl hs))
    · exact ok s (.inr (.inr hs))
  · rw [withAdobe_quantOf]
    exact h12 c hc
  · unfold BaselineFile.dcCode BaselineFile.acCode at hc ⊢
    rw [(withAdobe_defs t f).2]
    exact hc

/-- Four inks. -/
def inkComps : List FileComponent :=
  [⟨⟨1, 1, 1, 0⟩, 0, 0⟩, ⟨⟨2, 1, 1, 0⟩, 0, 0⟩, ⟨⟨3, 1, 1, 0⟩, 0, 0⟩, ⟨⟨4, 1, 1, 0⟩, 0, 0⟩]

/-- A CMYK picture of one MCU; `v` is the DC coefficient of the third ink. -/
def inkFile (v : Int) (data : List UInt8) : BaselineFile :=
  withAdobe 0 (codedFile (List.replicate 64 8) inkComps 8 8 [[[leanBlock 1], [dcBlock 2], [⟨v, (leanBlock 3).zz⟩], [dcBlock 4]]] data)

/-- A case of C92 for CMYK: the third ink lighter by 20. -/
example : ∃ f f' codes, Lightened f f' 2 20 ∧ f.Valid 0 1 1 codes ∧ f'.Valid 0 1 1 codes ∧
    ∀ cfg, ∃ image image' : List UInt8, decode cfg f.bytes = .ok image ∧ decode cfg f'.bytes = .ok image' ∧
      ∀ i, i < 256 → ∃ v v', image[i]? = some v ∧ image'[i]? = some v' ∧
        (v'.toNat : Int) = if i % 4 = 2 then v.toNat - 20 else v.toNat := by
  have hq : GoodTable (List.replicate 64 8) := ⟨by decide, by decide⟩
  have ha : ∀ v : Int, Arranged inkComps 8 8 1 1 [[[leanBlock 1], [dcBlock 2], [⟨v, (leanBlock 3).zz⟩], [dcBlock 4]]] := by
    intro v
    refine ⟨by decide, by decide, by decide, by decide, by decide, ⟨by decide, by decide⟩, ⟨by decide, by decide⟩,
      by decide, by decide, by decide, rfl, ?_⟩
    intro m' hm'
    simp only [List.mem_cons, List.not_mem_nil, or_false] at hm'
    subst hm'
    rfl
  obtain ⟨data, hv⟩ := codedFile_valid hq (ha (-30)) (by decide +kernel)
  obtain ⟨data', hv'⟩ := codedFile_valid hq (ha (-10)) (by decide +kernel)
  replace hv : (inkFile (-30) data).Valid _ _ _ _ := withAdobe_valid (t := 0) (by decide) hv
  replace hv' : (inkFile (-10) data').Valid _ _ _ _ := withAdobe_valid (t := 0) (by decide) hv'
  have hr : (inkFile (-30) data).Renderable 1 1 := by
    have hx : (inkFile (-30) data).x = 8 := rfl
    have hy : (inkFile (-30) data).y = 8 := rfl
    unfold BaselineFile.Renderable
    rw [hx, hy, show (inkFile (-30) data).comps = inkComps from rfl]
    decide
  have hin : (inkFile (-30) data).InRange := codedFile_inRange (data := data) (x := 8) (y := 8) (comps := inkComps)
    (mcus := [[[leanBlock 1], [dcBlock 2], [⟨-30, (leanBlock 3).zz⟩], [dcBlock 4]]]) (by decide) (by decide +kernel)
  have hin' : (inkFile (-10) data').InRange := codedFile_inRange (data := data) (x := 8) (y := 8) (comps := inkComps)
    (mcus := [[[leanBlock 1], [dcBlock 2], [⟨-10, (leanBlock 3).zz⟩], [dcBlock 4]]]) (by decide) (by decide +kernel)
  have hl : Lightened (inkFile (-30) data) (inkFile (-10) data') 2 20 := by
    refine ⟨rfl, rfl, .cons ⟨rfl, rfl, rfl⟩ (.cons ⟨rfl, rfl, rfl⟩ (.cons ⟨rfl, rfl, rfl⟩ (.cons ⟨rfl, rfl, rfl⟩ .nil))),
      .cons ⟨?_, ?_⟩ .nil⟩
    · intro i hi
      match i with
      | 0 | 1 => rfl
      | 2 => exact absurd rfl hi
      | i + 3 => rfl
    · exact ⟨_, List.replicate 64 8, _, _, rfl, rfl, rfl, rfl, .cons ⟨rfl, rfl⟩ .nil⟩
  refine ⟨_, _, _, hl, hv, hv', ?_⟩
  intro cfg
  obtain ⟨image, image', e₁, e₂, h1, h2, -, -, h⟩ := C92_ink cfg _ _ 2 20 hl 1 1 _ _ Decoder.default
    Decoder.default .new .new (.nothing _) (.nothing _) rfl rfl rfl hv hv' hr (InRange.moderately hin) (InRange.moderately hin')
    (fun c hc => by cases hc; exact ⟨rfl, rfl⟩)
  refine ⟨image, image', by unfold decode; rw [h1], by unfold decode; rw [h2], ?_⟩
  intro i hi
  have hval : ∀ Y, Y < 8 → ∀ X, X < 8 → 0 ≤ (inkFile (-30) []).value 1 2 Y X ∧ (inkFile (-30) []).value 1 2 Y X ≤ 235 := by
    decide +kernel
  have hrow : (if cfg.rayon then i / 32 / 1 else i / 32 / 1 * 1) < 8 := by split <;> omega
  have hval := hval _ hrow (i % 32 / 4) (by omega)
  change 0 ≤ (inkFile (-30) data).value 1 2 _ _ ∧ (inkFile (-30) data).value 1 2 _ _ ≤ 235 at hval
  have e : 4 * 8 * (i / 32) + (4 * (i % 32 / 4) + i % 4) = i := by omega
  obtain ⟨v, v', g1, g2, g3, g4⟩ := h (i / 32) (i % 32 / 4) (by show i / 32 < 8; omega) (by show i % 32 / 4 < 8; omega) (i % 4) (by omega)
  change image[4 * 8 * (i / 32) + (4 * (i % 32 / 4) + i % 4)]? = some v at g1
  change image'[4 * 8 * (i / 32) + (4 * (i % 32 / 4) + i % 4)]? = some v' at g2
  rw [e] at g1 g2
  refine ⟨v, v', g1, g2, ?_⟩
  split
  · next hj => exact g4 hj (by omega) (by omega)
  · next hj => rw [g3 hj]

end Jpeg
