import Verif.Spec.Local
import Verif.Props.Brighter
import Verif.Props.Coded
import Verif.Props.Colors
/-!
# What a pixel depends on (C87)
-/

namespace Jpeg
open Spec Sample

theorem lt_ceilDiv {k m b : Nat} (hb : 0 < b) (h : k * b < m) : k < ceilDiv m b := by
  unfold ceilDiv
  rw [Nat.lt_div_iff_mul_lt hb]
  have : b - 1 + 1 = b := by omega
  omega

theorem lt_mcus {k W c H : Nat} (hc : 0 < c) (hH : 0 < H) (h : k < ceilDiv (W * c) H) : k / 8 / c < ceilDiv W (8 * H) := by
  have h1 : k * H < W * c := by
    unfold ceilDiv at h
    rw [Nat.lt_div_iff_mul_lt hH] at h
    omega
  refine lt_ceilDiv (by omega) (Nat.lt_of_mul_lt_mul_right (a := c) ?_)
  rw [Nat.div_div_eq_div_mul]
  calc k / (8 * c) * (8 * H) * c = k / (8 * c) * (8 * c) * H := by
        rw [Nat.mul_assoc, Nat.mul_assoc (k / (8 * c)), Nat.mul_right_comm 8 H c]
    _ ≤ k * H := Nat.mul_le_mul_right _ (Nat.div_mul_le_self _ _)
    _ < W * c := h1

theorem nextTo_full {n c x : Nat} (h : c = n ∨ x = 0) : NextTo (x / 8 / c) (x / (8 * n)) := by
  rcases h with rfl | rfl
  · rw [Nat.div_div_eq_div_mul]; exact ⟨by omega, by omega⟩
  · simp [NextTo]

theorem nextTo_half {n c x k : Nat} (hc : 1 ≤ c ∧ c ≤ 4) (h : 2 * c = n) (h1 : k ≤ x / 2 + 1) (h2 : x / 2 ≤ k + 1) :
    NextTo (k / 8 / c) (x / (8 * n)) := by
  subst h
  unfold NextTo
  obtain ⟨hc1, hc2⟩ := hc
  rcases (by omega : c = 1 ∨ c = 2 ∨ c = 3 ∨ c = 4) with rfl | rfl | rfl | rfl <;> omega

theorem nextTo_nearest {n c x : Nat} (h : n % c = 0) : NextTo (x / (n / c) / 8 / c) (x / (8 * n)) := by
  rw [Nat.div_div_eq_div_mul, Nat.div_div_eq_div_mul, show n / c * (8 * c) = 8 * n by
    rw [Nat.mul_left_comm, Nat.div_mul_cancel (Nat.dvd_of_mod_eq_zero h)]]
  exact ⟨by omega, by omega⟩

/-- Upsampling takes its samples from the MCUs around the pixel. -/
theorem upsampled_nextTo {W Ht H V ch cv row x : Nat} {f f' : Nat → Nat → Nat} (hc : 1 ≤ ch ∧ ch ≤ 4) (hcv : 1 ≤ cv ∧ cv ≤ 4)
    (hH : H % ch = 0) (hV : V % cv = 0) (hHp : 1 ≤ H) (hrow : row < Ht) (hx : x < W)
    (h : ∀ r k, NextTo (r / 8 / cv) (row / (8 * V)) → NextTo (k / 8 / ch) (x / (8 * H)) → k < ceilDiv (W * ch) H →
      f r k = f' r k) :
    upsampled W Ht H V ch cv (ceilDiv (W * ch) H) (ceilDiv (Ht * cv) V) f row x =
      upsampled W Ht H V ch cv (ceilDiv (W * ch) H) (ceilDiv (Ht * cv) V) f' row x := by
  have col1 : (ch = H ∨ W = 1) → NextTo (x / 8 / ch) (x / (8 * H)) ∧ x < ceilDiv (W * ch) H := by
    intro e
    have e' : ch = H ∨ x = 0 := by rcases e with e | e <;> [exact .inl e; exact .inr (by omega)]
    refine ⟨nextTo_full e', lt_ceilDiv hHp ?_⟩
    rcases e' with e | e
    · rw [e]; exact Nat.mul_lt_mul_of_pos_right hx hHp
    · rw [e, Nat.zero_mul]; exact Nat.mul_pos (by omega) (by omega)
  have row1 : (cv = V ∨ Ht = 1) → NextTo (row / 8 / cv) (row / (8 * V)) := fun e =>
    nextTo_full (by rcases e with e | e <;> [exact .inl e; exact .inr (by omega)])
  have row2 : 2 * cv = V → NextTo (row / 2 / 8 / cv) (row / (8 * V)) ∧
      NextTo (farRow (ceilDiv (Ht * cv) V) row / 8 / cv) (row / (8 * V)) := by
    intro e
    have : row / 2 < ceilDiv (Ht * cv) V := by
      refine lt_ceilDiv (by omega) ?_
      rw [← e, ← Nat.mul_assoc]
      exact Nat.mul_lt_mul_of_pos_right (by omega) (by omega)
    refine ⟨nextTo_half hcv e (by omega) (by omega), nextTo_half hcv e ?_ ?_⟩ <;> unfold farRow <;> split <;> omega
  have w2 : 2 * ch = H → x ≤ 2 * ceilDiv (W * ch) H - 1 ∧ 0 < ceilDiv (W * ch) H := by
    intro e
    have : x / 2 < ceilDiv (W * ch) H := by
      refine lt_ceilDiv (by omega) ?_
      rw [← e, ← Nat.mul_assoc]
      exact Nat.mul_lt_mul_of_pos_right (by omega) (by omega)
    omega
  unfold upsampled
  split
  · rename_i e
    exact h _ _ (row1 e.2) (col1 e.1).1 (col1 e.1).2
  split
  · rename_i _ e
    have hr := row1 e.2
    have hw := w2 e.1
    have g : ∀ k, k ≤ x / 2 + 1 → x / 2 ≤ k + 1 → k < ceilDiv (W * ch) H → f row k = f' row k := fun k h1 h2 h3 =>
      h row k hr (nextTo_half hc e.1 h1 h2) h3
    unfold doubleLine
    split
    · exact g _ (by omega) (by omega) (by omega)
    split
    · exact g _ (by omega) (by omega) (by omega)
    split
    · rw [g _ (by omega) (by omega) (by omega), g _ (by omega) (by omega) (by omega)]
    · rw [g _ (by omega) (by omega) (by omega), g _ (by omega) (by omega) (by omega)]
  split
  · rename_i e
    obtain ⟨r1, r2⟩ := row2 e.2
    obtain ⟨c1, c2⟩ := col1 e.1
    unfold doubleRows
    rw [h _ _ r1 c1 c2, h _ _ r2 c1 c2]
  split
  · rename_i e
    obtain ⟨r1, r2⟩ := row2 e.2
    have hw := w2 e.1
    have g : ∀ k, k ≤ x / 2 + 1 → x / 2 ≤ k + 1 → k < ceilDiv (W * ch) H →
        3 * f (row / 2) k + f (farRow (ceilDiv (Ht * cv) V) row) k =
          3 * f' (row / 2) k + f' (farRow (ceilDiv (Ht * cv) V) row) k := fun k h1 h2 h3 => by
      rw [h _ k r1 (nextTo_half hc e.1 h1 h2) h3, h _ k r2 (nextTo_half hc e.1 h1 h2) h3]
    unfold doubleBoth
    simp only
    split
    · rw [g _ (by omega) (by omega) (by omega)]
    split
    · rw [g _ (by omega) (by omega) (by omega)]
    split
    · rw [g _ (by omega) (by omega) (by omega), g _ (by omega) (by omega) (by omega)]
    · rw [g _ (by omega) (by omega) (by omega), g _ (by omega) (by omega) (by omega)]
  · unfold nearest
    refine h _ _ (nextTo_nearest hV) (nextTo_nearest hH) (lt_ceilDiv hHp ?_)
    calc x / (H / ch) * H = x / (H / ch) * (H / ch) * ch := by
          rw [Nat.mul_assoc, Nat.div_mul_cancel (Nat.dvd_of_mod_eq_zero hH)]
      _ ≤ x * ch := Nat.mul_le_mul_right _ (Nat.div_mul_le_self _ _)
      _ < W * ch := Nat.mul_lt_mul_of_pos_right hx (by omega)

/-- A table in natural order. -/
def naturalTable (qv : List Nat) : List Nat :=
  (List.range 64).map fun p => qv.getD (((List.range 64).map zigzag).idxOf p) 0

theorem naturalTable_eq {q qv : List Nat} (hl : q.length = 64) (hq : ∀ i, i < 64 → q[zigzag i]? = qv[i]?) :
    q = naturalTable qv := by
  apply List.ext_getElem?
  intro p
  unfold naturalTable
  by_cases hp : p < 64
  · obtain ⟨h1, h2⟩ := zigzag_idxOf hp
    have := hq _ h1
    rw [h2] at this
    rw [List.getElem?_map, List.getElem?_range hp, Option.map_some, List.getD_eq_getElem?_getD, ← this,
      List.getElem?_eq_getElem (by omega)]
    rfl
  · rw [List.getElem?_eq_none (by omega), List.getElem?_eq_none (by simp; omega)]

/-- Whatever the decoder makes of a block. -/
def blockwise (qv : List Nat) (b : BlockData) (r x : Nat) : UInt8 := sampleAt b.block (naturalTable qv) r x

theorem givenBy_blockwise (f : BaselineFile) : GivenBy blockwise f := by
  intro i c qv _ _ m _ bs _ b _ q hl hq r x _ _
  rw [naturalTable_eq hl hq]
  rfl

section

variable {f f' : BaselineFile} {H V : Nat} {S : List Nat → BlockData → Nat → Nat → UInt8}

theorem sample_of_mcu (hs : SameScales f f') {i Y X Y' X' : Nat} (hy : Y % 8 = Y' % 8) (hx : X % 8 = X' % 8)
    (h : ∀ c, f.comps[i]? = some c → Y / 8 % c.v = Y' / 8 % c.v ∧ X / 8 % c.h = X' / 8 % c.h ∧
      f.mcuAt H (Y / 8 / c.v) (X / 8 / c.h) = f'.mcuAt H (Y' / 8 / c.v) (X' / 8 / c.h)) :
    sampleBy S f H i Y X = sampleBy S f' H i Y' X' := by
  unfold sampleBy
  rcases forall₂_get hs i with ⟨h1, h2⟩ | ⟨c, c', h1, h2, hh, hv, hq⟩
  · rw [h1, h2]
  · obtain ⟨g1, g2, g3⟩ := h c h1
    rw [h1, h2]
    simp only [hq, hy, hx]
    unfold BaselineFile.mcuAt at g3
    unfold BaselineFile.blockAt
    rw [← hh, ← hv, g3, g1, g2]

end

/-- Such files decode. -/
theorem coloured_decodes (cfg : Cfg) (f : BaselineFile) (H V : Nat) (codes : List (Code × Code)) (d : Decoder)
    (hd : UsedDecoder d) (hh : Holds cfg d f.earlier) {n : Nat} (hn : f.Coloured d.transform n)
    (hv : f.Valid (f.interval d.restartInterval) H V codes) (hr : f.Renderable H V) :
    ∃ image d', d.decode cfg f.bytes = .ok image d' ∧ image.length = f.x * f.y * n := by
  obtain ⟨hl, ⟨rfl, ht⟩ | ⟨rfl, ht⟩⟩ := hn
  · exact C45_decodes cfg f H V codes d hd hh hl ht hv hr
  · exact C54_decodes cfg f H V codes d hd hh hl ht hv hr

/-- The pixels at two places whose upsampled samples are the same. -/
theorem pixel_of_upsampled {S S' : List Nat → BlockData → Nat → Nat → UInt8} {cfg : Cfg} {f f' : BaselineFile} {H V H' V' : Nat}
    {codes codes' : List (Code × Code)}
    {d₁ d₂ e₁ e₂ : Decoder} (hd₁ : UsedDecoder d₁) (hd₂ : UsedDecoder d₂) (hh₁ : Holds cfg d₁ f.earlier)
    (hh₂ : Holds cfg d₂ f'.earlier) {n : Nat} (hn₁ : f.Coloured d₁.transform n) (hn₂ : f'.Coloured d₂.transform n)
    (hv₁ : f.Valid (f.interval d₁.restartInterval) H V codes) (hv₂ : f'.Valid (f'.interval d₂.restartInterval) H' V' codes')
    (hr₁ : f.Renderable H V) (hr₂ : f'.Renderable H' V') (hin₁ : GivenBy S f) (hin₂ : GivenBy S' f')
    {image image' : List UInt8} (a : d₁.decode cfg f.bytes = .ok image e₁) (a' : d₂.decode cfg f'.bytes = .ok image' e₂)
    {y x y' x' : Nat} (hy : y < f.y) (hx : x < f.x) (hy' : y' < f'.y) (hx' : x' < f'.x)
    (h : ∀ i, i < n → upsampledBy S f H V i (if cfg.rayon then y / V else y / V * V) x =
      upsampledBy S' f' H' V' i (if cfg.rayon then y' / V' else y' / V' * V') x') (j : Nat) (hj : j < n) :
    image[n * f.x * y + (n * x + j)]? = image'[n * f'.x * y' + (n * x' + j)]? := by
  obtain ⟨h3, ⟨rfl, hct₁⟩ | ⟨rfl, hct₁⟩⟩ := hn₁
  · obtain ⟨h3', ⟨-, hct₂⟩ | ⟨h, -⟩⟩ := hn₂
    · obtain ⟨r, g, b, p, p0, p1, p2⟩ := file_pixels hd₁ hh₁ h3 hct₁ hv₁ hr₁ hin₁ a hy hx
      obtain ⟨r', g', b', p', p0', p1', p2'⟩ := file_pixels hd₂ hh₂ h3' hct₂ hv₂ hr₂ hin₂ a' hy' hx'
      simp only [h 0 (by decide), h 1 (by decide), h 2 (by decide)] at p
      simp only at p'
      cases p.symm.trans p'
      rcases (by omega : j = 0 ∨ j = 1 ∨ j = 2) with rfl | rfl | rfl
      · exact p0.trans p0'.symm
      · exact p1.trans p1'.symm
      · exact p2.trans p2'.symm
    · cases h
  · obtain ⟨h3', ⟨h, -⟩ | ⟨-, hct₂⟩⟩ := hn₂
    · cases h
    · have e := cmyk_pixels hd₁ hh₁ h3 hct₁ hv₁ hr₁ hin₁ a hy hx hj
      have e' := cmyk_pixels hd₂ hh₂ h3' hct₂ hv₂ hr₂ hin₂ a' hy' hx' hj
      simp only [h j hj] at e
      exact e.trans e'.symm

theorem renderable_one {f : BaselineFile} (h1 : ∀ c ∈ f.comps, c.h = 1 ∧ c.v = 1) : f.Renderable 1 1 := by
  intro c hc
  obtain ⟨e1, e2⟩ := h1 c hc
  rw [e1, e2]
  refine ⟨rfl, rfl, fun h => absurd h (by omega), fun h => absurd ⟨.inl rfl, .inl rfl⟩ h⟩

/-- Factors 1. -/
theorem Spec.BaselineFile.Laid.ones {f : BaselineFile} {r : Nat} {codes : List (Code × Code)} (hv : f.Laid r 1 1 codes) :
    ∀ c ∈ f.comps, c.h = 1 ∧ c.v = 1 := by
  intro c hc
  have := hv.factors c hc
  have := hv.hmax.1 c hc
  have := hv.vmax.1 c hc
  simp only at *
  omega

/-- **C87** (no subsampling). A pixel is determined by the MCU it lies in, the place within it, and the quantisation
tables, whatever the coefficients: two pixels, of two files of any sizes, at the same place of two MCUs with the same content are the same. (So
moving MCUs moves pixels, and cutting a picture along MCUs cuts the image.) -/
theorem C87_own_mcu (cfg : Cfg) (f f' : BaselineFile) (hs : SameScales f f') (codes codes' : List (Code × Code))
    (d₁ d₂ : Decoder) (hd₁ : UsedDecoder d₁) (hd₂ : UsedDecoder d₂) (hh₁ : Holds cfg d₁ f.earlier)
    (hh₂ : Holds cfg d₂ f'.earlier) (n : Nat) (hn₁ : f.Coloured d₁.transform n)
    (hn₂ : f'.Coloured d₂.transform n) (hv₁ : f.Valid (f.interval d₁.restartInterval) 1 1 codes)
    (hv₂ : f'.Valid (f'.interval d₂.restartInterval) 1 1 codes') :
    ∃ image image' e₁ e₂, d₁.decode cfg f.bytes = .ok image e₁ ∧ d₂.decode cfg f'.bytes = .ok image' e₂ ∧
      image.length = f.x * f.y * n ∧ image'.length = f'.x * f'.y * n ∧
      ∀ y x y' x', y < f.y → x < f.x → y' < f'.y → x' < f'.x → y % 8 = y' % 8 → x % 8 = x' % 8 →
        f.mcuAt 1 (y / 8) (x / 8) = f'.mcuAt 1 (y' / 8) (x' / 8) →
        ∀ j, j < n → image[n * f.x * y + (n * x + j)]? = image'[n * f'.x * y' + (n * x' + j)]? := by
  have hr₁ := renderable_one hv₁.toLaid.ones
  have hr₂ := renderable_one hv₂.toLaid.ones
  obtain ⟨image, e₁, a1, a2⟩ := coloured_decodes cfg f 1 1 codes d₁ hd₁ hh₁ hn₁ hv₁ hr₁
  obtain ⟨image', e₂, b1, b2⟩ := coloured_decodes cfg f' 1 1 codes' d₂ hd₂ hh₂ hn₂ hv₂ hr₂
  refine ⟨image, image', e₁, e₂, a1, b1, a2, b2, ?_⟩
  intro y x y' x' hy hx hy' hx' ey ex hm
  refine pixel_of_upsampled hd₁ hd₂ hh₁ hh₂ hn₁ hn₂ hv₁ hv₂ hr₁ hr₂ (givenBy_blockwise f) (givenBy_blockwise f') a1 b1 hy hx hy' hx' ?_
  intro i hi
  have hrow : ∀ y, (if cfg.rayon then y / 1 else y / 1 * 1) = y := by intro y; simp
  rw [hrow, hrow]
  unfold upsampledBy
  rcases forall₂_get hs i with ⟨h1, h2⟩ | ⟨c, c', h1, h2, hh, hv, hq⟩
  · rw [h1, h2]
  · have o := hv₁.toLaid.ones c (List.mem_of_getElem? h1)
    rw [h1, h2]
    simp only [← hh, ← hv, o.1, o.2]
    unfold upsampled
    rw [if_pos ⟨.inl rfl, .inl rfl⟩, if_pos ⟨.inl rfl, .inl rfl⟩]
    show (sampleBy blockwise f 1 i y x).toNat = (sampleBy blockwise f' 1 i y' x').toNat
    rw [sample_of_mcu hs ey ex]
    intro c'' hc''
    cases h1.symm.trans hc''
    rw [o.1, o.2]
    simp only [Nat.mod_one, Nat.div_one]
    exact ⟨trivial, trivial, hm⟩

/-- **C87** (part). Any sampling factors this decoder can render, without rayon (or without vertical subsampling): a
pixel is determined by the MCU it lies in and those next to it. Whatever the others are, in two files of the same size,
sampling factors and quantisation tables the pixel is the same if these MCUs are.

Missing: with rayon and vertical subsampling, where it is false: `C87_rayon_violated`. -/
theorem C87_around_partial (cfg : Cfg) (f f' : BaselineFile) (hs : SameScales f f') (ex : f.x = f'.x) (ey : f.y = f'.y)
    (H V : Nat) (hray : cfg.rayon = false ∨ V = 1) (codes codes' : List (Code × Code))
    (d₁ d₂ : Decoder) (hd₁ : UsedDecoder d₁) (hd₂ : UsedDecoder d₂) (hh₁ : Holds cfg d₁ f.earlier)
    (hh₂ : Holds cfg d₂ f'.earlier) (n : Nat) (hn₁ : f.Coloured d₁.transform n)
    (hn₂ : f'.Coloured d₂.transform n) (hv₁ : f.Valid (f.interval d₁.restartInterval) H V codes)
    (hv₂ : f'.Valid (f'.interval d₂.restartInterval) H V codes') (hr₁ : f.Renderable H V) :
    ∃ image image' e₁ e₂, d₁.decode cfg f.bytes = .ok image e₁ ∧ d₂.decode cfg f'.bytes = .ok image' e₂ ∧
      image.length = f.x * f.y * n ∧
      ∀ y x, y < f.y → x < f.x → SameAround f f' H (y / (8 * V)) (x / (8 * H)) →
        ∀ j, j < n → image[n * f.x * y + (n * x + j)]? = image'[n * f.x * y + (n * x + j)]? := by
  have hr₂ : f'.Renderable H V := by
    intro c' hc'
    obtain ⟨i, hi⟩ := List.mem_iff_getElem?.1 hc'
    rcases forall₂_get hs i with ⟨-, h2⟩ | ⟨c, c'', h1, h2, hh, hv, -⟩
    · rw [hi] at h2; cases h2
    · obtain rfl := Option.some.inj (hi.symm.trans h2)
      have := hr₁ c (List.mem_of_getElem? h1)
      rw [ex, ey, hh, hv] at this
      exact this
  obtain ⟨image, e₁, a1, a2⟩ := coloured_decodes cfg f H V codes d₁ hd₁ hh₁ hn₁ hv₁ hr₁
  obtain ⟨image', e₂, b1, b2⟩ := coloured_decodes cfg f' H V codes' d₂ hd₂ hh₂ hn₂ hv₂ hr₂
  refine ⟨image, image', e₁, e₂, a1, b1, a2, ?_⟩
  intro y x hy hx hm j hj
  have key := pixel_of_upsampled hd₁ hd₂ hh₁ hh₂ hn₁ hn₂ hv₁ hv₂ hr₁ hr₂ (givenBy_blockwise f) (givenBy_blockwise f') a1 b1 hy hx (ey ▸ hy) (ex ▸ hx)
    (j := j) (hj := hj) ?_
  · rw [← ex] at key; exact key
  intro i hi
  have hrow : (if cfg.rayon then y / V else y / V * V) = y / V * V := by
    rcases hray with h | h
    · rw [h]; rfl
    · rw [h]; simp
  have hle : y / V * V ≤ y := Nat.div_mul_le_self _ _
  have hrow2 : y / V * V / (8 * V) = y / (8 * V) := by
    rw [Nat.mul_comm 8 V, ← Nat.div_div_eq_div_mul, ← Nat.div_div_eq_div_mul]
    rcases Nat.eq_zero_or_pos V with rfl | h
    · simp
    · rw [Nat.mul_div_cancel _ h]
  rw [hrow]
  unfold upsampledBy
  rcases forall₂_get hs i with ⟨h1, h2⟩ | ⟨c, c', h1, h2, hh, hv, hq⟩
  · rw [h1, h2]
  · have hc := List.mem_of_getElem? h1
    obtain ⟨f1, f2, f3, f4⟩ := hv₁.factors c hc
    have hH : c.h ≤ H := hv₁.hmax.1 c hc
    obtain ⟨m1, m2, -, -⟩ := hr₁ c hc
    rw [h1, h2]
    simp only [← hh, ← hv, ← ex, ← ey]
    refine upsampled_nextTo ⟨f1, f2⟩ ⟨f3, f4⟩ m1 m2 (by omega) (by omega) hx ?_
    intro r k hr hk hk2
    rw [sample_of_mcu hs rfl rfl]
    intro c'' hc''
    cases h1.symm.trans hc''
    refine ⟨rfl, rfl, hm _ _ (by rw [hrow2] at hr; exact hr) hk ?_⟩
    exact lt_mcus (by omega) (by omega) hk2

/-! ## The violation, and cases -/

/-- Half of the chrominance lines. -/
def tallComps : List FileComponent := [⟨⟨1, 1, 2, 0⟩, 0, 0⟩, ⟨⟨2, 1, 1, 0⟩, 0, 0⟩, ⟨⟨3, 1, 1, 0⟩, 0, 0⟩]

/-- Four MCUs, the second of luminance `v`. -/
def tallMcus (v : Int) : List Mcu :=
  [[[dcBlock 0, dcBlock 0], [dcBlock 0], [dcBlock 0]], [[dcBlock v, dcBlock v], [dcBlock 0], [dcBlock 0]],
    [[dcBlock 0, dcBlock 0], [dcBlock 0], [dcBlock 0]], [[dcBlock 0, dcBlock 0], [dcBlock 0], [dcBlock 0]]]

/-- One column of 49 pixels. -/
def tallFile (v : Int) (data : List UInt8) : BaselineFile :=
  codedFile (List.replicate 64 8) tallComps 1 49 (tallMcus v) data

theorem tall_arranged (v : Int) : Arranged tallComps 1 49 1 2 (tallMcus v) where
  x := by decide
  y := by decide
  count := by decide
  ids := by decide
  factors := by decide
  hmax := ⟨by decide, by decide⟩
  vmax := ⟨by decide, by decide⟩
  ten := by decide
  single := by decide
  zero := by decide
  mcus := rfl
  blocks := by
    intro m hm
    simp only [tallMcus, List.mem_cons, List.not_mem_nil, or_false] at hm
    rcases hm with rfl | rfl | rfl | rfl <;> rfl

theorem tall_around (v w : Int) (d d' : List UInt8) : SameAround (tallFile v d) (tallFile w d') 1 (48 / (8 * 2)) (0 / (8 * 1)) := by
  intro R C h1 h2 h3
  have hC : C = 0 := by
    have : ceilDiv (tallFile v d).x (8 * 1) = 1 := by show ceilDiv 1 (8 * 1) = 1; decide
    omega
  subst hC
  unfold NextTo at h1
  rcases (by omega : R = 2 ∨ R = 3 ∨ R = 4) with rfl | rfl | rfl <;>
    simp [BaselineFile.mcuAt, tallFile, codedFile, tallMcus, ceilDiv]

theorem tall_first : ∀ i < 3, (tallFile 0 []).upsampledSample 1 2 i 24 0 = 128 := by decide +kernel

theorem tall_second : ∀ i < 3, (tallFile 100 []).upsampledSample 1 2 i 24 0 = if i = 0 then 228 else 128 := by
  decide +kernel

/-- **C87** (violated with rayon). Two pictures of one column and 49 lines, with half of the chrominance lines. They
differ in the second of the four MCUs only; the last pixel lies in the fourth. It differs. -/
theorem C87_rayon_violated : ∃ (f f' : BaselineFile) (codes : List (Code × Code)), SameScales f f' ∧ f.x = f'.x ∧ f.y = f'.y ∧
    f.comps.length = 3 ∧ f.Valid 0 1 2 codes ∧ f'.Valid 0 1 2 codes ∧ f.Renderable 1 2 ∧ f.InRange ∧ f'.InRange ∧
    48 < f.y ∧ 0 < f.x ∧ SameAround f f' 1 (48 / (8 * 2)) (0 / (8 * 1)) ∧
    ∀ debug, ∃ image image' : List UInt8, decode ⟨debug, true⟩ f.bytes = .ok image ∧ decode ⟨debug, true⟩ f'.bytes = .ok image' ∧
      image[3 * f.x * 48 + 3 * 0]? = some 128 ∧ image'[3 * f.x * 48 + 3 * 0]? = some 228 := by
  have hq : GoodTable (List.replicate 64 8) := ⟨by decide, by decide⟩
  obtain ⟨data, hv⟩ := codedFile_valid hq (tall_arranged 0) (by decide)
  obtain ⟨data', hv'⟩ := codedFile_valid hq (tall_arranged 100) (by decide)
  have hr : ∀ v d, (tallFile v d).Renderable 1 2 := by
    intro v d
    have hx : (tallFile v d).x = 1 := rfl
    have hy : (tallFile v d).y = 49 := rfl
    unfold BaselineFile.Renderable
    rw [hx, hy, show (tallFile v d).comps = tallComps from rfl]
    decide
  have hin : (tallFile 0 data).InRange := codedFile_inRange (by decide) (by decide +kernel)
  have hin' : (tallFile 100 data').InRange := codedFile_inRange (by decide) (by decide +kernel)
  refine ⟨tallFile 0 data, tallFile 100 data', _, .cons ⟨rfl, rfl, rfl⟩ (.cons ⟨rfl, rfl, rfl⟩ (.cons ⟨rfl, rfl, rfl⟩ .nil)),
    rfl, rfl, rfl, hv, hv', hr _ _, hin, hin', by show 48 < 49; decide, by show 0 < 1; decide, tall_around _ _ _ _, ?_⟩
  intro debug
  have key : ∀ (v : Int) (d : List UInt8) (s : Nat),
      (tallFile v d).Valid 0 1 2 (List.replicate tallComps.length (dcK3, acK5)) → (tallFile v d).InRange →
      (∀ i < 3, (tallFile v []).upsampledSample 1 2 i 24 0 = if i = 0 then s else 128) →
      (∃ p, ycbcrToRgb (UInt8.ofNat s) 128 128 = .ok p ∧ p.1 = UInt8.ofNat s) →
      ∃ image : List UInt8, decode ⟨debug, true⟩ (tallFile v d).bytes = .ok image ∧ image[3 * 1 * 48 + 3 * 0]? = some (UInt8.ofNat s) := by
    intro v d s hv hin hs hc
    obtain ⟨image, d', e, -⟩ := C45_decodes ⟨debug, true⟩ (tallFile v d) 1 2 _ Decoder.default .new (.nothing _) rfl (by
      show (none : Option Nat) ≠ some 0; decide) hv (hr _ _)
    obtain ⟨r, g, b, h, p0, -, -⟩ := C45_pixels_partial ⟨debug, true⟩ (tallFile v d) 1 2 _ Decoder.default .new (.nothing _) rfl (by
      show (none : Option Nat) ≠ some 0; decide) hv (hr _ _) hin image d' e 48 0 (by show 48 < 49; decide) (by show 0 < 1; decide)
    refine ⟨image, by unfold decode; rw [e], ?_⟩
    have hu : ∀ i, (tallFile v d).upsampledSample 1 2 i 24 0 = (tallFile v []).upsampledSample 1 2 i 24 0 := fun i => rfl
    simp only [if_pos, show 48 / 2 = 24 from rfl, hu, hs 0 (by decide), hs 1 (by decide), hs 2 (by decide)] at h
    obtain ⟨p, hp, hp1⟩ := hc
    cases hp.symm.trans h
    rw [← hp1]
    exact p0
  obtain ⟨image, e1, p1⟩ := key 0 data 128 hv hin (by
    intro i hi; rw [tall_first i hi]; split <;> rfl) ⟨_, rfl, by decide +kernel⟩
  obtain ⟨image', e2, p2⟩ := key 100 data' 228 hv' hin' tall_second ⟨_, rfl, by decide +kernel⟩
  exact ⟨image, image', e1, e2, p1, p2⟩

/-- A case of `C87_around_partial`: the same two files without rayon; the last pixel is the same. -/
example : ∃ (f f' : BaselineFile) (image image' : List UInt8), f.intervals ≠ f'.intervals ∧ decode ⟨true, false⟩ f.bytes = .ok image ∧
    decode ⟨true, false⟩ f'.bytes = .ok image' ∧ image.length = 147 ∧ ∀ j < 3, image[144 + j]? = image'[144 + j]? := by
  have hq : GoodTable (List.replicate 64 8) := ⟨by decide, by decide⟩
  obtain ⟨data, hv⟩ := codedFile_valid hq (tall_arranged 0) (by decide)
  obtain ⟨data', hv'⟩ := codedFile_valid hq (tall_arranged 100) (by decide)
  have hr : (tallFile 0 data).Renderable 1 2 := by
    have hx : (tallFile 0 data).x = 1 := rfl
    have hy : (tallFile 0 data).y = 49 := rfl
    unfold BaselineFile.Renderable
    rw [hx, hy, show (tallFile 0 data).comps = tallComps from rfl]
    decide
  obtain ⟨image, image', e₁, e₂, h1, h2, h3, h4⟩ := C87_around_partial ⟨true, false⟩ (tallFile 0 data) (tallFile 100 data')
    (.cons ⟨rfl, rfl, rfl⟩ (.cons ⟨rfl, rfl, rfl⟩ (.cons ⟨rfl, rfl, rfl⟩ .nil))) rfl rfl 1 2 (.inl rfl) _ _
    Decoder.default Decoder.default .new .new (.nothing _) (.nothing _) 3 ⟨rfl, .inl ⟨rfl, (by show (none : Option Nat) ≠ some 0; decide)⟩⟩
    ⟨rfl, .inl ⟨rfl, (by show (none : Option Nat) ≠ some 0; decide)⟩⟩ hv hv' hr
  refine ⟨_, _, image, image', ?_, by unfold decode; rw [h1], by unfold decode; rw [h2], h3, fun j hj => ?_⟩
  · show [tallMcus 0] ≠ [tallMcus 100]
    decide
  have := h4 48 0 (by show 48 < 49; decide) (by show 0 < 1; decide) (tall_around _ _ _ _) j hj
  rw [show 3 * (tallFile 0 data).x * 48 + (3 * 0 + j) = 144 + j by show 3 * 1 * 48 + _ = _; omega] at this
  exact this

/-- Three components of full resolution. -/
def fullComps : List FileComponent := [⟨⟨1, 1, 1, 0⟩, 0, 0⟩, ⟨⟨2, 1, 1, 0⟩, 0, 0⟩, ⟨⟨3, 1, 1, 0⟩, 0, 0⟩]

/-- An MCU with some coefficients. -/
def someMcu : Mcu := [[⟨-3, 5 :: -2 :: 7 :: List.replicate 60 0⟩], [dcBlock 10], [dcBlock (-4)]]

/-- Another one. -/
def otherMcu : Mcu := [[dcBlock 20], [⟨1, 1 :: 2 :: 3 :: List.replicate 60 0⟩], [dcBlock 7]]

/-- A case of `C87_own_mcu`: a picture of two MCUs, and one with the second of them only, which is cut in width. -/
example : ∃ (f f' : BaselineFile) (image image' : List UInt8), decode ⟨true, true⟩ f.bytes = .ok image ∧
    decode ⟨true, true⟩ f'.bytes = .ok image' ∧ image.length = 16 * 8 * 3 ∧ image'.length = 5 * 8 * 3 ∧
    ∀ y x j, y < 8 → x < 5 → j < 3 → image[48 * y + (3 * (8 + x) + j)]? = image'[15 * y + (3 * x + j)]? := by
  have hq : GoodTable (List.replicate 64 8) := ⟨by decide, by decide⟩
  obtain ⟨data, hv⟩ := codedFile_valid (comps := fullComps) (x := 16) (y := 8) (H := 1) (V := 1) (mcus := [someMcu, otherMcu]) hq
    ⟨by decide, by decide, by decide, by decide, by decide, ⟨by decide, by decide⟩, ⟨by decide, by decide⟩, by decide,
      by decide, by decide, by decide, by decide⟩ (by decide)
  obtain ⟨data', hv'⟩ := codedFile_valid (comps := fullComps) (x := 5) (y := 8) (H := 1) (V := 1) (mcus := [otherMcu]) hq
    ⟨by decide, by decide, by decide, by decide, by decide, ⟨by decide, by decide⟩, ⟨by decide, by decide⟩, by decide,
      by decide, by decide, by decide, by decide⟩ (by decide)
  obtain ⟨image, image', e₁, e₂, h1, h2, h3, h4, h5⟩ := C87_own_mcu ⟨true, true⟩
    (codedFile (List.replicate 64 8) fullComps 16 8 [someMcu, otherMcu] data)
    (codedFile (List.replicate 64 8) fullComps 5 8 [otherMcu] data')
    (.cons ⟨rfl, rfl, rfl⟩ (.cons ⟨rfl, rfl, rfl⟩ (.cons ⟨rfl, rfl, rfl⟩ .nil))) _ _
    Decoder.default Decoder.default .new .new (.nothing _) (.nothing _) 3 ⟨rfl, .inl ⟨rfl, (by show (none : Option Nat) ≠ some 0; decide)⟩⟩
    ⟨rfl, .inl ⟨rfl, (by show (none : Option Nat) ≠ some 0; decide)⟩⟩ hv hv'
  refine ⟨_, _, image, image', by unfold decode; rw [h1], by unfold decode; rw [h2], h3, h4, fun y x j hy hx hj => ?_⟩
  have := h5 y (8 + x) y x hy (by show 8 + x < 16; omega) hy hx rfl (by omega) (by
    rw [show y / 8 = 0 by omega, show (8 + x) / 8 = 1 by omega, show x / 8 = 0 by omega]
    simp [BaselineFile.mcuAt, codedFile, ceilDiv]) j hj
  exact this

/-- A case of `C87_own_mcu` with four components: the two MCUs of a CMYK picture are the same, so its two halves are. -/
example : ∃ image d', Decoder.default.decode ⟨true, true⟩ (exampleOf 4 0 exampleData4).bytes = .ok image d' ∧
    image.length = 16 * 8 * 4 ∧ ∀ y x j, y < 8 → x < 8 → j < 4 → image[64 * y + (4 * x + j)]? = image[64 * y + (4 * (x + 8) + j)]? := by
  obtain ⟨image, image', e₁, e₂, h1, h2, h3, h4, h5⟩ := C87_own_mcu ⟨true, true⟩ (exampleOf 4 0 exampleData4)
    (exampleOf 4 0 exampleData4) (List.forall₂_same.2 fun _ _ => ⟨rfl, rfl, rfl⟩) _ _
    Decoder.default Decoder.default .new .new (.nothing _) (.nothing _) 4 ⟨rfl, .inr ⟨rfl, rfl⟩⟩ ⟨rfl, .inr ⟨rfl, rfl⟩⟩
    (example4_valid 0 (by decide)) (example4_valid 0 (by decide))
  cases h1.symm.trans h2
  refine ⟨image, e₁, h1, h3, fun y x j hy hx hj => ?_⟩
  have := h5 y x y (x + 8) hy (show x < 16 by omega) hy (show x + 8 < 16 by omega) rfl (by omega) ?_ j hj
  · exact this
  · rw [show y / 8 = 0 by omega, show x / 8 = 0 by omega, show (x + 8) / 8 = 1 by omega]
    rfl

end Jpeg
