import Verif.Props.Flip
/-!
# C88: left to right with any subsampling
-/

namespace Jpeg
open Spec Sample

theorem tri_near {a b a' b' : Nat} (h1 : NextTo a a') (h2 : NextTo b b') : NextTo (tri a b) (tri a' b') := by
  unfold NextTo tri at *
  omega

/-- A line of samples left to right, up to 1, is so after doubling. -/
theorem doubleLine_mirror {w x : Nat} {g g' : Nat → Nat} (hx : x < 2 * w) (h : ∀ k, k < w → NextTo (g' k) (g (w - 1 - k))) :
    NextTo (doubleLine w g' x) (doubleLine w g (2 * w - 1 - x)) := by
  unfold doubleLine
  by_cases h0 : x = 0
  · subst h0
    have := h 0 (by omega)
    rw [if_pos rfl]
    split
    · omega
    · rw [if_pos (by omega)]; exact this
  rw [if_neg h0]
  by_cases h1 : x = 2 * w - 1
  · have := h (w - 1) (by omega)
    rw [if_pos h1, if_pos (by omega)]
    rw [show w - 1 - (w - 1) = 0 by omega] at this
    exact this
  rw [if_neg h1, if_neg (show ¬ 2 * w - 1 - x = 0 by omega), if_neg (show ¬ 2 * w - 1 - x = 2 * w - 1 by omega)]
  by_cases h2 : x % 2 = 0
  · rw [if_pos h2, if_neg (by omega)]
    have a := h (x / 2) (by omega)
    have b := h (x / 2 - 1) (by omega)
    rw [show (2 * w - 1 - x) / 2 = w - 1 - x / 2 by omega, show w - 1 - x / 2 + 1 = w - 1 - (x / 2 - 1) by omega]
    exact tri_near a b
  · rw [if_neg h2, if_pos (by omega)]
    have a := h (x / 2) (by omega)
    have b := h (x / 2 + 1) (by omega)
    rw [show (2 * w - 1 - x) / 2 = w - 1 - x / 2 by omega, show w - 1 - x / 2 - 1 = w - 1 - (x / 2 + 1) by omega]
    exact tri_near a b

theorem doubleBoth_mirror {w h row x : Nat} {g g' : Nat → Nat → Nat} (hx : x < 2 * w)
    (h1 : ∀ k, k < w → NextTo (g' (row / 2) k) (g (row / 2) (w - 1 - k)))
    (h2 : ∀ k, k < w → NextTo (g' (farRow h row) k) (g (farRow h row) (w - 1 - k))) :
    NextTo (doubleBoth w h g' row x) (doubleBoth w h g row (2 * w - 1 - x)) := by
  have key : ∀ k l, k < w → k + l = w - 1 →
      3 * g' (row / 2) k + g' (farRow h row) k ≤ 3 * g (row / 2) l + g (farRow h row) l + 4 ∧
      3 * g (row / 2) l + g (farRow h row) l ≤ 3 * g' (row / 2) k + g' (farRow h row) k + 4 := by
    intro k l hk hl
    have a := h1 k hk
    have b := h2 k hk
    rw [show w - 1 - k = l by omega] at a b
    unfold NextTo at a b
    omega
  unfold doubleBoth
  simp only
  by_cases h0 : x = 0
  · subst h0
    have := key 0 (w - 1) (by omega) (by omega)
    rw [if_pos rfl, if_neg (by omega), if_pos (by omega)]
    unfold NextTo
    omega
  rw [if_neg h0]
  by_cases h1 : x = 2 * w - 1
  · have := key (w - 1) 0 (by omega) (by omega)
    rw [if_pos h1, if_pos (by omega)]
    unfold NextTo
    omega
  rw [if_neg h1, if_neg (show ¬ 2 * w - 1 - x = 0 by omega), if_neg (show ¬ 2 * w - 1 - x = 2 * w - 1 by omega)]
  by_cases h2 : x % 2 = 0
  · rw [if_pos h2, if_neg (by omega)]
    have a := key (x / 2) ((2 * w - 1 - x) / 2) (by omega) (by omega)
    have b := key (x / 2 - 1) ((2 * w - 1 - x) / 2 + 1) (by omega) (by omega)
    unfold NextTo
    omega
  · rw [if_neg h2, if_pos (by omega)]
    have a := key (x / 2) ((2 * w - 1 - x) / 2) (by omega) (by omega)
    have b := key (x / 2 + 1) ((2 * w - 1 - x) / 2 - 1) (by omega) (by omega)
    unfold NextTo
    omega

/-- A component left to right, up to 1, is so after upsampling. -/
theorem upsampled_mirror {W Ht H V ch cv row x : Nat} {g g' : Nat → Nat → Nat} (hc : 1 ≤ ch) (hcv : 1 ≤ cv)
    (hH : H % ch = 0) (hV : V % cv = 0) (hHp : 1 ≤ H) (hVp : 1 ≤ V) (hrow : row < Ht) (hx : x < W) (hW : W % (8 * H) = 0)
    (h : ∀ r k, r < ceilDiv (Ht * cv) V → k < ceilDiv (W * ch) H →
      NextTo (g' r k) (g r (ceilDiv (W * ch) H - 1 - k))) :
    NextTo (upsampled W Ht H V ch cv (ceilDiv (W * ch) H) (ceilDiv (Ht * cv) V) g' row x)
      (upsampled W Ht H V ch cv (ceilDiv (W * ch) H) (ceilDiv (Ht * cv) V) g row (W - 1 - x)) := by
  obtain ⟨N, rfl⟩ := Nat.dvd_of_mod_eq_zero hW
  obtain ⟨m, rfl⟩ := Nat.dvd_of_mod_eq_zero hH
  obtain ⟨l, rfl⟩ := Nat.dvd_of_mod_eq_zero hV
  have hm : 0 < m := Nat.pos_of_ne_zero (by rintro rfl; omega)
  have hl : 0 < l := Nat.pos_of_ne_zero (by rintro rfl; omega)
  have hw : ceilDiv (8 * (ch * m) * N * ch) (ch * m) = 8 * N * ch := by
    unfold ceilDiv
    rw [show 8 * (ch * m) * N * ch = ch * m * (8 * N * ch) by ring, Nat.mul_add_div (by omega), Nat.div_eq_of_lt (by omega)]
    rfl
  have hWm : 8 * (ch * m) * N = 8 * N * ch * m := by ring
  have hrows : ∀ r, r * (cv * l) < Ht * cv → r < ceilDiv (Ht * cv) (cv * l) := fun r => lt_ceilDiv (by omega)
  have hrow1 : ∀ r, r * l < Ht → r < ceilDiv (Ht * cv) (cv * l) := by
    intro r hr
    refine hrows r ?_
    rw [Nat.mul_left_comm, Nat.mul_comm Ht]
    exact Nat.mul_lt_mul_of_pos_left hr (by omega)
  have hN : 0 < N := Nat.pos_of_ne_zero (by rintro rfl; simp at hx)
  have hW1 : 8 * (ch * m) * N ≠ 1 := by
    rw [show 8 * (ch * m) * N = 8 * (ch * m * N) by ring]
    omega
  rw [hw] at h ⊢
  rw [hWm] at hx hW1 ⊢
  generalize hwe : 8 * N * ch = w at *
  have cm : ∀ {a b : Nat}, 1 ≤ a → a = a * b → b = 1 := by
    intro a b ha e
    exact (Nat.eq_of_mul_eq_mul_left (Nat.lt_of_lt_of_le Nat.zero_lt_one ha) ((Nat.mul_one a).trans e)).symm
  have c2 : ∀ {a b : Nat}, 1 ≤ a → 2 * a = a * b → b = 2 := by
    intro a b ha e
    exact (Nat.eq_of_mul_eq_mul_left (Nat.lt_of_lt_of_le Nat.zero_lt_one ha) ((Nat.mul_comm a 2).trans e)).symm
  have row1 : (cv = cv * l ∨ Ht = 1) → row < ceilDiv (Ht * cv) (cv * l) := by
    rintro (e | e)
    · exact hrow1 row (by rw [cm hcv e]; omega)
    · exact hrow1 row (by rw [show row = 0 by omega]; omega)
  have row2 : 2 * cv = cv * l → row / 2 < ceilDiv (Ht * cv) (cv * l) ∧
      farRow (ceilDiv (Ht * cv) (cv * l)) row < ceilDiv (Ht * cv) (cv * l) := by
    intro e
    have a := hrow1 (row / 2) (by rw [c2 hcv e]; omega)
    refine ⟨a, ?_⟩
    unfold farRow
    split <;> omega
  unfold upsampled
  split
  · rename_i e
    have e1 : m = 1 := by
      rcases e.1 with e | e
      · exact cm hc e
      · exact absurd e hW1
    subst e1
    rw [Nat.mul_one] at hx ⊢
    exact h _ _ (row1 e.2) hx
  split
  · rename_i e
    obtain rfl := c2 hc e.1
    rw [Nat.mul_comm w] at hx ⊢
    exact doubleLine_mirror hx fun k hk => h _ k (row1 e.2) hk
  split
  · rename_i e
    have e1 : m = 1 := by
      rcases e.1 with e | e
      · exact cm hc e
      · exact absurd e hW1
    subst e1
    rw [Nat.mul_one] at hx ⊢
    obtain ⟨r1, r2⟩ := row2 e.2
    exact tri_near (h _ _ r1 hx) (h _ _ r2 hx)
  split
  · rename_i e
    obtain rfl := c2 hc e.1
    rw [Nat.mul_comm w] at hx ⊢
    obtain ⟨r1, r2⟩ := row2 e.2
    exact doubleBoth_mirror hx (fun k hk => h _ k r1 hk) (fun k hk => h _ k r2 hk)
  · unfold nearest
    rw [Nat.mul_div_cancel_left _ (by omega), Nat.mul_div_cancel_left _ (by omega)]
    have hk : x / m < w := (Nat.div_lt_iff_lt_mul hm).2 hx
    have e : (w * m - 1 - x) / m = w - 1 - x / m := by
      have d := Nat.div_add_mod x m
      have lt := Nat.mod_lt x hm
      have : w * m - 1 - x = (m - 1 - x % m) + m * (w - 1 - x / m) := by
        obtain ⟨t, rfl⟩ := Nat.exists_eq_add_of_lt hk
        rw [show x / m + t + 1 - 1 - x / m = t by omega]
        have : (x / m + t + 1) * m = m * (x / m) + m * t + m := by ring
        omega
      rw [this, Nat.add_mul_div_left _ _ hm, Nat.div_eq_of_lt (by omega), Nat.zero_add]
    rw [e]
    refine h _ _ (hrow1 _ ?_) hk
    exact Nat.lt_of_le_of_lt (Nat.div_mul_le_self _ _) hrow

section

variable {f f' : BaselineFile} {H V : Nat}

theorem blockAt_mcuBlock (f : BaselineFile) (H i : Nat) (c : FileComponent) (Y X : Nat) :
    f.blockAt H i c Y X = f.mcuBlock H (Y / 8 / c.v) (X / 8 / c.h) i (Y / 8 % c.v * c.h + X / 8 % c.h) := rfl

theorem mirror_places {N ch X : Nat} (hc : 1 ≤ ch ∧ ch ≤ 4) (hX : X < 8 * N * ch) :
    (8 * N * ch - 1 - X) / 8 / ch = N - 1 - X / 8 / ch ∧ (8 * N * ch - 1 - X) / 8 % ch = ch - 1 - X / 8 % ch ∧
      (8 * N * ch - 1 - X) % 8 = 7 - X % 8 ∧ X / 8 / ch < N := by
  obtain ⟨a, b⟩ := hc
  rcases (by omega : ch = 1 ∨ ch = 2 ∨ ch = 3 ∨ ch = 4) with rfl | rfl | rfl | rfl <;> omega

/-- The samples of the mirrored picture. -/
theorem sample_mirroredWide (hf : MirroredWide f f' H V) (h1 : ∀ c ∈ f.comps, 1 ≤ c.h ∧ c.h ≤ 4 ∧ 1 ≤ c.v) (hH : 1 ≤ H) (hV : 1 ≤ V)
    {i Y X : Nat} {c : FileComponent} (hc : f.comps[i]? = some c) (hY : Y < ceilDiv (f.y * c.v) V)
    (hX : X < 8 * (f.x / (8 * H)) * c.h) :
    NextTo (f'.sample H i Y X).toNat (f.sample H i Y (8 * (f.x / (8 * H)) * c.h - 1 - X)).toNat := by
  unfold BaselineFile.sample
  rcases forall₂_get hf.scales i with ⟨g1, g2⟩ | ⟨c0, c', g1, g2, hh, hv, hq⟩
  · rw [hc] at g1; cases g1
  cases hc.symm.trans g1
  obtain ⟨o1, o2, o3⟩ := h1 c (List.mem_of_getElem? hc)
  obtain ⟨p1, p2, p3, p4⟩ := mirror_places ⟨o1, o2⟩ hX
  have hm := hf.mcus (Y / 8 / c.v) (X / 8 / c.h) (lt_mcus (by omega) (by omega) hY) p4 i c hc (Y / 8 % c.v) (X / 8 % c.h)
    (Nat.mod_lt _ (by omega)) (Nat.mod_lt _ (by omega))
  rw [g1, g2]
  simp only [hq, blockAt_mcuBlock]
  rw [← hh, ← hv, hm, p1, p2, p3]
  cases f.mcuBlock H (Y / 8 / c.v) (f.x / (8 * H) - 1 - X / 8 / c.h) i (Y / 8 % c.v * c.h + (c.h - 1 - X / 8 % c.h)) with
  | none => simp [NextTo]
  | some b =>
    rw [Option.map_some]
    cases f'.quantOf c' with
    | none => simp [NextTo]
    | some q =>
      simp only
      have := saturate_near (C88_mirror_idct_partial (dequantised q b) (dequantised q (mirrorBlock b))
        (fun k i hk hi => dequantised_mirror hk hi) (Y % 8) (X % 8) (by omega))
      rw [abs_le] at this
      unfold NextTo
      omega

end

/-- The pixels at two places whose upsampled samples differ by at most 1. -/
theorem pixels_near_up {cfg : Cfg} {f f' : BaselineFile} {H V H' V' : Nat} {codes codes' : List (Code × Code)} {d₁ d₂ e₁ e₂ : Decoder}
    (hd₁ : UsedDecoder d₁) (hd₂ : UsedDecoder d₂) (hh₁ : Holds cfg d₁ f.earlier) (hh₂ : Holds cfg d₂ f'.earlier) {n : Nat}
    (hn₁ : f.Coloured d₁.transform n) (hn₂ : f'.Coloured d₂.transform n)
    (hv₁ : f.Valid (f.interval d₁.restartInterval) H V codes) (hv₂ : f'.Valid (f'.interval d₂.restartInterval) H' V' codes')
    (hr₁ : f.Renderable H V) (hr₂ : f'.Renderable H' V')
    (hin₁ : f.InRange) (hin₂ : f'.InRange) {image image' : List UInt8} (a : d₁.decode cfg f.bytes = .ok image e₁)
    (a' : d₂.decode cfg f'.bytes = .ok image' e₂) {y x y' x' : Nat} (hy : y < f.y) (hx : x < f.x) (hy' : y' < f'.y)
    (hx' : x' < f'.x) (h : ∀ i, i < n → NextTo (f'.upsampledSample H' V' i (if cfg.rayon then y' / V' else y' / V' * V') x')
      (f.upsampledSample H V i (if cfg.rayon then y / V else y / V * V) x)) (j : Nat)
    (hj : j < n) : ∃ v v', image[n * f.x * y + (n * x + j)]? = some v ∧ image'[n * f'.x * y' + (n * x' + j)]? = some v' ∧
      |(v'.toNat : Int) - (v.toNat : Int)| ≤ 3 := by
  have hu : ∀ (f : BaselineFile) (H V i r k : Nat), (UInt8.ofNat (f.upsampledSample H V i r k)).toNat = f.upsampledSample H V i r k := by
    intro f H V i r k
    have := upsampledSample_le (f := f) (H := H) (V := V) i r k
    exact UInt8.toNat_ofNat_of_lt' (by show _ < 256; omega)
  have h' : ∀ i, i < n → |((UInt8.ofNat (f'.upsampledSample H' V' i (if cfg.rayon then y' / V' else y' / V' * V') x')).toNat : Int) -
      ((UInt8.ofNat (f.upsampledSample H V i (if cfg.rayon then y / V else y / V * V) x)).toNat : Int)| ≤ 1 := by
    intro i hi
    have := h i hi
    rw [hu, hu, abs_le]
    unfold NextTo at this
    omega
  obtain ⟨h3, ⟨rfl, hct₁⟩ | ⟨rfl, hct₁⟩⟩ := hn₁
  · obtain ⟨h3', ⟨-, hct₂⟩ | ⟨h, -⟩⟩ := hn₂
    · obtain ⟨r, g, b, p, p0, p1, p2⟩ := C45_pixels_partial cfg f H V codes d₁ hd₁ hh₁ h3 hct₁ hv₁ hr₁ hin₁ image e₁ a y x hy hx
      obtain ⟨r', g', b', p', p0', p1', p2'⟩ := C45_pixels_partial cfg f' H' V' codes' d₂ hd₂ hh₂ h3' hct₂ hv₂ hr₂ hin₂ image' e₂
        a' y' x' hy' hx'
      obtain ⟨k0, k1, k2⟩ := ycbcr_near p' p (h' 0 (by decide)) (h' 1 (by decide)) (h' 2 (by decide))
      rcases (by omega : j = 0 ∨ j = 1 ∨ j = 2) with rfl | rfl | rfl
      · exact ⟨r, r', p0, p0', k0⟩
      · exact ⟨g, g', p1, p1', k1⟩
      · exact ⟨b, b', p2, p2', k2⟩
    · cases h
  · obtain ⟨h3', ⟨h, -⟩ | ⟨-, hct₂⟩⟩ := hn₂
    · cases h
    · have e := C54_pixels_partial cfg f H V codes d₁ hd₁ hh₁ h3 hct₁ hv₁ hr₁ hin₁ image e₁ a y x j hy hx hj
      have e' := C54_pixels_partial cfg f' H' V' codes' d₂ hd₂ hh₂ h3' hct₂ hv₂ hr₂ hin₂ image' e₂ a' y' x' j hy' hx' hj
      exact ⟨_, _, e, e', ink_near (h' j hj)⟩

/-- **C88** (part: left to right with subsampling). A picture with any sampling factors the decoder can render that is
turned left to right without decoding it, and whose last MCUs belong to the picture with all their columns: the image
is left to right, but for a difference of at most 3 in each channel.

Missing: exactly so; this is false: `C88_mirror_violated`. -/
theorem C88_mirror_subsampled_partial (cfg : Cfg) (f f' : BaselineFile) (H V : Nat) (hf : MirroredWide f f' H V)
    (codes codes' : List (Code × Code)) (d₁ d₂ : Decoder) (hd₁ : UsedDecoder d₁) (hd₂ : UsedDecoder d₂)
    (hh₁ : Holds cfg d₁ f.earlier) (hh₂ : Holds cfg d₂ f'.earlier) (n : Nat) (hn₁ : f.Coloured d₁.transform n)
    (hn₂ : f'.Coloured d₂.transform n) (hv₁ : f.Valid (f.interval d₁.restartInterval) H V codes)
    (hv₂ : f'.Valid (f'.interval d₂.restartInterval) H V codes') (hr₁ : f.Renderable H V) (hin₁ : f.InRange) (hin₂ : f'.InRange) :
    ∃ image image' e₁ e₂, d₁.decode cfg f.bytes = .ok image e₁ ∧ d₂.decode cfg f'.bytes = .ok image' e₂ ∧
      image.length = f.x * f.y * n ∧ image'.length = f.x * f.y * n ∧
      ∀ y x, y < f.y → x < f.x → ∀ j, j < n →
        ∃ v v', image[n * f.x * y + (n * (f.x - 1 - x) + j)]? = some v ∧ image'[n * f.x * y + (n * x + j)]? = some v' ∧
          |(v'.toNat : Int) - (v.toNat : Int)| ≤ 3 := by
  have hr₂ : f'.Renderable H V := by
    intro c' hc'
    obtain ⟨i, hi⟩ := List.mem_iff_getElem?.1 hc'
    rcases forall₂_get hf.scales i with ⟨-, h2⟩ | ⟨c, c'', h1, h2, hh, hv, -⟩
    · rw [hi] at h2; cases h2
    · obtain rfl := Option.some.inj (hi.symm.trans h2)
      have := hr₁ c (List.mem_of_getElem? h1)
      rw [hf.x, hf.y, hh, hv] at this
      exact this
  obtain ⟨image, e₁, a1, a2⟩ := coloured_decodes cfg f H V codes d₁ hd₁ hh₁ hn₁ hv₁ hr₁
  obtain ⟨image', e₂, b1, b2⟩ := coloured_decodes cfg f' H V codes' d₂ hd₂ hh₂ hn₂ hv₂ hr₂
  refine ⟨image, image', e₁, e₂, a1, b1, a2, by rw [b2, hf.x, hf.y], ?_⟩
  intro y x hy hx j hj
  have key := pixels_near_up hd₁ hd₂ hh₁ hh₂ hn₁ hn₂ hv₁ hv₂ hr₁ hr₂ hin₁ hin₂ a1 b1 (y := y) (x := f.x - 1 - x) (y' := y) (x' := x) hy
    (by omega) (hf.y ▸ hy) (hf.x ▸ hx) ?_ j hj
  · rw [← hf.x] at key
    exact key
  intro i hi
  unfold BaselineFile.upsampledSample
  rcases forall₂_get hf.scales i with ⟨h1, h2⟩ | ⟨c, c', h1, h2, hh, hv, hq⟩
  · rw [h1, h2]; simp [NextTo]
  · have hc := List.mem_of_getElem? h1
    obtain ⟨f1, f2, f3, f4⟩ := hv₁.factors c hc
    have hH : c.h ≤ H := hv₁.hmax.1 c hc
    have hV : c.v ≤ V := hv₁.vmax.1 c hc
    obtain ⟨m1, m2, -, -⟩ := hr₁ c hc
    rw [h1, h2]
    simp only [← hh, ← hv, ← hf.x, ← hf.y]
    have hrow : (if cfg.rayon then y / V else y / V * V) < f.y := by
      have a := Nat.div_le_self y V
      have b := Nat.div_mul_le_self y V
      split <;> omega
    refine upsampled_mirror f1 f3 m1 m2 (by omega) (by omega) hrow hx hf.whole ?_
    intro r k hr hk
    have hw : ceilDiv (f.x * c.h) H = 8 * (f.x / (8 * H)) * c.h := by
      obtain ⟨N, hN⟩ := Nat.dvd_of_mod_eq_zero hf.whole
      rw [hN, Nat.mul_div_cancel_left _ (by omega)]
      unfold ceilDiv
      rw [show 8 * H * N * c.h = H * (8 * N * c.h) by ring, Nat.mul_add_div (by omega), Nat.div_eq_of_lt (by omega)]
      rfl
    rw [hw] at hk ⊢
    refine sample_mirroredWide hf (fun c hc => ?_) (by omega) (by omega) h1 hr hk
    have := hv₁.factors c hc
    exact ⟨this.1, this.2.1, this.2.2.1⟩

/-! ## A case -/

/-- Half of the chrominance lines and columns. -/
def quarterComps : List FileComponent := [⟨⟨1, 2, 2, 0⟩, 0, 0⟩, ⟨⟨2, 1, 1, 0⟩, 0, 0⟩, ⟨⟨3, 1, 1, 0⟩, 0, 0⟩]

/-- A block that gets darker to the right. -/
def leanBlock (dc : Int) : BlockData := ⟨dc, 50 :: List.replicate 62 0⟩

/-- One MCU. -/
def leanMcu : Mcu := [[leanBlock 1, dcBlock 2, dcBlock 3, leanBlock 4], [leanBlock 5], [dcBlock 6]]

/-- The same left to right. -/
def leanMirrored : Mcu := [[mirrorBlock (dcBlock 2), mirrorBlock (leanBlock 1), mirrorBlock (leanBlock 4), mirrorBlock (dcBlock 3)],
  [mirrorBlock (leanBlock 5)], [mirrorBlock (dcBlock 6)]]

/-- A picture of one such MCU. -/
def leanFile (m : Mcu) (data : List UInt8) : BaselineFile := codedFile (List.replicate 64 1) quarterComps 16 16 [m] data

theorem lean_mirrored (data data' : List UInt8) : MirroredWide (leanFile leanMcu data) (leanFile leanMirrored data') 2 2 := by
  refine ⟨.cons ⟨rfl, rfl, rfl⟩ (.cons ⟨rfl, rfl, rfl⟩ (.cons ⟨rfl, rfl, rfl⟩ .nil)), rfl, rfl,
    by show 16 % (8 * 2) = 0; decide, ?_⟩
  intro R C hR hC
  have hR' : R < 1 := by change R < ceilDiv 16 (8 * 2) at hR; simpa [ceilDiv] using hR
  have hC' : C < 1 := by change C < 16 / (8 * 2) at hC; omega
  obtain rfl : R = 0 := by omega
  obtain rfl : C = 0 := by omega
  intro i c hc r k hr hk
  have e : (leanFile leanMcu data).mcuAt 2 0 ((leanFile leanMcu data).x / (8 * 2) - 1 - 0) = some leanMcu := by
    simp [BaselineFile.mcuAt, leanFile, codedFile, ceilDiv]
  have e' : (leanFile leanMirrored data').mcuAt 2 0 0 = some leanMirrored := by
    simp [BaselineFile.mcuAt, leanFile, codedFile, ceilDiv]
  unfold BaselineFile.mcuBlock
  rw [e, e']
  change quarterComps[i]? = some c at hc
  match i with
  | 0 =>
    cases hc
    change r < 2 at hr
    change k < 2 at hk
    rcases (by omega : r = 0 ∨ r = 1) with rfl | rfl <;> rcases (by omega : k = 0 ∨ k = 1) with rfl | rfl <;> rfl
  | 1 | 2 =>
    cases hc
    change r < 1 at hr
    change k < 1 at hk
    obtain rfl : k = 0 := by omega
    obtain rfl : r = 0 := by omega
    rfl
  | i + 3 => cases hc

/-- A case of C88: a picture of 16 by 16 pixels with half of the chrominance lines and columns. -/
example : ∃ f f' codes, MirroredWide f f' 2 2 ∧ f.Coloured none 3 ∧ f'.Coloured none 3 ∧ f.Valid 0 2 2 codes ∧
    f'.Valid 0 2 2 codes ∧ f.Renderable 2 2 ∧ f.InRange ∧ f'.InRange ∧
    ∀ cfg, ∃ image image' : List UInt8, decode cfg f.bytes = .ok image ∧ decode cfg f'.bytes = .ok image' := by
  have hq : GoodTable (List.replicate 64 1) := ⟨by decide, by decide⟩
  have ha : ∀ m ∈ [leanMcu, leanMirrored], Arranged quarterComps 16 16 2 2 [m] := by
    intro m hm
    refine ⟨by decide, by decide, by decide, by decide, by decide, ⟨by decide, by decide⟩, ⟨by decide, by decide⟩,
      by decide, by decide, by decide, rfl, ?_⟩
    intro m' hm'
    simp only [List.mem_cons, List.not_mem_nil, or_false] at hm hm'
    subst hm'
    rcases hm with rfl | rfl <;> rfl
  obtain ⟨data, hv⟩ := codedFile_valid hq (ha leanMcu (by simp)) (by decide +kernel)
  obtain ⟨data', hv'⟩ := codedFile_valid hq (ha leanMirrored (by simp)) (by decide +kernel)
  have hr : ∀ m d, (leanFile m d).Renderable 2 2 := by
    intro m d
    have hx : (leanFile m d).x = 16 := rfl
    have hy : (leanFile m d).y = 16 := rfl
    unfold BaselineFile.Renderable
    rw [hx, hy, show (leanFile m d).comps = quarterComps from rfl]
    decide
  have hin : (leanFile leanMcu data).InRange := codedFile_inRange (by decide) (by decide +kernel)
  have hin' : (leanFile leanMirrored data').InRange := codedFile_inRange (by decide) (by decide +kernel)
  refine ⟨_, _, _, lean_mirrored data data', ⟨rfl, .inl ⟨rfl, (by show (none : Option Nat) ≠ some 0; decide)⟩⟩,
    ⟨rfl, .inl ⟨rfl, (by show (none : Option Nat) ≠ some 0; decide)⟩⟩, hv, hv', hr _ _, hin, hin', ?_⟩
  intro cfg
  obtain ⟨image, image', e₁, e₂, h1, h2, -⟩ := C88_mirror_subsampled_partial cfg _ _ 2 2 (lean_mirrored data data') _ _ Decoder.default
    Decoder.default .new .new (.nothing _) (.nothing _) 3 ⟨rfl, .inl ⟨rfl, (by show (none : Option Nat) ≠ some 0; decide)⟩⟩
    ⟨rfl, .inl ⟨rfl, (by show (none : Option Nat) ≠ some 0; decide)⟩⟩ hv hv' (hr _ _) hin hin'
  exact ⟨image, image', by unfold decode; rw [h1], by unfold decode; rw [h2]⟩

end Jpeg
