import Mathlib.Data.List.Forall2
import Verif.Spec.Brighter
import Verif.Props.EndToEnd
import Verif.Props.Color
import Verif.Props.Exact
import Verif.Props.Uniform
/-!
# C86: a larger DC coefficient never makes a picture darker
-/

namespace Jpeg

open Spec

/-- The scalar product grows with the first entry. -/
theorem dot_mono_head {j : Nat} (hj : j < 8) {a a' : Int} (h : a ≤ a') (l : List Int) :
    dot (idctMatrixRow j) (a :: l) ≤ dot (idctMatrixRow j) (a' :: l) := by
  have : ∃ t, idctMatrixRow j = 4096 :: t := by
    rcases (by omega : j = 0 ∨ j = 1 ∨ j = 2 ∨ j = 3 ∨ j = 4 ∨ j = 5 ∨ j = 6 ∨ j = 7) with
      rfl | rfl | rfl | rfl | rfl | rfl | rfl | rfl <;> exact ⟨_, rfl⟩
  obtain ⟨t, ht⟩ := this
  unfold dot
  rw [ht]
  simp only [List.zipWith_cons_cons, List.sum_cons]
  omega

theorem idctPass1_mono {F F' : Nat → Nat → Int} {j : Nat} (hj : j < 8) (h0 : F 0 0 ≤ F' 0 0)
    (h : ∀ k i, k < 8 → i < 8 → (k, i) ≠ (0, 0) → F k i = F' k i) : idctPass1 F j 0 ≤ idctPass1 F' j 0 := by
  unfold idctPass1
  have e : ∀ G : Nat → Nat → Int, (List.range 8).map (fun k => G k 0) = G 0 0 :: (List.range' 1 7).map fun k => G k 0 :=
    fun _ => rfl
  rw [e F, e F', show (List.range' 1 7).map (fun k => F k 0) = (List.range' 1 7).map fun k => F' k 0 from
    List.map_congr_left fun k hk => by
      have := List.mem_range'_1.1 hk
      exact h k 0 (by omega) (by omega) (by simp; omega)]
  have := dot_mono_head hj h0 ((List.range' 1 7).map fun k => F' k 0)
  omega

/-- **C86** (the inverse DCT). Every sample of a block grows with the DC coefficient. -/
theorem C86_idct_monotone (F F' : Nat → Nat → Int) (r x : Nat) (hr : r < 8) (hx : x < 8) (h0 : F 0 0 ≤ F' 0 0)
    (h : ∀ k i, k < 8 → i < 8 → (k, i) ≠ (0, 0) → F k i = F' k i) : idctSample F r x ≤ idctSample F' r x := by
  unfold idctSample
  have e : ∀ G : Nat → Int, (List.range 8).map G = G 0 :: (List.range' 1 7).map G := fun _ => rfl
  rw [e, e, show (List.range' 1 7).map (fun k => idctPass1 F r k) = (List.range' 1 7).map fun k => idctPass1 F' r k from
    List.map_congr_left fun i hi => by
      have := List.mem_range'_1.1 hi
      unfold idctPass1
      rw [show (List.range 8).map (fun k => F k i) = (List.range 8).map fun k => F' k i from
        List.map_congr_left fun k hk => h k i (List.mem_range.1 hk) (by omega) (by simp; omega)]]
  have := dot_mono_head hx (idctPass1_mono hr h0 h) ((List.range' 1 7).map fun k => idctPass1 F' r k)
  omega

theorem saturate_mono {v v' : Int} (h : v ≤ v') : (saturate v).toNat ≤ (saturate v').toNat := by
  have h1 := saturate_toNat v
  have h2 := saturate_toNat v'
  omega

theorem upsampled_mono {x0 y0 hmax vmax ch cv w h row x : Nat} {f f' : Nat → Nat → Nat} (hf : ∀ r k, f r k ≤ f' r k) :
    upsampled x0 y0 hmax vmax ch cv w h f row x ≤ upsampled x0 y0 hmax vmax ch cv w h f' row x := by
  have ht : ∀ {a a' b b' : Nat}, a ≤ a' → b ≤ b' → tri a b ≤ tri a' b' := by
    intro a a' b b' h1 h2; unfold tri; omega
  unfold upsampled
  split
  · exact hf _ _
  split
  · unfold doubleLine
    split <;> [exact hf _ _; skip]
    split <;> [exact hf _ _; skip]
    split <;> exact ht (hf _ _) (hf _ _)
  split
  · exact ht (hf _ _) (hf _ _)
  split
  · unfold doubleBoth
    simp only
    have a1 := hf (row / 2)
    have a2 := hf (farRow h row)
    split
    · have := a1 0; have := a2 0; omega
    split
    · have := a1 (w - 1); have := a2 (w - 1); omega
    split
    · have := a1 (x / 2); have := a2 (x / 2); have := a1 (x / 2 - 1); have := a2 (x / 2 - 1); omega
    · have := a1 (x / 2); have := a2 (x / 2); have := a1 (x / 2 + 1); have := a2 (x / 2 + 1); omega
  · exact hf _ _

section

variable {f f' : BaselineFile} {H V : Nat}

theorem dequantised_mono (q : List Nat) {b b' : BlockData} (h1 : b.dc ≤ b'.dc) (h2 : b.zz = b'.zz) :
    dequantised q b 0 0 ≤ dequantised q b' 0 0 ∧
    ∀ k i, k < 8 → i < 8 → (k, i) ≠ (0, 0) → dequantised q b k i = dequantised q b' k i := by
  have h0 : ((List.range 64).map zigzag).idxOf 0 = 0 := by decide +kernel
  constructor
  · unfold dequantised
    simp only [Nat.mul_zero, Nat.add_zero, h0, List.getD_cons_zero]
    exact Int.mul_le_mul_of_nonneg_right h1 (Int.natCast_nonneg _)
  · intro k i hk hi hne
    have hp : ((List.range 64).map zigzag).idxOf (8 * k + i) ≠ 0 := by
      have : 8 * k + i < 64 ∧ 8 * k + i ≠ 0 := by
        refine ⟨by omega, fun h => hne ?_⟩
        rw [show k = 0 by omega, show i = 0 by omega]
      generalize 8 * k + i = p at this ⊢
      obtain ⟨h1, h2⟩ := this
      have : ∀ p, p < 64 → p ≠ 0 → ((List.range 64).map zigzag).idxOf p ≠ 0 := by decide +kernel
      exact this p h1 h2
    obtain ⟨n, hn⟩ := Nat.exists_eq_succ_of_ne_zero hp
    unfold dequantised
    simp only [hn, List.getD_cons_succ, h2]

theorem forall₂_get {α β : Type} {R : α → β → Prop} {l : List α} {l' : List β} (h : List.Forall₂ R l l') (i : Nat) :
    (l[i]? = none ∧ l'[i]? = none) ∨ ∃ a b, l[i]? = some a ∧ l'[i]? = some b ∧ R a b := by
  induction h generalizing i with
  | nil => exact .inl ⟨rfl, rfl⟩
  | cons h _ ih =>
    cases i with
    | zero => exact .inr ⟨_, _, rfl, rfl, h⟩
    | succ i => exact ih i

/-- The blocks at the same place. -/
theorem blockAt_brighter (hb : Brighter f f') (i : Nat) {c c' : FileComponent} (hh : c.h = c'.h) (hv : c.v = c'.v)
    (Y X : Nat) : (f.blockAt H i c Y X = none ∧ f'.blockAt H i c' Y X = none) ∨
      ∃ b b', f.blockAt H i c Y X = some b ∧ f'.blockAt H i c' Y X = some b' ∧ b.dc ≤ b'.dc ∧ b.zz = b'.zz ∧
        (i ≠ 0 → b = b') := by
  unfold BaselineFile.blockAt
  rw [← hb.x, ← hh, ← hv]
  rcases forall₂_get hb.mcus (Y / 8 / c.v * ceilDiv f.x (8 * H) + X / 8 / c.h) with ⟨h1, h2⟩ | ⟨m, m', h1, h2, h⟩
  · rw [h1, h2]; exact .inl ⟨rfl, rfl⟩
  · rw [h1, h2, Option.bind_some, Option.bind_some]
    obtain ⟨h⟩ := h
    rename_i y y' others
    cases i with
    | zero =>
      rw [List.getElem?_cons_zero, List.getElem?_cons_zero, Option.bind_some, Option.bind_some]
      rcases forall₂_get h (Y / 8 % c.v * c.h + X / 8 % c.h) with ⟨h1, h2⟩ | ⟨b, b', h1, h2, h3, h4⟩
      · exact .inl ⟨h1, h2⟩
      · exact .inr ⟨b, b', h1, h2, h3, h4, fun h => absurd rfl h⟩
    | succ i =>
      rw [List.getElem?_cons_succ, List.getElem?_cons_succ]
      cases (others[i]?.bind fun blocks => blocks[Y / 8 % c.v * c.h + X / 8 % c.h]?) with
      | none => exact .inl ⟨rfl, rfl⟩
      | some b => exact .inr ⟨b, b, rfl, rfl, Int.le_refl _, rfl, fun _ => rfl⟩

/-- The samples of the first component are at least as large, those of the others the same. -/
theorem sample_mono (hb : Brighter f f') (i Y X : Nat) :
    (f.sample H i Y X).toNat ≤ (f'.sample H i Y X).toNat ∧ (i ≠ 0 → f.sample H i Y X = f'.sample H i Y X) := by
  unfold BaselineFile.sample
  rcases forall₂_get hb.comps i with ⟨h1, h2⟩ | ⟨c, c', h1, h2, hh, hv, hq⟩
  · rw [h1, h2]; exact ⟨Nat.le_refl _, fun _ => rfl⟩
  · rw [h1, h2]
    simp only [hq]
    rcases blockAt_brighter (H := H) hb i hh hv Y X with ⟨h1, h2⟩ | ⟨b, b', h1, h2, h3, h4, h5⟩
    · rw [h1, h2]; exact ⟨Nat.le_refl _, fun _ => rfl⟩
    · rw [h1, h2]
      cases f'.quantOf c' with
      | none => exact ⟨Nat.le_refl _, fun _ => rfl⟩
      | some q =>
        simp only
        obtain ⟨e1, e2⟩ := dequantised_mono q h3 h4
        refine ⟨saturate_mono (C86_idct_monotone _ _ _ _ (Nat.mod_lt _ (by omega)) (Nat.mod_lt _ (by omega)) e1 e2), ?_⟩
        intro hi
        rw [h5 hi]

theorem upsampledSample_mono (hb : Brighter f f') (i row col : Nat) :
    f.upsampledSample H V i row col ≤ f'.upsampledSample H V i row col ∧
      (i ≠ 0 → f.upsampledSample H V i row col = f'.upsampledSample H V i row col) := by
  unfold BaselineFile.upsampledSample
  rcases forall₂_get hb.comps i with ⟨h1, h2⟩ | ⟨c, c', h1, h2, hh, hv, -⟩
  · rw [h1, h2]; exact ⟨Nat.le_refl _, fun _ => rfl⟩
  · rw [h1, h2]
    simp only [hb.x, hb.y, hh, hv]
    refine ⟨upsampled_mono fun r k => (sample_mono hb i r k).1, fun hi => ?_⟩
    rw [show (fun r k => (f.sample H i r k).toNat) = fun r k => (f'.sample H i r k).toNat from
      funext fun r => funext fun k => by rw [(sample_mono hb i r k).2 hi]]

end

theorem Spec.BaselineFile.Renderable.brighter {f f' : BaselineFile} {H V : Nat} (hb : Brighter f f') (hr : f.Renderable H V) :
    f'.Renderable H V := by
  intro c' hc'
  obtain ⟨i, hi⟩ := List.mem_iff_getElem?.1 hc'
  rcases forall₂_get hb.comps i with ⟨-, h2⟩ | ⟨c, c'', h1, h2, hh, hv, -⟩
  · rw [hi] at h2; cases h2
  · obtain rfl := Option.some.inj (hi.symm.trans h2)
    have := hr c (List.mem_of_getElem? h1)
    rw [hb.x, hb.y, hh, hv] at this
    exact this

/-- Lists of three bytes per pixel, line by line. -/
theorem forall₂_pixels {X Y : Nat} {a b : List UInt8} (ha : a.length = X * Y * 3) (hb : b.length = X * Y * 3)
    (h : ∀ y x i, y < Y → x < X → i < 3 → ∃ u v, a[3 * X * y + (3 * x + i)]? = some u ∧
      b[3 * X * y + (3 * x + i)]? = some v ∧ u ≤ v) : List.Forall₂ (· ≤ ·) a b := by
  rw [List.forall₂_iff_get]
  refine ⟨ha.trans hb.symm, ?_⟩
  intro n h1 h2
  have hX : 0 < X := by rcases Nat.eq_zero_or_pos X with rfl | h <;> [simp [ha] at h1; exact h]
  have g1 : n / 3 < X * Y := by omega
  have g2 : n / 3 / X < Y := (Nat.div_lt_iff_lt_mul hX).2 (by rw [Nat.mul_comm]; exact g1)
  have e2 : n / 3 = X * (n / 3 / X) + n / 3 % X := (Nat.div_add_mod _ X).symm
  have e3 : n = 3 * X * (n / 3 / X) + (3 * (n / 3 % X) + n % 3) := by
    rw [Nat.mul_assoc, ← Nat.add_assoc, ← Nat.mul_add, ← e2]; omega
  obtain ⟨u, v, hu, hv, hle⟩ := h _ _ (n % 3) g2 (Nat.mod_lt (n / 3) hX) (by omega)
  rw [← e3] at hu hv
  obtain ⟨_, hu⟩ := List.getElem?_eq_some_iff.1 hu
  obtain ⟨_, hv⟩ := List.getElem?_eq_some_iff.1 hv
  rw [List.get_eq_getElem, List.get_eq_getElem]
  simp only [hu, hv]
  exact hle

/-- **C86**. If the DC coefficients of the luminance blocks of a three-component baseline picture are made
larger, no channel of any pixel gets darker: whatever the size, sampling factors (of those that this decoder can render) and
tables, however the two files are written, on whatever decoders, in every build. -/
theorem C86_brighter (cfg : Cfg) (f f' : BaselineFile) (hb : Brighter f f') (H V : Nat)
    (codes codes' : List (Code × Code)) (d₁ d₂ : Decoder) (hd₁ : UsedDecoder d₁) (hd₂ : UsedDecoder d₂)
    (hh₁ : Holds cfg d₁ f.earlier) (hh₂ : Holds cfg d₂ f'.earlier) (h3 : f.comps.length = 3)
    (hct₁ : f.transform d₁.transform ≠ some 0) (hct₂ : f'.transform d₂.transform ≠ some 0)
    (hv₁ : f.Valid (f.interval d₁.restartInterval) H V codes) (hv₂ : f'.Valid (f'.interval d₂.restartInterval) H V codes')
    (hr₁ : f.Renderable H V) (hin₁ : f.InRange) (hin₂ : f'.InRange) :
    ∃ image image' e₁ e₂, d₁.decode cfg f.bytes = .ok image e₁ ∧ d₂.decode cfg f'.bytes = .ok image' e₂ ∧
      image.length = f.x * f.y * 3 ∧ List.Forall₂ (· ≤ ·) image image' := by
  have hl := hb.comps.length_eq
  have h3' : f'.comps.length = 3 := by omega
  have hr₂ := hr₁.brighter hb
  obtain ⟨image, e₁, a1, a2⟩ := C45_decodes cfg f H V codes d₁ hd₁ hh₁ h3 hct₁ hv₁ hr₁
  obtain ⟨image', e₂, b1, b2⟩ := C45_decodes cfg f' H V codes' d₂ hd₂ hh₂ h3' hct₂ hv₂ hr₂
  refine ⟨image, image', e₁, e₂, a1, b1, a2, forall₂_pixels a2 (by rw [b2, hb.x, hb.y]) ?_⟩
  intro y x i hy hx hi
  obtain ⟨r, g, b, p, p0, p1, p2⟩ := C45_pixels_partial cfg f H V codes d₁ hd₁ hh₁ h3 hct₁ hv₁ hr₁ hin₁ image e₁ a1 y x hy hx
  obtain ⟨r', g', b', p', p0', p1', p2'⟩ := C45_pixels_partial cfg f' H V codes' d₂ hd₂ hh₂ h3' hct₂ hv₂ hr₂ hin₂ image' e₂
    b1 y x (by rw [← hb.y]; exact hy) (by rw [← hb.x]; exact hx)
  generalize (if cfg.rayon then y / V else y / V * V) = row at p p'
  simp only at p p'
  rw [← (upsampledSample_mono hb 1 row x).2 (by decide), ← (upsampledSample_mono hb 2 row x).2 (by decide)] at p'
  obtain ⟨s1, s2, s3, t1, t2, t3, q, q', l1, l2, l3⟩ := C27_monotone
    (UInt8.ofNat (f.upsampledSample H V 0 row x)) (UInt8.ofNat (f'.upsampledSample H V 0 row x))
    (UInt8.ofNat (f.upsampledSample H V 1 row x)) (UInt8.ofNat (f.upsampledSample H V 2 row x)) (by
      have h1 := upsampledSample_le (f := f) (H := H) (V := V) 0 row x
      have h2 := upsampledSample_le (f := f') (H := H) (V := V) 0 row x
      have := (upsampledSample_mono (H := H) (V := V) hb 0 row x).1
      rw [UInt8.le_iff_toNat_le, UInt8.toNat_ofNat', UInt8.toNat_ofNat']
      omega)
  cases p.symm.trans q
  cases p'.symm.trans q'
  rw [← hb.x] at p0' p1' p2'
  rcases (by omega : i = 0 ∨ i = 1 ∨ i = 2) with rfl | rfl | rfl
  · exact ⟨_, _, p0, p0', l1⟩
  · exact ⟨_, _, p1, p1', l2⟩
  · exact ⟨_, _, p2, p2', l3⟩

/-! ## A case -/

/-- The file of `colourFile` with other luminance. -/
def brightData : List UInt8 := [246, 76, 99, 27, 217, 55, 47, 191]

theorem brightData_valid : (colourFile 100 brightData).Valid 1 2 2 (List.replicate 3 (exampleDc, exampleAc)) :=
  colourFile_valid _ _ (List.replicate 6 true) (by decide +kernel) (by decide) (by decide) (by decide +kernel)

theorem colourFile_inRange (v : Int) (h1 : -1538 ≤ v) (h2 : v ≤ 2557) (data : List UInt8) :
    (colourFile v data).InRange := by
  refine uniform_inRange ?_
  have h : ∀ (w : Int), ∃ s : UInt8, (s.toNat : Int) = min 255 (max 0 ((w * 2 + 4) / 8 + 128)) := by
    intro w
    refine ⟨UInt8.ofNat (min 255 (max 0 ((w * 2 + 4) / 8 + 128))).toNat, ?_⟩
    rw [UInt8.toNat_ofNat']
    omega
  intro i hi
  rcases (by simpa [colourFile] using hi : i < 3) |> (fun h => (by omega : i = 0 ∨ i = 1 ∨ i = 2)) with rfl | rfl | rfl
  · obtain ⟨s, hs⟩ := h v
    exact ⟨s, colourFile_uniform 0 v s (by
      intro bs hbs b hb
      cases hbs
      exact (List.mem_replicate.1 hb).2) (by omega) (by omega) hs⟩
  · obtain ⟨s, hs⟩ := h 100
    exact ⟨s, colourFile_uniform 1 100 s (by
      intro bs hbs b hb
      cases hbs
      exact List.mem_singleton.1 hb) (by omega) (by omega) hs⟩
  · obtain ⟨s, hs⟩ := h (-40)
    exact ⟨s, colourFile_uniform 2 (-40) s (by
      intro bs hbs b hb
      cases hbs
      exact List.mem_singleton.1 hb) (by omega) (by omega) hs⟩

/-- A case of C86: luminance DC coefficients -200 and 100. -/
example (cfg : Cfg) : ∃ image image' e₁ e₂,
    Decoder.default.decode cfg (colourFile (-200) colourData).bytes = .ok image e₁ ∧
    Decoder.default.decode cfg (colourFile 100 brightData).bytes = .ok image' e₂ ∧
    image.length = 768 ∧ List.Forall₂ (· ≤ ·) image image' := by
  have hb : Brighter (colourFile (-200) colourData) (colourFile 100 brightData) :=
    ⟨rfl, rfl, .cons ⟨rfl, rfl, rfl⟩ (.cons ⟨rfl, rfl, rfl⟩ (.cons ⟨rfl, rfl, rfl⟩ .nil)),
      .cons ⟨by
        have h : (dcBlock (-200)).dc ≤ (dcBlock 100).dc ∧ (dcBlock (-200)).zz = (dcBlock 100).zz := ⟨by decide, rfl⟩
        exact .cons h (.cons h (.cons h (.cons h .nil)))⟩ .nil⟩
  exact C86_brighter cfg _ _ hb 2 2 _ _ Decoder.default Decoder.default .new .new (.nothing _) (.nothing _) rfl
    (by decide) (by decide) colourData_valid brightData_valid (by unfold BaselineFile.Renderable; decide)
    (colourFile_inRange _ (by decide) (by decide) _) (colourFile_inRange _ (by decide) (by decide) _)

end Jpeg
