import Verif.Spec.Requantised
import Verif.Props.Limited
/-!
# Other quantisation tables (C89)
-/

namespace Jpeg
open Spec Sample

section

variable {f f' : BaselineFile}

theorem coefficient_eq (f : BaselineFile) (n i j k l : Nat) : f.coefficient n i j k l =
    (f.comps[i]?.bind f.quantOf).bind fun q => (f.intervals.flatten[n]?.bind fun m => m[i]?.bind fun blocks =>
      blocks[j]?).map fun b => dequantised q b k l := by
  unfold BaselineFile.coefficient
  congr 1
  funext q
  cases f.intervals.flatten[n]? with
  | none => rfl
  | some m => cases h : m[i]? <;> simp [h]

theorem products_same {Q Q' : Option (List Nat)} {B B' : Option BlockData} (r x : Nat) :
    (∀ k l, k < 8 → l < 8 → (Q.bind fun q => B.map fun b => dequantised q b k l) =
      Q'.bind fun q => B'.map fun b => dequantised q b k l) →
    (match B, Q with | some b, some q => wrapping q b r x | _, _ => 0) =
      match B', Q' with | some b, some q => wrapping q b r x | _, _ => 0 := by
  intro h
  have h0 := h 0 0 (by decide) (by decide)
  cases B <;> cases Q <;> cases B' <;> cases Q' <;> simp at h0 ⊢
  rename_i b q b' q'
  unfold wrapping
  rw [idctSample_congr fun k l hk hl => ?_]
  simpa using h k l hk hl

theorem sample_same (hs : SameCoefficients f f') (H i Y X : Nat) : sampleBy wrapping f H i Y X = sampleBy wrapping f' H i Y X := by
  unfold sampleBy
  rcases forall₂_get hs.factors i with ⟨g1, g2⟩ | ⟨c, c', g1, g2, hh, hv⟩
  · rw [g1, g2]
  · rw [g1, g2]
    simp only
    unfold BaselineFile.blockAt
    rw [← hh, ← hv, ← hs.x]
    refine products_same _ _ (fun k l hk hl => ?_)
    have := hs.products (Y / 8 / c.v * ceilDiv f.x (8 * H) + X / 8 / c.h) i (Y / 8 % c.v * c.h + X / 8 % c.h) k l hk hl
    rw [coefficient_eq, coefficient_eq, g1, g2] at this
    exact this

theorem moderately_same (hs : SameCoefficients f f') (hq : ∀ c ∈ f.comps, ∃ q, f.quantOf c = some q) (h : f.Moderately) : f'.Moderately := by
  intro i c' q' hc' hq' m' hm' bs' hbs' b' hb'
  obtain ⟨n, hn⟩ := List.mem_iff_getElem?.1 hm'
  obtain ⟨j, hj⟩ := List.mem_iff_getElem?.1 hb'
  have key := fun k l hk hl => hs.products n i j k l hk hl
  rcases forall₂_get hs.factors i with ⟨-, g2⟩ | ⟨c, c'', g1, g2, -, -⟩
  · rw [hc'] at g2; cases g2
  · obtain rfl := Option.some.inj (hc'.symm.trans g2)
    obtain ⟨q, hq⟩ := hq c (List.mem_of_getElem? g1)
    unfold BaselineFile.coefficient at key
    simp only [g1, g2, hq, hq', hn, hbs', hj, Option.bind_some, Option.map_some] at key
    cases hm : f.intervals.flatten[n]? with
    | none => have := key 0 0 (by decide) (by decide); rw [hm] at this; cases this
    | some m =>
      simp only [hm, Option.bind_some] at key
      cases hbs : m[i]? with
      | none => have := key 0 0 (by decide) (by decide); rw [hbs] at this; cases this
      | some bs =>
        simp only [hbs, Option.bind_some] at key
        cases hb : bs[j]? with
        | none => have := key 0 0 (by decide) (by decide); rw [hb] at this; cases this
        | some b =>
          simp only [hb, Option.map_some, Option.some.injEq] at key
          intro k l hk hl
          rw [← key k l hk hl]
          exact h i c q g1 hq m (List.mem_of_getElem? hm) bs hbs b (List.mem_of_getElem? hb) k l hk hl

/-- Images of the same size with the same pixels. -/
theorem images_ext {X Y n : Nat} {image image' : List UInt8} (h1 : image.length = X * Y * n) (h2 : image'.length = X * Y * n)
    (h : ∀ y x, y < Y → x < X → ∀ j, j < n → image[n * X * y + (n * x + j)]? = image'[n * X * y + (n * x + j)]?) :
    image = image' := by
  apply List.ext_getElem?
  intro m
  by_cases hm : m < X * Y * n
  · have hX : 0 < X := by rcases Nat.eq_zero_or_pos X with rfl | h <;> [simp at hm; exact h]
    have hn : 0 < n := by rcases Nat.eq_zero_or_pos n with rfl | h <;> [simp at hm; exact h]
    have e := Nat.div_add_mod m (n * X)
    have hr := Nat.mod_lt m (Nat.mul_pos hn hX)
    have hy : m / (n * X) < Y := by
      rw [Nat.div_lt_iff_lt_mul (Nat.mul_pos hn hX)]
      calc m < X * Y * n := hm
        _ = Y * (n * X) := by ring
    have hx : m % (n * X) / n < X := by
      rw [Nat.div_lt_iff_lt_mul hn, Nat.mul_comm X n]; exact hr
    have := h (m / (n * X)) (m % (n * X) / n) hy hx (m % (n * X) % n) (Nat.mod_lt _ hn)
    rw [Nat.div_add_mod, e] at this
    exact this
  · rw [List.getElem?_eq_none (by omega), List.getElem?_eq_none (by omega)]

end

/-- **C89.** The picture is made from the dequantised coefficients alone: two files whose coefficients times the entries
of their tables are the same, and at most `2^16` in magnitude, give the same image, whatever the tables, the codes, the
restart intervals, and the decoders. -/
theorem C89_same_products (cfg : Cfg) (f f' : BaselineFile) (hs : SameCoefficients f f') (H V : Nat)
    (codes codes' : List (Code × Code)) (d₁ d₂ : Decoder) (hd₁ : UsedDecoder d₁) (hd₂ : UsedDecoder d₂)
    (hh₁ : Holds cfg d₁ f.earlier) (hh₂ : Holds cfg d₂ f'.earlier) (n : Nat)
    (hn₁ : f.Coloured d₁.transform n) (hn₂ : f'.Coloured d₂.transform n)
    (hv₁ : f.Valid (f.interval d₁.restartInterval) H V codes) (hv₂ : f'.Valid (f'.interval d₂.restartInterval) H V codes')
    (hr₁ : f.Renderable H V) (hin₁ : f.Moderately) :
    ∃ image e₁ e₂, d₁.decode cfg f.bytes = .ok image e₁ ∧ d₂.decode cfg f'.bytes = .ok image e₂ ∧
      image.length = f.x * f.y * n := by
  have hr₂ : f'.Renderable H V := by
    intro c' hc'
    obtain ⟨i, hi⟩ := List.mem_iff_getElem?.1 hc'
    rcases forall₂_get hs.factors i with ⟨-, h2⟩ | ⟨c, c'', h1, h2, hh, hv⟩
    · rw [hi] at h2; cases h2
    · obtain rfl := Option.some.inj (hi.symm.trans h2)
      have := hr₁ c (List.mem_of_getElem? h1)
      rw [hs.x, hs.y, hh, hv] at this
      exact this
  have hin₂ := moderately_same hs hv₁.quant hin₁
  obtain ⟨image, e₁, a1, a2⟩ := coloured_decodes cfg f H V codes d₁ hd₁ hh₁ hn₁ hv₁ hr₁
  obtain ⟨image', e₂, b1, b2⟩ := coloured_decodes cfg f' H V codes' d₂ hd₂ hh₂ hn₂ hv₂ hr₂
  have hi : image = image' := by
    refine images_ext a2 (by rw [b2, hs.x, hs.y]) ?_
    intro y x hy hx j hj
    have key := pixel_of_upsampled hd₁ hd₂ hh₁ hh₂ hn₁ hn₂ hv₁ hv₂ hr₁ hr₂ (givenBy_wrapping hin₁) (givenBy_wrapping hin₂) a1 b1 hy hx (hs.y ▸ hy) (hs.x ▸ hx)
      (j := j) (hj := hj) ?_
    · rw [← hs.x] at key; exact key
    intro i hi
    unfold upsampledBy
    rcases forall₂_get hs.factors i with ⟨h1, h2⟩ | ⟨c, c', h1, h2, hh, hv⟩
    · rw [h1, h2]
    · rw [h1, h2]
      simp only [← hh, ← hv, ← hs.x, ← hs.y, sample_same hs]
  subst hi
  exact ⟨image, e₁, e₂, a1, b1, a2⟩

/-- Coefficients 2 and -3, to be multiplied by 8. -/
def coarseMcu : Mcu := [[⟨2, -3 :: List.replicate 62 0⟩], [dcBlock 0], [dcBlock 5]]

/-- Coefficients 8 and -12, to be multiplied by 2. -/
def fineMcu : Mcu := [[⟨8, -12 :: List.replicate 62 0⟩], [dcBlock 0], [dcBlock 20]]

theorem coarse_fine : ∀ i < 3, ∀ k < 8, ∀ l < 8,
    (codedFile (List.replicate 64 8) fullComps 7 5 [coarseMcu] []).coefficient 0 i 0 k l =
      (codedFile (List.replicate 64 2) fullComps 7 5 [fineMcu] []).coefficient 0 i 0 k l := by decide +kernel

/-- A case of `C89_same_products`. -/
example : ∃ (f f' : BaselineFile) (image : List UInt8), f.intervals ≠ f'.intervals ∧
    decode ⟨true, true⟩ f.bytes = .ok image ∧ decode ⟨true, true⟩ f'.bytes = .ok image ∧ image.length = 7 * 5 * 3 := by
  obtain ⟨data, hv⟩ := codedFile_valid (q := List.replicate 64 8) (comps := fullComps) (x := 7) (y := 5) (H := 1) (V := 1)
    (mcus := [coarseMcu]) ⟨by decide, by decide⟩
    ⟨by decide, by decide, by decide, by decide, by decide, ⟨by decide, by decide⟩, ⟨by decide, by decide⟩, by decide,
      by decide, by decide, by decide, by decide⟩ (by decide)
  obtain ⟨data', hv'⟩ := codedFile_valid (q := List.replicate 64 2) (comps := fullComps) (x := 7) (y := 5) (H := 1) (V := 1)
    (mcus := [fineMcu]) ⟨by decide, by decide⟩
    ⟨by decide, by decide, by decide, by decide, by decide, ⟨by decide, by decide⟩, ⟨by decide, by decide⟩, by decide,
      by decide, by decide, by decide, by decide⟩ (by decide)
  have hs : SameCoefficients (codedFile (List.replicate 64 8) fullComps 7 5 [coarseMcu] data)
      (codedFile (List.replicate 64 2) fullComps 7 5 [fineMcu] data') := by
    refine ⟨.cons ⟨rfl, rfl⟩ (.cons ⟨rfl, rfl⟩ (.cons ⟨rfl, rfl⟩ .nil)), rfl, rfl, ?_⟩
    intro n i j k l hk hl
    by_cases h : n = 0 ∧ i < 3 ∧ j = 0
    · obtain ⟨rfl, hi, rfl⟩ := h
      exact coarse_fine i hi k hk l hl
    · have e : ∀ (q : List Nat) (a b c : BlockData) (d : List UInt8),
          (codedFile q fullComps 7 5 [[[a], [b], [c]]] d).coefficient n i j k l = none := by
        intro q a b c d
        rw [coefficient_eq]
        have : ([[[[a], [b], [c]]]].flatten[n]?.bind fun m : Mcu => m[i]?.bind fun blocks => blocks[j]?) = none := by
          match n, i, j, h with
          | n + 1, _, _, _ => simp
          | 0, i + 3, _, _ => simp
          | 0, 0, j + 1, _ | 0, 1, j + 1, _ | 0, 2, j + 1, _ => simp
        show (_ : Option (List Nat)).bind (fun q => Option.map _ ([[[[a], [b], [c]]]].flatten[n]?.bind fun m : Mcu => m[i]?.bind fun blocks => blocks[j]?)) = none
        rw [this]
        simp
      exact (e _ _ _ _ _).trans (e _ _ _ _ _).symm
  obtain ⟨image, e₁, e₂, h1, h2, h3⟩ := C89_same_products ⟨true, true⟩ _ _ hs 1 1 _ _ Decoder.default Decoder.default .new .new
    (.nothing _) (.nothing _) 3 ⟨rfl, .inl ⟨rfl, (by show (none : Option Nat) ≠ some 0; decide)⟩⟩
    ⟨rfl, .inl ⟨rfl, (by show (none : Option Nat) ≠ some 0; decide)⟩⟩ hv hv' (renderable_one hv.toLaid.ones)
    (InRange.moderately (codedFile_inRange (by decide) (by decide +kernel)))
  refine ⟨_, _, image, ?_, by unfold decode; rw [h1], by unfold decode; rw [h2], h3⟩
  show [[coarseMcu]] ≠ [[fineMcu]]
  decide

end Jpeg
