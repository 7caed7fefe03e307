import Verif.Spec.Rising
import Verif.Proofs.Rising
import Verif.Props.Colors
import Verif.Props.Lightened
/-!
# C99: upsampling keeps order and straight ramps
-/

namespace Jpeg
open Spec Sample

/-- **C99** (lines). If in all rows of a component the samples rise from left to right, they do so in every line an
upsampler returns; likewise if they fall. (Columns of an incomplete last group of the nearest neighbour upsampler
excepted: `C29_trailing_columns_violated`.) -/
theorem C99_order (W Ht H V : Nat) (c : Component) (g : ComponentGeometry W Ht H V c)
    (hH : c.h ≤ H) (hV : c.v ≤ V) (hW : 1 ≤ W) (row : Nat) (hrow : row < Ht) (u : Upsample)
    (hu : chooseUpsampler (c.h, c.v) (H, V) ⟨W, Ht⟩ = .ok u) (plane buf out buf' : List UInt8)
    (hlen : plane.length = c.lineStride * (8 * c.blockSize.height))
    (e : u.upsampleRow plane c.size (c.blockSize.width * 8) row W buf = .ok (out, buf')) :
    (RowsRise c.size.width c.size.height (fun r i => (plane.getD (r * c.lineStride + i) 0).toNat) →
      ∀ x, x + 1 < W → (∀ hs vs, u = .generic hs vs → x + 1 < W / hs * hs) →
        ∃ a b, out[x]? = some a ∧ out[x + 1]? = some b ∧ a.toNat ≤ b.toNat) ∧
    (RowsFall c.size.width c.size.height (fun r i => (plane.getD (r * c.lineStride + i) 0).toNat) →
      ∀ x, x + 1 < W → (∀ hs vs, u = .generic hs vs → x + 1 < W / hs * hs) →
        ∃ a b, out[x]? = some a ∧ out[x + 1]? = some b ∧ b.toNat ≤ a.toNat) := by
  constructor
  · intro hf x hx hg
    obtain ⟨a, a1, a2⟩ := C29_filters_partial W Ht H V c g hH hV hW row hrow u hu plane buf out buf' hlen e x (by omega)
      (fun hs vs h => by have := hg hs vs h; omega)
    obtain ⟨b, b1, b2⟩ := C29_filters_partial W Ht H V c g hH hV hW row hrow u hu plane buf out buf' hlen e (x + 1) hx hg
    exact ⟨a, b, a1, b1, by rw [a2, b2]; exact upsampled_rising g hH hV hW hrow hu hx _ hf⟩
  · intro hf x hx hg
    obtain ⟨a, a1, a2⟩ := C29_filters_partial W Ht H V c g hH hV hW row hrow u hu plane buf out buf' hlen e x (by omega)
      (fun hs vs h => by have := hg hs vs h; omega)
    obtain ⟨b, b1, b2⟩ := C29_filters_partial W Ht H V c g hH hV hW row hrow u hu plane buf out buf' hlen e (x + 1) hx hg
    exact ⟨a, b, a1, b1, by rw [a2, b2]; exact upsampled_falling g hH hV hW hrow hu hx _ hf⟩

/-- **C99** (ramps). Samples that change by `4 k` from column to column and by `4 m` from row to row, at half the
resolution: away from the borders every sample of a line is where the ramp is at the middle of its pixel, that is the
line changes by `2 k` from column to column and by `2 m` from row to row, without any rounding. -/
theorem C99_ramp (W Ht H V : Nat) (c : Component) (g : ComponentGeometry W Ht H V c)
    (hH : c.h ≤ H) (hV : c.v ≤ V) (hW : 1 < W) (hHt : 1 < Ht) (row : Nat) (hrow : row < Ht) (u : Upsample)
    (hu : chooseUpsampler (c.h, c.v) (H, V) ⟨W, Ht⟩ = .ok u) (plane buf out buf' : List UInt8)
    (hlen : plane.length = c.lineStride * (8 * c.blockSize.height))
    (e : u.upsampleRow plane c.size (c.blockSize.width * 8) row W buf = .ok (out, buf')) (a k m : Int)
    (hf : Ramp c.size.width c.size.height (fun r i => (plane.getD (r * c.lineStride + i) 0).toNat) a k m)
    (x : Nat) (hx : x + 1 < W) (hh : c.h = H ∨ 2 * c.h = H ∧ 0 < x)
    (hv : c.v = V ∨ 2 * c.v = V ∧ 0 < row ∧ row + 1 < Ht) :
    ∃ b, out[x]? = some b ∧ (b.toNat : Int) =
      a + (if c.h = H then 4 * k * x else k * (2 * x - 1)) + (if c.v = V then 4 * m * row else m * (2 * row - 1)) := by
  have F := Facts.of g hH hV (by omega) (by omega)
  obtain ⟨f1, f2, f3, f4⟩ := g.factors
  have hng : ∀ hs vs, u ≠ .generic hs vs := by
    rcases chooseUpsampler_cases hu with ⟨rfl, h⟩ | ⟨rfl, _, h⟩ | ⟨rfl, _, _, h⟩ | ⟨rfl, _, _, _, h⟩ | ⟨_, _, _, _, _, h⟩
    all_goals first | (intro hs vs h; cases h; done) | skip
    all_goals exfalso; omega
  obtain ⟨b, b1, b2⟩ := C29_filters_partial W Ht H V c g hH hV (by omega) row hrow u hu plane buf out buf' hlen e x
    (by omega) (fun hs vs h => absurd h (hng hs vs))
  refine ⟨b, b1, ?_⟩
  rw [b2]
  generalize (fun r i => (plane.getD (r * c.lineStride + i) 0).toNat) = f at hf
  -- half the rows: the second nearest row, and where the line lies
  have vert : c.v ≠ V → 2 * c.v = V ∧ row / 2 < c.size.height ∧ farRow c.size.height row < c.size.height ∧
      ∃ δ : Int, (∀ i, i < c.size.width → (f (farRow c.size.height row) i : Int) = f (row / 2) i + 4 * δ) ∧
        m * (2 * row - 1) = 4 * m * ((row / 2 : Nat) : Int) + δ := by
    intro hn
    obtain h | ⟨h, h0, h1⟩ := hv
    · exact absurd h hn
    have hh := F.halfH h
    refine ⟨h, by omega, by unfold farRow; split <;> omega, ?_⟩
    unfold farRow
    rcases Nat.mod_two_eq_zero_or_one row with p | p
    · obtain ⟨s, rfl⟩ : ∃ s, row = 2 * s + 2 := ⟨row / 2 - 1, by omega⟩
      rw [if_pos p, show (2 * s + 2) / 2 = s + 1 by omega]
      refine ⟨-m, fun i hi => ?_, by push_cast; ring⟩
      rw [hf _ _ (by omega) hi, hf _ _ (by omega) hi, Nat.add_sub_cancel]
      push_cast
      ring
    · obtain ⟨s, rfl⟩ : ∃ s, row = 2 * s + 1 := ⟨row / 2, by omega⟩
      rw [if_neg (by omega), show (2 * s + 1) / 2 = s by omega, Nat.min_eq_left (by omega)]
      refine ⟨m, fun i hi => ?_, by push_cast; ring⟩
      rw [hf _ _ (by omega) hi, hf _ _ (by omega) hi]
      push_cast
      ring
  -- half the columns
  have horiz : c.h ≠ H → 2 * c.h = H ∧ x / 2 < c.size.width ∧ x ≠ 0 ∧ x ≠ 2 * c.size.width - 1 ∧
      ∃ δ : Int, (∀ r, r < c.size.height →
        (f r (if x % 2 = 0 then x / 2 - 1 else x / 2 + 1) : Int) = f r (x / 2) + 4 * δ) ∧
        k * (2 * x - 1) = 4 * k * ((x / 2 : Nat) : Int) + δ := by
    intro hn
    obtain h | ⟨h, h0⟩ := hh
    · exact absurd h hn
    have hw := F.halfW h
    refine ⟨h, by omega, by omega, by omega, ?_⟩
    rcases Nat.mod_two_eq_zero_or_one x with p | p
    · obtain ⟨s, rfl⟩ : ∃ s, x = 2 * s + 2 := ⟨x / 2 - 1, by omega⟩
      rw [if_pos p, show (2 * s + 2) / 2 = s + 1 by omega]
      refine ⟨-k, fun r hr => ?_, by push_cast; ring⟩
      rw [hf _ _ hr (by omega), hf _ _ hr (by omega), Nat.add_sub_cancel]
      push_cast
      ring
    · obtain ⟨s, rfl⟩ : ∃ s, x = 2 * s + 1 := ⟨x / 2, by omega⟩
      rw [if_neg (by omega), show (2 * s + 1) / 2 = s by omega]
      refine ⟨k, fun r hr => ?_, by push_cast; ring⟩
      rw [hf _ _ hr (by omega), hf _ _ hr (by omega)]
      push_cast
      ring
  have mean : ∀ (n t : Nat) (δ : Int), (t : Int) = n + 4 * δ → ((tri n t : Nat) : Int) = n + δ := by
    intro n t δ h
    unfold tri
    omega
  have hW1 : (c.h = H ∨ W = 1) ↔ c.h = H := by omega
  have hV1 : (c.v = V ∨ Ht = 1) ↔ c.v = V := by omega
  unfold upsampled
  simp only [hW1, hV1]
  by_cases h1 : c.h = H <;> by_cases v1 : c.v = V
  · rw [if_pos ⟨h1, v1⟩, if_pos h1, if_pos v1]
    exact hf _ _ (by rw [F.fullH v1]; exact hrow) (by rw [F.fullW h1]; omega)
  · obtain ⟨v2, r1, r2, δ, hδ, hm⟩ := vert v1
    have hxw : x < c.size.width := by rw [F.fullW h1]; omega
    rw [if_neg (fun h => v1 h.2), if_neg (fun h => v1 h.2), if_pos ⟨h1, v2⟩, if_pos h1, if_neg v1, hm]
    unfold doubleRows
    rw [mean _ _ δ (hδ x hxw), hf _ _ r1 hxw]
    ring
  · obtain ⟨h2, w1, n0, n1, δ, hδ, hk⟩ := horiz h1
    have hyh : row < c.size.height := by rw [F.fullH v1]; omega
    rw [if_neg (fun h => h1 h.1), if_pos ⟨h2, v1⟩, if_neg h1, if_pos v1, hk]
    have key := hδ row hyh
    unfold doubleLine
    rw [if_neg n0, if_neg n1]
    rcases Nat.mod_two_eq_zero_or_one x with p | p
    · rw [if_pos p] at key ⊢
      rw [mean _ _ δ key, hf _ _ hyh w1]
      ring
    · rw [if_neg (by omega)] at key ⊢
      rw [mean _ _ δ key, hf _ _ hyh w1]
      ring
  · obtain ⟨v2, r1, r2, δ', hδ', hm⟩ := vert v1
    obtain ⟨h2, w1, n0, n1, δ, hδ, hk⟩ := horiz h1
    rw [if_neg (fun h => h1 h.1), if_neg (fun h => v1 h.2), if_neg (fun h => h1 h.1), if_pos ⟨h2, v2⟩, if_neg h1, if_neg v1, hk, hm]
    have hw := F.halfW h2
    have nw : (if x % 2 = 0 then x / 2 - 1 else x / 2 + 1) < c.size.width := by split <;> omega
    have k1 := hδ _ r1
    have k2 := hδ _ r2
    have k3 := hδ' _ w1
    have k4 := hδ' _ nw
    have k5 := hf _ _ r1 w1
    unfold doubleBoth
    simp only
    rw [if_neg n0, if_neg n1]
    rcases Nat.mod_two_eq_zero_or_one x with p | p
    · rw [if_pos p] at k1 k2 k4 ⊢
      have : (((3 * (3 * f (row / 2) (x / 2) + f (farRow c.size.height row) (x / 2)) + (3 * f (row / 2) (x / 2 - 1) +
          f (farRow c.size.height row) (x / 2 - 1)) + 8) / 16 : Nat) : Int) = f (row / 2) (x / 2) + δ + δ' := by omega
      rw [this, k5]
      ring
    · rw [if_neg (by omega)] at k1 k2 k4 ⊢
      have : (((3 * (3 * f (row / 2) (x / 2) + f (farRow c.size.height row) (x / 2)) + (3 * f (row / 2) (x / 2 + 1) +
          f (farRow c.size.height row) (x / 2 + 1)) + 8) / 16 : Nat) : Int) = f (row / 2) (x / 2) + δ + δ' := by omega
      rw [this, k5]
      ring

/-- Eight rows of eight samples: 20 at the top left, 8 more from column to column, 4 more from row to row. -/
def rampPlane : List UInt8 := (List.range 64).map fun i => UInt8.ofNat (20 + 8 * (i % 8) + 4 * (i / 8))

/-- A case of C99: this plane doubled in both directions. Line 5 rises, and its column 6 is `20 + 2 * 11 + 9`. -/
example : let c := fullComponent 16 16 2 2 (rawComponent 1 1 1 0)
    ∃ out, Upsample.h2v2.upsampleRow rampPlane c.size (c.blockSize.width * 8) 5 16 [] = .ok (out, out) ∧ out[6]? = some 51 ∧
      ∀ x, x + 1 < 16 → ∃ a b, out[x]? = some a ∧ out[x + 1]? = some b ∧ a.toNat ≤ b.toNat := by
  intro c
  have g : ComponentGeometry 16 16 2 2 c := fullComponent_geometry (by unfold FactorsOk; decide)
  have hu : chooseUpsampler (c.h, c.v) (2, 2) ⟨16, 16⟩ = .ok .h2v2 := by decide
  have hl : rampPlane.length = c.lineStride * (8 * c.blockSize.height) := by decide +kernel
  have he : ∃ out, Upsample.h2v2.upsampleRow rampPlane c.size (c.blockSize.width * 8) 5 16 [] = .ok (out, out) := ⟨_, by rfl⟩
  obtain ⟨out, e⟩ := he
  have hr : ∀ r, r < 8 → ∀ i, i < 8 → ((rampPlane.getD (r * 8 + i) 0).toNat : Int) = 20 + 4 * 2 * i + 4 * 1 * r := by
    decide +kernel
  obtain ⟨b, h1, h2⟩ := C99_ramp 16 16 2 2 c g (by decide) (by decide) (by decide) (by decide) 5 (by decide) .h2v2 hu rampPlane
    [] out out hl e 20 2 1 (fun r i hr' hi => hr r hr' i hi) 6 (by decide) (by decide) (by decide)
  refine ⟨out, e, ?_, fun x hx => ?_⟩
  · rw [h1]
    have h2 : (b.toNat : Int) = 51 := h2
    have h3 : b = UInt8.ofNat 51 := by
      rw [← UInt8.toNat_inj]
      show b.toNat = 51
      omega
    rw [h3]
    rfl
  · refine (C99_order 16 16 2 2 c g (by decide) (by decide) (by decide) 5 (by decide) .h2v2 hu rampPlane [] out out hl e).1
      (fun r i hr' hi => ?_) x hx (fun hs vs h => by cases h)
    have hi : i + 1 < 8 := hi
    have a1 := hr r hr' i (by omega)
    have a2 := hr r hr' (i + 1) hi
    show (rampPlane.getD (r * 8 + i) 0).toNat ≤ (rampPlane.getD (r * 8 + (i + 1)) 0).toNat
    omega

section

variable {f : BaselineFile} {r H V : Nat} {codes : List (Code × Code)}

/-- Upsampled samples in order. -/
theorem upsampledSample_order (hv : f.Laid r H V codes) (hr : f.Renderable H V) {i row x : Nat} (hi : i < f.comps.length)
    (hrow : row < f.y) (hx : x + 1 < f.x) :
    (f.Rises H V i → (UInt8.ofNat (f.upsampledSample H V i row x)).toNat ≤ (UInt8.ofNat (f.upsampledSample H V i row (x + 1))).toNat) ∧
    (f.Falls H V i → (UInt8.ofNat (f.upsampledSample H V i row (x + 1))).toNat ≤ (UInt8.ofNat (f.upsampledSample H V i row x)).toNat) := by
  have hc := List.getElem?_eq_getElem hi
  generalize f.comps[i] = c at hc
  have hcm := List.mem_of_getElem? hc
  have g := fileComponent_geometry hv hcm
  obtain ⟨f1, f2, f3, f4⟩ := hv.factors c hcm
  have hH := hv.hmax.1 c hcm
  have hV := hv.vmax.1 c hcm
  simp only at hH hV
  obtain ⟨m1, m2, -⟩ := hr c hcm
  obtain ⟨a, ha⟩ := Nat.dvd_of_mod_eq_zero m1
  obtain ⟨b, hb⟩ := Nat.dvd_of_mod_eq_zero m2
  have ha0 : a ≠ 0 := by rintro rfl; omega
  have hb0 : b ≠ 0 := by rintro rfl; omega
  obtain ⟨u, hu⟩ := (C30_integer_ratio c.h c.v a b f.x f.y f1 f3 (by omega) (by omega)).1
  rw [← ha, ← hb] at hu
  have hs : ∀ x, x < f.x → (UInt8.ofNat (f.upsampledSample H V i row x)).toNat = f.upsampledSample H V i row x := by
    intro x hx
    refine UInt8.toNat_ofNat_of_lt' (show _ < 256 from ?_)
    unfold BaselineFile.upsampledSample
    rw [hc]
    have := (upsampled_between (lo := 0) (hi := 255) g hH hV hv.x.1 hrow hu hx
      (fun r k => (f.sample H i r k).toNat) (fun r k _ _ _ _ _ _ => ⟨Nat.zero_le _, by
        have := (f.sample H i r k).toNat_lt; omega⟩)).2
    exact Nat.lt_succ_of_le this
  rw [hs x (by omega), hs (x + 1) hx]
  constructor
  · intro h
    have := upsampled_rising g hH hV hv.x.1 hrow hu hx (fun r k => (f.sample H i r k).toNat) (h c hc)
    unfold BaselineFile.upsampledSample
    rw [hc]
    exact this
  · intro h
    have := upsampled_falling g hH hV hv.x.1 hrow hu hx (fun r k => (f.sample H i r k).toNat) (h c hc)
    unfold BaselineFile.upsampledSample
    rw [hc]
    exact this

end

/-- **C99** (images). Red rises from left to right if luminance and Cr do, blue if luminance and Cb do, green if
luminance does and Cb and Cr fall; and the other way round; whatever the subsampling. -/
theorem C99_image (cfg : Cfg) (f : BaselineFile) (H V : Nat) (codes : List (Code × Code)) (d : Decoder)
    (hd : UsedDecoder d) (hh : Holds cfg d f.earlier) (h3 : f.comps.length = 3) (hct : f.transform d.transform ≠ some 0)
    (hv : f.Valid (f.interval d.restartInterval) H V codes) (hr : f.Renderable H V) (hin : f.InRange) :
    ∃ image d', d.decode cfg f.bytes = .ok image d' ∧ image.length = f.x * f.y * 3 ∧
      ∀ y x, y < f.y → x + 1 < f.x → ∃ r g b r' g' b',
        image[3 * f.x * y + 3 * x]? = some r ∧ image[3 * f.x * y + 3 * (x + 1)]? = some r' ∧
        image[3 * f.x * y + (3 * x + 1)]? = some g ∧ image[3 * f.x * y + (3 * (x + 1) + 1)]? = some g' ∧
        image[3 * f.x * y + (3 * x + 2)]? = some b ∧ image[3 * f.x * y + (3 * (x + 1) + 2)]? = some b' ∧
        (f.Rises H V 0 → (f.Rises H V 2 → r.toNat ≤ r'.toNat) ∧ (f.Rises H V 1 → b.toNat ≤ b'.toNat) ∧
          (f.Falls H V 1 → f.Falls H V 2 → g.toNat ≤ g'.toNat)) ∧
        (f.Falls H V 0 → (f.Falls H V 2 → r'.toNat ≤ r.toNat) ∧ (f.Falls H V 1 → b'.toNat ≤ b.toNat) ∧
          (f.Rises H V 1 → f.Rises H V 2 → g'.toNat ≤ g.toNat)) := by
  obtain ⟨image, d', e, hl⟩ := C45_decodes cfg f H V codes d hd hh h3 hct hv hr
  refine ⟨image, d', e, hl, ?_⟩
  intro y x hy hx
  have hrow : (if cfg.rayon then y / V else y / V * V) < f.y := by
    have := Nat.div_le_self y V
    have := Nat.div_mul_le_self y V
    split <;> omega
  obtain ⟨r, g, b, q, p0, p1, p2⟩ := C45_pixels_partial cfg f H V codes d hd hh h3 hct hv hr hin image d' e y x hy (by omega)
  obtain ⟨r', g', b', q', p0', p1', p2'⟩ := C45_pixels_partial cfg f H V codes d hd hh h3 hct hv hr hin image d' e y (x + 1) hy hx
  refine ⟨r, g, b, r', g', b', p0, p0', p1, p1', p2, p2', ?_⟩
  have o0 := upsampledSample_order hv.toLaid hr (i := 0) (by omega) hrow hx
  have o1 := upsampledSample_order hv.toLaid hr (i := 1) (by omega) hrow hx
  have o2 := upsampledSample_order hv.toLaid hr (i := 2) (by omega) hrow hx
  clear p0 p1 p2 p0' p1' p2'
  rw [ycbcrToRgb_eq] at q q'
  simp only [Except.ok.injEq, Prod.mk.injEq] at q q'
  obtain ⟨rfl, rfl, rfl⟩ := q
  obtain ⟨rfl, rfl, rfl⟩ := q'
  generalize UInt8.ofNat (f.upsampledSample H V 0 _ x) = y0 at *
  generalize UInt8.ofNat (f.upsampledSample H V 1 _ x) = b0 at *
  generalize UInt8.ofNat (f.upsampledSample H V 2 _ x) = r0 at *
  generalize UInt8.ofNat (f.upsampledSample H V 0 _ (x + 1)) = y1 at *
  generalize UInt8.ofNat (f.upsampledSample H V 1 _ (x + 1)) = b1 at *
  generalize UInt8.ofNat (f.upsampledSample H V 2 _ (x + 1)) = r1 at *
  refine ⟨fun a => ⟨fun b => ?_, fun b => ?_, fun b c => ?_⟩, fun a => ⟨fun b => ?_, fun b => ?_, fun b c => ?_⟩⟩
  · have := o0.1 a
    have := o2.1 b
    refine saturate_mono ?_
    unfold redSum
    omega
  · have := o0.1 a
    have := o1.1 b
    refine saturate_mono ?_
    unfold blueSum
    omega
  · have := o0.1 a
    have := o1.2 b
    have := o2.2 c
    refine saturate_mono ?_
    unfold greenSum
    omega
  · have := o0.2 a
    have := o2.2 b
    refine saturate_mono ?_
    unfold redSum
    omega
  · have := o0.2 a
    have := o1.2 b
    refine saturate_mono ?_
    unfold blueSum
    omega
  · have := o0.2 a
    have := o1.1 b
    have := o2.1 c
    refine saturate_mono ?_
    unfold greenSum
    omega

/-- **C99** (four inks). A byte of the pixels falls from left to right if its component rises, and rises if it falls. -/
theorem C99_cmyk (cfg : Cfg) (f : BaselineFile) (H V : Nat) (codes : List (Code × Code)) (d : Decoder)
    (hd : UsedDecoder d) (hh : Holds cfg d f.earlier) (h4 : f.comps.length = 4) (hct : f.transform d.transform = some 0)
    (hv : f.Valid (f.interval d.restartInterval) H V codes) (hr : f.Renderable H V) (hin : f.InRange) :
    ∃ image d', d.decode cfg f.bytes = .ok image d' ∧ image.length = f.x * f.y * 4 ∧
      ∀ y x i, y < f.y → x + 1 < f.x → i < 4 → ∃ v v',
        image[4 * f.x * y + (4 * x + i)]? = some v ∧ image[4 * f.x * y + (4 * (x + 1) + i)]? = some v' ∧
        (f.Rises H V i → v'.toNat ≤ v.toNat) ∧ (f.Falls H V i → v.toNat ≤ v'.toNat) := by
  obtain ⟨image, d', e, hl⟩ := C54_decodes cfg f H V codes d hd hh h4 hct hv hr
  refine ⟨image, d', e, hl, ?_⟩
  intro y x i hy hx hi
  have hrow : (if cfg.rayon then y / V else y / V * V) < f.y := by
    have := Nat.div_le_self y V
    have := Nat.div_mul_le_self y V
    split <;> omega
  have p := C54_pixels_partial cfg f H V codes d hd hh h4 hct hv hr hin image d' e y x i hy (by omega) hi
  have p' := C54_pixels_partial cfg f H V codes d hd hh h4 hct hv hr hin image d' e y (x + 1) i hy hx hi
  have o := upsampledSample_order hv.toLaid hr (i := i) (by omega) hrow hx
  refine ⟨_, _, p, p', ?_⟩
  clear p p'
  generalize UInt8.ofNat (f.upsampledSample H V i _ x) = a at *
  generalize UInt8.ofNat (f.upsampledSample H V i _ (x + 1)) = b at *
  have inv : ∀ v : UInt8, (255 - v).toNat = 255 - v.toNat := by
    intro v
    have := v.toNat_lt
    rw [UInt8.toNat_sub_of_le _ _ (by rw [UInt8.le_iff_toNat_le]; show v.toNat ≤ 255; omega)]
    rfl
  rw [inv, inv]
  refine ⟨fun h => ?_, fun h => ?_⟩
  · have := o.1 h; omega
  · have := o.2 h; omega

/-- One MCU that gets darker to the right, chrominance included. -/
def fallingMcu : Mcu := [[leanBlock 100, leanBlock (-200), leanBlock 90, leanBlock (-210)], [leanBlock 5], [leanBlock 6]]

/-- A case of C99: 16 by 16 pixels, half of the chrominance lines and columns; red and blue fall from left to right. -/
example : ∃ (f : BaselineFile) (codes : List (Code × Code)), f.Valid 0 2 2 codes ∧ f.Falls 2 2 0 ∧ f.Falls 2 2 1 ∧ f.Falls 2 2 2 ∧ ∀ cfg, ∃ image : List UInt8,
    decode cfg f.bytes = .ok image ∧ ∀ y x, y < 16 → x + 1 < 16 → ∃ r r' b b',
      image[48 * y + 3 * x]? = some r ∧ image[48 * y + 3 * (x + 1)]? = some r' ∧ r'.toNat ≤ r.toNat ∧
      image[48 * y + (3 * x + 2)]? = some b ∧ image[48 * y + (3 * (x + 1) + 2)]? = some b' ∧ b'.toNat ≤ b.toNat := by
  have hq : GoodTable (List.replicate 64 1) := ⟨by decide, by decide⟩
  have ha : Arranged quarterComps 16 16 2 2 [fallingMcu] := by
    refine ⟨by decide, by decide, by decide, by decide, by decide, ⟨by decide, by decide⟩, ⟨by decide, by decide⟩,
      by decide, by decide, by decide, rfl, ?_⟩
    intro m' hm'
    simp only [List.mem_cons, List.not_mem_nil, or_false] at hm'
    subst hm'
    rfl
  obtain ⟨data, hv⟩ := codedFile_valid hq ha (by decide +kernel)
  have hr : (leanFile fallingMcu data).Renderable 2 2 := by
    have hx : (leanFile fallingMcu data).x = 16 := rfl
    have hy : (leanFile fallingMcu data).y = 16 := rfl
    unfold BaselineFile.Renderable
    rw [hx, hy, show (leanFile fallingMcu data).comps = quarterComps from rfl]
    decide
  have hin : (leanFile fallingMcu data).InRange := codedFile_inRange (by decide) (by decide +kernel)
  have k0 : ∀ r, r < 16 → ∀ i, i < 15 → ((leanFile fallingMcu []).sample 2 0 r (i + 1)).toNat ≤
      ((leanFile fallingMcu []).sample 2 0 r i).toNat := by decide +kernel
  have k1 : ∀ r, r < 8 → ∀ i, i < 7 → ((leanFile fallingMcu []).sample 2 1 r (i + 1)).toNat ≤
      ((leanFile fallingMcu []).sample 2 1 r i).toNat := by decide +kernel
  have k2 : ∀ r, r < 8 → ∀ i, i < 7 → ((leanFile fallingMcu []).sample 2 2 r (i + 1)).toNat ≤
      ((leanFile fallingMcu []).sample 2 2 r i).toNat := by decide +kernel
  have f0 : (leanFile fallingMcu data).Falls 2 2 0 := by
    intro c hc r i h1 h2
    cases hc
    have h1 : r < ceilDiv (16 * 2) 2 := h1
    have h2 : i + 1 < ceilDiv (16 * 2) 2 := h2
    rw [show ceilDiv (16 * 2) 2 = 16 by decide] at h1 h2
    exact k0 r h1 i (by omega)
  have f1 : (leanFile fallingMcu data).Falls 2 2 1 := by
    intro c hc r i h1 h2
    cases hc
    have h1 : r < ceilDiv (16 * 1) 2 := h1
    have h2 : i + 1 < ceilDiv (16 * 1) 2 := h2
    rw [show ceilDiv (16 * 1) 2 = 8 by decide] at h1 h2
    exact k1 r h1 i (by omega)
  have f2 : (leanFile fallingMcu data).Falls 2 2 2 := by
    intro c hc r i h1 h2
    cases hc
    have h1 : r < ceilDiv (16 * 1) 2 := h1
    have h2 : i + 1 < ceilDiv (16 * 1) 2 := h2
    rw [show ceilDiv (16 * 1) 2 = 8 by decide] at h1 h2
    exact k2 r h1 i (by omega)
  refine ⟨leanFile fallingMcu data, _, hv, f0, f1, f2, fun cfg => ?_⟩
  obtain ⟨image, d', h, -, p⟩ := C99_image cfg (leanFile fallingMcu data) 2 2 _ Decoder.default .new (.nothing _) rfl
    (by show (none : Option Nat) ≠ some 0; decide) hv hr hin
  refine ⟨image, by unfold decode; rw [h], fun y x hy hx => ?_⟩
  obtain ⟨r, g, b, r', g', b', a1, a2, -, -, a3, a4, -, q⟩ := p y x hy hx
  exact ⟨r, r', b, b', a1, a2, (q f0).1 f2, a3, a4, (q f0).2.1 f1⟩

end Jpeg
