import Verif.Proofs.Downward
import Verif.Props.Ramps
/-!
# C99, continued: order from top to bottom
-/

namespace Jpeg
open Spec Sample

/-- **C99** (lines, from top to bottom). If in all columns of a component the samples rise from top to bottom, then of
two lines an upsampler returns the lower one is nowhere smaller; likewise if they fall. (Columns of an incomplete last
group of the nearest neighbour upsampler excepted: `C29_trailing_columns_violated`.) -/
theorem C99_order_down (W Ht H V : Nat) (c : Component) (g : ComponentGeometry W Ht H V c)
    (hH : c.h ≤ H) (hV : c.v ≤ V) (hW : 1 ≤ W) (row row' : Nat) (hle : row ≤ row') (hrow : row' < Ht) (u : Upsample)
    (hu : chooseUpsampler (c.h, c.v) (H, V) ⟨W, Ht⟩ = .ok u) (plane buf out buf' old out' old' : List UInt8)
    (hlen : plane.length = c.lineStride * (8 * c.blockSize.height))
    (e : u.upsampleRow plane c.size (c.blockSize.width * 8) row W buf = .ok (out, buf'))
    (e' : u.upsampleRow plane c.size (c.blockSize.width * 8) row' W old = .ok (out', old'))
    (x : Nat) (hx : x < W) (hg : ∀ hs vs, u = .generic hs vs → x < W / hs * hs) :
    ∃ a b, out[x]? = some a ∧ out'[x]? = some b ∧
      (ColumnsRise c.size.width c.size.height (fun r i => (plane.getD (r * c.lineStride + i) 0).toNat) →
        a.toNat ≤ b.toNat) ∧
      (ColumnsFall c.size.width c.size.height (fun r i => (plane.getD (r * c.lineStride + i) 0).toNat) →
        b.toNat ≤ a.toNat) := by
  obtain ⟨a, a1, a2⟩ := C29_filters_partial W Ht H V c g hH hV hW row (by omega) u hu plane buf out buf' hlen e x hx hg
  obtain ⟨b, b1, b2⟩ := C29_filters_partial W Ht H V c g hH hV hW row' hrow u hu plane old out' old' hlen e' x hx hg
  refine ⟨a, b, a1, b1, fun hf => ?_, fun hf => ?_⟩
  · rw [a2, b2]; exact upsampled_increasing_down g hH hV hW hle hrow hu hx _ hf
  · rw [a2, b2]; exact upsampled_decreasing_down g hH hV hW hle hrow hu hx _ hf

section

variable {f : BaselineFile} {r H V : Nat} {codes : List (Code × Code)}

/-- Upsampled samples in order from top to bottom. -/
theorem upsampledSample_down (hv : f.Laid r H V codes) (hr : f.Renderable H V) {i row row' x : Nat}
    (hi : i < f.comps.length) (hle : row ≤ row') (hrow : row' < f.y) (hx : x < f.x) :
    (f.RisesDown H V i → (UInt8.ofNat (f.upsampledSample H V i row x)).toNat ≤ (UInt8.ofNat (f.upsampledSample H V i row' x)).toNat) ∧
    (f.FallsDown H V i → (UInt8.ofNat (f.upsampledSample H V i row' x)).toNat ≤ (UInt8.ofNat (f.upsampledSample H V i row x)).toNat) := by
  have hc := List.getElem?_eq_getElem hi
  generalize f.comps[i] = c at hc
  have hcm := List.mem_of_getElem? hc
  have g := fileComponent_geometry hv hcm
  obtain ⟨f1, f2, f3, f4⟩ := hv.factors c hcm
  have hH := hv.hmax.1 c hcm
  have hV := hv.vmax.1 c hcm
  simp only at hH hV
  obtain ⟨m1, m2, -⟩ := hr c hcm
  obtain ⟨a, ha⟩ := Nat.dvd_of_mod_eq_zero m1
  obtain ⟨b, hb⟩ := Nat.dvd_of_mod_eq_zero m2
  have ha0 : a ≠ 0 := by rintro rfl; omega
  have hb0 : b ≠ 0 := by rintro rfl; omega
  obtain ⟨u, hu⟩ := (C30_integer_ratio c.h c.v a b f.x f.y f1 f3 (by omega) (by omega)).1
  rw [← ha, ← hb] at hu
  have hs : ∀ row, row < f.y → (UInt8.ofNat (f.upsampledSample H V i row x)).toNat = f.upsampledSample H V i row x := by
    intro row hrow
    refine UInt8.toNat_ofNat_of_lt' (show _ < 256 from ?_)
    unfold BaselineFile.upsampledSample
    rw [hc]
    have := (upsampled_between (lo := 0) (hi := 255) g hH hV hv.x.1 hrow hu hx
      (fun r k => (f.sample H i r k).toNat) (fun r k _ _ _ _ _ _ => ⟨Nat.zero_le _, by
        have := (f.sample H i r k).toNat_lt; omega⟩)).2
    exact Nat.lt_succ_of_le this
  rw [hs row (by omega), hs row' hrow]
  constructor
  · intro h
    have := upsampled_increasing_down g hH hV hv.x.1 hle hrow hu hx (fun r k => (f.sample H i r k).toNat) (h c hc)
    unfold BaselineFile.upsampledSample
    rw [hc]
    exact this
  · intro h
    have := upsampled_decreasing_down g hH hV hv.x.1 hle hrow hu hx (fun r k => (f.sample H i r k).toNat) (h c hc)
    unfold BaselineFile.upsampledSample
    rw [hc]
    exact this

end

/-- **C99** (images, from top to bottom). Of two pixels of a column the lower one has no less red if luminance and Cr
rise, no less blue if luminance and Cb do, no less green if luminance rises and Cb and Cr fall; and the other way round;
whatever the subsampling and in every build, since the rows used, though repeated (C33), are in order. -/
theorem C99_image_down (cfg : Cfg) (f : BaselineFile) (H V : Nat) (codes : List (Code × Code)) (d : Decoder)
    (hd : UsedDecoder d) (hh : Holds cfg d f.earlier) (h3 : f.comps.length = 3) (hct : f.transform d.transform ≠ some 0)
    (hv : f.Valid (f.interval d.restartInterval) H V codes) (hr : f.Renderable H V) (hin : f.InRange) :
    ∃ image d', d.decode cfg f.bytes = .ok image d' ∧ image.length = f.x * f.y * 3 ∧
      ∀ y y' x, y ≤ y' → y' < f.y → x < f.x → ∃ r g b r' g' b',
        image[3 * f.x * y + 3 * x]? = some r ∧ image[3 * f.x * y' + 3 * x]? = some r' ∧
        image[3 * f.x * y + (3 * x + 1)]? = some g ∧ image[3 * f.x * y' + (3 * x + 1)]? = some g' ∧
        image[3 * f.x * y + (3 * x + 2)]? = some b ∧ image[3 * f.x * y' + (3 * x + 2)]? = some b' ∧
        (f.RisesDown H V 0 → (f.RisesDown H V 2 → r.toNat ≤ r'.toNat) ∧ (f.RisesDown H V 1 → b.toNat ≤ b'.toNat) ∧
          (f.FallsDown H V 1 → f.FallsDown H V 2 → g.toNat ≤ g'.toNat)) ∧
        (f.FallsDown H V 0 → (f.FallsDown H V 2 → r'.toNat ≤ r.toNat) ∧ (f.FallsDown H V 1 → b'.toNat ≤ b.toNat) ∧
          (f.RisesDown H V 1 → f.RisesDown H V 2 → g'.toNat ≤ g.toNat)) := by
  obtain ⟨image, d', e, hl⟩ := C45_decodes cfg f H V codes d hd hh h3 hct hv hr
  refine ⟨image, d', e, hl, ?_⟩
  intro y y' x hyy hy hx
  have hrow : (if cfg.rayon then y' / V else y' / V * V) < f.y := by
    have := Nat.div_le_self y' V
    have := Nat.div_mul_le_self y' V
    split <;> omega
  have hle : (if cfg.rayon then y / V else y / V * V) ≤ (if cfg.rayon then y' / V else y' / V * V) := by
    have h1 : y / V ≤ y' / V := Nat.div_le_div_right hyy
    have h2 := Nat.mul_le_mul_right V h1
    split
    · exact h1
    · exact h2
  obtain ⟨r, g, b, q, p0, p1, p2⟩ := C45_pixels_partial cfg f H V codes d hd hh h3 hct hv hr hin image d' e y x (by omega) hx
  obtain ⟨r', g', b', q', p0', p1', p2'⟩ := C45_pixels_partial cfg f H V codes d hd hh h3 hct hv hr hin image d' e y' x hy hx
  refine ⟨r, g, b, r', g', b', p0, p0', p1, p1', p2, p2', ?_⟩
  have o0 := upsampledSample_down hv.toLaid hr (i := 0) (by omega) hle hrow hx
  have o1 := upsampledSample_down hv.toLaid hr (i := 1) (by omega) hle hrow hx
  have o2 := upsampledSample_down hv.toLaid hr (i := 2) (by omega) hle hrow hx
  clear p0 p1 p2 p0' p1' p2'
  generalize (if cfg.rayon then y / V else y / V * V) = ρ at *
  generalize (if cfg.rayon then y' / V else y' / V * V) = ρ' at *
  rw [ycbcrToRgb_eq] at q q'
  simp only [Except.ok.injEq, Prod.mk.injEq] at q q'
  obtain ⟨rfl, rfl, rfl⟩ := q
  obtain ⟨rfl, rfl, rfl⟩ := q'
  generalize UInt8.ofNat (f.upsampledSample H V 0 ρ x) = y0 at *
  generalize UInt8.ofNat (f.upsampledSample H V 1 ρ x) = b0 at *
  generalize UInt8.ofNat (f.upsampledSample H V 2 ρ x) = r0 at *
  generalize UInt8.ofNat (f.upsampledSample H V 0 ρ' x) = y1 at *
  generalize UInt8.ofNat (f.upsampledSample H V 1 ρ' x) = b1 at *
  generalize UInt8.ofNat (f.upsampledSample H V 2 ρ' x) = r1 at *
  refine ⟨fun a => ⟨fun b => ?_, fun b => ?_, fun b c => ?_⟩, fun a => ⟨fun b => ?_, fun b => ?_, fun b c => ?_⟩⟩
  · have := o0.1 a
    have := o2.1 b
    refine saturate_mono ?_
    unfold redSum
    omega
  · have := o0.1 a
    have := o1.1 b
    refine saturate_mono ?_
    unfold blueSum
    omega
  · have := o0.1 a
    have := o1.2 b
    have := o2.2 c
    refine saturate_mono ?_
    unfold greenSum
    omega
  · have := o0.2 a
    have := o2.2 b
    refine saturate_mono ?_
    unfold redSum
    omega
  · have := o0.2 a
    have := o1.2 b
    refine saturate_mono ?_
    unfold blueSum
    omega
  · have := o0.2 a
    have := o1.1 b
    have := o2.1 c
    refine saturate_mono ?_
    unfold greenSum
    omega

/-- **C99** (four inks, from top to bottom). -/
theorem C99_cmyk_down (cfg : Cfg) (f : BaselineFile) (H V : Nat) (codes : List (Code × Code)) (d : Decoder)
    (hd : UsedDecoder d) (hh : Holds cfg d f.earlier) (h4 : f.comps.length = 4) (hct : f.transform d.transform = some 0)
    (hv : f.Valid (f.interval d.restartInterval) H V codes) (hr : f.Renderable H V) (hin : f.InRange) :
    ∃ image d', d.decode cfg f.bytes = .ok image d' ∧ image.length = f.x * f.y * 4 ∧
      ∀ y y' x i, y ≤ y' → y' < f.y → x < f.x → i < 4 → ∃ v v',
        image[4 * f.x * y + (4 * x + i)]? = some v ∧ image[4 * f.x * y' + (4 * x + i)]? = some v' ∧
        (f.RisesDown H V i → v'.toNat ≤ v.toNat) ∧ (f.FallsDown H V i → v.toNat ≤ v'.toNat) := by
  obtain ⟨image, d', e, hl⟩ := C54_decodes cfg f H V codes d hd hh h4 hct hv hr
  refine ⟨image, d', e, hl, ?_⟩
  intro y y' x i hyy hy hx hi
  have hrow : (if cfg.rayon then y' / V else y' / V * V) < f.y := by
    have := Nat.div_le_self y' V
    have := Nat.div_mul_le_self y' V
    split <;> omega
  have hle : (if cfg.rayon then y / V else y / V * V) ≤ (if cfg.rayon then y' / V else y' / V * V) := by
    have h1 : y / V ≤ y' / V := Nat.div_le_div_right hyy
    have h2 := Nat.mul_le_mul_right V h1
    split
    · exact h1
    · exact h2
  have p := C54_pixels_partial cfg f H V codes d hd hh h4 hct hv hr hin image d' e y x i (by omega) hx hi
  have p' := C54_pixels_partial cfg f H V codes d hd hh h4 hct hv hr hin image d' e y' x i hy hx hi
  have o := upsampledSample_down hv.toLaid hr (i := i) (by omega) hle hrow hx
  refine ⟨_, _, p, p', ?_⟩
  clear p p'
  generalize (if cfg.rayon then y / V else y / V * V) = ρ at *
  generalize (if cfg.rayon then y' / V else y' / V * V) = ρ' at *
  generalize UInt8.ofNat (f.upsampledSample H V i ρ x) = a at *
  generalize UInt8.ofNat (f.upsampledSample H V i ρ' x) = b at *
  have inv : ∀ v : UInt8, (255 - v).toNat = 255 - v.toNat := by
    intro v
    have := v.toNat_lt
    rw [UInt8.toNat_sub_of_le _ _ (by rw [UInt8.le_iff_toNat_le]; show v.toNat ≤ 255; omega)]
    rfl
  rw [inv, inv]
  refine ⟨fun h => ?_, fun h => ?_⟩
  · have := o.1 h; omega
  · have := o.2 h; omega

/-- A case of C99: the plane that rises downwards, doubled in both directions; line 9 is nowhere smaller than line 4. -/
example : let c := fullComponent 16 16 2 2 (rawComponent 1 1 1 0)
    ∃ out out', Upsample.h2v2.upsampleRow rampPlane c.size (c.blockSize.width * 8) 4 16 [] = .ok (out, out) ∧
      Upsample.h2v2.upsampleRow rampPlane c.size (c.blockSize.width * 8) 9 16 [] = .ok (out', out') ∧
      ∀ x, x < 16 → ∃ a b, out[x]? = some a ∧ out'[x]? = some b ∧ a.toNat ≤ b.toNat := by
  intro c
  have g : ComponentGeometry 16 16 2 2 c := fullComponent_geometry (by unfold FactorsOk; decide)
  have hu : chooseUpsampler (c.h, c.v) (2, 2) ⟨16, 16⟩ = .ok .h2v2 := by decide
  have hl : rampPlane.length = c.lineStride * (8 * c.blockSize.height) := by decide +kernel
  have he : ∃ out, Upsample.h2v2.upsampleRow rampPlane c.size (c.blockSize.width * 8) 4 16 [] = .ok (out, out) := ⟨_, by rfl⟩
  have he' : ∃ out, Upsample.h2v2.upsampleRow rampPlane c.size (c.blockSize.width * 8) 9 16 [] = .ok (out, out) := ⟨_, by rfl⟩
  obtain ⟨out, e⟩ := he
  obtain ⟨out', e'⟩ := he'
  have hr : ∀ r, r < 7 → ∀ i, i < 8 → (rampPlane.getD (r * 8 + i) 0).toNat ≤ (rampPlane.getD ((r + 1) * 8 + i) 0).toNat := by
    decide +kernel
  refine ⟨out, out', e, e', fun x hx => ?_⟩
  obtain ⟨a, b, h1, h2, h3, -⟩ := C99_order_down 16 16 2 2 c g (by decide) (by decide) (by decide) 4 9 (by decide) (by decide)
    .h2v2 hu rampPlane [] out out [] out' out' hl e e' x hx (fun hs vs h => by cases h)
  refine ⟨a, b, h1, h2, h3 fun r i hr' hi => ?_⟩
  have hr' : r + 1 < 8 := hr'
  exact hr r (by omega) i hi

/-- A block that gets darker downwards. -/
def sinkingBlock (dc : Int) : BlockData := ⟨dc, 0 :: 50 :: List.replicate 61 0⟩

/-- One MCU that gets darker downwards, chrominance included. -/
def sinkingMcu : Mcu := [[sinkingBlock 100, leanBlock 90, sinkingBlock (-200), dcBlock (-210)], [sinkingBlock 5], [sinkingBlock 6]]

/-- A case of C99: 16 by 16 pixels, half of the chrominance lines and columns; red and blue fall from top to bottom. -/
example : ∃ (f : BaselineFile) (codes : List (Code × Code)), f.Valid 0 2 2 codes ∧ f.FallsDown 2 2 0 ∧ f.FallsDown 2 2 1 ∧ f.FallsDown 2 2 2 ∧ ∀ cfg, ∃ image : List UInt8,
    decode cfg f.bytes = .ok image ∧ ∀ y y' x, y ≤ y' → y' < 16 → x < 16 → ∃ r r' b b',
      image[48 * y + 3 * x]? = some r ∧ image[48 * y' + 3 * x]? = some r' ∧ r'.toNat ≤ r.toNat ∧
      image[48 * y + (3 * x + 2)]? = some b ∧ image[48 * y' + (3 * x + 2)]? = some b' ∧ b'.toNat ≤ b.toNat := by
  have hq : GoodTable (List.replicate 64 1) := ⟨by decide, by decide⟩
  have ha : Arranged quarterComps 16 16 2 2 [sinkingMcu] := by
    refine ⟨by decide, by decide, by decide, by decide, by decide, ⟨by decide, by decide⟩, ⟨by decide, by decide⟩,
      by decide, by decide, by decide, rfl, ?_⟩
    intro m' hm'
    simp only [List.mem_cons, List.not_mem_nil, or_false] at hm'
    subst hm'
    rfl
  obtain ⟨data, hv⟩ := codedFile_valid hq ha (by decide +kernel)
  have hr : (leanFile sinkingMcu data).Renderable 2 2 := by
    have hx : (leanFile sinkingMcu data).x = 16 := rfl
    have hy : (leanFile sinkingMcu data).y = 16 := rfl
    unfold BaselineFile.Renderable
    rw [hx, hy, show (leanFile sinkingMcu data).comps = quarterComps from rfl]
    decide
  have hin : (leanFile sinkingMcu data).InRange := codedFile_inRange (by decide) (by decide +kernel)
  have k0 : ∀ r, r < 15 → ∀ i, i < 16 → ((leanFile sinkingMcu []).sample 2 0 (r + 1) i).toNat ≤
      ((leanFile sinkingMcu []).sample 2 0 r i).toNat := by decide +kernel
  have k1 : ∀ r, r < 7 → ∀ i, i < 8 → ((leanFile sinkingMcu []).sample 2 1 (r + 1) i).toNat ≤
      ((leanFile sinkingMcu []).sample 2 1 r i).toNat := by decide +kernel
  have k2 : ∀ r, r < 7 → ∀ i, i < 8 → ((leanFile sinkingMcu []).sample 2 2 (r + 1) i).toNat ≤
      ((leanFile sinkingMcu []).sample 2 2 r i).toNat := by decide +kernel
  have f0 : (leanFile sinkingMcu data).FallsDown 2 2 0 := by
    intro c hc r i h1 h2
    cases hc
    have h1 : r + 1 < ceilDiv (16 * 2) 2 := h1
    have h2 : i < ceilDiv (16 * 2) 2 := h2
    rw [show ceilDiv (16 * 2) 2 = 16 by decide] at h1 h2
    exact k0 r (by omega) i h2
  have f1 : (leanFile sinkingMcu data).FallsDown 2 2 1 := by
    intro c hc r i h1 h2
    cases hc
    have h1 : r + 1 < ceilDiv (16 * 1) 2 := h1
    have h2 : i < ceilDiv (16 * 1) 2 := h2
    rw [show ceilDiv (16 * 1) 2 = 8 by decide] at h1 h2
    exact k1 r (by omega) i h2
  have f2 : (leanFile sinkingMcu data).FallsDown 2 2 2 := by
    intro c hc r i h1 h2
    cases hc
    have h1 : r + 1 < ceilDiv (16 * 1) 2 := h1
    have h2 : i < ceilDiv (16 * 1) 2 := h2
    rw [show ceilDiv (16 * 1) 2 = 8 by decide] at h1 h2
    exact k2 r (by omega) i h2
  refine ⟨leanFile sinkingMcu data, _, hv, f0, f1, f2, fun cfg => ?_⟩
  obtain ⟨image, d', h, -, p⟩ := C99_image_down cfg (leanFile sinkingMcu data) 2 2 _ Decoder.default .new (.nothing _) rfl
    (by show (none : Option Nat) ≠ some 0; decide) hv hr hin
  refine ⟨image, by unfold decode; rw [h], fun y y' x hyy hy hx => ?_⟩
  obtain ⟨r, g, b, r', g', b', a1, a2, -, -, a3, a4, -, q⟩ := p y y' x hyy hy hx
  exact ⟨r, r', b, b', a1, a2, (q f0).1 f2, a3, a4, (q f0).2.1 f1⟩

end Jpeg
