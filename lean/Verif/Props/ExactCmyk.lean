import Verif.Props.Exact
import Verif.Props.Colors
/-!
# C63: how far a decoded CMYK picture is from the exact one
-/

namespace Jpeg
open Spec Finset

theorem complement_real (v : UInt8) : (((255 - v : UInt8).toNat : Nat) : ℝ) = 255 - (v.toNat : ℝ) := by
  have hv : v.toNat ≤ 255 := by have := v.toNat_lt; omega
  have : (255 - v : UInt8).toNat = 255 - v.toNat := by
    rw [UInt8.toNat_sub_of_le]
    · rfl
    · rw [UInt8.le_iff_toNat_le]; exact hv
  rw [this, Nat.cast_sub hv]
  norm_num

/-- **C63** (CMYK). Every four-component file laid out as the standard says with Adobe transform 0, with sampling
factors this decoder can render, whose blocks have coefficients of total magnitude at most `S`: byte `i` of pixel
`(x, y)` differs from 255 minus component `i` of the picture in exact arithmetic by at most `5/8 + S/5000`, and 1/2 more
if the component is subsampled. The row of the exact picture is `y / V * V` (`y / V` with rayon).

Missing: row `y` for vertical factors above 1, which is false (C33). -/
theorem C63_cmyk_partial (cfg : Cfg) (f : BaselineFile) (H V : Nat) (codes : List (Code × Code)) (d : Decoder)
    (hd : UsedDecoder d) (hh : Holds cfg d f.earlier) (h4 : f.comps.length = 4)
    (hct : f.transform d.transform = some 0)
    (hv : f.Valid (f.interval d.restartInterval) H V codes) (hr : f.Renderable H V)
    (S e : ℝ) (hS : 0 ≤ S) (he : e = 5 / 8 + S / 5000) (hm : f.Moderate S e)
    (image : List UInt8) (d' : Decoder) (ed : d.decode cfg f.bytes = .ok image d')
    (y x i : Nat) (hy : y < f.y) (hx : x < f.x) (hi : i < 4) :
    let row := if cfg.rayon then y / V else y / V * V
    ∃ v : UInt8, image[4 * f.x * y + (4 * x + i)]? = some v ∧
      |(v.toNat : ℝ) - (255 - f.exactUpsampled H V i row x)| ≤ e + f.upError H V i := by
  intro row
  subst he
  refine ⟨_, C54_pixels_partial cfg f H V codes d hd hh h4 hct hv hr hm.inRange image d' ed y x i hy hx hi, ?_⟩
  have := up_error (H := H) (V := V) hm hS i row x
  rw [complement_real, ← abs_neg]
  refine le_trans (le_of_eq ?_) this
  congr 1
  ring

/-- **C63** (CMYK, full resolution). Every CMYK file laid out as the standard says with all sampling factors 1, and
coefficients of total magnitude at most 1000 in each block: every byte of every pixel is within 0.825 of the exact
picture. -/
theorem C63_cmyk_full_resolution (cfg : Cfg) (f : BaselineFile) (codes : List (Code × Code)) (d : Decoder)
    (hd : UsedDecoder d) (hh : Holds cfg d f.earlier) (h4 : f.comps.length = 4)
    (hct : f.transform d.transform = some 0)
    (hv : f.Valid (f.interval d.restartInterval) 1 1 codes) (hs : f.SmallBlocks 1000) :
    ∃ image d', d.decode cfg f.bytes = .ok image d' ∧ image.length = f.x * f.y * 4 ∧
      ∀ y x i, y < f.y → x < f.x → i < 4 → ∃ v : UInt8, image[4 * f.x * y + (4 * x + i)]? = some v ∧
        |(v.toNat : ℝ) - (255 - f.exactUpsampled 1 1 i y x)| ≤ 33 / 40 := by
  have hone : ∀ c ∈ f.comps, c.h = 1 ∧ c.v = 1 := by
    intro c hc
    have h1 := hv.hmax.1 c hc
    have h2 := hv.vmax.1 c hc
    obtain ⟨a, -, b, -⟩ := hv.factors c hc
    simp only at h1 h2
    omega
  have hr : f.Renderable 1 1 := by
    intro c hc
    obtain ⟨h1, h2⟩ := hone c hc
    rw [h1, h2]
    refine ⟨rfl, rfl, by omega, fun h => absurd ⟨.inl rfl, .inl rfl⟩ h⟩
  obtain ⟨image, d', e, hl⟩ := C54_decodes cfg f 1 1 codes d hd hh h4 hct hv hr
  refine ⟨image, d', e, hl, fun y x i hy hx hi => ?_⟩
  obtain ⟨v, h1, h2⟩ := C63_cmyk_partial cfg f 1 1 codes d hd hh h4 hct hv hr 1000 _ (by norm_num) rfl hs.moderate
    image d' e y x i hy hx hi
  have hz : f.upError 1 1 i = 0 := by
    unfold BaselineFile.upError
    cases hc : f.comps[i]? with
    | none => rfl
    | some c => simp only; rw [if_pos (hone c (List.mem_of_getElem? hc))]
  simp only [hz, Nat.div_one, Nat.mul_one, ite_self] at h2
  exact ⟨v, h1, h2.trans (by norm_num)⟩

/-- A case of C63 for CMYK. -/
theorem exampleOf_small (n t : Nat) (data : List UInt8) : (exampleOf n t data).SmallBlocks 1000 := by
  intro i c q hc hq m hm bs hbs b hb
  have hm : m = exampleMcuOf n := by simpa [exampleOf] using hm
  subst hm
  have hb : b = ⟨-5, exampleZz⟩ := by
    have := List.mem_of_getElem? hbs
    simp only [exampleMcuOf, List.mem_replicate] at this
    rw [this.2] at hb
    simpa using hb
  have hq' : q = List.replicate 64 2 := by
    have := List.mem_of_getElem? hc
    simp only [exampleOf, List.mem_map, List.mem_range] at this
    obtain ⟨i, -, rfl⟩ := this
    exact (Option.some.inj hq).symm
  rw [hb, hq']
  decide +kernel

example : ∃ image d', Decoder.default.decode ⟨true, false⟩ (exampleOf 4 0 exampleData4).bytes = .ok image d' ∧
    ∃ v : UInt8, image[4 * 16 * 3 + (4 * 9 + 3)]? = some v ∧
      |(v.toNat : ℝ) - (255 - (exampleOf 4 0 exampleData4).exactUpsampled 1 1 3 3 9)| ≤ 33 / 40 := by
  obtain ⟨image, d', e, -, h⟩ := C63_cmyk_full_resolution ⟨true, false⟩ _ _ Decoder.default .new (.nothing _) rfl rfl
    (example4_valid 0 (by decide)) (exampleOf_small _ _ _)
  exact ⟨image, d', e, h 3 9 3 (by decide) (by decide) (by decide)⟩

end Jpeg
