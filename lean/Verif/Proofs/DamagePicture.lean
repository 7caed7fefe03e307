import Verif.Proofs.BaselinePicture
import Verif.Proofs.Damage
/-!
# Samples that do not depend on damaged intervals
-/

namespace Jpeg
open Spec

theorem near_half {m c place pos : Nat} (h : 2 * c = m) (hc : 1 ≤ c) (h1 : place / 2 ≤ pos + 1)
    (h2 : pos ≤ place / 2 + 1) : Near m c place pos := by
  unfold Near
  rw [if_neg (by omega)]
  have e : place * c / m = place / 2 := by
    rw [← h, Nat.mul_comm 2, Nat.mul_comm place, Nat.mul_div_mul_left _ _ (by omega)]
  rw [e]
  exact ⟨h1, h2⟩

theorem near_full {m c size place : Nat} (h : c = m ∨ size = 1) (hp : place < size) : Near m c place place := by
  unfold Near
  split
  · rfl
  · rcases h with h | h
    · contradiction
    · have : place = 0 := by omega
      subst this
      simp

theorem near_div {m c place : Nat} (h : m % c = 0) (hc : 1 ≤ c) : Near m c place (place / (m / c)) := by
  unfold Near
  have hm : m = c * (m / c) := (Nat.mul_div_cancel' (Nat.dvd_of_mod_eq_zero h)).symm
  have e : place * c / m = place / (m / c) := by
    conv_lhs => rw [hm, Nat.mul_comm place, Nat.mul_div_mul_left _ _ (by omega)]
  split
  · rename_i hcm
    rw [hcm, Nat.div_self (by omega), Nat.div_one]
  · rw [e]
    omega

/-- Only samples inside the component and near the place matter. -/
theorem upsampled_near {W Ht H V : Nat} {c : Component} (g : ComponentGeometry W Ht H V c)
    (hH : c.h ≤ H) (hV : c.v ≤ V) (hW : 1 ≤ W) {row : Nat} (hrow : row < Ht)
    (hmod : H % c.h = 0 ∧ V % c.v = 0) {x : Nat} (hx : x < W) (f f' : Nat → Nat → Nat)
    (hf : ∀ r i, r < c.size.height → i < c.size.width → Near V c.v row r → Near H c.h x i → f r i = f' r i) :
    upsampled W Ht H V c.h c.v c.size.width c.size.height f row x =
      upsampled W Ht H V c.h c.v c.size.width c.size.height f' row x := by
  have F := Facts.of g hH hV hW (by omega)
  obtain ⟨f1, f2, f3, f4⟩ := g.factors
  have hw1 : 1 ≤ c.size.width := by
    rw [g.size]; exact ceilDiv_pos (Nat.mul_pos (by omega) (by omega)) (by omega)
  have hh1 : 1 ≤ c.size.height := by
    rw [g.size]; exact ceilDiv_pos (Nat.mul_pos (by omega) (by omega)) (by omega)
  have col1 : (c.h = H ∨ W = 1) → x < c.size.width := by
    rintro (h | h)
    · rw [F.fullW h]; omega
    · omega
  have row1 : (c.v = V ∨ Ht = 1) → row < c.size.height := by
    rintro (h | h)
    · rw [F.fullH h]; omega
    · omega
  have far : 2 * c.v = V → (row / 2 < c.size.height ∧ farRow c.size.height row < c.size.height) ∧
      Near V c.v row (row / 2) ∧ Near V c.v row (farRow c.size.height row) := by
    intro h
    have := F.halfH h
    have hlt : row / 2 < c.size.height ∧ farRow c.size.height row < c.size.height := by
      unfold farRow
      split <;> omega
    refine ⟨hlt, near_half h f3 (by omega) (by omega), near_half h f3 ?_ ?_⟩ <;>
      · unfold farRow
        split <;> omega
  unfold upsampled
  split
  · rename_i h
    exact hf _ _ (row1 h.2) (col1 h.1) (near_full h.2 hrow) (near_full h.1 hx)
  · split
    · rename_i h
      have hw := F.halfW h.1
      have hr := row1 h.2
      have e : ∀ i, i < c.size.width → x / 2 ≤ i + 1 → i ≤ x / 2 + 1 → f row i = f' row i :=
        fun i hi h1 h2 => hf row i hr hi (near_full h.2 hrow) (near_half h.1 f1 h1 h2)
      unfold doubleLine
      split
      · exact e _ (by omega) (by omega) (by omega)
      · split
        · exact e _ (by omega) (by omega) (by omega)
        · split
          · rw [e _ (by omega) (by omega) (by omega), e _ (by omega) (by omega) (by omega)]
          · rw [e _ (by omega) (by omega) (by omega), e _ (by omega) (by omega) (by omega)]
    · split
      · rename_i h
        obtain ⟨⟨h1, h2⟩, h3, h4⟩ := far h.2
        unfold doubleRows
        rw [hf _ _ h1 (col1 h.1) h3 (near_full h.1 hx), hf _ _ h2 (col1 h.1) h4 (near_full h.1 hx)]
      · split
        · rename_i h
          have hw := F.halfW h.1
          obtain ⟨⟨h1, h2⟩, h3, h4⟩ := far h.2
          have e : ∀ i, i < c.size.width → x / 2 ≤ i + 1 → i ≤ x / 2 + 1 →
              3 * f (row / 2) i + f (farRow c.size.height row) i =
              3 * f' (row / 2) i + f' (farRow c.size.height row) i := fun i hi k1 k2 => by
            rw [hf _ _ h1 hi h3 (near_half h.1 f1 k1 k2), hf _ _ h2 hi h4 (near_half h.1 f1 k1 k2)]
          unfold doubleBoth
          simp only
          split
          · rw [e _ (by omega) (by omega) (by omega)]
          · split
            · rw [e _ (by omega) (by omega) (by omega)]
            · split
              · rw [e _ (by omega) (by omega) (by omega), e _ (by omega) (by omega) (by omega)]
              · rw [e _ (by omega) (by omega) (by omega), e _ (by omega) (by omega) (by omega)]
        · have hs0 : 0 < H / c.h := Nat.div_pos hH (by omega)
          have vs0 : 0 < V / c.v := Nat.div_pos hV (by omega)
          have hxw : x / (H / c.h) < c.size.width := by
            rw [F.divW hmod.1, Nat.div_lt_iff_lt_mul hs0]
            have := ceilDiv_le_mul (a := W) (b := H / c.h) hs0
            omega
          have hrv : row / (V / c.v) < c.size.height := by
            rw [F.divH hmod.2, Nat.div_lt_iff_lt_mul vs0]
            have := ceilDiv_le_mul (a := Ht) (b := V / c.v) vs0
            omega
          exact hf _ _ hrv hxw (near_div hmod.2 f3) (near_div hmod.1 f1)

variable {f : BaselineFile} {r H V : Nat} {codes : List (Code × Code)}

/-- The MCUs that contribute to row `row`, column `col` are those of `ms`. -/
def KeptAt (f : BaselineFile) (H V : Nat) (ms : List Mcu) (row col : Nat) : Prop :=
  ∀ c ∈ f.comps, ∀ Y X, Y < ceilDiv (f.y * c.v) V → X < ceilDiv (f.x * c.h) H →
    Near V c.v row Y → Near H c.h col X →
    ms[Y / 8 / c.v * ceilDiv f.x (8 * H) + X / 8 / c.h]? =
      f.intervals.flatten[Y / 8 / c.v * ceilDiv f.x (8 * H) + X / 8 / c.h]?

theorem keptAt_untouched (hv : f.Valid r H V codes) {bad : Nat → Prop} {Z : List (List Mcu)}
    (hZl : Z.map List.length = f.intervals.map List.length) (hZ : ∀ i, ¬ bad i → Z[i]? = f.intervals[i]?)
    {row col : Nat} (hun : f.Untouched r H V bad row col) : KeptAt f H V Z.flatten row col :=
  fun c hc Y X h1 h2 n1 n2 => flatten_same hv.restarts hZl (hZ _ (hun c hc Y X h1 h2 n1 n2))

/-- The upsampled component where only MCUs contribute that are the same. -/
theorem upAt_kept (hv : f.Valid r H V codes) (hr : f.Renderable H V)
    {qts qts' : List (Option (List Nat))}
    (hq : ∀ c ∈ f.comps, quantOf qts (fileComponent f H V c) = quantOf qts' (fileComponent f H V c))
    {ms : List Mcu} {i : Nat} {c : FileComponent} (hc : f.comps[i]? = some c)
    {p p' : List UInt8} (hp : (scanPlanes (ceilDiv f.x (8 * H)) qts (fileFrame f H V).components
      f.intervals.flatten)[i]? = some p)
    (hp' : (scanPlanes (ceilDiv f.x (8 * H)) qts' (fileFrame f H V).components ms)[i]? = some p')
    {row x : Nat} (hrow : row < f.y) (hx : x < f.x) (hun : KeptAt f H V ms row x) :
    upAt (fileFrame f H V) H V (fileComponent f H V c) p' row x =
      upAt (fileFrame f H V) H V (fileComponent f H V c) p row x := by
  have hcm := List.mem_of_getElem? hc
  have g := fileComponent_geometry hv.toLaid hcm
  have F := Facts.of g (hv.hmax.1 c hcm) (hv.vmax.1 c hcm) hv.x.1 (by omega)
  unfold upAt
  congr 1
  refine upsampled_near g (hv.hmax.1 c hcm) (hv.vmax.1 c hcm) hv.x.1 hrow
    ⟨(hr c hcm).1, (hr c hcm).2.1⟩ hx _ _ ?_
  intro Y X h1 h2 n1 n2
  have e1 := F.w_le
  have e2 := F.h_le
  have e3 : (fileComponent f H V c).lineStride = 8 * (ceilDiv f.x (8 * H) * c.h) := g.lineStride
  have e4 : (fileComponent f H V c).blockSize.height = ceilDiv f.y (8 * V) * c.v := by rw [g.blocks]; rfl
  have hc' : (fileFrame f H V).components[i]? = some (fileComponent f H V c) := by
    show (f.comps.map (fileComponent f H V))[i]? = _
    rw [List.getElem?_map, hc]; rfl
  rw [scanPlanes_get hc'] at hp hp'
  obtain rfl := Option.some.inj hp
  obtain rfl := Option.some.inj hp'
  rw [planeSamples_get (PlaneGeom.of g) _ _ (Y := Y) (X := X)
    (by show Y < 8 * (ceilDiv f.y (8 * V) * c.v); omega) (by omega),
    planeSamples_get (PlaneGeom.of g) _ _ (Y := Y) (X := X)
    (by show Y < 8 * (ceilDiv f.y (8 * V) * c.v); omega) (by omega)]
  have hmcu : ms[Y / 8 / c.v * ceilDiv f.x (8 * H) + X / 8 / c.h]? =
      f.intervals.flatten[Y / 8 / c.v * ceilDiv f.x (8 * H) + X / 8 / c.h]? := by
    have s1 : (fileComponent f H V c).size.height = ceilDiv (f.y * c.v) V := by rw [g.size]; rfl
    have s2 : (fileComponent f H V c).size.width = ceilDiv (f.x * c.h) H := by rw [g.size]; rfl
    exact hun c hcm Y X (s1 ▸ h1) (s2 ▸ h2) n1 n2
  have e5 : (fileComponent f H V c).v = c.v := rfl
  have e6 : (fileComponent f H V c).h = c.h := rfl
  rw [e5, e6, List.getD_eq_getElem?_getD (l := List.map _ ms), List.getElem?_map, hmcu,
    List.getD_eq_getElem?_getD (l := List.map _ f.intervals.flatten), List.getElem?_map, hq c hcm]

end Jpeg
