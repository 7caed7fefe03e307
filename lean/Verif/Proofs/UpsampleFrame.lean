import Verif.Proofs.UpsampleRow
/-!
# From planes to the image
-/

namespace Jpeg
open Spec

/-- The upsamplers of the components, as `Upsampler::new` stores them. -/
def compsOf (us : List Upsample) (cs : List Component) : List UpsamplerComponent :=
  List.zipWith (fun u c => ⟨u, c.size, c.blockSize.width * 8⟩) us cs

theorem upsamplerComponents_ok {mx : Nat × Nat} {out : Dim} : ∀ {cs : List Component}
    {ucs : List UpsamplerComponent}, upsamplerComponents mx out cs = .ok ucs →
    ∃ us, ucs = compsOf us cs ∧ List.Forall₂ (fun u c => chooseUpsampler (c.h, c.v) mx out = .ok u) us cs := by
  intro cs
  induction cs with
  | nil => intro ucs h; injection h with h; exact ⟨[], h.symm, .nil⟩
  | cons c cs ih =>
    intro ucs h
    rw [upsamplerComponents] at h
    simp only [bind, Except.bind, pure, Except.pure] at h
    split at h
    · simp at h
    · rename_i u hu
      split at h
      · simp at h
      · rename_i rest hr
        injection h with h
        obtain ⟨us, e, hf⟩ := ih hr
        exact ⟨u :: us, by rw [← h, e]; rfl, .cons hu hf⟩

theorem upsamplerComponents_of {mx : Nat × Nat} {out : Dim} : ∀ {cs : List Component} {us : List Upsample},
    List.Forall₂ (fun u c => chooseUpsampler (c.h, c.v) mx out = .ok u) us cs →
    upsamplerComponents mx out cs = .ok (compsOf us cs) := by
  intro cs us h
  induction h with
  | nil => rfl
  | cons hu _ ih =>
    rw [upsamplerComponents]
    simp only [bind, Except.bind, pure, Except.pure, hu, ih]
    rfl

/-- Line buffers fit for the components; spare ones may be anything. -/
def BufsOk (W : Nat) : List Upsample → List (List UInt8) → Prop
  | [], _ => True
  | _ :: _, [] => False
  | u :: us, b :: bs => BufOk u W b ∧ BufsOk W us bs

theorem BufsOk.init (W : Nat) : ∀ (us : List Upsample) (n : Nat), us.length ≤ n →
    BufsOk W us (List.replicate n []) := by
  intro us
  induction us with
  | nil => intro n _; trivial
  | cons u us ih =>
    intro n h
    obtain ⟨n, rfl⟩ : ∃ m, n = m + 1 := ⟨n - 1, by simp at h; omega⟩
    refine ⟨?_, ih n (by simpa using h)⟩
    unfold BufOk
    split
    · intros; rfl
    · trivial

/-- The lines of a row: at least `W` columns, with the values of `rowValue`. -/
def RowLines (W row : Nat) (us : List Upsample) (cs : List Component) (planes : List (List UInt8))
    (lines : List (List UInt8)) : Prop :=
  lines.length = cs.length ∧ ∀ (i : Nat) u c plane, us[i]? = some u → cs[i]? = some c → planes[i]? = some plane →
    ∃ line : List UInt8, lines[i]? = some line ∧ W ≤ line.length ∧
      ∀ x, x < W → line.getD x 0 = UInt8.ofNat (rowValue u W c plane row x)

/-- What is known of each component. -/
structure CompOk (W Ht H V : Nat) (u : Upsample) (c : Component) (plane : List UInt8) : Prop where
  geom : ComponentGeometry W Ht H V c
  hle : c.h ≤ H
  vle : c.v ≤ V
  choose : chooseUpsampler (c.h, c.v) (H, V) ⟨W, Ht⟩ = .ok u
  len : plane.length = planeSize c

/-- All components, position by position. -/
inductive CompsOk (W Ht H V : Nat) : List Upsample → List Component → List (List UInt8) → Prop
  | nil : CompsOk W Ht H V [] [] []
  | cons {u c plane us cs planes} : CompOk W Ht H V u c plane → CompsOk W Ht H V us cs planes →
      CompsOk W Ht H V (u :: us) (c :: cs) (plane :: planes)

theorem CompsOk.length {W Ht H V : Nat} {us cs planes} (h : CompsOk W Ht H V us cs planes) :
    us.length = cs.length ∧ planes.length = cs.length := by
  induction h with
  | nil => exact ⟨rfl, rfl⟩
  | cons _ _ ih => simp [ih.1, ih.2]

theorem CompsOk.get {W Ht H V : Nat} {us cs planes} (h : CompsOk W Ht H V us cs planes) :
    ∀ (i : Nat) u c, us[i]? = some u → cs[i]? = some c →
      ∃ plane, planes[i]? = some plane ∧ CompOk W Ht H V u c plane := by
  induction h with
  | nil => intro i u c h; simp at h
  | @cons u c plane us cs planes hc _ ih =>
    intro i u' c' h1 h2
    cases i with
    | zero =>
      simp only [List.getElem?_cons_zero, Option.some.injEq] at h1 h2
      subst h1 h2
      exact ⟨plane, rfl, hc⟩
    | succ i => exact ih i u' c' h1 h2

theorem rowGo_ok {W Ht H V row : Nat} {us cs planes} (h : CompsOk W Ht H V us cs planes) (hW : 1 ≤ W)
    (hrow : row < Ht) (hfit : ∀ (i : Nat) u c, us[i]? = some u → cs[i]? = some c → RowFits u W c row) :
    ∀ bufs, BufsOk W us bufs → ∃ lines bufs', upsampleRowGo row W (compsOf us cs) planes bufs =
      .ok (lines, bufs') ∧ BufsOk W us bufs' ∧ RowLines W row us cs planes lines := by
  induction h with
  | nil => intro bufs _; exact ⟨[], bufs, rfl, trivial, rfl, by simp⟩
  | @cons u c plane us cs planes hc _ ih =>
    intro bufs hb
    match bufs, hb with
    | b :: bs, ⟨hb, hbs⟩ =>
      obtain ⟨line, b', e1, k1, k2, k3⟩ := componentRow_ok hc.geom hc.hle hc.vle hW hrow hc.choose hc.len
        (hfit 0 u c rfl rfl) hb
      obtain ⟨lines, bs', e2, k4, k5, k6⟩ := ih (fun i u c h1 h2 => hfit (i + 1) u c h1 h2) bs hbs
      refine ⟨line :: lines, b' :: bs', ?_, ⟨k1, k4⟩, by simp [k5], ?_⟩
      · simp only [compsOf, List.zipWith_cons_cons, upsampleRowGo, bind, Except.bind, pure, Except.pure]
        rw [e1]
        simp only
        rw [show List.zipWith (fun u (c : Component) => (⟨u, c.size, c.blockSize.width * 8⟩ : UpsamplerComponent)) us cs
          = compsOf us cs from rfl, e2]
      · intro i u' c' plane' h1 h2 h3
        cases i with
        | zero =>
          simp only [List.getElem?_cons_zero, Option.some.injEq] at h1 h2 h3
          subst h1 h2 h3
          exact ⟨line, rfl, k2, k3⟩
        | succ i => exact k6 i u' c' plane' h1 h2 h3

/-- A row fails, if at all, with an index panic, and then some component does not fit. -/
theorem rowGo_panics {W Ht H V row : Nat} {us cs planes} (h : CompsOk W Ht H V us cs planes) (hW : 1 ≤ W)
    (hrow : row < Ht) (hbad : ∃ (i : Nat) (u : Upsample) (c : Component), us[i]? = some u ∧ cs[i]? = some c ∧ ¬ RowFits u W c row) :
    ∀ bufs, BufsOk W us bufs → upsampleRowGo row W (compsOf us cs) planes bufs = .error (.panic .index) := by
  induction h with
  | nil => obtain ⟨i, u, c, h, _⟩ := hbad; simp at h
  | @cons u c plane us cs planes hc _ ih =>
    intro bufs hb
    match bufs, hb with
    | b :: bs, ⟨hb, hbs⟩ =>
      simp only [compsOf, List.zipWith_cons_cons, upsampleRowGo, bind, Except.bind, pure, Except.pure]
      by_cases hfit : RowFits u W c row
      · obtain ⟨line, b', e1, -⟩ := componentRow_ok hc.geom hc.hle hc.vle hW hrow hc.choose hc.len hfit hb
        rw [e1]
        simp only
        have := ih (by
          obtain ⟨i, u', c', h1, h2, h3⟩ := hbad
          cases i with
          | zero =>
            simp only [List.getElem?_cons_zero, Option.some.injEq] at h1 h2
            subst h1 h2
            exact absurd hfit h3
          | succ i => exact ⟨i, u', c', h1, h2, h3⟩) bs hbs
        rw [show List.zipWith (fun u (c : Component) => (⟨u, c.size, c.blockSize.width * 8⟩ : UpsamplerComponent)) us cs
          = compsOf us cs from rfl, this]
      · rw [componentRow_panics hc.geom hc.hle hc.vle hW hrow hc.choose hc.len hfit]

/-! ## Groups of lines -/

/-- The row that output line `y` is made from. -/
def rowOf (cfg : Cfg) (n y : Nat) : Nat := if cfg.rayon then y / n else y / n * n

theorem convertLines_ok {f : ColorConvertFunc} {colors : List (List UInt8)} {out : List UInt8} :
    ∀ {lines : List (List UInt8)}, (∀ l ∈ lines, f.convert l colors = .ok out) →
    convertLines f colors lines = .ok (List.replicate lines.length out) := by
  intro lines
  induction lines with
  | nil => intro _; rfl
  | cons l lines ih =>
    intro h
    rw [convertLines, h l (by simp), ih fun l' h' => h l' (by simp [h'])]
    rfl

theorem groups_ok {cfg : Cfg} {f : ColorConvertFunc} {ucs : List UpsamplerComponent}
    {planes : List (List UInt8)} {W vMax : Nat} (P : List UInt8 → Prop) (Ok : List (List UInt8) → Prop)
    (conv : Nat → List UInt8) (total : Nat) (hv : 1 ≤ vMax)
    (hrow : ∀ y, y < total → ∀ bufs, Ok bufs → ∃ colors bufs',
      upsampleAndInterleaveRow cfg ucs planes bufs (rowOf cfg vMax y) W = .ok (colors, bufs') ∧
      Ok bufs' ∧ ∀ line, P line → f.convert line colors = .ok (conv (rowOf cfg vMax y))) :
    ∀ (fuel group : Nat) (bufs lines : List (List UInt8)), lines.length ≤ fuel → Ok bufs →
    (∀ l ∈ lines, P l) → (lines = [] ∨ group * vMax + lines.length ≤ total) →
    upsampleGroups cfg f ucs planes W vMax fuel (group * vMax) group bufs lines =
      .ok ((List.range lines.length).map fun y => conv (rowOf cfg vMax (group * vMax + y))) := by
  intro fuel
  induction fuel with
  | zero =>
    intro group bufs lines hl _ _ _
    have : lines = [] := by cases lines <;> simp_all
    subst this
    rfl
  | succ fuel ih =>
    intro group bufs lines hl hb hls ht
    rw [upsampleGroups]
    by_cases hne : lines = []
    · subst hne; simp
    · rw [if_neg hne]
      have hpos : 0 < lines.length := List.length_pos_iff.mpr hne
      replace ht := ht.resolve_left hne
      have hn : max vMax 1 = vMax := by omega
      simp only [hn]
      have hg : ∀ y, y < vMax → (group * vMax + y) / vMax = group := by
        intro y hy
        rw [Nat.mul_comm, Nat.mul_add_div (by omega), Nat.div_eq_of_lt hy, Nat.add_zero]
      have hr : ∀ y, y < vMax → rowOf cfg vMax (group * vMax + y) = if cfg.rayon then group else group * vMax := by
        intro y hy
        unfold rowOf
        rw [hg y hy]
      obtain ⟨colors, bufs', e1, hb', e2⟩ := hrow (group * vMax) (by omega) bufs hb
      have hr0 := hr 0 hv
      rw [Nat.add_zero] at hr0
      rw [hr0] at e1
      have e3 := convertLines_ok (f := f) (colors := colors) (out := conv (rowOf cfg vMax (group * vMax)))
        (lines := lines.take vMax) (fun l h => e2 l (hls l (List.mem_of_mem_take h)))
      rw [e1]
      simp only [e3]
      have e4 := ih (group + 1) bufs' (lines.drop vMax) (by rw [List.length_drop]; omega) hb'
        (fun l h => hls l (List.mem_of_mem_drop h)) (by
          rw [List.length_drop, Nat.succ_mul]
          rcases Nat.lt_or_ge vMax lines.length with hc | hc
          · right; omega
          · left; exact List.drop_eq_nil_of_le hc)
      rw [Nat.succ_mul] at e4
      rw [e4]
      simp only
      congr 1
      rw [List.length_take, List.length_drop]
      rcases Nat.le_total vMax lines.length with hc | hc
      · rw [Nat.min_eq_left hc]
        conv_rhs => rw [show lines.length = vMax + (lines.length - vMax) by omega, List.range_add,
          List.map_append]
        congr 1
        · refine (List.eq_replicate_iff.mpr ⟨by simp, ?_⟩).symm
          intro b hb
          rw [List.mem_map] at hb
          obtain ⟨y, hy, rfl⟩ := hb
          rw [hr y (List.mem_range.mp hy), ← hr0]
        · rw [List.map_map]
          apply List.map_congr_left
          intro y _
          simp only [Function.comp, Nat.add_assoc]
      · rw [Nat.min_eq_right hc, show lines.length - vMax = 0 by omega]
        simp only [List.range_zero, List.map_nil, List.append_nil]
        refine (List.eq_replicate_iff.mpr ⟨by simp, ?_⟩).symm
        intro b hb
        rw [List.mem_map] at hb
        obtain ⟨y, hy, rfl⟩ := hb
        rw [hr y (by have := List.mem_range.mp hy; omega), ← hr0]

/-- A row that panics makes the image panic: the rows before it keep the invariant. -/
theorem groups_panics {cfg : Cfg} {f : ColorConvertFunc} {ucs : List UpsamplerComponent}
    {planes : List (List UInt8)} {W vMax : Nat} (Ok : List (List UInt8) → Prop)
    (total bad : Nat) (hv : 1 ≤ vMax) (hconv : ∀ line colors e, f.convert line colors = .error e → ∃ p, e = .panic p)
    (hrow : ∀ y, y < total → ∀ bufs, Ok bufs →
      upsampleAndInterleaveRow cfg ucs planes bufs (rowOf cfg vMax y) W = .error (.panic .index) ∨
      ∃ colors bufs', upsampleAndInterleaveRow cfg ucs planes bufs (rowOf cfg vMax y) W =
        .ok (colors, bufs') ∧ Ok bufs')
    (hbad : ∀ bufs, Ok bufs →
      upsampleAndInterleaveRow cfg ucs planes bufs (rowOf cfg vMax bad) W = .error (.panic .index)) :
    ∀ (fuel group : Nat) (bufs lines : List (List UInt8)), Ok bufs →
    group * vMax ≤ bad → bad < group * vMax + lines.length → group * vMax + lines.length ≤ total →
    ∃ p, upsampleGroups cfg f ucs planes W vMax fuel (group * vMax) group bufs lines =
      .error (.panic p) := by
  intro fuel
  induction fuel with
  | zero =>
    intro group bufs lines _ h1 h2 _
    have hne : lines ≠ [] := by rintro rfl; simp at h2; omega
    exact ⟨.fuel, by rw [upsampleGroups, if_neg hne]⟩
  | succ fuel ih =>
    intro group bufs lines hb h1 h2 ht
    have hne : lines ≠ [] := by rintro rfl; simp at h2; omega
    rw [upsampleGroups, if_neg hne]
    have hn : max vMax 1 = vMax := by omega
    simp only [hn]
    have hr0 : rowOf cfg vMax (group * vMax) = if cfg.rayon then group else group * vMax := by
      unfold rowOf; rw [Nat.mul_div_cancel _ (by omega)]
    rcases hrow (group * vMax) (by omega) bufs hb with e | ⟨colors, bufs', e, hb'⟩
    · rw [hr0] at e
      rw [e]
      exact ⟨_, rfl⟩
    · by_cases hin : bad < group * vMax + vMax
      · have e' := hbad bufs hb
        have hrb : rowOf cfg vMax bad = rowOf cfg vMax (group * vMax) := by
          have : bad / vMax = group := by
            apply Nat.div_eq_of_lt_le
            · omega
            · rw [Nat.succ_mul]; omega
          unfold rowOf
          rw [this, Nat.mul_div_cancel _ (by omega)]
        rw [hrb, e] at e'
        simp at e'
      · rw [hr0] at e
        rw [e]
        simp only
        have hcl : ∀ ls e, convertLines f colors ls = .error e → ∃ p, e = .panic p := by
          intro ls
          induction ls with
          | nil => intro e h; simp [convertLines] at h
          | cons l ls ih =>
            intro e h
            rw [convertLines] at h
            split at h
            · rename_i e' he'
              injection h with h
              subst h
              exact hconv _ _ _ he'
            · split at h
              · rename_i e' he'
                injection h with h
                subst h
                exact ih _ he'
              · simp at h
        cases hc : convertLines f colors (lines.take vMax) with
        | error e =>
          obtain ⟨p, rfl⟩ := hcl _ _ hc
          exact ⟨p, rfl⟩
        | ok done =>
          simp only
          obtain ⟨p, e4⟩ := ih (group + 1) bufs' (lines.drop vMax) hb' (by rw [Nat.succ_mul]; omega)
            (by rw [List.length_drop, Nat.succ_mul]; omega) (by rw [List.length_drop, Nat.succ_mul]; omega)
          rw [Nat.succ_mul] at e4
          rw [e4]
          exact ⟨p, rfl⟩

end Jpeg
