import Verif.Proofs.SegFail
import Verif.Props.Upsample
/-!
# Every way the last stage can fail, and the size of its result
-/

namespace Jpeg
open Spec

theorem convertLines_lengths {f : ColorConvertFunc} {colors : List (List UInt8)} :
    ∀ (lines ls : List (List UInt8)), convertLines f colors lines = .ok ls →
      ls.map List.length = lines.map List.length := by
  intro lines
  induction lines with
  | nil => intro ls h; simp only [convertLines, Except.ok.injEq] at h; rw [← h]
  | cons line lines ih =>
    intro ls h
    rw [convertLines] at h
    split at h
    · simp at h
    · rename_i l hl
      split at h
      · simp at h
      · rename_i rest hr
        simp only [Except.ok.injEq] at h
        rw [← h]
        simp [convert_length hl, ih rest hr]

theorem upsampleGroups_lengths {cfg : Cfg} {f : ColorConvertFunc} {us : List UpsamplerComponent}
    {planes : List (List UInt8)} {width vMax : Nat} : ∀ (fuel row group : Nat)
    (bufs lines out : List (List UInt8)),
    upsampleGroups cfg f us planes width vMax fuel row group bufs lines = .ok out →
    out.map List.length = lines.map List.length := by
  intro fuel
  induction fuel with
  | zero =>
    intro row group bufs lines out h
    rw [upsampleGroups] at h
    split at h
    · rename_i hl
      simp only [Except.ok.injEq] at h
      rw [← h, hl]
    · simp at h
  | succ fuel ih =>
    intro row group bufs lines out h
    rw [upsampleGroups] at h
    split at h
    · rename_i hl
      simp only [Except.ok.injEq] at h
      rw [← h, hl]
    · simp only at h
      split at h
      · simp at h
      · split at h
        · simp at h
        · rename_i done hdone
          split at h
          · simp at h
          · rename_i rest hrest
            simp only [Except.ok.injEq] at h
            rw [← h, List.map_append, convertLines_lengths _ _ hdone, ih _ _ _ _ _ hrest, ← List.map_append,
              List.take_append_drop]

/-- The size of the image. -/
theorem upsample_length {cfg : Cfg} {d : Decoder} {image : List UInt8} (h : upsample cfg d = .ok image) :
    ∃ frame, d.frame = some frame ∧
      image.length = frame.samplesPerLine * frame.lines * frame.components.length := by
  unfold upsample at h
  split at h
  · simp at h
  · rename_i frame hf
    refine ⟨frame, hf, ?_⟩
    split at h
    · simp at h
    · split at h
      · simp at h
      · simp only at h
        split at h
        · simp at h
        · split at h
          · simp at h
          · split at h
            · simp at h
            · rename_i lines hl
              simp only [Except.ok.injEq] at h
              rw [← h, List.length_flatten, upsampleGroups_lengths _ _ _ _ _ _ hl]
              simp
              ring

/-! ## Neither fuel nor defined behaviour is ever missing -/

/-- Every panic is one of the program. -/
def RealPanics {α : Type} (e : Except Fail α) : Prop := ∀ p, e = .error (.panic p) → p.Real

theorem realPanic {p : PanicSite} (h1 : p ≠ .uninit) (h2 : p ≠ .unchecked) (h3 : p ≠ .fuel) : p.Real :=
  ⟨by rintro ⟨⟩ <;> contradiction, h3⟩

theorem RealPanics.panic {α : Type} {p : PanicSite} (h1 : p ≠ .uninit) (h2 : p ≠ .unchecked) (h3 : p ≠ .fuel) :
    RealPanics (.error (.panic p) : Except Fail α) := by
  intro q h; cases h; exact realPanic h1 h2 h3

theorem RealPanics.bind {α β : Type} {e : Except Fail α} {k : α → Except Fail β} (h : RealPanics e)
    (hk : ∀ a, RealPanics (k a)) : RealPanics (e >>= k) := by
  cases e with
  | error f => exact fun p h' => h p (by cases h'; rfl)
  | ok a => exact hk a

theorem RealPanics.ok {α : Type} (a : α) : RealPanics (.ok a : Except Fail α) := by simp [RealPanics]

theorem RealPanics.pure {α : Type} (a : α) : RealPanics (Pure.pure a : Except Fail α) := by
  simp [RealPanics, Pure.pure, Except.pure]

theorem RealPanics.ite {α : Type} {c : Prop} [Decidable c] {a b : Except Fail α} (ha : RealPanics a)
    (hb : RealPanics b) : RealPanics (if c then a else b) := by
  split <;> assumption

theorem slice_nf (l : List UInt8) (a b : Nat) : RealPanics (slice l a b) := by
  unfold slice; exact .ite (.panic (by simp) (by simp) (by simp)) (.ok _)

theorem sliceFrom_nf (l : List UInt8) (a : Nat) : RealPanics (sliceFrom l a) := by
  unfold sliceFrom; exact .ite (.panic (by simp) (by simp) (by simp)) (.ok _)

theorem idx_nf (l : List UInt8) (a : Nat) : RealPanics (idx l a) := by
  unfold idx; split
  · exact .panic (by simp) (by simp) (by simp)
  · exact .ok _

theorem setIdx_nf (l : List UInt8) (a b : Nat) : RealPanics (setIdx l a b) := by
  unfold setIdx; exact .ite (.ok _) (.panic (by simp) (by simp) (by simp))

theorem nearFar_nf (a b : Nat) : RealPanics (nearFar a b) := by
  unfold nearFar; exact .ite (.panic (by simp) (by simp) (by simp)) (.ok _)

theorem upsampleRow_nf (u : Upsample) (input : List UInt8) (size : Dim) (stride row outW : Nat)
    (buf : List UInt8) : RealPanics (u.upsampleRow input size stride row outW buf) := by
  cases u with
  | h1v1 => exact (slice_nf _ _ _).bind fun _ => .pure _
  | h2v1 =>
    refine RealPanics.bind ?_ fun _ => .pure _
    unfold upH2V1
    refine (slice_nf _ _ _).bind fun _ => .ite ?_ ?_
    · exact (idx_nf _ _).bind fun _ => (setIdx_nf _ _ _).bind fun _ => setIdx_nf _ _ _
    · refine (idx_nf _ _).bind fun _ => (setIdx_nf _ _ _).bind fun _ => (idx_nf _ _).bind fun _ =>
        (setIdx_nf _ _ _).bind fun _ => .ite (.panic (by simp) (by simp) (by simp)) ?_
      exact (idx_nf _ _).bind fun _ => (idx_nf _ _).bind fun _ => (setIdx_nf _ _ _).bind fun _ => setIdx_nf _ _ _
  | h1v2 =>
    refine RealPanics.bind ?_ fun _ => .pure _
    unfold upH1V2
    exact (nearFar_nf _ _).bind fun _ => (sliceFrom_nf _ _).bind fun _ => (sliceFrom_nf _ _).bind fun _ => .pure _
  | h2v2 =>
    refine RealPanics.bind ?_ fun _ => .pure _
    unfold upH2V2
    refine (nearFar_nf _ _).bind fun _ => (sliceFrom_nf _ _).bind fun _ => (sliceFrom_nf _ _).bind fun _ =>
      .ite ?_ ?_
    · exact (idx_nf _ _).bind fun _ => (idx_nf _ _).bind fun _ => (setIdx_nf _ _ _).bind fun _ => setIdx_nf _ _ _
    · exact (idx_nf _ _).bind fun _ => (idx_nf _ _).bind fun _ => (setIdx_nf _ _ _).bind fun _ =>
        (sliceFrom_nf _ _).bind fun _ => (sliceFrom_nf _ _).bind fun _ => (sliceFrom_nf _ _).bind fun _ =>
        .ite (.panic (by simp) (by simp) (by simp)) (setIdx_nf _ _ _)
  | generic hs vs =>
    refine RealPanics.bind ?_ fun _ => .pure _
    unfold upGeneric
    exact (slice_nf _ _ _).bind fun _ => .ite (.panic (by simp) (by simp) (by simp)) (.pure _)

theorem upsampleRowGo_nf (row outW : Nat) : ∀ (us : List UpsamplerComponent) (planes bufs : List (List UInt8)),
    RealPanics (upsampleRowGo row outW us planes bufs) := by
  intro us
  induction us with
  | nil => intro planes bufs; simp [upsampleRowGo, RealPanics]
  | cons u us ih =>
    intro planes bufs
    match planes, bufs with
    | [], _ => simp [upsampleRowGo, RealPanics]
    | _ :: _, [] => simp [upsampleRowGo, RealPanics]
    | p :: ps, b :: bs =>
      rw [upsampleRowGo]
      exact (upsampleRow_nf _ _ _ _ _ _ _).bind fun _ => (ih ps bs).bind fun _ => .pure _

theorem convertLines_nf {f : ColorConvertFunc} {colors : List (List UInt8)} : ∀ (lines : List (List UInt8)),
    RealPanics (convertLines f colors lines) := by
  have hc : ∀ line, RealPanics (f.convert line colors) := by
    intro line p h
    have hp : ∀ {q : PanicSite}, (Fail.panic q = Fail.panic p) → q ≠ .uninit → q ≠ .unchecked → q ≠ .fuel →
        p.Real := by
      intro q h h1 h2 h3; cases h; exact realPanic h1 h2 h3
    have hy : ∀ d a b c, RealPanics (ycbcrGo d a b c) := by
      intro d a b c
      fun_induction ycbcrGo d a b c with
      | case1 _ _ _ d y ys cb cbs cr crs f hf => rw [ycbcrToRgb_eq] at hf; simp at hf
      | case2 _ _ _ d y ys cb cbs cr crs r g b h f hf ih => rw [← hf]; exact ih
      | case3 => exact .ok _
      | case4 => exact .ok _
    have hk : ∀ d a b c, RealPanics (ycckGo d a b c) := by
      intro d a b c
      fun_induction ycckGo d a b c with
      | case1 _ _ _ _ d y ys cb cbs cr crs f hf => rw [ycbcrToRgb_eq] at hf; simp at hf
      | case2 _ _ _ _ d y ys cb cbs cr crs r g b h f hf ih =>
        intro p h; injection h with h; subst h; exact ih p hf
      | case3 => exact .ok _
      | case4 => exact .ok _
    unfold ColorConvertFunc.convert at h
    split at h
    · simp at h
    · split at h
      · exact hy _ _ _ _ _ h
      · injection h with h; exact hp h (by simp) (by simp) (by simp)
    · split at h
      · exact hk _ _ _ _ _ h
      · injection h with h; exact hp h (by simp) (by simp) (by simp)
    · split at h
      · simp at h
      · injection h with h; exact hp h (by simp) (by simp) (by simp)
  intro lines
  induction lines with
  | nil => exact .ok _
  | cons line lines ih =>
    intro p h
    rw [convertLines] at h
    split at h
    · rename_i e he
      injection h with h; subst h; exact hc _ p he
    · split at h
      · rename_i e he
        injection h with h; subst h; exact ih p he
      · simp at h

theorem upsampleGroups_nf {cfg : Cfg} {f : ColorConvertFunc} {us : List UpsamplerComponent}
    {planes : List (List UInt8)} {width vMax : Nat} : ∀ (fuel row group : Nat) (bufs lines : List (List UInt8)),
    lines.length < fuel → RealPanics (upsampleGroups cfg f us planes width vMax fuel row group bufs lines) := by
  intro fuel
  induction fuel with
  | zero => intro row group bufs lines h; omega
  | succ fuel ih =>
    intro row group bufs lines hl p h
    rw [upsampleGroups] at h
    split at h
    · simp at h
    · rename_i hne
      simp only at h
      split at h
      · rename_i e he
        injection h with h; subst h
        unfold upsampleAndInterleaveRow at he
        split at he
        · exact RealPanics.panic (by simp) (by simp) (by simp) _ he
        · exact upsampleRowGo_nf _ _ _ _ _ _ he
      · split at h
        · rename_i e he
          injection h with h; subst h
          exact convertLines_nf _ _ he
        · split at h
          · rename_i e he
            injection h with h; subst h
            refine ih _ _ _ _ ?_ _ he
            have : 0 < lines.length := List.length_pos_iff.2 hne
            rw [List.length_drop]
            have : 1 ≤ max vMax 1 := by omega
            omega
          · simp at h

theorem chooseUpsampler_noPanic {a b : Nat × Nat} {out : Dim} {p : PanicSite} :
    chooseUpsampler a b out ≠ .error (.panic p) := by
  unfold chooseUpsampler
  simp only
  split
  · simp
  · split
    · simp
    · split
      · simp
      · split
        · simp
        · split <;> simp

theorem upsamplerComponents_noPanic {mx : Nat × Nat} {out : Dim} {p : PanicSite} : ∀ (cs : List Component),
    upsamplerComponents mx out cs ≠ .error (.panic p) := by
  intro cs
  induction cs with
  | nil => simp [upsamplerComponents]
  | cons c cs ih =>
    rw [upsamplerComponents]
    intro h
    simp only [bind, Except.bind] at h
    split at h
    · rename_i e he
      injection h with h; subst h; exact chooseUpsampler_noPanic he
    · split at h
      · rename_i e he
        injection h with h; subst h; exact ih he
      · simp [pure, Except.pure] at h

theorem chooseColorConvert_panic {n : Nat} {ct : Option AdobeColorTransform} {p : PanicSite}
    (h : chooseColorConvert n ct = .error (.panic p)) : p = .componentCount ∧ n ≠ 3 ∧ n ≠ 4 := by
  unfold chooseColorConvert at h
  split at h
  · split at h <;> simp at h
  · split at h <;> simp at h
  · rename_i h3 h4
    simp only [Except.error.injEq, Fail.panic.injEq] at h
    exact ⟨h.symm, h3, h4⟩

theorem chooseColorConvert_count {n : Nat} {ct : Option AdobeColorTransform} {f : ColorConvertFunc}
    (h : chooseColorConvert n ct = .ok f) : n = 3 ∨ n = 4 := by
  unfold chooseColorConvert at h
  split at h
  · exact .inl rfl
  · exact .inr rfl
  · simp at h

theorem planesFit_decoded {d : Decoder} {frame : Frame} (hf : d.frame = some frame)
    (hg : FrameGeometry frame) (h : PlanesFit d.planes frame) : Decoded d frame := by
  refine ⟨hf, hg, ?_⟩
  obtain ⟨_, _, H, V, _, _, _, hcg⟩ := hg
  unfold PlanesFit at h
  rw [List.forall₂_iff_get]
  have hlen : d.planes.length = frame.components.length := by
    have := congrArg List.length h
    simpa using this
  refine ⟨hlen, ?_⟩
  intro i h1 h2
  have := congrArg (fun l => l[i]?) h
  simp only [List.getElem?_map, List.getElem?_eq_getElem h1, List.getElem?_eq_getElem h2,
    Option.map_some, Option.some.injEq] at this
  simp only [List.get_eq_getElem]
  have hg := hcg _ (List.getElem_mem h2)
  have hb := congrArg Dim.width hg.blocks
  simp only at hb
  rw [this, hg.lineStride, ← hb]
  ring

/-! ## Where the last stage panics -/

/-- Every panic is that of an access out of bounds. -/
def IndexPanics {α : Type} (e : Except Fail α) : Prop := ∀ p, e = .error (.panic p) → p = .index

theorem IndexPanics.panic {α : Type} : IndexPanics (.error (.panic .index) : Except Fail α) := by
  intro q h; cases h; rfl

theorem IndexPanics.bind {α β : Type} {e : Except Fail α} {k : α → Except Fail β} (h : IndexPanics e)
    (hk : ∀ a, IndexPanics (k a)) : IndexPanics (e >>= k) := by
  cases e with
  | error f => exact fun p h' => h p (by cases h'; rfl)
  | ok a => exact hk a

theorem IndexPanics.ok {α : Type} (a : α) : IndexPanics (.ok a : Except Fail α) := by simp [IndexPanics]

theorem IndexPanics.pure {α : Type} (a : α) : IndexPanics (Pure.pure a : Except Fail α) := by
  simp [IndexPanics, Pure.pure, Except.pure]

theorem IndexPanics.ite {α : Type} {c : Prop} [Decidable c] {a b : Except Fail α} (ha : IndexPanics a)
    (hb : IndexPanics b) : IndexPanics (if c then a else b) := by
  split <;> assumption

theorem IndexPanics.unless {α : Type} {c : Prop} [Decidable c] {a b : Except Fail α} (hc : ¬ c)
    (hb : IndexPanics b) : IndexPanics (if c then a else b) := by
  rw [if_neg hc]; exact hb

theorem slice_index (l : List UInt8) (a b : Nat) : IndexPanics (slice l a b) := by
  unfold slice; exact .ite .panic (.ok _)

theorem sliceFrom_index (l : List UInt8) (a : Nat) : IndexPanics (sliceFrom l a) := by
  unfold sliceFrom; exact .ite .panic (.ok _)

theorem idx_index (l : List UInt8) (a : Nat) : IndexPanics (idx l a) := by
  unfold idx; split
  · exact .panic
  · exact .ok _

theorem setIdx_index (l : List UInt8) (a b : Nat) : IndexPanics (setIdx l a b) := by
  unfold setIdx; exact .ite (.ok _) .panic

theorem nearFar_index {a b : Nat} (h : b ≠ 0) : IndexPanics (nearFar a b) := by
  unfold nearFar; exact .unless h (.ok _)

/-- A component of at least one sample whose filter repeats samples at least once. -/
def Sensible (u : UpsamplerComponent) : Prop :=
  u.size.width ≠ 0 ∧ u.size.height ≠ 0 ∧ ∀ hs vs, u.upsampler = .generic hs vs → hs ≠ 0

theorem upsampleRow_index {u : UpsamplerComponent} (hu : Sensible u) (input : List UInt8) (stride row outW : Nat)
    (buf : List UInt8) : IndexPanics (u.upsampler.upsampleRow input u.size stride row outW buf) := by
  obtain ⟨hw, hh, hg⟩ := hu
  generalize u.upsampler = v at hg ⊢
  generalize u.size = size at hw hh ⊢
  cases v with
  | h1v1 => exact (slice_index _ _ _).bind fun _ => .pure _
  | h2v1 =>
    refine IndexPanics.bind ?_ fun _ => .pure _
    unfold upH2V1
    refine (slice_index _ _ _).bind fun _ => .ite ?_ ?_
    · exact (idx_index _ _).bind fun _ => (setIdx_index _ _ _).bind fun _ => setIdx_index _ _ _
    · refine (idx_index _ _).bind fun _ => (setIdx_index _ _ _).bind fun _ => (idx_index _ _).bind fun _ =>
        (setIdx_index _ _ _).bind fun _ => .unless hw ?_
      exact (idx_index _ _).bind fun _ => (idx_index _ _).bind fun _ => (setIdx_index _ _ _).bind fun _ => setIdx_index _ _ _
  | h1v2 =>
    refine IndexPanics.bind ?_ fun _ => .pure _
    unfold upH1V2
    exact (nearFar_index hh).bind fun _ => (sliceFrom_index _ _).bind fun _ => (sliceFrom_index _ _).bind fun _ => .pure _
  | h2v2 =>
    refine IndexPanics.bind ?_ fun _ => .pure _
    unfold upH2V2
    refine (nearFar_index hh).bind fun _ => (sliceFrom_index _ _).bind fun _ => (sliceFrom_index _ _).bind fun _ =>
      .ite ?_ ?_
    · exact (idx_index _ _).bind fun _ => (idx_index _ _).bind fun _ => (setIdx_index _ _ _).bind fun _ => setIdx_index _ _ _
    · exact (idx_index _ _).bind fun _ => (idx_index _ _).bind fun _ => (setIdx_index _ _ _).bind fun _ =>
        (sliceFrom_index _ _).bind fun _ => (sliceFrom_index _ _).bind fun _ => (sliceFrom_index _ _).bind fun _ =>
        .unless hw (setIdx_index _ _ _)
  | generic hs vs =>
    refine IndexPanics.bind ?_ fun _ => .pure _
    unfold upGeneric
    exact (slice_index _ _ _).bind fun _ => .unless (hg hs vs rfl) (.pure _)

theorem upsampleRowGo_index (row outW : Nat) : ∀ (us : List UpsamplerComponent) (planes bufs : List (List UInt8)),
    (∀ u ∈ us, Sensible u) → IndexPanics (upsampleRowGo row outW us planes bufs) := by
  intro us
  induction us with
  | nil => intro planes bufs _; simp [upsampleRowGo, IndexPanics]
  | cons u us ih =>
    intro planes bufs hu
    match planes, bufs with
    | [], _ => simp [upsampleRowGo, IndexPanics]
    | _ :: _, [] => simp [upsampleRowGo, IndexPanics]
    | p :: ps, b :: bs =>
      rw [upsampleRowGo]
      exact (upsampleRow_index (hu u (by simp)) _ _ _ _ _).bind fun _ =>
        (ih ps bs fun u h => hu u (by simp [h])).bind fun _ => .pure _

theorem upsampleRowGo_counts {row outW : Nat} : ∀ (us : List UpsamplerComponent) (ps bs ls bs' : List (List UInt8)),
    upsampleRowGo row outW us ps bs = .ok (ls, bs') →
    ls.length = min us.length (min ps.length bs.length) ∧ bs'.length = bs.length := by
  intro us
  induction us with
  | nil => intro ps bs ls bs' h; simp only [upsampleRowGo] at h; cases h; simp
  | cons u us ih =>
    intro ps bs ls bs' h
    match ps, bs with
    | [], _ => simp only [upsampleRowGo] at h; cases h; simp
    | _ :: _, [] => simp only [upsampleRowGo] at h; cases h; simp
    | p :: ps, b :: bs =>
      rw [upsampleRowGo] at h
      simp only [bind, Except.bind, pure, Except.pure] at h
      split at h
      · cases h
      · split at h
        · cases h
        · rename_i v hv
          cases h
          obtain ⟨a, b⟩ := ih ps bs v.1 v.2 hv
          refine ⟨?_, by simp [b]⟩
          simp only [List.length_cons]
          omega

/-- The number of lines a conversion asks for. -/
def ColorConvertFunc.arity : ColorConvertFunc → Nat
  | .null => 0
  | .ycbcr => 3
  | .ycck => 3
  | .cmyk => 4

theorem convert_panic {f : ColorConvertFunc} {line : List UInt8} {colors : List (List UInt8)} {p : PanicSite}
    (h : f.convert line colors = .error (.panic p)) : p = .fixedSlice ∧ colors.length ≠ f.arity ∧ f ≠ .null := by
  have hy : ∀ d a b c, ycbcrGo d a b c ≠ .error (.panic p) := by
    intro d a b c
    fun_induction ycbcrGo d a b c with
    | case1 _ _ _ d y ys cb cbs cr crs f hf => rw [ycbcrToRgb_eq] at hf; simp at hf
    | case2 _ _ _ d y ys cb cbs cr crs r g b h f hf ih => rw [← hf]; exact ih
    | case3 => simp
    | case4 => simp
  have hk : ∀ d a b c, ycckGo d a b c ≠ .error (.panic p) := by
    intro d a b c
    fun_induction ycckGo d a b c with
    | case1 _ _ _ _ d y ys cb cbs cr crs f hf => rw [ycbcrToRgb_eq] at hf; simp at hf
    | case2 _ _ _ _ d y ys cb cbs cr crs r g b h f hf ih => intro h; injection h with h; subst h; exact ih hf
    | case3 => simp
    | case4 => simp
  have h3 : ∀ l : List (List UInt8), (∀ a b c, l = [a, b, c] → False) → l.length ≠ 3 := by
    intro l hl e
    match l, e with
    | [a, b, c], _ => exact hl a b c rfl
  have h4 : ∀ l : List (List UInt8), (∀ a b c d, l = [a, b, c, d] → False) → l.length ≠ 4 := by
    intro l hl e
    match l, e with
    | [a, b, c, d], _ => exact hl a b c d rfl
  unfold ColorConvertFunc.convert at h
  split at h
  · simp at h
  · split at h
    · exact absurd h (hy _ _ _ _)
    · rename_i hl; cases h; exact ⟨rfl, h3 _ hl, by simp⟩
  · split at h
    · exact absurd h (hk _ _ _ _)
    · rename_i hl; cases h; exact ⟨rfl, h3 _ hl, by simp⟩
  · split at h
    · simp at h
    · rename_i hl; cases h; exact ⟨rfl, h4 _ hl, by simp⟩

theorem convertLines_panic {f : ColorConvertFunc} {colors : List (List UInt8)} {p : PanicSite} : ∀ (lines : List (List UInt8)),
    convertLines f colors lines = .error (.panic p) → p = .fixedSlice ∧ colors.length ≠ f.arity ∧ f ≠ .null := by
  intro lines
  induction lines with
  | nil => intro h; simp [convertLines] at h
  | cons line lines ih =>
    intro h
    rw [convertLines] at h
    split at h
    · rename_i e he
      injection h with h; subst h; exact convert_panic he
    · split at h
      · rename_i e he
        injection h with h; subst h; exact ih he
      · simp at h

/-- The panics of a loop over the lines. -/
theorem upsampleGroups_panic {cfg : Cfg} {f : ColorConvertFunc} {us : List UpsamplerComponent}
    {planes : List (List UInt8)} {width vMax : Nat} (hu : ∀ u ∈ us, Sensible u) (h4 : us.length ≤ 4) {p : PanicSite} :
    ∀ (fuel row group : Nat) (bufs lines : List (List UInt8)), lines.length < fuel → bufs.length = 4 →
      upsampleGroups cfg f us planes width vMax fuel row group bufs lines = .error (.panic p) →
      (p = .componentMismatch ∧ cfg.debug = true ∧ planes.length ≠ us.length) ∨ p = .index ∨
        (p = .fixedSlice ∧ min us.length planes.length ≠ f.arity ∧ f ≠ .null ∧ (cfg.debug = true → planes.length = us.length)) := by
  intro fuel
  induction fuel with
  | zero => intro row group bufs lines h; omega
  | succ fuel ih =>
    intro row group bufs lines hl hb h
    rw [upsampleGroups] at h
    split at h
    · simp at h
    · rename_i hne
      simp only at h
      split at h
      · rename_i e he
        injection h with h; subst h
        unfold upsampleAndInterleaveRow at he
        split at he
        · rename_i hm
          cases he
          exact .inl ⟨rfl, hm.1, hm.2⟩
        · exact .inr (.inl (upsampleRowGo_index _ _ _ _ _ hu _ he))
      · rename_i colors bufs' he
        unfold upsampleAndInterleaveRow at he
        split at he
        · cases he
        · rename_i hm
          obtain ⟨c1, c2⟩ := upsampleRowGo_counts _ _ _ _ _ he
          split at h
          · rename_i e he
            injection h with h; subst h
            obtain ⟨a, b, c⟩ := convertLines_panic _ he
            refine .inr (.inr ⟨a, ?_, c, fun hd => by by_contra hc; exact hm ⟨hd, hc⟩⟩)
            rw [c1, hb] at b
            rwa [show min us.length (min planes.length 4) = min us.length planes.length by omega] at b
          · split at h
            · rename_i e he
              injection h with h; subst h
              refine ih _ _ _ _ ?_ (by omega) he
              have : 0 < lines.length := List.length_pos_iff.2 hne
              rw [List.length_drop]
              have : 1 ≤ max vMax 1 := by omega
              omega
            · simp at h

/-- An access out of bounds does not depend on the colours. -/
theorem upsampleGroups_recoloured {cfg : Cfg} {f f' : ColorConvertFunc} {us : List UpsamplerComponent}
    {planes : List (List UInt8)} {width vMax : Nat} : ∀ (fuel row group : Nat) (bufs lines out : List (List UInt8)),
      upsampleGroups cfg f us planes width vMax fuel row group bufs lines = .error (.panic .index) →
      upsampleGroups cfg f' us planes width vMax fuel row group bufs lines ≠ .ok out := by
  intro fuel
  induction fuel with
  | zero =>
    intro row group bufs lines out h
    rw [upsampleGroups] at h
    split at h <;> simp at h
  | succ fuel ih =>
    intro row group bufs lines out h h'
    rw [upsampleGroups] at h h'
    split at h
    · simp at h
    · rename_i hne
      rw [if_neg hne] at h'
      simp only at h h'
      split at h
      · rename_i e he
        rw [he] at h'
        simp at h'
      · rename_i colors bufs' he
        simp only [he] at h'
        split at h
        · rename_i e he
          injection h with h; subst h
          have := (convertLines_panic _ he).1
          simp at this
        · split at h
          · rename_i e he'
            injection h with h; subst h
            split at h'
            · simp at h'
            · split at h'
              · simp at h'
              · rename_i rest hrest
                exact ih _ _ _ _ _ he' hrest
          · simp at h

theorem chooseColorConvert_arity {n : Nat} {ct : Option AdobeColorTransform} {f : ColorConvertFunc}
    (h : chooseColorConvert n ct = .ok f) (hf : f ≠ .null) : f.arity = n ∨ (f = .ycck ∧ n = 4 ∧ ∃ t, ct = some t ∧ t ≠ .unknown) := by
  unfold chooseColorConvert at h
  split at h
  · split at h
    · cases h; exact absurd rfl hf
    · cases h; exact .inl rfl
  · split at h
    · cases h; exact .inl rfl
    · rename_i t ht
      cases h; exact .inr ⟨rfl, rfl, t, rfl, by rintro rfl; exact ht rfl⟩
    · cases h
  · cases h

theorem sensible_of {W L H V : Nat} {c : Component} {v : Upsample} (hc : ComponentGeometry W L H V c) (hh : c.h ≤ H) (hv : c.v ≤ V)
    (hW : 1 ≤ W) (hL : 1 ≤ L) (h : chooseUpsampler (c.h, c.v) (H, V) ⟨W, L⟩ = .ok v) : Sensible ⟨v, c.size, c.blockSize.width * 8⟩ := by
  obtain ⟨f1, _, f3, _⟩ := hc.factors
  have pos : ∀ a b k, 1 ≤ a → 1 ≤ b → b ≤ k → ceilDiv (a * b) k ≠ 0 := by
    intro a b k ha hb hk e
    unfold ceilDiv at e
    have hp : 1 ≤ a * b := Nat.mul_pos ha hb
    rcases Nat.div_eq_zero_iff.1 e with e | e <;> omega
  refine ⟨?_, ?_, ?_⟩
  · show c.size.width ≠ 0
    rw [hc.size]; exact pos _ _ _ hW f1 hh
  · show c.size.height ≠ 0
    rw [hc.size]; exact pos _ _ _ hL f3 hv
  · intro hs vs e
    have e : v = .generic hs vs := e
    subst e
    unfold chooseUpsampler at h
    simp only at h
    split at h
    · cases h
    · split at h
      · cases h
      · split at h
        · cases h
        · split at h
          · cases h
          · split at h
            · cases h
            · cases h
              have := Nat.div_pos hh f1
              omega

/-- Every panic of the last stage is one of the list. -/
theorem upsample_panic {cfg : Cfg} {d : Decoder} (hd : DecInv d) {p : PanicSite}
    (h : upsample cfg d = .error (.panic p)) : RenderPanic cfg d p := by
  cases hf : d.frame with
  | none =>
    unfold upsample at h
    rw [hf] at h
    simp only [Except.error.injEq, Fail.panic.injEq] at h
    rw [← h]
    exact .noFrame hf
  | some frame =>
    obtain ⟨hgeo, hne, -⟩ := hd.frame frame hf
    have hgeo' := hgeo
    unfold upsample at h
    rw [hf] at h
    simp only at h
    cases e1 : chooseColorConvert frame.components.length d.colorTransform with
    | error f =>
      rw [e1] at h
      simp only [Except.error.injEq] at h
      subst h
      obtain ⟨rfl, h3, h4⟩ := chooseColorConvert_panic e1
      exact .componentCount frame hf h3 h4
    | ok f =>
      rw [e1] at h
      simp only at h
      have hn := chooseColorConvert_count e1
      cases e2 : upsamplerNew frame.components ⟨frame.samplesPerLine, frame.lines⟩ with
      | error g =>
        rw [e2] at h
        simp only [Except.error.injEq] at h
        subst h
        obtain ⟨_, _, H, V, hH, hV, _, _⟩ := hgeo
        rcases C30_frame frame (by omega) H V hH hV ⟨frame.samplesPerLine, frame.lines⟩ with ⟨h1, _⟩ | ⟨us, h1, _⟩
        · rw [h1] at e2; simp at e2
        · rw [h1] at e2; simp at e2
      | ok ucs =>
        rw [e2] at h
        simp only at h
        cases e3 : frame.maxV with
        | error g =>
          unfold Frame.maxV at e3
          obtain ⟨V, hV⟩ := listMax?_some (l := frame.components.map (·.v)) (by simpa using hne)
          rw [hV] at e3
          simp at e3
        | ok vMax =>
          rw [e3] at h
          simp only at h
          split at h
          · rename_i hz
            simp only [Except.error.injEq, Fail.panic.injEq] at h
            rw [← h]
            refine .noWidth frame hf ?_
            rcases Nat.mul_eq_zero.mp hz with h | h
            · exact h
            · omega
          · rename_i hz
            have hW : 1 ≤ frame.samplesPerLine := by
              rcases Nat.eq_zero_or_pos frame.samplesPerLine with h | h
              · rw [h] at hz; simp at hz
              · exact h
            obtain ⟨_, _, H, V, hH, hV, _, hcg⟩ := hgeo'
            have hL : 1 ≤ frame.lines := by
              rcases Nat.eq_zero_or_pos frame.lines with h' | h'
              · rw [h', List.replicate_zero, upsampleGroups, if_pos rfl] at h
                simp at h
              · exact h'
            have hg : upsampleGroups cfg f ucs d.planes frame.samplesPerLine vMax (frame.lines + 1) 0 0 (List.replicate 4 [])
                (List.replicate frame.lines (List.replicate (frame.samplesPerLine * frame.components.length) 0)) =
                .error (.panic p) := by
              split at h
              · rename_i e he
                simp only [Except.error.injEq] at h
                rw [he, h]
              · simp at h
            obtain ⟨hlen, hus⟩ : ucs.length = frame.components.length ∧ ∀ u ∈ ucs, Sensible u := by
              rcases C30_frame frame (by omega) H V hH hV ⟨frame.samplesPerLine, frame.lines⟩ with ⟨h1, _⟩ | ⟨us, h1, h2, h3⟩
              · rw [h1] at e2; simp at e2
              · rw [h1] at e2
                cases e2
                refine ⟨h2, fun u hu => ?_⟩
                obtain ⟨i, hi⟩ := List.mem_iff_getElem?.1 hu
                have hi' : i < frame.components.length := h2 ▸ (List.getElem?_eq_some_iff.1 hi).1
                obtain ⟨v, k1, k2⟩ := h3 i _ (List.getElem?_eq_getElem hi')
                cases hi.symm.trans k2
                exact sensible_of (hcg _ (List.getElem_mem hi')) (hH.1 _ (List.getElem_mem hi')) (hV.1 _ (List.getElem_mem hi')) hW hL k1
            rcases upsampleGroups_panic hus (by omega) _ _ _ _ _ (by simp) (by simp) hg with ⟨rfl, k1, k2⟩ | rfl | ⟨rfl, k1, k2, k3⟩
            · exact .planeCount frame k1 hf (by rw [← hlen]; exact k2)
            · by_cases hpf : PlanesFit d.planes frame
              · refine .halfWidth frame hf ?_
                by_contra hdef
                obtain ⟨f', ct', hf', hk', he'⟩ : ∃ f' ct', chooseColorConvert frame.components.length ct' = .ok f' ∧ f' ≠ .ycck ∧ True := by
                  rcases hn with h3 | h4
                  · rw [h3]; exact ⟨.null, some .unknown, rfl, by simp, trivial⟩
                  · rw [h4]; exact ⟨.cmyk, some .unknown, rfl, by simp, trivial⟩
                have hdec : Decoded { d with colorTransform := ct' } frame :=
                  let hd := planesFit_decoded hf hgeo hpf
                  ⟨hd.has, hd.geo, hd.planes⟩
                obtain ⟨image, hi, _⟩ := C32_no_panic_partial cfg _ frame hdec hW f' hf' hk' ucs e2 H V hH hV (by
                  intro c hc h1 h2 h3
                  by_contra hcon
                  refine hdef ⟨H, V, hH, hV, c, hc, h1, h2, h3, ?_⟩
                  by_contra hcon2
                  apply hcon
                  refine ⟨by omega, fun h4 h5 => ?_⟩
                  by_contra h6
                  exact hcon2 (.inr ⟨h4, h5, by omega⟩))
                unfold upsample at hi
                simp only [hf, hf', e2, e3, if_neg hz] at hi
                split at hi
                · simp at hi
                · rename_i out hout
                  exact upsampleGroups_recoloured _ _ _ _ _ _ hg hout
              · exact .planeSize frame hf hpf
            · rcases chooseColorConvert_arity e1 k2 with ha | ⟨-, h4, t, h5, h6⟩
              · rw [ha, hlen] at k1
                have hlt : d.planes.length < frame.components.length := by omega
                refine .missingPlane frame ?_ hf hlt
                cases hd : cfg.debug
                · rfl
                · have := k3 hd
                  omega
              · exact .ycck frame t hf h4 h5 h6

end Jpeg
