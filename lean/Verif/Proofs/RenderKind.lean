import Verif.Model.Decode
import Verif.Proofs.PollKind
import Verif.Proofs.Color
/-!
# The ways in which rendering fails
-/

namespace Jpeg

/-- Rendering fails with one of two errors or a panic. -/
def RenderFail (f : Fail) : Prop :=
  f = .err .fourComponents ∨ f = .err .nonIntegerSubsampling ∨ ∃ p, f = .panic p

/-- All failures of `e` are of this kind. -/
def Renders {α : Type} (e : Except Fail α) : Prop := ∀ f, e = .error f → RenderFail f

theorem Renders.ok {α : Type} (a : α) : Renders (.ok a : Except Fail α) := by
  intro f h; cases h

theorem Renders.panic {α : Type} (p : PanicSite) : Renders (.error (.panic p) : Except Fail α) := by
  intro f h; cases h; exact .inr (.inr ⟨p, rfl⟩)

theorem Renders.bind {α β : Type} {e : Except Fail α} {k : α → Except Fail β} (h : Renders e)
    (hk : ∀ a, Renders (k a)) : Renders (e >>= k) := by
  cases e with
  | error f => intro g hg; cases hg; exact h f rfl
  | ok a => exact hk a

theorem Renders.ret {α : Type} (a : α) : Renders (pure a : Except Fail α) := Renders.ok a

theorem OnlyPanics.bind {α β : Type} {e : Except Fail α} {k : α → Except Fail β} (h : OnlyPanics e)
    (hk : ∀ a, OnlyPanics (k a)) : OnlyPanics (e >>= k) := by
  cases e with
  | error f => intro g hg; cases hg; exact h f rfl
  | ok a => exact hk a

theorem OnlyPanics.ret {α : Type} (a : α) : OnlyPanics (pure a : Except Fail α) := OnlyPanics.ok a

theorem OnlyPanics.renders {α : Type} {e : Except Fail α} (h : OnlyPanics e) : Renders e :=
  fun f hf => .inr (.inr (h f hf))

theorem slice_onlyPanics (l : List UInt8) (a b : Nat) : OnlyPanics (slice l a b) := by
  unfold slice; split
  · exact .panic _
  · exact .ok _

theorem sliceFrom_onlyPanics (l : List UInt8) (a : Nat) : OnlyPanics (sliceFrom l a) := by
  unfold sliceFrom; split
  · exact .panic _
  · exact .ok _

theorem idx_onlyPanics (l : List UInt8) (i : Nat) : OnlyPanics (idx l i) := by
  unfold idx; split
  · exact .panic _
  · exact .ok _

theorem setIdx_onlyPanics (l : List UInt8) (i v : Nat) : OnlyPanics (setIdx l i v) := by
  unfold setIdx; split
  · exact .ok _
  · exact .panic _

theorem nearFar_onlyPanics (row height : Nat) : OnlyPanics (nearFar row height) := by
  unfold nearFar; split
  · exact .panic _
  · exact .ok _

theorem upH2V1_onlyPanics (input : List UInt8) (size : Dim) (stride row outW : Nat) (buf : List UInt8) :
    OnlyPanics (upH2V1 input size stride row outW buf) := by
  unfold upH2V1
  refine (slice_onlyPanics _ _ _).bind fun input => ?_
  split
  · exact (idx_onlyPanics _ _).bind fun _ => (setIdx_onlyPanics _ _ _).bind fun _ => setIdx_onlyPanics _ _ _
  · refine (idx_onlyPanics _ _).bind fun _ => (setIdx_onlyPanics _ _ _).bind fun _ => (idx_onlyPanics _ _).bind fun _ =>
      (setIdx_onlyPanics _ _ _).bind fun _ => ?_
    split
    · exact .panic _
    · exact (idx_onlyPanics _ _).bind fun _ => (idx_onlyPanics _ _).bind fun _ => (setIdx_onlyPanics _ _ _).bind fun _ =>
        setIdx_onlyPanics _ _ _

theorem upH1V2_onlyPanics (input : List UInt8) (size : Dim) (stride row outW : Nat) (buf : List UInt8) :
    OnlyPanics (upH1V2 input size stride row outW buf) := by
  unfold upH1V2
  exact (nearFar_onlyPanics _ _).bind fun _ => (sliceFrom_onlyPanics _ _).bind fun _ => (sliceFrom_onlyPanics _ _).bind fun _ =>
    .ret _

theorem upH2V2_onlyPanics (input : List UInt8) (size : Dim) (stride row : Nat) (buf : List UInt8) :
    OnlyPanics (upH2V2 input size stride row buf) := by
  unfold upH2V2
  refine (nearFar_onlyPanics _ _).bind fun _ => (sliceFrom_onlyPanics _ _).bind fun _ => (sliceFrom_onlyPanics _ _).bind fun _ => ?_
  split
  · exact (idx_onlyPanics _ _).bind fun _ => (idx_onlyPanics _ _).bind fun _ => (setIdx_onlyPanics _ _ _).bind fun _ =>
      setIdx_onlyPanics _ _ _
  · refine (idx_onlyPanics _ _).bind fun _ => (idx_onlyPanics _ _).bind fun _ => (setIdx_onlyPanics _ _ _).bind fun _ =>
      (sliceFrom_onlyPanics _ _).bind fun _ => (sliceFrom_onlyPanics _ _).bind fun _ => (sliceFrom_onlyPanics _ _).bind fun _ => ?_
    split
    · exact .panic _
    · exact setIdx_onlyPanics _ _ _

theorem upGeneric_onlyPanics (hs vs : Nat) (input : List UInt8) (size : Dim) (stride row outW : Nat) (buf : List UInt8) :
    OnlyPanics (upGeneric hs vs input size stride row outW buf) := by
  unfold upGeneric
  refine (slice_onlyPanics _ _ _).bind fun _ => ?_
  split
  · exact .panic _
  · exact .ret _

theorem upsampleRow_onlyPanics (u : Upsample) (input : List UInt8) (size : Dim) (stride row outW : Nat) (buf : List UInt8) :
    OnlyPanics (u.upsampleRow input size stride row outW buf) := by
  unfold Upsample.upsampleRow
  cases u with
  | h1v1 => exact (slice_onlyPanics _ _ _).bind fun _ => .ret _
  | h2v1 => exact (upH2V1_onlyPanics _ _ _ _ _ _).bind fun _ => .ret _
  | h1v2 => exact (upH1V2_onlyPanics _ _ _ _ _ _).bind fun _ => .ret _
  | h2v2 => exact (upH2V2_onlyPanics _ _ _ _ _).bind fun _ => .ret _
  | generic hs vs => exact (upGeneric_onlyPanics _ _ _ _ _ _ _ _).bind fun _ => .ret _

theorem upsampleRowGo_onlyPanics (row outW : Nat) : ∀ (us : List UpsamplerComponent) (ps bs : List (List UInt8)),
    OnlyPanics (upsampleRowGo row outW us ps bs) := by
  intro us
  induction us with
  | nil => intro ps bs; rw [upsampleRowGo]; exact .ok _; simp
  | cons u us ih =>
    intro ps bs
    cases ps with
    | nil => rw [upsampleRowGo]; exact .ok _; simp
    | cons p ps =>
      cases bs with
      | nil => rw [upsampleRowGo]; exact .ok _; simp
      | cons b bs =>
        rw [upsampleRowGo]
        exact (upsampleRow_onlyPanics _ _ _ _ _ _ _).bind fun _ => (ih ps bs).bind fun _ => .ret _

theorem ycbcrToRgb_onlyPanics (y cb cr : UInt8) : OnlyPanics (ycbcrToRgb y cb cr) := by
  have hc : ∀ x, OnlyPanics (clampIdx x) := by
    intro x
    unfold clampIdx
    split
    · exact .panic _
    · split
      · exact .panic _
      · exact .ok _
  unfold ycbcrToRgb
  simp only
  split
  · exact .ok _
  all_goals
    intro g hg
    cases hg
    first
    | (next h => exact hc _ _ h)
    | exact hc _ _ (by assumption)

theorem ycbcrGo_onlyPanics (data ys cbs crs : List UInt8) : OnlyPanics (ycbcrGo data ys cbs crs) := by
  fun_induction ycbcrGo data ys cbs crs with
  | case1 _ _ _ _ _ _ _ _ _ _ f h => intro g hg; cases hg; exact ycbcrToRgb_onlyPanics _ _ _ _ h
  | case2 _ _ _ _ _ _ _ _ _ _ _ _ _ _ f h ih => intro g hg; cases hg; exact ih _ h
  | case3 => exact .ok _
  | case4 => exact .ok _

theorem ycckGo_onlyPanics (data ys cbs crs : List UInt8) : OnlyPanics (ycckGo data ys cbs crs) := by
  fun_induction ycckGo data ys cbs crs with
  | case1 _ _ _ _ _ _ _ _ _ _ _ f h => intro g hg; cases hg; exact ycbcrToRgb_onlyPanics _ _ _ _ h
  | case2 _ _ _ _ _ _ _ _ _ _ _ _ _ _ _ f h ih => intro g hg; cases hg; exact ih _ h
  | case3 => exact .ok _
  | case4 => exact .ok _

theorem convert_onlyPanics (f : ColorConvertFunc) (data : List UInt8) (input : List (List UInt8)) :
    OnlyPanics (f.convert data input) := by
  unfold ColorConvertFunc.convert
  split
  · exact .ok _
  · split
    · exact ycbcrGo_onlyPanics _ _ _ _
    · exact .panic _
  · split
    · exact ycckGo_onlyPanics _ _ _ _
    · exact .panic _
  · split
    · exact .ok _
    · exact .panic _

theorem convertLines_onlyPanics (f : ColorConvertFunc) (colors : List (List UInt8)) : ∀ lines,
    OnlyPanics (convertLines f colors lines) := by
  intro lines
  induction lines with
  | nil => exact .ok _
  | cons line lines ih =>
    rw [convertLines]
    split
    · next h => intro g hg; cases hg; exact convert_onlyPanics _ _ _ _ h
    · split
      · next h => intro g hg; cases hg; exact ih _ h
      · exact .ok _

theorem upsampleGroups_onlyPanics (cfg : Cfg) (f : ColorConvertFunc) (us : List UpsamplerComponent)
    (planes : List (List UInt8)) (width vMax : Nat) : ∀ (fuel row group : Nat) (bufs lines : List (List UInt8)),
    OnlyPanics (upsampleGroups cfg f us planes width vMax fuel row group bufs lines) := by
  intro fuel
  induction fuel with
  | zero =>
    intro row group bufs lines
    rw [upsampleGroups]
    split
    · exact .ok _
    · exact .panic _
  | succ fuel ih =>
    intro row group bufs lines
    rw [upsampleGroups]
    split
    · exact .ok _
    · simp only
      split
      · next h =>
        intro g hg
        cases hg
        unfold upsampleAndInterleaveRow at h
        split at h
        · cases h; exact ⟨_, rfl⟩
        · exact upsampleRowGo_onlyPanics _ _ _ _ _ _ h
      · split
        · next h => intro g hg; cases hg; exact convertLines_onlyPanics _ _ _ _ h
        · split
          · next h => intro g hg; cases hg; exact ih _ _ _ _ _ h
          · exact .ok _

theorem upsamplerNew_renders (cs : List Component) (out : Dim) : Renders (upsamplerNew cs out) := by
  have hcomp : ∀ (mx : Nat × Nat) (cs : List Component), Renders (upsamplerComponents mx out cs) := by
    intro mx cs
    induction cs with
    | nil => exact .ok _
    | cons c cs ih =>
      rw [upsamplerComponents]
      refine Renders.bind ?_ fun _ => ih.bind fun _ => .ret _
      unfold chooseUpsampler
      simp only
      split
      · exact .ok _
      split
      · exact .ok _
      split
      · exact .ok _
      split
      · exact .ok _
      split
      · intro g hg; cases hg; exact .inr (.inl rfl)
      · exact .ok _
  unfold upsamplerNew
  split
  · refine (hcomp _ _).bind fun _ => ?_
    split
    · exact .panic _
    · exact .ret _
  · exact .panic _

/-- Rendering fails because four components come without a transform, because sampling factors do not divide, or
with a panic. -/
theorem upsample_renders (cfg : Cfg) (d : Decoder) : Renders (upsample cfg d) := by
  unfold upsample
  split
  · exact .panic _
  · split
    · next h =>
      intro g hg
      cases hg
      unfold chooseColorConvert at h
      split at h
      · split at h <;> cases h
      · split at h
        · cases h
        · cases h
        · cases h; exact .inl rfl
      · cases h; exact .inr (.inr ⟨_, rfl⟩)
    · split
      · next h => intro g hg; cases hg; exact upsamplerNew_renders _ _ _ h
      · simp only
        split
        · next h =>
          intro g hg
          cases hg
          unfold Frame.maxV at h
          split at h
          · cases h; exact .inr (.inr ⟨_, rfl⟩)
          · cases h
        · split
          · exact .panic _
          · split
            · next h => intro g hg; cases hg; exact (upsampleGroups_onlyPanics _ _ _ _ _ _ _ _ _ _ _).renders _ h
            · exact .ok _

end Jpeg
