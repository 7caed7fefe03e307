import Verif.Spec.Baseline
/-!
# Specification: what becomes of a well-formed file

Which sequential files this decoder renders, by number of components, colour transform and sampling factors;
files of other coding processes.
-/

namespace Jpeg.Spec

/-- Results of decoding. -/
inductive Outcome | image | error | panic
  deriving DecidableEq, Repr

namespace BaselineFile

variable (f : BaselineFile)

/-- Sampling factors for which there is an upsampler: ratio 1 or 2 in each direction (one pixel counts as
ratio 1), or other integer ratios. -/
def Ratios (H V : Nat) : Prop :=
  ∀ c ∈ f.comps,
    ((c.h = H ∨ f.x = 1 ∨ 2 * c.h = H) ∧ (c.v = V ∨ f.y = 1 ∨ 2 * c.v = V)) ∨ (H % c.h = 0 ∧ V % c.v = 0)

/-- Some component has half the columns and all the lines, and the width is odd, or larger than one MCU
with a multiple of 8 lines and no vertical factor above 1. -/
def HalfWidth (H V : Nat) : Prop :=
  ∃ c ∈ f.comps, 2 * c.h = H ∧ (c.v = V ∨ f.y = 1) ∧ f.x ≠ 1 ∧
    (f.x % 2 = 1 ∨ (V = 1 ∧ f.y % 8 = 0 ∧ 8 * c.h < f.x))

instance (H V : Nat) : Decidable (f.Ratios H V) := by unfold Ratios; infer_instance
instance (H V : Nat) : Decidable (f.HalfWidth H V) := by unfold HalfWidth; infer_instance

/-- The outcome for a file with the colour transform `t` in force and largest sampling factors `H`, `V`. -/
def outcome (t : Option Nat) (H V : Nat) : Outcome :=
  if f.comps.length < 3 then .panic
  else if f.comps.length = 4 ∧ t = none then .error
  else if f.Ratios H V then
    if f.y = 0 then .image
    else if f.comps.length = 4 ∧ t ≠ some 0 then .panic
    else if f.HalfWidth H V then .panic
    else .image
  else .error

end BaselineFile

/-- A progressive file up to its first scan header; `rest` is whatever follows. -/
structure ProgressiveFile where
  before : List TableSegment
  precision : UInt8
  y : Nat
  x : Nat
  comps : List HeaderComponent
  after : List TableSegment
  scan : List ScanComponent
  ss : UInt8
  se : UInt8
  ah : Nat
  al : Nat
  rest : List UInt8

namespace ProgressiveFile

variable (f : ProgressiveFile)

/-- The file. -/
def bytes : List UInt8 :=
  markerBytes .SOI ++ (f.before.flatMap TableSegment.bytes ++
    (markerSegment (.SOF 2) (frameHeader f.precision f.y f.x f.comps) ++
      (f.after.flatMap TableSegment.bytes ++
        (markerSegment .SOS (scanHeader f.scan f.ss f.se f.ah f.al) ++ f.rest))))

/-- Laid out as the standard says (B.2.2, B.2.3), up to the scan header. -/
structure Valid : Prop where
  tables : ∀ s ∈ f.before ++ f.after, s.Ok
  x : f.x < 2 ^ 16
  y : f.y < 2 ^ 16
  count : 1 ≤ f.comps.length ∧ f.comps.length ≤ 255
  ids : (f.comps.map (·.id)).Nodup
  factors : ∀ c ∈ f.comps, 1 ≤ c.h ∧ c.h ≤ 4 ∧ 1 ≤ c.v ∧ c.v ≤ 4
  scanCount : 1 ≤ f.scan.length ∧ f.scan.length ≤ 4
  order : (f.scan.map (·.id)).Sublist (f.comps.map (·.id))
  selectors : ∀ c ∈ f.scan, c.dc < 16 ∧ c.ac < 16
  approximation : f.ah < 16 ∧ f.al < 16

end ProgressiveFile

end Jpeg.Spec
