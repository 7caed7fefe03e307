import Verif.Model.Frame
/-!
# Specification: frame geometry (T.81 A.1.1, A.2)
-/

namespace Jpeg.Spec

/-- Exact ceiling of `a / b`. -/
def ceilDiv (a b : Nat) : Nat := (a + (b - 1)) / b

/-- `m` is the largest of the numbers `f c`. -/
def Largest {α : Type} (f : α → Nat) (l : List α) (m : Nat) : Prop :=
  (∀ c ∈ l, f c ≤ m) ∧ ∃ c ∈ l, f c = m

/-- A component as it stands in a frame header: identifier, sampling factors, quantisation table. -/
structure HeaderComponent where
  id : UInt8
  h : Nat
  v : Nat
  tq : UInt8

/-- The bytes of a component. -/
def HeaderComponent.bytes (c : HeaderComponent) : List UInt8 :=
  [c.id, UInt8.ofNat (c.h * 16 + c.v), c.tq]

/-- The frame header (B.2.2) behind its length field. -/
def frameHeader (precision : UInt8) (y x : Nat) (comps : List HeaderComponent) : List UInt8 :=
  [precision, UInt8.ofNat (y / 256), UInt8.ofNat (y % 256), UInt8.ofNat (x / 256),
    UInt8.ofNat (x % 256), UInt8.ofNat comps.length] ++ comps.flatMap HeaderComponent.bytes

/-- The geometry T.81 prescribes for a component of an image of `y` lines of `x` samples with largest
sampling factors `hmax`, `vmax`: its size is the ceiling of the scaled image size; it has
`ceil(x / 8 hmax) * h` by `ceil(y / 8 vmax) * v` blocks. -/
structure ComponentGeometry (x y hmax vmax : Nat) (c : Component) : Prop where
  size : c.size = ⟨ceilDiv (x * c.h) hmax, ceilDiv (y * c.v) vmax⟩
  blocks : c.blockSize = ⟨ceilDiv x (8 * hmax) * c.h, ceilDiv y (8 * vmax) * c.v⟩
  blocksPerMcu : c.blocksPerMcu = c.h * c.v
  mcuSampleSize : c.mcuSampleSize = ⟨8 * c.h, 8 * c.v⟩
  lineStride : c.lineStride = 8 * (ceilDiv x (8 * hmax) * c.h)
  bytesPerMcuLine : c.bytesPerMcuLine = c.lineStride * (8 * c.v)
  factors : 1 ≤ c.h ∧ c.h ≤ 4 ∧ 1 ≤ c.v ∧ c.v ≤ 4

/-- The geometry of a whole frame. -/
def FrameGeometry (f : Frame) : Prop :=
  f.samplesPerLine < 2 ^ 16 ∧ f.lines < 2 ^ 16 ∧
  ∃ hmax vmax, Largest (·.h) f.components hmax ∧ Largest (·.v) f.components vmax ∧
    f.mcuSize = ⟨ceilDiv f.samplesPerLine (8 * hmax), ceilDiv f.lines (8 * vmax)⟩ ∧
    ∀ c ∈ f.components, ComponentGeometry f.samplesPerLine f.lines hmax vmax c

end Jpeg.Spec
