import Verif.Model.State
/-!
# `src/upsampler.rs`

Each `upsample_row` gets a plane, the line buffer left by the previous call and returns the line
together with the new line buffer.
-/

namespace Jpeg

/-- upsampler.rs:119-125 `Upsample` and 80-83 `UpsamplerGeneric`. -/
inductive Upsample | h1v1 | h2v1 | h1v2 | h2v2 | generic (hs vs : Nat)
  deriving DecidableEq, Repr

/-- upsampler.rs:85-117 `choose_upsampler`. `u8` products: factors are at most 4. -/
def chooseUpsampler (sf mx : Nat × Nat) (out : Dim) : Except Fail Upsample :=
  let h1 := sf.1 = mx.1 ∨ out.width = 1
  let v1 := sf.2 = mx.2 ∨ out.height = 1
  let h2 := sf.1 * 2 = mx.1
  let v2 := sf.2 * 2 = mx.2
  if h1 ∧ v1 then .ok .h1v1
  else if h2 ∧ v1 then .ok .h2v1
  else if h1 ∧ v2 then .ok .h1v2
  else if h2 ∧ v2 then .ok .h2v2
  else if mx.1 % sf.1 ≠ 0 ∨ mx.2 % sf.2 ≠ 0 then .error (.err .nonIntegerSubsampling)
  else .ok (.generic (mx.1 / sf.1) (mx.2 / sf.2))

/-- upsampler.rs:168, 187, 311: `&input[a..b]`. -/
def slice (l : List UInt8) (a b : Nat) : Except Fail (List UInt8) :=
  if b < a ∨ l.length < b then .error (.panic .index) else .ok ((l.take b).drop a)

/-- upsampler.rs:234-235, 266-267: `&input[a..]`. -/
def sliceFrom (l : List UInt8) (a : Nat) : Except Fail (List UInt8) :=
  if l.length < a then .error (.panic .index) else .ok (l.drop a)

/-- upsampler.rs:190-200, 270-288: `input[i]`. -/
def idx (l : List UInt8) (i : Nat) : Except Fail Nat :=
  match l[i]? with
  | none => .error (.panic .index)
  | some b => .ok b.toNat

/-- upsampler.rs:190-206, 271-291: `output[i] = v` with `v as u8`. -/
def setIdx (l : List UInt8) (i v : Nat) : Except Fail (List UInt8) :=
  if i < l.length then .ok (l.set i (UInt8.ofNat v)) else .error (.panic .index)

/-- upsampler.rs:182, 223, 259, 308: `Vec::resize(n, 0)`. -/
def resize (l : List UInt8) (n : Nat) : List UInt8 := l.take n ++ List.replicate (n - l.length) 0

/-- upsampler.rs:157-170 `UpsamplerH1V1`. -/
def upH1V1 (input : List UInt8) (stride row outW : Nat) : Except Fail (List UInt8) :=
  slice input (row * stride) (row * stride + outW)

/-- upsampler.rs:198-202: `output[2..].chunks_exact_mut(2).zip(input.windows(3))`. -/
def h2v1Go : List UInt8 → List UInt8 → List UInt8
  | _ :: _ :: out, a :: b :: c :: rest =>
    let sample := 3 * b.toNat + 2
    UInt8.ofNat ((sample + a.toNat) >>> 2) :: UInt8.ofNat ((sample + c.toNat) >>> 2) ::
      h2v1Go out (b :: c :: rest)
  | out, _ => out

/-- upsampler.rs:172-211 `UpsamplerH2V1`. -/
def upH2V1 (input : List UInt8) (size : Dim) (stride row outW : Nat) (buf : List UInt8) :
    Except Fail (List UInt8) := do
  let output := resize buf outW
  let input ← slice input (row * stride) (row * stride + outW)
  if size.width = 1 then
    let i0 ← idx input 0
    let output ← setIdx output 0 i0
    setIdx output 1 i0
  else
    let i0 ← idx input 0
    let output ← setIdx output 0 i0
    let i1 ← idx input 1
    let output ← setIdx output 1 ((i0 * 3 + i1 + 2) >>> 2)
    let output := output.take 2 ++ h2v1Go (output.drop 2) input
    if size.width = 0 then .error (.panic .overflow)
    else
      let l1 ← idx input (size.width - 1)
      let l2 ← idx input (size.width - 2)
      let output ← setIdx output ((size.width - 1) * 2) ((l1 * 3 + l2 + 2) >>> 2)
      setIdx output ((size.width - 1) * 2 + 1) l1

/-- upsampler.rs:229-232, 261-264: near and far input row of an output row.
`row_near = row / 2`, `row_far = min(row_near + 3 * fract(row_near) - 0.25, height - 1)`, then
truncated to `usize`. All intermediate `f32` values are multiples of `1/4` below `2^18`, hence exact;
they are represented here in units of `1/4`. Truncation towards zero turns `-0.25` into `0`.
`height - 1` on zero overflows. -/
def nearFar (row height : Nat) : Except Fail (Nat × Nat) :=
  if height = 0 then .error (.panic .overflow)
  else
    let near4 : Int := 2 * row
    let fract4 : Int := near4 % 4
    let far4 : Int := min (near4 + fract4 * 3 - 1) (4 * ((height : Int) - 1))
    .ok ((near4.tdiv 4).toNat, (far4.tdiv 4).toNat)

/-- upsampler.rs:237-239. -/
def h1v2Go : List UInt8 → List UInt8 → List UInt8 → List UInt8
  | _ :: out, n :: ns, f :: fs =>
    UInt8.ofNat ((3 * n.toNat + f.toNat + 2) >>> 2) :: h1v2Go out ns fs
  | out, _, _ => out

/-- upsampler.rs:213-243 `UpsamplerH1V2`. -/
def upH1V2 (input : List UInt8) (size : Dim) (stride row outW : Nat) (buf : List UInt8) :
    Except Fail (List UInt8) := do
  let output := resize buf outW
  let (near, far) ← nearFar row size.height
  let inNear ← sliceFrom input (near * stride)
  let inFar ← sliceFrom input (far * stride)
  return h1v2Go output inNear inFar

/-- upsampler.rs:279-289; returns the output and the final `t1`. -/
def h2v2Go : List UInt8 → List UInt8 → List UInt8 → Nat → List UInt8 × Nat
  | _ :: _ :: out, n :: ns, f :: fs, t1 =>
    let t0 := t1
    let t1 := 3 * n.toNat + f.toNat
    let r := h2v2Go out ns fs t1
    (UInt8.ofNat ((3 * t0 + t1 + 8) >>> 4) :: UInt8.ofNat ((3 * t1 + t0 + 8) >>> 4) :: r.1, r.2)
  | out, _, _, t1 => (out, t1)

/-- upsampler.rs:245-295 `UpsamplerH2V2`. -/
def upH2V2 (input : List UInt8) (size : Dim) (stride row : Nat) (buf : List UInt8) :
    Except Fail (List UInt8) := do
  let output := resize buf (size.width * 2)
  let (near, far) ← nearFar row size.height
  let inNear ← sliceFrom input (near * stride)
  let inFar ← sliceFrom input (far * stride)
  if size.width = 1 then
    let n ← idx inNear 0
    let f ← idx inFar 0
    let value := (3 * n + f + 2) >>> 2
    let output ← setIdx output 0 value
    setIdx output 1 value
  else
    let n ← idx inNear 0
    let f ← idx inFar 0
    let t1 := 3 * n + f
    let output ← setIdx output 0 ((t1 + 2) >>> 2)
    let outTail ← sliceFrom output 1
    let nTail ← sliceFrom inNear 1
    let fTail ← sliceFrom inFar 1
    let r := h2v2Go outTail nTail fTail t1
    if size.width = 0 then .error (.panic .overflow)
    else setIdx (output.take 1 ++ r.1) (size.width * 2 - 1) ((r.2 + 2) >>> 2)

/-- upsampler.rs:312-319: `output.chunks_exact_mut(hs).zip(input)`; `n` is the fuel. -/
def genericGo (hs : Nat) : List UInt8 → List UInt8 → List UInt8
  | out, [] => out
  | out, v :: vs =>
    if out.length < hs then out else List.replicate hs v ++ genericGo hs (out.drop hs) vs

/-- upsampler.rs:297-323 `UpsamplerGeneric`. Scaling factors are at least 1. -/
def upGeneric (hs vs : Nat) (input : List UInt8) (size : Dim) (stride row outW : Nat)
    (buf : List UInt8) : Except Fail (List UInt8) := do
  let output := resize buf outW
  let start := (row / vs) * stride
  let input ← slice input start (start + size.width)
  if hs = 0 then .error (.panic .zeroChunk) else return genericGo hs output input

/-- upsampler.rs:127-155 `Upsample::upsample_row`: the line and the line buffer afterwards. -/
def Upsample.upsampleRow (u : Upsample) (input : List UInt8) (size : Dim) (stride row outW : Nat)
    (buf : List UInt8) : Except Fail (List UInt8 × List UInt8) :=
  match u with
  | .h1v1 => do let l ← upH1V1 input stride row outW; return (l, buf)
  | .h2v1 => do let l ← upH2V1 input size stride row outW buf; return (l, l)
  | .h1v2 => do let l ← upH1V2 input size stride row outW buf; return (l, l)
  | .h2v2 => do let l ← upH2V2 input size stride row buf; return (l, l)
  | .generic hs vs => do let l ← upGeneric hs vs input size stride row outW buf; return (l, l)

/-- upsampler.rs:9-13 `UpsamplerComponent`. -/
structure UpsamplerComponent where
  upsampler : Upsample
  size : Dim
  rowStride : Nat
  deriving DecidableEq, Repr

/-- upsampler.rs:28-45: one `UpsamplerComponent` per component, first error wins. -/
def upsamplerComponents (mx : Nat × Nat) (out : Dim) :
    List Component → Except Fail (List UpsamplerComponent)
  | [] => .ok []
  | c :: cs => do
    let u ← chooseUpsampler (c.h, c.v) mx out
    let rest ← upsamplerComponents mx out cs
    return ⟨u, c.size, c.blockSize.width * 8⟩ :: rest

/-- upsampler.rs:16-47 `Upsampler::new`. -/
def upsamplerNew (components : List Component) (out : Dim) :
    Except Fail (List UpsamplerComponent) :=
  match listMax? (components.map (·.h)), listMax? (components.map (·.v)) with
  | some h, some v => do
    let us ← upsamplerComponents (h, v) out components
    if MAX_COMPONENTS < us.length then .error (.panic .arrayVecFull) else return us
  | _, _ => .error (.panic .noComponents)

/-- upsampler.rs:60-71: the zip over components, planes and line buffers. -/
def upsampleRowGo (row outW : Nat) : List UpsamplerComponent → List (List UInt8) →
    List (List UInt8) → Except Fail (List (List UInt8) × List (List UInt8))
  | u :: us, p :: ps, b :: bs => do
    let (line, b) ← u.upsampler.upsampleRow p u.size u.rowStride row outW b
    let (lines, bs) ← upsampleRowGo row outW us ps bs
    return (line :: lines, b :: bs)
  | _, _, bs => .ok ([], bs)

/-- upsampler.rs:49-72 `upsample_and_interleave_row`: the lines of all components and the line
buffers afterwards. -/
def upsampleAndInterleaveRow (cfg : Cfg) (us : List UpsamplerComponent)
    (planes : List (List UInt8)) (bufs : List (List UInt8)) (row outW : Nat) :
    Except Fail (List (List UInt8) × List (List UInt8)) :=
  if cfg.debug ∧ planes.length ≠ us.length then .error (.panic .componentMismatch)
  else upsampleRowGo row outW us planes bufs

end Jpeg
