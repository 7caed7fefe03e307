import Verif.Model.Basic
/-!
# Frame header and geometry (`src/lib.rs`)

Parsers of this file work on the byte slice of a segment and return the rest of it.
-/

namespace Jpeg

/-! ## f32 arithmetic

The frame geometry is computed in `f32`. A finite non-negative `f32` below `2^24` is represented
exactly as `m / 2^k`. Operations round to 24 significant bits, ties to even. Numbers occurring here
are `0` or between `1/4` and `65535`, so subnormals, infinities and exponent limits do not arise. -/

/-- lib.rs:305-336, an `f32`: a non-negative dyadic rational `m / 2^k`. -/
structure F32 where
  m : Nat
  k : Nat
  deriving DecidableEq, Repr

namespace F32

/-- lib.rs:324, rounding of a quotient: least `k` (searching upwards from the given one) with `n * 2^k ≥ d * 2^23`. -/
def scale (n d : Nat) : Nat → Nat → Nat
  | 0, k => k
  | fuel + 1, k => if d * 2 ^ 23 ≤ n * 2 ^ k then k else scale n d fuel (k + 1)

/-- lib.rs:324-336: IEEE 754 round-to-nearest-even of the rational `n / d` (`n / d < 2^24`) to 24 bits. -/
def rnd (n d : Nat) : F32 :=
  if n = 0 then ⟨0, 0⟩
  else
    let k := scale n d 64 0
    let q := n * 2 ^ k / d
    let r := n * 2 ^ k % d
    if d < 2 * r ∨ (2 * r = d ∧ q % 2 = 1) then ⟨q + 1, k⟩ else ⟨q, k⟩

/-- lib.rs:305, 312, 320-321: `f32::from(u16)` / `f32::from(u8)`: exact. -/
def ofNat (n : Nat) : F32 := ⟨n, 0⟩
/-- lib.rs:324-325, 329-330, 333-334: `a * b`. -/
def mul (a b : F32) : F32 := rnd (a.m * b.m) (2 ^ (a.k + b.k))
/-- lib.rs:324-325, 330, 334: `a / b`. -/
def div (a b : F32) : F32 := rnd (a.m * 2 ^ b.k) (b.m * 2 ^ a.k)
/-- lib.rs:324-325, 331-332, 335-336: `a.ceil() as u16` (the cast saturates). -/
def ceilU16 (a : F32) : Nat := min ((a.m + 2 ^ a.k - 1) / 2 ^ a.k) 65535

end F32

/-- lib.rs:167-171 `Dimensions`. -/
structure Dim where
  width : Nat
  height : Nat
  deriving DecidableEq, Repr

/-- lib.rs:174-176 `Dimensions::area`. -/
def Dim.area (d : Dim) : Nat := d.width * d.height

/-- lib.rs:218-236 `Component`. -/
structure Component where
  id : UInt8
  h : Nat
  v : Nat
  tq : Nat
  blocksPerMcu : Nat
  lineStride : Nat
  mcuSampleSize : Dim
  bytesPerMcuLine : Nat
  blockSize : Dim
  size : Dim
  deriving DecidableEq, Repr

/-- lib.rs:189-196 `Frame`. -/
structure Frame where
  markerIndex : Nat
  precision : UInt8
  lines : Nat
  samplesPerLine : Nat
  mcuSize : Dim
  components : List Component
  deriving DecidableEq, Repr

/-- lib.rs:179-185 `CodingProcess`. -/
inductive CodingProcess | baseline | sequential | progressive | lossLess
  deriving DecidableEq, Repr

/-- lib.rs:199-207 `Frame::coding_process`. -/
def Frame.codingProcess (f : Frame) : Except Fail CodingProcess :=
  if f.markerIndex = 0 then .ok .baseline
  else if f.markerIndex ∈ [1, 5, 9, 13] then .ok .sequential
  else if f.markerIndex ∈ [2, 6, 10, 14] then .ok .progressive
  else if f.markerIndex ∈ [3, 7, 11, 15] then .ok .lossLess
  else .error (.panic .unknownSof)

/-- lib.rs:213, 309, 316, upsampler.rs:20, 25: iterator `max()` over `u8`s; `None` on an empty iterator. -/
def listMax? : List Nat → Option Nat
  | [] => none
  | x :: xs => some (xs.foldl max x)

/-- lib.rs:209-215 `Frame::max_vertical_sampling_factor` (`unwrap` on an empty frame panics). -/
def Frame.maxV (f : Frame) : Except Fail Nat :=
  match listMax? (f.components.map (·.v)) with
  | none => .error (.panic .noComponents)
  | some v => .ok v

/-- lib.rs:338-341: u16 multiplication: overflow panics in debug builds, wraps otherwise. -/
def mulU16 (cfg : Cfg) (a b : Nat) : Except Fail Nat :=
  if a * b < 2 ^ 16 then .ok (a * b)
  else if cfg.debug then .error (.panic .overflow)
  else .ok ((a * b) % 2 ^ 16)

/-- lib.rs:269, 272: combine `any()` on a byte slice. -/
def anyByte : List UInt8 → Except Fail (UInt8 × List UInt8)
  | [] => .error .eof
  | b :: rest => .ok (b, rest)

/-- lib.rs:145, 269, 541, 557: combine `be_u16()`. -/
def beU16 : List UInt8 → Except Fail (Nat × List UInt8)
  | a :: b :: rest => .ok (a.toNat * 256 + b.toNat, rest)
  | _ => .error .eof

/-- lib.rs:146, 399, 404, 830: combine `take(n)`. -/
def takeBytes (n : Nat) (l : List UInt8) : Except Fail (List UInt8 × List UInt8) :=
  if l.length < n then .error .eof else .ok (l.take n, l.drop n)

/-- lib.rs:117-123 `split_4_bit`. -/
def split4Bit (l : List UInt8) : Except Fail ((Nat × Nat) × List UInt8) :=
  match anyByte l with
  | .error f => .error f
  | .ok (b, rest) => .ok ((b.toNat >>> 4, b.toNat &&& 0x0F), rest)

/-- lib.rs:240-254 `check_sampling_factor`. -/
def checkSamplingFactor (s : Nat) : Except Fail Unit :=
  if s = 0 ∨ s > 4 then .error (.err .samplingFactor) else .ok ()

/-- lib.rs:844-849 constants. -/
def MAX_HUFFMAN_TABLES : Nat := 4
/-- lib.rs:845 -/
def MAX_QUANTIZATION_TABLES : Nat := 4
/-- lib.rs:847-848 -/
def DCT_SIZE : Nat := 8
/-- lib.rs:849 -/
def BLOCK_SIZE : Nat := 64
/-- lib.rs:107 -/
def MAX_COMPONENTS : Nat := 4
/-- lib.rs:238 -/
def MAX_BLOCKS_IN_MCU : Nat := 10

/-- lib.rs:272-296, one component of a frame header (computed fields not filled in). -/
def componentP (l : List UInt8) : Except Fail (Component × List UInt8) := do
  let (id, l) ← anyByte l
  let ((h, v), l) ← split4Bit l
  checkSamplingFactor h
  checkSamplingFactor v
  let (tq, l) ← anyByte l
  return ({ id, h, v, tq := tq.toNat, blocksPerMcu := h * v
            mcuSampleSize := ⟨h * DCT_SIZE, v * DCT_SIZE⟩
            bytesPerMcuLine := 0, lineStride := 0, blockSize := ⟨0, 0⟩, size := ⟨0, 0⟩ }, l)

/-- `count_min_max(n, n, componentP)` (lib.rs:297-301). -/
def componentsP : Nat → List UInt8 → Except Fail (List Component × List UInt8)
  | 0, l => .ok ([], l)
  | n + 1, l => do
    let (c, l) ← componentP l
    let (cs, l) ← componentsP n l
    return (c :: cs, l)

/-- lib.rs:328-349, the computed fields of one component. -/
def fillComponent (cfg : Cfg) (hMax vMax : F32) (samplesPerLine lines : F32) (mcu : Dim)
    (c : Component) : Except Fail Component := do
  let sizeW := (samplesPerLine.mul ((F32.ofNat c.h).div hMax)).ceilU16
  let sizeH := (lines.mul ((F32.ofNat c.v).div vMax)).ceilU16
  let bw ← mulU16 cfg mcu.width c.h
  let bh ← mulU16 cfg mcu.height c.v
  let bytesPerMcu := c.blocksPerMcu * BLOCK_SIZE
  return { c with
    size := ⟨sizeW, sizeH⟩
    blockSize := ⟨bw, bh⟩
    bytesPerMcuLine := bytesPerMcu * mcu.width
    lineStride := bw * DCT_SIZE }

/-- The `for component in &mut components[..]` loop of lib.rs:328. -/
def fillComponents (cfg : Cfg) (hMax vMax : F32) (samplesPerLine lines : F32) (mcu : Dim) :
    List Component → Except Fail (List Component)
  | [] => .ok []
  | c :: cs => do
    let c ← fillComponent cfg hMax vMax samplesPerLine lines mcu c
    let cs ← fillComponents cfg hMax vMax samplesPerLine lines mcu cs
    return c :: cs

/-- lib.rs:302-360, from parsed header to `Frame`. -/
def buildFrame (cfg : Cfg) (markerIndex : Nat) (precision : UInt8) (lines samplesPerLine : Nat)
    (components : List Component) : Except Fail Frame :=
  match listMax? (components.map (·.h)), listMax? (components.map (·.v)) with
  | some h, some v => do
    let hMax := F32.ofNat h
    let vMax := F32.ofNat v
    let spl := F32.ofNat samplesPerLine
    let ls := F32.ofNat lines
    let mcu : Dim :=
      ⟨(spl.div (hMax.mul (F32.ofNat 8))).ceilU16, (ls.div (vMax.mul (F32.ofNat 8))).ceilU16⟩
    let components ← fillComponents cfg hMax vMax spl ls mcu components
    return { markerIndex, precision, lines, samplesPerLine, mcuSize := mcu, components }
  | _, _ => .error (.panic .noComponents)

/-- lib.rs:256-365 `sof`. -/
def sof (cfg : Cfg) (markerIndex : Nat) (l : List UInt8) : Except Fail (Frame × List UInt8) := do
  let (precision, l) ← anyByte l
  let (lines, l) ← beU16 l
  let (samplesPerLine, l) ← beU16 l
  let (n, l) ← anyByte l
  let (components, l) ← componentsP n.toNat l
  let frame ← buildFrame cfg markerIndex precision lines samplesPerLine components
  return (frame, l)

end Jpeg
