import Verif.Model.Clamp
import Verif.Model.Frame
/-!
# `src/idct.rs`

`Wrapping<i32>` is `BitVec 32`. Coefficient blocks are lists of 64 `i16` values (as `Int`),
quantisation tables lists of 64 `u16` values (as `Nat`).
-/

namespace Jpeg

/-- idct.rs:10, 272 `Wrapping<i32>`: wrapping 32 bit word. -/
abbrev W32 := BitVec 32

/-- idct.rs:16-18 `scaled`: `((len * scale - 1) / 8 + 1) as u16` in `u32`.
`0 - 1` overflows: panic in debug builds, wraps in release builds. -/
def scaled (cfg : Cfg) (len scale : Nat) : Except Fail Nat :=
  if len * scale = 0 then
    if cfg.debug then .error (.panic .overflow)
    else .ok (((2 ^ 32 - 1) / 8 + 1) % 2 ^ 16)
  else .ok (((len * scale - 1) / 8 + 1) % 2 ^ 16)

/-- idct.rs:20-28, the loop over the candidate scales; `||` is short-circuiting. -/
def chooseIdctGo (cfg : Cfg) (full req : Dim) : List Nat → Except Fail Nat
  | [] => .ok 8
  | scale :: rest =>
    match scaled cfg full.width scale with
    | .error f => .error f
    | .ok w =>
      if w ≥ req.width then .ok scale
      else
        match scaled cfg full.height scale with
        | .error f => .error f
        | .ok h => if h ≥ req.height then .ok scale else chooseIdctGo cfg full req rest

/-- idct.rs:15-29 `choose_idct_size`. -/
def chooseIdctSize (cfg : Cfg) (full req : Dim) : Except Fail Nat :=
  chooseIdctGo cfg full req [1, 2, 4]

/-- idct.rs:454-456 `dequantize`: `i32::from(c) * i32::from(q)`. The product of an `i16` and a `u16`
fits an `i32` (proved separately), so taking the low 32 bits loses nothing. -/
def dequant (c : Int) (q : Nat) : W32 := BitVec.ofInt 32 (c * q)

/-- idct.rs:449-451 `stbi_fsh`. -/
def stbiFsh (x : W32) : W32 := x <<< 12

/-- idct.rs:444-446 `stbi_f2f` of the decimal literal `num / den`, negated if `neg`:
`(x * 4096.0 + 0.5) as i32` in f32, every operation rounded, the cast truncating towards zero. For
the negative literals used `x * 4096.0 + 0.5` is negative. -/
def stbiF2f (neg : Bool) (num den : Nat) : W32 :=
  let x := (F32.rnd num den).mul (F32.ofNat 4096)
  if neg then
    let y := F32.rnd (2 * x.m - 2 ^ x.k) (2 ^ (x.k + 1))
    BitVec.ofInt 32 (-(y.m / 2 ^ y.k : Nat))
  else
    let y := F32.rnd (2 * x.m + 2 ^ x.k) (2 ^ (x.k + 1))
    BitVec.ofNat 32 (y.m / 2 ^ y.k)

/-! The twelve constants, evaluated; `C51_constants` in `Verif/Props/IdctReal.lean` derives them from the
decimal literals with `stbiF2f`. -/
/-- idct.rs:379 stbi_f2f(0.5411961) -/
def C0_541 : W32 := 2217#32
/-- idct.rs:380 stbi_f2f(-1.847759065) -/
def Cm1_847 : W32 := BitVec.ofInt 32 (-7567)
/-- idct.rs:381 stbi_f2f(0.765366865) -/
def C0_765 : W32 := 3135#32
/-- idct.rs:415 stbi_f2f(1.175875602) -/
def C1_175 : W32 := 4816#32
/-- idct.rs:417 stbi_f2f(0.298631336) -/
def C0_298 : W32 := 1223#32
/-- idct.rs:418 stbi_f2f(2.053119869) -/
def C2_053 : W32 := 8410#32
/-- idct.rs:419 stbi_f2f(3.072711026) -/
def C3_072 : W32 := 12586#32
/-- idct.rs:420 stbi_f2f(1.501321110) -/
def C1_501 : W32 := 6149#32
/-- idct.rs:422 stbi_f2f(-0.899976223) -/
def Cm0_899 : W32 := BitVec.ofInt 32 (-3685)
/-- idct.rs:423 stbi_f2f(-2.562915447) -/
def Cm2_562 : W32 := BitVec.ofInt 32 (-10497)
/-- idct.rs:424 stbi_f2f(-1.961570560) -/
def Cm1_961 : W32 := BitVec.ofInt 32 (-8034)
/-- idct.rs:425 stbi_f2f(-0.390180644) -/
def Cm0_390 : W32 := BitVec.ofInt 32 (-1597)

/-- idct.rs:366-369 `Kernel`. -/
structure Kernel where
  x0 : W32
  x1 : W32
  x2 : W32
  x3 : W32
  t0 : W32
  t1 : W32
  t2 : W32
  t3 : W32

/-- idct.rs:372-433 `kernel_x`, `kernel_t` and 436-441 `kernel`. -/
def kernel (s0 s1 s2 s3 s4 s5 s6 s7 : W32) (xScale : W32) : Kernel :=
  -- kernel_x([s0, s2, s4, s6], x_scale)
  let xp1 := (s2 + s6) * C0_541
  let xt2 := xp1 + s6 * Cm1_847
  let xt3 := xp1 + s2 * C0_765
  let xt0 := stbiFsh (s0 + s4)
  let xt1 := stbiFsh (s0 - s4)
  let x0 := xt0 + xt3
  let x3 := xt0 - xt3
  let x1 := xt1 + xt2
  let x2 := xt1 - xt2
  -- kernel_t([s1, s3, s5, s7])
  let p3 := s7 + s3
  let p4 := s5 + s1
  let p1 := s7 + s1
  let p2 := s5 + s3
  let p5 := (p3 + p4) * C1_175
  let t0 := s7 * C0_298
  let t1 := s5 * C2_053
  let t2 := s3 * C3_072
  let t3 := s1 * C1_501
  let p1 := p5 + p1 * Cm0_899
  let p2 := p5 + p2 * Cm2_562
  let p3 := p3 * Cm1_961
  let p4 := p4 * Cm0_390
  { x0 := x0 + xScale, x1 := x1 + xScale, x2 := x2 + xScale, x3 := x3 + xScale
    t3 := t3 + (p1 + p4), t2 := t2 + (p2 + p3), t1 := t1 + (p2 + p4), t0 := t0 + (p1 + p3) }

/-- idct.rs:276-303: element of a `[i16; 64]`. -/
def coef (c : List Int) (i : Nat) : Int := (c[i]?).getD 0
/-- idct.rs:284, 296-303: element of a `[u16; 64]`. -/
def quant (q : List Nat) (i : Nat) : Nat := (q[i]?).getD 0

/-- idct.rs:275-326, one round of the column loop: the eight values written to
`temp[i], temp[i+8], .., temp[i+56]`. -/
def idctColumn (c : List Int) (q : List Nat) (i : Nat) : List W32 :=
  if coef c (i + 8) = 0 ∧ coef c (i + 16) = 0 ∧ coef c (i + 24) = 0 ∧ coef c (i + 32) = 0 ∧
      coef c (i + 40) = 0 ∧ coef c (i + 48) = 0 ∧ coef c (i + 56) = 0 then
    let dcterm := dequant (coef c i) (quant q i) <<< 2
    [dcterm, dcterm, dcterm, dcterm, dcterm, dcterm, dcterm, dcterm]
  else
    let s0 := dequant (coef c i) (quant q i)
    let s1 := dequant (coef c (i + 8)) (quant q (i + 8))
    let s2 := dequant (coef c (i + 16)) (quant q (i + 16))
    let s3 := dequant (coef c (i + 24)) (quant q (i + 24))
    let s4 := dequant (coef c (i + 32)) (quant q (i + 32))
    let s5 := dequant (coef c (i + 40)) (quant q (i + 40))
    let s6 := dequant (coef c (i + 48)) (quant q (i + 48))
    let s7 := dequant (coef c (i + 56)) (quant q (i + 56))
    let k := kernel s0 s1 s2 s3 s4 s5 s6 s7 512#32
    [(k.x0 + k.t3).sshiftRight 10, (k.x1 + k.t2).sshiftRight 10,
     (k.x2 + k.t1).sshiftRight 10, (k.x3 + k.t0).sshiftRight 10,
     (k.x3 - k.t0).sshiftRight 10, (k.x2 - k.t1).sshiftRight 10,
     (k.x1 - k.t2).sshiftRight 10, (k.x0 - k.t3).sshiftRight 10]

/-- Writing one column into `temp` (idct.rs:286-293, 316-323): entry `j` goes to `temp[i + 8*j]`. -/
def writeColumn (temp : List (Option W32)) (i : Nat) : Nat → List W32 → List (Option W32)
  | _, [] => temp
  | j, x :: xs => (writeColumn temp i (j + 1) xs).set (i + 8 * j) (some x)

/-- idct.rs:272-326: `temp` starts uninitialised (`none`) and is written column by column. -/
def idctColumns (c : List Int) (q : List Nat) : Nat → List (Option W32)
  | 0 => List.replicate 64 none
  | i + 1 => writeColumn (idctColumns c q i) i 0 (idctColumn c q i)

/-- idct.rs:329-331: treating `temp` as initialised. Reading a missing entry is undefined behaviour
in Rust and a failure here. -/
def assumeInit : List (Option W32) → Except Fail (List W32)
  | [] => .ok []
  | none :: _ => .error (.panic .uninit)
  | some x :: rest =>
    match assumeInit rest with
    | .error f => .error f
    | .ok xs => .ok (x :: xs)

/-- idct.rs:342 `X_SCALE`. -/
def X_SCALE : W32 := BitVec.ofNat 32 (65536 + 128 * 2 ^ 17)

/-- idct.rs:344-362, one row of eight intermediate values to eight samples. -/
def idctRow (s0 s1 s2 s3 s4 s5 s6 s7 : W32) : List UInt8 :=
  if s1 = 0#32 ∧ s2 = 0#32 ∧ s3 = 0#32 ∧ s4 = 0#32 ∧ s5 = 0#32 ∧ s6 = 0#32 ∧ s7 = 0#32 then
    let dcterm := stbiClamp ((stbiFsh s0 + X_SCALE).sshiftRight 17)
    [dcterm, dcterm, dcterm, dcterm, dcterm, dcterm, dcterm, dcterm]
  else
    let k := kernel s0 s1 s2 s3 s4 s5 s6 s7 X_SCALE
    [stbiClamp ((k.x0 + k.t3).sshiftRight 17), stbiClamp ((k.x1 + k.t2).sshiftRight 17),
     stbiClamp ((k.x2 + k.t1).sshiftRight 17), stbiClamp ((k.x3 + k.t0).sshiftRight 17),
     stbiClamp ((k.x3 - k.t0).sshiftRight 17), stbiClamp ((k.x2 - k.t1).sshiftRight 17),
     stbiClamp ((k.x1 - k.t2).sshiftRight 17), stbiClamp ((k.x0 - k.t3).sshiftRight 17)]

/-- idct.rs:333-363, the rows (`temp.chunks_exact(8)`; a shorter rest is dropped). -/
def idctRows : List W32 → List (List UInt8)
  | s0 :: s1 :: s2 :: s3 :: s4 :: s5 :: s6 :: s7 :: rest =>
    idctRow s0 s1 s2 s3 s4 s5 s6 s7 :: idctRows rest
  | _ => []

/-- idct.rs:255-364 `dequantize_and_idct_block_8x8_inner`, the rows it produces. -/
def idct8x8 (c : List Int) (q : List Nat) : Except Fail (List (List UInt8)) :=
  match assumeInit (idctColumns c q 8) with
  | .error f => .error f
  | .ok temp => .ok (idctRows temp)

/-- idct.rs:248-250 and 333: the rows are zipped with `output.chunks_mut(stride)`, each cut to its
first eight elements. `output` is the plane from the block's first sample on. -/
def writeRows (stride : Nat) : List (List UInt8) → List (Option UInt8) →
    Except Fail (List (Option UInt8))
  | [], out => .ok out
  | row :: rows, out =>
    if out = [] then .ok []
    else
      -- `chunk[..8]` of `chunk = out[..min(stride, len)]`
      if min stride out.length < 8 then .error (.panic .index)
      else
        match writeRows stride rows (out.drop stride) with
        | .error f => .error f
        | .ok rest => .ok (row.map some ++ (out.take stride).drop 8 ++ rest)

/-- idct.rs:242-252 `dequantize_and_idct_block_8x8` (scale 8 of the dispatcher idct.rs:206-240;
lib.rs:970 always passes `DCT_SIZE`). -/
def dequantizeAndIdct (cfg : Cfg) (c : List Int) (q : List Nat) (stride : Nat)
    (out : List (Option UInt8)) : Except Fail (List (Option UInt8)) :=
  if stride = 0 then .error (.panic .zeroChunk)
  else if cfg.debug ∧ (out.length + stride - 1) / stride < 8 then .error (.panic .idctRows)
  else
    match idct8x8 c q with
    | .error f => .error f
    | .ok rows => writeRows stride rows out

/-! ## Reduced size variants (not reachable from `decode`, idct.rs:460-565) -/

/-- idct.rs:474-491: one column of the 4x4 variant, values for `temp[i+4*0 .. i+4*3]`. -/
def idct4Column (c : List Int) (q : List Nat) (i : Nat) : W32 × W32 × W32 × W32 :=
  let s0 := dequant (coef c i) (quant q i)
  let s1 := dequant (coef c (i + 8)) (quant q (i + 8))
  let s2 := dequant (coef c (i + 16)) (quant q (i + 16))
  let s3 := dequant (coef c (i + 24)) (quant q (i + 24))
  let x0 := (s0 + s2) <<< 2
  let x2 := (s0 - s2) <<< 2
  let p1 := (s1 + s3) * C0_541
  let t0 := (p1 + s3 * Cm1_847 + 512#32).sshiftRight 10
  let t2 := (p1 + s1 * C0_765 + 512#32).sshiftRight 10
  (x0 + t2, x2 + t0, x2 - t0, x0 - t2)

/-- idct.rs:493-516: one row of the 4x4 variant. -/
def idct4Row (s0 s1 s2 s3 : W32) : List UInt8 :=
  let x0 := (s0 + s2) <<< 12
  let x2 := (s0 - s2) <<< 12
  let p1 := (s1 + s3) * C0_541
  let t0 := p1 + s3 * Cm1_847
  let t2 := p1 + s1 * C0_765
  let x0 := x0 + BitVec.ofNat 32 (2 ^ 16) + BitVec.ofNat 32 (128 * 2 ^ 17)
  let x2 := x2 + BitVec.ofNat 32 (2 ^ 16) + BitVec.ofNat 32 (128 * 2 ^ 17)
  [stbiClamp ((x0 + t2).sshiftRight 17), stbiClamp ((x2 + t0).sshiftRight 17),
   stbiClamp ((x2 - t0).sshiftRight 17), stbiClamp ((x0 - t2).sshiftRight 17)]

/-- idct.rs:460-517 `dequantize_and_idct_block_4x4`, the four rows produced. -/
def idct4x4 (c : List Int) (q : List Nat) : List (List UInt8) :=
  let a := idct4Column c q 0
  let b := idct4Column c q 1
  let d := idct4Column c q 2
  let e := idct4Column c q 3
  [idct4Row a.1 b.1 d.1 e.1,
   idct4Row a.2.1 b.2.1 d.2.1 e.2.1,
   idct4Row a.2.2.1 b.2.2.1 d.2.2.1 e.2.2.1,
   idct4Row a.2.2.2 b.2.2.2 d.2.2.2 e.2.2.2]

/-- idct.rs:519-553 `dequantize_and_idct_block_2x2`, the two rows produced. -/
def idct2x2 (c : List Int) (q : List Nat) : List (List UInt8) :=
  let s00 := dequant (coef c 0) (quant q 0)
  let s10 := dequant (coef c 8) (quant q 8)
  let x0 := s00 + s10
  let x2 := s00 - s10
  let s01 := dequant (coef c 1) (quant q 1)
  let s11 := dequant (coef c 9) (quant q 9)
  let x1 := s01 + s11
  let x3 := s01 - s11
  let x0 := x0 + 4#32 + 1024#32
  let x2 := x2 + 4#32 + 1024#32
  [[stbiClamp ((x0 + x1).sshiftRight 3), stbiClamp ((x0 - x1).sshiftRight 3)],
   [stbiClamp ((x2 + x3).sshiftRight 3), stbiClamp ((x2 - x3).sshiftRight 3)]]

/-- idct.rs:555-565 `dequantize_and_idct_block_1x1`, the sample produced. -/
def idct1x1 (c : List Int) (q : List Nat) : UInt8 :=
  stbiClamp ((dequant (coef c 0) (quant q 0) + 1024#32).sdiv 8#32)

/-- idct.rs:512-515, 547-552: `output[i] = v` for each pair in turn. -/
def writeCells : List (Nat × UInt8) → List (Option UInt8) → Except Fail (List (Option UInt8))
  | [], out => .ok out
  | (i, v) :: cells, out =>
    if i < out.length then writeCells cells (out.set i (some v)) else .error (.panic .index)

/-- idct.rs:512-515, 547-552: the writes of the rows of a reduced block (of each row of four the first, the
last and then the middle two). -/
def reducedCells (stride : Nat) : Nat → List (List UInt8) → List (Nat × UInt8)
  | _, [] => []
  | i, [a, b, c, d] :: rows =>
    (i * stride, a) :: (i * stride + 3, d) :: (i * stride + 1, b) :: (i * stride + 2, c) ::
      reducedCells stride (i + 1) rows
  | i, [a, b] :: rows => (i * stride, a) :: (i * stride + 1, b) :: reducedCells stride (i + 1) rows
  | i, _ :: rows => reducedCells stride (i + 1) rows

/-- idct.rs:206-240 `dequantize_and_idct_block`. -/
def idctBlock (cfg : Cfg) (scale : Nat) (c : List Int) (q : List Nat) (stride : Nat)
    (out : List (Option UInt8)) : Except Fail (List (Option UInt8)) :=
  match scale with
  | 8 => dequantizeAndIdct cfg c q stride out
  | 4 => writeCells (reducedCells stride 0 (idct4x4 c q)) out
  | 2 => writeCells (reducedCells stride 0 (idct2x2 c q)) out
  | 1 => writeCells [(0, idct1x1 c q)] out
  | _ => .error (.panic .idctScale)

end Jpeg
