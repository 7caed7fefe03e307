import Verif.Model.Biterator
/-!
# `src/huffman.rs`
-/

namespace Jpeg

/-- huffman.rs:9-12 `TableClass`. -/
inductive TableClass | dc | ac
  deriving DecidableEq, Repr

/-- huffman.rs:15-21 `TableClass::new`. -/
def TableClass.new (b : Nat) : Option TableClass :=
  match b with
  | 0 => some .dc
  | 1 => some .ac
  | _ => none

/-- huffman.rs:24 `LUT_BITS`. -/
def LUT_BITS : Nat := 8

/-- huffman.rs:26-31 `BaseTable`. `lut` entries are `(value, size)`. -/
structure BaseTable where
  values : List UInt8
  maxCode : List Int
  valOffset : List Int
  lut : List (UInt8 × Nat)
  deriving DecidableEq, Repr

/-- huffman.rs:46-49 `AcTable`. `acLut` entries are `(value, run << 4 | size)`. -/
structure AcTable where
  table : BaseTable
  acLut : List (Int × Nat)
  deriving DecidableEq, Repr

/-- huffman.rs:224-234 `huffsize`, the loop over `bits.iter().enumerate()`;
`l` is the index of the head of the list, `acc` the vector built so far. -/
def huffsizeGo : Nat → List UInt8 → List Nat → Except Fail (List Nat)
  | _, [], acc => .ok acc
  | l, value :: rest, acc =>
    if acc.length + value.toNat > 256 then .error (.err .badHuffsize)
    else huffsizeGo (l + 1) rest (acc ++ List.replicate value.toNat (l + 1))

/-- huffman.rs:224-234 `huffsize`. -/
def huffsize (bits : List UInt8) : Except Fail (List Nat) := huffsizeGo 0 bits []

/-- huffman.rs:72-85, the loop assigning codes to sizes. The inner
`while code_size < size { code <<= 1; code_size += 1 }` is one shift by `size - code_size`
(32 bit, like the Rust `u32`); sizes never decrease so the subtraction is exact. -/
def huffcodeGo : List Nat → Nat → Nat → Except Fail (List Nat)
  | [], _, _ => .ok []
  | size :: rest, code, codeSize =>
    let code := (code <<< (size - codeSize)) % 2 ^ 32
    let codeSize := max codeSize size
    if code ≥ 1 <<< codeSize then .error (.err .badHuffCode)
    else
      match huffcodeGo rest (code + 1) codeSize with
      | .error f => .error f
      | .ok codes => .ok (code % 2 ^ 16 :: codes)

/-- huffman.rs:90-99, the loop `for l in 0..16` computing `val_offset` and `max_code`.
`huffcode` is the 256 element array. Returns `(val_offset, max_code)` for the remaining lengths. -/
def offsetsGo (huffcode : List Nat) : List UInt8 → Nat → Except Fail (List (Int × Int))
  | [], _ => .ok []
  | n :: rest, p =>
    if n.toNat ≠ 0 then
      match huffcode[p]?, huffcode[p + n.toNat - 1]? with
      | some first, some last =>
        match offsetsGo huffcode rest (p + n.toNat) with
        | .error f => .error f
        | .ok l => .ok (((p : Int) - (first : Int), (last : Int)) :: l)
      | _, _ => .error (.panic .index)
    else
      match offsetsGo huffcode rest p with
      | .error f => .error f
      | .ok l => .ok ((0, -1) :: l)

/-- huffman.rs:111-113 `for slot in &mut table.lut[start..start + len] { *slot = v }`. -/
def fillSlots {α : Type} (lut : List α) (start len : Nat) (v : α) : Except Fail (List α) :=
  if lut.length < start + len then .error (.panic .index)
  else .ok (lut.take start ++ List.replicate len v ++ lut.drop (start + len))

/-- huffman.rs:102-114, building the lookup table; `i` is the index of the head of `sizes`. -/
def lutGo (huffcode : List Nat) (values : List UInt8) :
    Nat → List Nat → List (UInt8 × Nat) → Except Fail (List (UInt8 × Nat))
  | _, [], lut => .ok lut
  | i, size :: rest, lut =>
    if size ≤ LUT_BITS then
      let bitsRemaining := LUT_BITS - size
      match huffcode[i]?, values[i]? with
      | some c, some v =>
        let start := (c <<< bitsRemaining) % 2 ^ 16
        match fillSlots lut start (1 <<< bitsRemaining) (v, size) with
        | .error f => .error f
        | .ok lut => lutGo huffcode values (i + 1) rest lut
      | _, _ => .error (.panic .index)
    else lutGo huffcode values (i + 1) rest lut

/-- huffman.rs:61-117 `BaseTable::new`. `bits` has 16 elements (`&[u8; 16]`). -/
def BaseTable.new (cfg : Cfg) (bits : List UInt8) (values : List UInt8) : Except Fail BaseTable :=
  if cfg.debug ∧ 256 < values.length then .error (.panic .tooManyValues)
  else
    match huffsize bits with
    | .error f => .error f
    | .ok sizes =>
      match sizes with
      | [] => .error (.panic .emptyHuffman)
      | size0 :: _ =>
        match huffcodeGo sizes 0 size0 with
        | .error f => .error f
        | .ok codes =>
          let huffcode := codes ++ List.replicate (256 - codes.length) 0
          if 256 < values.length then .error (.panic .index)
          else
            match offsetsGo huffcode bits 0 with
            | .error f => .error f
            | .ok offs =>
              match lutGo huffcode values 0 sizes (List.replicate (2 ^ LUT_BITS) (0, 0)) with
              | .error f => .error f
              | .ok lut =>
                .ok { values := values ++ List.replicate (256 - values.length) 0
                      valOffset := offs.map Prod.fst
                      maxCode := offs.map Prod.snd
                      lut := lut }

/-- huffman.rs:149-158, the loop `for i in LUT_BITS..16`; `fuel` counts the remaining rounds
(`i + fuel = 16`). `bits` is the 16 bit window. -/
def searchGo (t : BaseTable) (bits : Nat) : Nat → Nat → Biterator → Out Biterator UInt8
  | 0, _, s => .fail .unit s
  | fuel + 1, i, s =>
    let code : Int := ((bits >>> (15 - i) : Nat) : Int)
    match t.maxCode[i]? with
    | none => .fail (.panic .index) s
    | some m =>
      if code ≤ m then
        (s.consumeBits (i + 1)).bind fun _ s =>
        match t.valOffset[i]? with
        | none => .fail (.panic .index) s
        | some off =>
          let index := code + off
          -- `as usize` of a negative i32 is a huge index
          if index < 0 then .fail (.panic .index) s
          else
            match t.values[index.toNat]? with
            | none => .fail (.panic .index) s
            | some v => .ok v s
      else searchGo t bits fuel (i + 1) s

/-- huffman.rs:135-161 `decode_inner`. -/
def BaseTable.decodeInner (t : BaseTable) (s : Biterator) (lutPeek : Nat) : Out Biterator UInt8 :=
  match t.lut[lutPeek]? with
  | none => .fail (.panic .index) s
  | some (value, size) =>
    if size > 0 then
      (s.consumeBits size).bind fun _ s => .ok value s
    else
      (Out.ofExcept (s.peekBits 16) s).bind fun bits s =>
      searchGo t bits (16 - LUT_BITS) LUT_BITS s

/-- huffman.rs:126-128 and 200-204: `if input.count() < 16 { input.fill_bits()? }`. -/
def Biterator.ensure16 (s : Biterator) : Out Biterator Unit :=
  if s.count < 16 then s.fillBits else .ok () s

/-- huffman.rs:120-132 `decode`. -/
def BaseTable.decode (t : BaseTable) (s : Biterator) : Out Biterator UInt8 :=
  s.ensure16.bind fun _ s =>
  (Out.ofExcept (s.peekBits LUT_BITS) s).bind fun lutPeek s =>
  t.decodeInner s lutPeek

/-- huffman.rs:164-168 `AcResult` (its `Err` is `Out.fail .unit`). -/
inductive AcResult
  | fast (value : Int) (run : Nat)
  | normal (byte : UInt8)
  deriving DecidableEq, Repr

/-- huffman.rs:176-188: one entry of the fast AC table. -/
def acEntry (i : Nat) (e : UInt8 × Nat) : Int × Nat :=
  let (value, size) := e
  let runLength := value.toNat >>> 4
  let magnitude := value.toNat &&& 0x0f
  if magnitude > 0 ∧ size + magnitude ≤ LUT_BITS then
    let unextended := ((i <<< size) &&& ((1 <<< LUT_BITS) - 1)) >>> (LUT_BITS - magnitude)
    (extend unextended magnitude, (runLength <<< 4) ||| (size + magnitude))
  else (0, 0)

/-- huffman.rs:171-191 `AcTable::new`. -/
def AcTable.new (cfg : Cfg) (bits : List UInt8) (values : List UInt8) : Except Fail AcTable :=
  match BaseTable.new cfg bits values with
  | .error f => .error f
  | .ok table => .ok { table, acLut := table.lut.mapIdx acEntry }

/-- huffman.rs:194-221 `decode_fast_ac`. -/
def AcTable.decodeFastAc (t : AcTable) (s : Biterator) : Out Biterator AcResult :=
  s.ensure16.bind fun _ s =>
  (Out.ofExcept (s.peekBits LUT_BITS) s).bind fun lutPeek s =>
  match t.acLut[lutPeek]? with
  | none => .fail (.panic .index) s
  | some (value, runSize) =>
    if runSize ≠ 0 then
      let run := runSize >>> 4
      let size := runSize &&& 0x0f
      (s.consumeBits size).bind fun _ s => .ok (.fast value run) s
    else
      (t.table.decodeInner s lutPeek).bind fun b s => .ok (.normal b) s

end Jpeg
