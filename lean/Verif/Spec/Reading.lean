import Verif.Spec.Baseline
/-!
# Specification: reading entropy coded data (T.81 F.2.2)

The decoding procedures of the standard as functions on bit strings, for arbitrary bits. Nothing here refers to
the decoder.
-/

namespace Jpeg.Spec

/-- The result of reading from a bit string. -/
inductive Reading (α : Type)
  /-- a value, and the bits behind it -/
  | value (a : α) (rest : List Bool)
  /-- the bits begin with no code word, or with the code word of a DC category above 11 -/
  | invalid
  /-- an AC symbol the standard reserves (end-of-band runs, which belong to progressive scans) -/
  | reserved
  /-- the bits end before the value does -/
  | short
  deriving DecidableEq, Repr

namespace Reading

/-- First one value, then another from the bits behind it. -/
def bind {α β : Type} : Reading α → (α → List Bool → Reading β) → Reading β
  | .value a rest, k => k a rest
  | .invalid, _ => .invalid
  | .reserved, _ => .reserved
  | .short, _ => .short

end Reading

/-- DECODE (F.2.2.3): the symbol whose code word the bits begin with. No code word has more than 16 bits. -/
def Code.read (c : Code) (bits : List Bool) : Reading Nat :=
  match (List.range (codeSizes c.counts).length).find? fun k => codeWord (codeSizes c.counts) k <+: bits with
  | some k =>
    match c.values[k]? with
    | some v => .value v.toNat (bits.drop (codeWord (codeSizes c.counts) k).length)
    | none => .invalid
  | none => if bits.length < 16 then .short else .invalid

/-- RECEIVE (F.2.2.4) and EXTEND (F.2.2.1): a value of category `s` from its additional bits. -/
def receiveExtend (s : Nat) (bits : List Bool) : Reading Int :=
  if bits.length < s then .short else .value (extendT81 (natOfBits (bits.take s)) s) (bits.drop s)

/-- A DC difference (F.2.2.1). -/
def readDc (c : Code) (bits : List Bool) : Reading Int :=
  (c.read bits).bind fun s bits =>
  if s = 0 then .value 0 bits
  else if 11 < s then .invalid
  else receiveExtend s bits

/-- `n` AC coefficients in zig-zag order (F.2.2.2). Runs past the last coefficient end the block (see `AcBits`). -/
def readAc (c : Code) : Nat → List Bool → Reading (List Int)
  | 0, bits => .value [] bits
  | n + 1, bits =>
    (c.read bits).bind fun rs bits =>
    if rs % 16 = 0 then
      if rs / 16 = 0 then .value (List.replicate (n + 1) 0) bits
      else if rs / 16 = 15 then
        if n + 1 ≤ 16 then .value (List.replicate (n + 1) 0) bits
        else (readAc c (n + 1 - 16) bits).bind fun l bits => .value (List.replicate 16 0 ++ l) bits
      else .reserved
    else
      (receiveExtend (rs % 16) bits).bind fun v bits =>
      if n + 1 ≤ rs / 16 then .value (List.replicate (n + 1) 0) bits
      else (readAc c (n - rs / 16) bits).bind fun l bits => .value (List.replicate (rs / 16) 0 ++ v :: l) bits

/-- `n` blocks of one component; `p` is the DC value before them. With the DC value of the last one. -/
def readBlocks (cd ca : Code) : Nat → Int → List Bool → Reading (List BlockData × Int)
  | 0, p, bits => .value ([], p) bits
  | n + 1, p, bits =>
    (readDc cd bits).bind fun diff bits =>
    (readAc ca 63 bits).bind fun zz bits =>
    (readBlocks cd ca n (wrap16 (p + diff)) bits).bind fun bs bits =>
    .value (⟨wrap16 (p + diff), zz⟩ :: bs.1, bs.2) bits

/-- An MCU of components with these codes, numbers of blocks, and preceding DC values. -/
def readMcu : List (Code × Code) → List Nat → List Int → List Bool → Reading (Mcu × List Int)
  | code :: codes, n :: ns, p :: ps, bits =>
    (readBlocks code.1 code.2 n p bits).bind fun bs bits =>
    (readMcu codes ns ps bits).bind fun m bits =>
    .value (bs.1 :: m.1, bs.2 :: m.2) bits
  | _, _, ps, bits => .value ([], ps) bits

/-- That many MCUs. -/
def readMcus (codes : List (Code × Code)) (ns : List Nat) : Nat → List Int → List Bool → Reading (List Mcu)
  | 0, _, bits => .value [] bits
  | count + 1, ps, bits =>
    (readMcu codes ns ps bits).bind fun m bits =>
    (readMcus codes ns count m.2 bits).bind fun ms bits =>
    .value (m.1 :: ms) bits

/-- A restart interval: predictors start at zero. -/
def readInterval (codes : List (Code × Code)) (ns : List Nat) (count : Nat) (data : List UInt8) :
    Reading (List Mcu) :=
  readMcus codes ns count (List.replicate codes.length 0) (bitsOf data)

/-- `bytes` are the data of restart intervals, with the restart markers between them, the first of them RST`j` (mod 8),
in front of `tail`. Markers may be preceded by fill bytes. -/
inductive Chunks (tail : List UInt8) : Nat → List (List UInt8) → List UInt8 → Prop
  | last {j data} : Chunks tail j [data] (stuff data ++ tail)
  | cons {j data rest bytes} (k : Nat) : Chunks tail (j + 1) rest bytes →
      Chunks tail j (data :: rest)
        (stuff data ++ (List.replicate k 0xFF ++ 0xFF :: UInt8.ofNat (0xD0 + j % 8) :: bytes))

end Jpeg.Spec
