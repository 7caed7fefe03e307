import Verif.Model.State
/-!
# Decoding one block and one MCU (`Decoder::decode_block`, `Decoder::decode_row`)
-/

namespace Jpeg

/-- lib.rs:1097 `wrapping_add`: `i16` wrap-around. -/
def wrapI16 (x : Int) : Int := x.bmod (2 ^ 16)

/-- lib.rs:1098, 1163: `x << n` on `i16` (`n < 16`). -/
def shlI16 (x : Int) (n : Nat) : Int := wrapI16 (x * 2 ^ n)

/-- lib.rs:1062-1070: what `decode_block` mutates: the bit reader, `*eob_run`, `*dc_predictor`, `coefficients`. -/
structure BlockSt where
  bi : Biterator
  eobRun : Nat
  dcPred : Int
  coeffs : List Int
  deriving DecidableEq, Repr

/-- lib.rs:1067: run a bit reader operation on the block state. -/
def liftBi {α : Type} (op : Biterator → Out Biterator α) (s : BlockSt) : Out BlockSt α :=
  match op s.bi with
  | .ok a bi => .ok a { s with bi }
  | .fail f bi => .fail f { s with bi }

/-- lib.rs:1079, 1092, 1150-1152: `.map_err(|()| end_of_input())`; panics pass through. -/
def toEof : Fail → Fail
  | .unit => .eof
  | f => f

/-- lib.rs:1142: `.map_err(|()| message("out of bits"))`. -/
def toOutOfBits : Fail → Fail
  | .unit => .err .outOfBits
  | f => f

/-- lib.rs:1076-1099, the DC part of `decode_block`. -/
def decodeDc (scan : Scan) (dc : BaseTable) (s : BlockSt) : Out BlockSt Unit :=
  if scan.ss = 0 then
    ((liftBi dc.decode s).mapErr toEof).bind fun value s =>
    (if value = 0 then .ok 0 s
     else if value.toNat > 11 then .fail (.err .dcCategory) s
     else (liftBi (·.receiveExtend value.toNat) s).mapErr toEof).bind fun diff s =>
    let pred := wrapI16 (s.dcPred + diff)
    .ok () { s with dcPred := pred, coeffs := s.coeffs.set 0 (shlI16 pred scan.al) }
  else .ok () s

/-- lib.rs:1162-1164: `step!(run); write(value << low_approximation); step!(1)`. `index` and `last`
are the fields of `UnZigZag` (lib.rs:416-440); `step` moves `index` on and leaves the loop when it
exceeds `last`. The result is the next index, or `none` when the loop is left. -/
def acPut (scan : Scan) (last index run : Nat) (value : Int) (s : BlockSt) :
    Out BlockSt (Option Nat) :=
  if index + run ≤ last then
    match unzigzag s.coeffs (index + run) (shlI16 value scan.al) with
    | .error f => .fail f s
    | .ok coeffs =>
      .ok (if index + run + 1 ≤ last then some (index + run + 1) else none) { s with coeffs }
  else .ok none s

/-- lib.rs:1124-1165, one round of the AC loop. -/
def acRound (scan : Scan) (ac : AcTable) (last index : Nat) (s : BlockSt) :
    Out BlockSt (Option Nat) :=
  ((liftBi ac.decodeFastAc s).mapErr toEof).bind fun r s =>
  match r with
  | .fast value run => acPut scan last index run value s
  | .normal byte =>
    let r := byte.toNat >>> 4
    let sz := byte.toNat &&& 0x0f
    if sz = 0 then
      if r = 15 then
        -- step!(16); continue
        .ok (if index + 16 ≤ last then some (index + 16) else none) s
      else
        let s := { s with eobRun := (1 <<< r) - 1 }
        if r > 0 then
          ((liftBi (·.nextBits r) s).mapErr toOutOfBits).bind fun v s =>
          .ok none { s with eobRun := s.eobRun + v }
        else .ok none s
    else
      ((liftBi (·.receiveExtend sz) s).mapErr toEof).bind fun value s =>
      acPut scan last index r value s

/-- lib.rs:1124-1165, the AC loop. Each round moves `index` on or leaves the loop, `fuel` bounds the
number of rounds. -/
def decodeAcGo (scan : Scan) (ac : AcTable) (last : Nat) : Nat → Nat → BlockSt → Out BlockSt Unit
  | 0, _, s => .fail (.panic .fuel) s
  | fuel + 1, index, s =>
    (acRound scan ac last index s).bind fun next s =>
    match next with
    | some index => decodeAcGo scan ac last fuel index s
    | none => .ok () s

/-- lib.rs:1062-1169 `decode_block`. -/
def decodeBlock (scan : Scan) (dc : BaseTable) (ac : AcTable) (s : BlockSt) : Out BlockSt Unit :=
  (decodeDc scan dc s).bind fun _ s =>
  let index := max scan.ss 1
  let last := min scan.se 63
  if index ≤ last ∧ s.eobRun > 0 then .ok () { s with eobRun := s.eobRun - 1 }
  else if index < last then decodeAcGo scan ac last 64 index s
  else .ok () s

/-- lib.rs:1018-1044: what one component of `decode_row` mutates: the bit reader, `eob_run`, its DC predictor, and the
blocks decoded so far in this MCU (the blocks already taken from `row_coefficients`). -/
structure RowSt where
  bi : Biterator
  eobRun : Nat
  dcPred : Int
  done : List (List Int)
  deriving DecidableEq, Repr

/-- lib.rs:1032-1055: `for coefficients in (&mut row_coefficients).take(blocks_per_mcu)`.
The iterator yields at most `MAX_BLOCKS_IN_MCU` blocks per MCU and then simply stops. -/
def decodeBlocks (scan : Scan) (dc : BaseTable) (ac : AcTable) : Nat → RowSt → Out RowSt Unit
  | 0, s => .ok () s
  | n + 1, s =>
    if s.done.length < MAX_BLOCKS_IN_MCU then
      match decodeBlock scan dc ac ⟨s.bi, s.eobRun, s.dcPred, zeroBlock⟩ with
      | .ok () b => decodeBlocks scan dc ac n ⟨b.bi, b.eobRun, b.dcPred, s.done ++ [b.coeffs]⟩
      | .fail f b => .fail f ⟨b.bi, b.eobRun, b.dcPred, s.done ++ [b.coeffs]⟩
    else .ok () s

/-- lib.rs:1004-1022: what `decode_row` mutates besides the predictors. -/
structure McuSt where
  bi : Biterator
  eobRun : Nat
  preds : List Int
  done : List (List Int)
  deriving DecidableEq, Repr

/-- lib.rs:1018-1056: the `izip!` over components, scan headers (by position) and predictors.
`prev` are the predictors of the components already done. -/
def decodeComponents (d : Decoder) (scan : Scan) :
    List Component → List ScanHeader → List Int → McuSt → Out McuSt Unit
  | c :: cs, h :: hs, p :: ps, s =>
    match d.dcTables[h.dcSel]? with
    | none => .fail (.panic .index) { s with preds := s.preds ++ p :: ps }
    | some none => .fail (.panic .missingDc) { s with preds := s.preds ++ p :: ps }
    | some (some dc) =>
      match d.acTables[h.acSel]? with
      | none => .fail (.panic .index) { s with preds := s.preds ++ p :: ps }
      | some none => .fail (.panic .missingAc) { s with preds := s.preds ++ p :: ps }
      | some (some ac) =>
        match decodeBlocks scan dc ac c.blocksPerMcu ⟨s.bi, s.eobRun, p, s.done⟩ with
        | .ok () r =>
          decodeComponents d scan cs hs ps ⟨r.bi, r.eobRun, s.preds ++ [r.dcPred], r.done⟩
        | .fail f r => .fail f ⟨r.bi, r.eobRun, s.preds ++ r.dcPred :: ps, r.done⟩
  | _, _, ps, s => .ok () { s with preds := s.preds ++ ps }

/-- lib.rs:867, 1011-1016: pad the decoded blocks with the untouched zero blocks to the array of ten. -/
def padBlocks (done : List (List Int)) : List (List Int) :=
  done ++ List.replicate (MAX_BLOCKS_IN_MCU - done.length) zeroBlock

/-- lib.rs:995-1059 `decode_row`. On an error the predictors, `eob_run` and the stream (input, bits,
count) are put back (lib.rs:1046-1053); the coefficients are left dirty. A panic unwinds without
roll-back. -/
def decodeRow (s : St) : Out St Unit :=
  match s.dec.scan, s.dec.frame with
  | some scan, some frame =>
    let ss := s.dec.scanState
    match decodeComponents s.dec scan frame.components scan.headers ss.dcPredictors
        ⟨s.bi, ss.eobRun, [], []⟩ with
    | .ok () m =>
      .ok () ⟨{ s.dec with scanState := { ss with
          dcPredictors := m.preds, eobRun := m.eobRun
          mcuRowCoefficients := padBlocks m.done } }, m.bi⟩
    | .fail (.panic p) m =>
      .fail (.panic p) ⟨{ s.dec with scanState := { ss with
          dcPredictors := m.preds, eobRun := m.eobRun
          mcuRowCoefficients := padBlocks m.done } }, m.bi⟩
    | .fail f m =>
      .fail f ⟨{ s.dec with scanState := { ss with mcuRowCoefficients := padBlocks m.done } }, s.bi⟩
  | _, _ => .fail (.panic .noFrame) s

end Jpeg
