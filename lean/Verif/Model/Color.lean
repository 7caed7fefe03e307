import Verif.Model.State
import Verif.Model.Clamp
/-!
# `src/color_conversion.rs`
-/

namespace Jpeg

/-- color_conversion.rs:6-11 `ColorConvertFunc`. -/
inductive ColorConvertFunc | null | ycbcr | ycck | cmyk
  deriving DecidableEq, Repr

/-- color_conversion.rs:25-50 `choose_color_convert_func`. -/
def chooseColorConvert (componentCount : Nat) (ct : Option AdobeColorTransform) :
    Except Fail ColorConvertFunc :=
  match componentCount with
  | 3 => if ct = some .unknown then .ok .null else .ok .ycbcr
  | 4 =>
    match ct with
    | some .unknown => .ok .cmyk
    | some _ => .ok .ycck
    | none => .error (.err .fourComponents)
  | _ => .error (.panic .componentCount)

/-! color_conversion.rs:134-139 `fix!`: `(x * 65536 + 0.5) as i32` evaluated in `f64`. -/
/-- color_conversion.rs:144 `fix!(1.40200)` -/
def FIX_1_402 : Int := 91881
/-- color_conversion.rs:151 `fix!(1.77200)` -/
def FIX_1_772 : Int := 116130
/-- color_conversion.rs:158 `fix!(0.71414)` -/
def FIX_0_71414 : Int := 46802
/-- color_conversion.rs:165 `fix!(0.34414)` -/
def FIX_0_34414 : Int := 22554

/-- color_conversion.rs:141-146 (the 256 entry table holds this function's values). `>>` on `i32` is
the arithmetic shift, i.e. division by `2^16` rounding down; no value here leaves `i32`. -/
def crToR (i : UInt8) : Int := (FIX_1_402 * ((i.toNat : Int) - 128) + 32768) / 65536
/-- color_conversion.rs:148-153 -/
def cbToB (i : UInt8) : Int := (FIX_1_772 * ((i.toNat : Int) - 128) + 32768) / 65536
/-- color_conversion.rs:155-160 -/
def crToG (i : UInt8) : Int := -FIX_0_71414 * ((i.toNat : Int) - 128)
/-- color_conversion.rs:162-167 -/
def cbToG (i : UInt8) : Int := -FIX_0_34414 * ((i.toNat : Int) - 128) + 32768

/-- color_conversion.rs:179-186 `clamp`. The access is `get_unchecked`: leaving the table is
undefined behaviour, here the failure `unchecked`. -/
def clampIdx (x : Int) : Except Fail UInt8 :=
  if x + 256 < 0 then .error (.panic .unchecked)
  else
    match CLAMP_TABLE[(x + 256).toNat]? with
    | none => .error (.panic .unchecked)
    | some b => .ok b

/-- color_conversion.rs:171-188 `ycbcr_to_rgb`. -/
def ycbcrToRgb (y cb cr : UInt8) : Except Fail (UInt8 × UInt8 × UInt8) :=
  let yi : Int := y.toNat
  match clampIdx (yi + crToR cr), clampIdx (yi + (cbToG cb + crToG cr) / 65536),
      clampIdx (yi + cbToB cb) with
  | .ok r, .ok g, .ok b => .ok (r, g, b)
  | .error f, _, _ => .error f
  | _, .error f, _ => .error f
  | _, _, .error f => .error f

/-- color_conversion.rs:57-65: `izip!(data.chunks_exact_mut(3), y, cb, cr)`. -/
def ycbcrGo : List UInt8 → List UInt8 → List UInt8 → List UInt8 → Except Fail (List UInt8)
  | _ :: _ :: _ :: data, y :: ys, cb :: cbs, cr :: crs =>
    match ycbcrToRgb y cb cr with
    | .error f => .error f
    | .ok (r, g, b) =>
      match ycbcrGo data ys cbs crs with
      | .error f => .error f
      | .ok rest => .ok (r :: g :: b :: rest)
  | data, _, _, _ => .ok data

/-- color_conversion.rs:71-81: `izip!(data.chunks_exact_mut(4), y, cb, cr)`. -/
def ycckGo : List UInt8 → List UInt8 → List UInt8 → List UInt8 → Except Fail (List UInt8)
  | _ :: _ :: _ :: k :: data, y :: ys, cb :: cbs, cr :: crs =>
    match ycbcrToRgb y cb cr with
    | .error f => .error f
    | .ok (r, g, b) =>
      match ycckGo data ys cbs crs with
      | .error f => .error f
      | .ok rest => .ok (r :: g :: b :: (255 - k) :: rest)
  | data, _, _, _ => .ok data

/-- color_conversion.rs:87-93. -/
def cmykGo : List UInt8 → List UInt8 → List UInt8 → List UInt8 → List UInt8 → List UInt8
  | _ :: _ :: _ :: _ :: data, c :: cs, m :: ms, y :: ys, k :: ks =>
    (255 - c) :: (255 - m) :: (255 - y) :: (255 - k) :: cmykGo data cs ms ys ks
  | data, _, _, _, _ => data

/-- color_conversion.rs:15-22 `ColorConvertFunc::convert` with 52-94: the new contents of the output
line `data`. `fixed_slice!` panics unless the number of input lines is as expected. -/
def ColorConvertFunc.convert (f : ColorConvertFunc) (data : List UInt8)
    (input : List (List UInt8)) : Except Fail (List UInt8) :=
  match f with
  | .null => .ok data
  | .ycbcr =>
    match input with
    | [y, cb, cr] => ycbcrGo data y cb cr
    | _ => .error (.panic .fixedSlice)
  | .ycck =>
    match input with
    | [y, cb, cr] => ycckGo data y cb cr
    | _ => .error (.panic .fixedSlice)
  | .cmyk =>
    match input with
    | [c, m, y, k] => .ok (cmykGo data c m y k)
    | _ => .error (.panic .fixedSlice)

end Jpeg
