import Verif.Proofs.Release
import Verif.Props.Panics
/-!
# Builds with and without overflow checks (C53)
-/

namespace Jpeg
open Spec Sample

/-- **C53**. On any decoder and any input, a build with overflow checks and debug assertions either stops
in one of these checks, or does exactly what a release build does: same result, same decoder afterwards. -/
theorem C53_builds_agree (rayon : Bool) (d : Decoder) (file : List UInt8) :
    (∃ (p : PanicSite) (d' : Decoder), p.Checked ∧ d.decode ⟨true, rayon⟩ file = .fail (.panic p) d') ∨
    d.decode ⟨true, rayon⟩ file = d.decode ⟨false, rayon⟩ file := by
  rcases decode_agree (r := rayon) d file with ⟨⟨p, hp⟩, d', h⟩ | h
  · exact .inl ⟨p, d', hp, h⟩
  · exact .inr h

/-- **C53**. So a file that decodes in a checked build decodes to the same image in a release build, and an
error in a checked build is the same error in a release build. -/
theorem C53_image (rayon : Bool) (d d' : Decoder) (file image : List UInt8)
    (h : d.decode ⟨true, rayon⟩ file = .ok image d') : d.decode ⟨false, rayon⟩ file = .ok image d' := by
  rcases C53_builds_agree rayon d file with ⟨p, d'', _, e⟩ | e
  · rw [e] at h; cases h
  · rw [← e, h]

/-- **C53**, errors. -/
theorem C53_error (rayon : Bool) (d d' : Decoder) (file : List UInt8) (f : Fail)
    (hf : ∀ p : PanicSite, p.Checked → f ≠ .panic p)
    (h : d.decode ⟨true, rayon⟩ file = .fail f d') : d.decode ⟨false, rayon⟩ file = .fail f d' := by
  rcases C53_builds_agree rayon d file with ⟨p, d'', hp, e⟩ | e
  · rw [e] at h; cases h; exact absurd rfl (hf p hp)
  · rw [← e, h]

/-- **C53** (the exception is needed). With a length field of 1 the checked build stops, the release build
takes the length for 65535 bytes and reports that the input ends. -/
theorem C53_exception :
    panicOf (decode ⟨true, false⟩ (file [markerBytes .DQT ++ be16 1])) = some .segmentLen ∧
    (match decode ⟨false, false⟩ (file [markerBytes .DQT ++ be16 1]) with
    | .error .eof => true
    | _ => false) = true := by
  constructor <;> decide +kernel

/-- A case of C53: a file that decodes in the checked build. -/
example : (match decode ⟨true, false⟩ (file [quant8, frame 0 8 8 ycc, dc, ac, scan all3 0 63 0, [0]]) with
    | .ok image => image == List.replicate 192 128
    | .error _ => false) = true := by decide +kernel

end Jpeg
