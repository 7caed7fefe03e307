import Verif.Spec.RepoImages
import Verif.Props.AnyPieces
/-!
# The repository's tests with partial reads, for all read patterns (C83, C84)

tests/test.rs runs the decoders over random sequences of reads (quickcheck) and compares with expected bytes. The
configuration is that of `cargo test`: debug assertions, no `rayon`.
-/

namespace Jpeg
open Spec Tests

/-- The configuration of `cargo test`. -/
def testCfg : Cfg := ⟨true, false⟩

/-- The bytes tests/test.rs:57-66 expects for green.jpg. -/
def expectedGreen : List UInt8 := (List.replicate (16 * 8) [35, 177, 77]).flatten

/-- Row `k` of an image with `n` bytes in a row. -/
def Spec.imageRow (n : Nat) (image : List UInt8) (k : Nat) : List UInt8 := (image.drop (k * n)).take n

private def isOk (r : Except Fail (List UInt8)) (p : List UInt8 → Bool) : Bool :=
  match r with
  | .ok image => p image
  | .error _ => false

private theorem of_isOk {r : Except Fail (List UInt8)} {p : List UInt8 → Bool} (h : isOk r p = true) :
    ∃ image, r = .ok image ∧ p image = true := by
  cases r with
  | ok image => exact ⟨image, rfl, h⟩
  | error f => cases h

/-- Whether the bytes of a DRI marker occur. -/
private def hasDri : List UInt8 → Bool
  | a :: b :: l => (a == 0xFF && b == 0xDD) || hasDri (b :: l)
  | _ => false

private theorem hasDri_sound {l : List UInt8} (h : hasDri l = false) : ¬ ([0xFF, 0xDD] : List UInt8) <:+: l := by
  rintro ⟨a, b, rfl⟩
  induction a with
  | nil => simp [hasDri] at h
  | cons x a ih =>
    refine ih ?_
    cases a with
    | nil => simp [hasDri] at h
    | cons y a =>
      simp only [List.cons_append, hasDri, Bool.or_eq_false_iff] at h ⊢
      exact h.2

set_option maxRecDepth 100000 in
private theorem green_image : isOk (decode testCfg green) (fun image => image == expectedGreen) = true := by decide +kernel

set_option maxRecDepth 100000 in
private theorem simple_image : isOk (decode testCfg simple) (fun image =>
    (List.range 8).all (fun k => imageRow 99 image (2 * k) == imageRow 99 expectedSimple (2 * k)) &&
    imageRow 99 image 1 != imageRow 99 expectedSimple 1) = true := by
  decide +kernel

set_option maxRecDepth 100000 in
private theorem vertical_image : isOk (decode testCfg vertical) (fun image =>
    (List.range 17).all (fun k => imageRow 48 image (2 * k) == imageRow 48 expectedVertical (2 * k)) &&
    imageRow 48 image 1 != imageRow 48 expectedVertical 1) = true := by
  decide +kernel

set_option maxRecDepth 100000 in
private theorem green_plain : NoEobRuns testCfg green ∧ ¬ ([0xFF, 0xDD] : List UInt8) <:+: green :=
  ⟨noEobRuns_of_check (by decide +kernel), hasDri_sound (by decide +kernel)⟩

set_option maxRecDepth 100000 in
private theorem simple_plain : NoEobRuns testCfg simple ∧ ¬ ([0xFF, 0xDD] : List UInt8) <:+: simple :=
  ⟨noEobRuns_of_check (by decide +kernel), hasDri_sound (by decide +kernel)⟩

/-- **C84** (part, `green_basic`). -/
theorem C84_green_partial : decode testCfg green = .ok expectedGreen := by
  obtain ⟨image, h1, h2⟩ := of_isOk green_image
  rw [h1, eq_of_beq h2]

/-- **C83** (`partial_async_read_green`, for every sequence of reads). -/
theorem C83_green_async (reads : List PollRead) (hs : Steady reads) (hf : (piecesOf reads).flatten = green) :
    Codec.new.collect testCfg reads = ([expectedGreen], .finished) :=
  C83_async testCfg green expectedGreen C84_green_partial green_plain.2 green_plain.1 reads hs hf

/-- **C83** (`partial_sync_read_green`, for every sequence of reads and errors in between). -/
theorem C83_green_sync (reads : List ReadResult) (hne : NoEmptyRead reads) (hf : dataOf reads = green) (n : Nat)
    (hn : errorsOf reads ≤ n) :
    ∃ r rest, ReadDecoder.new.retry testCfg n reads = (.image (.ok expectedGreen) r, rest) := by
  obtain ⟨r, rest, h, -⟩ := C83_sync testCfg green expectedGreen C84_green_partial green_plain.2 green_plain.1 reads hne hf n hn
  exact ⟨r, rest, h⟩

/-- **C84** (violated: `simple_basic`, `partial_async_read_simple`, `partial_sync_read_simple`, `simple_partial`). For
every sequence of reads the image is the same, it agrees with the expected bytes in every even row, and its row 1
does not (C33). -/
theorem C84_simple_violated : ∃ image, decode testCfg simple = .ok image ∧
    (∀ k < 8, imageRow 99 image (2 * k) = imageRow 99 expectedSimple (2 * k)) ∧
    imageRow 99 image 1 ≠ imageRow 99 expectedSimple 1 ∧ image ≠ expectedSimple ∧
    (∀ reads : List PollRead, Steady reads → (piecesOf reads).flatten = simple →
      Codec.new.collect testCfg reads = ([image], .finished)) ∧
    (∀ (reads : List ReadResult) (n : Nat), NoEmptyRead reads → dataOf reads = simple → errorsOf reads ≤ n →
      ∃ r rest, ReadDecoder.new.retry testCfg n reads = (.image (.ok image) r, rest)) := by
  obtain ⟨image, h1, h2⟩ := of_isOk simple_image
  rw [Bool.and_eq_true, List.all_eq_true] at h2
  have hne : imageRow 99 image 1 ≠ imageRow 99 expectedSimple 1 := by simpa using h2.2
  refine ⟨image, h1, fun k hk => eq_of_beq (h2.1 k (List.mem_range.2 hk)), hne, fun h => hne (by rw [h]), ?_, ?_⟩
  · intro reads hs hf
    exact C83_async testCfg simple image h1 simple_plain.2 simple_plain.1 reads hs hf
  · intro reads n hne hf hn
    obtain ⟨r, rest, h, -⟩ := C83_sync testCfg simple image h1 simple_plain.2 simple_plain.1 reads hne hf n hn
    exact ⟨r, rest, h⟩

/-- **C84** (violated: `simple_vertical_combine`). -/
theorem C84_vertical_violated : ∃ image, decode testCfg vertical = .ok image ∧
    (∀ k < 17, imageRow 48 image (2 * k) = imageRow 48 expectedVertical (2 * k)) ∧ image ≠ expectedVertical := by
  obtain ⟨image, h1, h2⟩ := of_isOk vertical_image
  rw [Bool.and_eq_true, List.all_eq_true] at h2
  have hne : imageRow 48 image 1 ≠ imageRow 48 expectedVertical 1 := by simpa using h2.2
  exact ⟨image, h1, fun k hk => eq_of_beq (h2.1 k (List.mem_range.2 hk)), fun h => hne (by rw [h])⟩

/-- Cases: the reads of `simple_partial` (all but the end, then the rest); single bytes. -/
example : Steady [.data (green.take 300), .pending, .data (green.drop 300)] ∧
    (piecesOf [.data (green.take 300), .pending, .data (green.drop 300)]).flatten = green := by
  constructor
  · constructor <;> decide +kernel
  · decide +kernel

end Jpeg
