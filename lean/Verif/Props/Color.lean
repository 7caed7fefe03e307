import Verif.Proofs.Color
/-!
# C26, C27, C28: colour conversion
-/

namespace Jpeg
open Spec

/-- **C26.** For all 2^24 triples the three unchecked table accesses are in range (the model fails
otherwise) and give the three sums, saturated. -/
theorem C26_in_range (y cb cr : UInt8) : ∃ r g b : Int,
    r = y.toNat + crToR cr ∧ g = y.toNat + (cbToG cb + crToG cr) / 65536 ∧ b = y.toNat + cbToB cb ∧
    (0 ≤ r + 256 ∧ r + 256 < 1024) ∧ (0 ≤ g + 256 ∧ g + 256 < 1024) ∧ (0 ≤ b + 256 ∧ b + 256 < 1024) ∧
    ycbcrToRgb y cb cr = .ok (saturate r, saturate g, saturate b) := by
  obtain ⟨⟨r1, r2⟩, ⟨g1, g2⟩, ⟨b1, b2⟩⟩ := sums_range y cb cr
  exact ⟨redSum y cb cr, greenSum y cb cr, blueSum y cb cr, rfl, rfl, rfl, by omega, by omega, by omega,
    ycbcrToRgb_eq y cb cr⟩

/-- **C26** (no 32 bit overflow). The products and sums of the tables stay far inside an `i32`. -/
theorem C26_no_overflow (cb cr : UInt8) (x : Int) (h : x ∈ [FIX_1_402 * ((cr.toNat : Int) - 128) + 32768,
    FIX_1_772 * ((cb.toNat : Int) - 128) + 32768, crToG cr, cbToG cb, cbToG cb + crToG cr]) :
    -2 ^ 31 ≤ x ∧ x < 2 ^ 31 := by
  have := cb.toNat_lt
  have := cr.toNat_lt
  simp only [List.mem_cons, List.not_mem_nil, or_false, FIX_1_402, FIX_1_772, crToG, cbToG,
    FIX_0_71414, FIX_0_34414] at h
  omega

/-- **C26** (a whole line). A line of `w` pixels is converted pixel by pixel, in order; the lines of
the components may be longer. -/
theorem C26_line (w : Nat) (data y cb cr : List UInt8) (hd : data.length = 3 * w) (h1 : w ≤ y.length)
    (h2 : w ≤ cb.length) (h3 : w ≤ cr.length) :
    ∃ out, ColorConvertFunc.ycbcr.convert data [y, cb, cr] = .ok out ∧ out.length = 3 * w ∧
      ∀ i, i < w → ∃ r g b, ycbcrToRgb (y.getD i 0) (cb.getD i 0) (cr.getD i 0) = .ok (r, g, b) ∧
        out[3 * i]? = some r ∧ out[3 * i + 1]? = some g ∧ out[3 * i + 2]? = some b := by
  have h := ycbcrGo_eq w data y cb cr hd h1 h2 h3
  refine ⟨_, h, ?_, ?_⟩
  · rw [ycbcrGo_length _ _ _ _ _ h, hd]
  · intro i hi
    refine ⟨_, _, _, ycbcrToRgb_eq _ _ _, ?_⟩
    clear h hd h1 h2 h3
    have key : ∀ (f : Nat → List UInt8), (∀ i, (f i).length = 3) → ∀ n i j, i < n → j < 3 →
        ((List.range n).flatMap f)[3 * i + j]? = (f i)[j]? := by
      intro f hf n
      induction n generalizing f with
      | zero => intro i j h; omega
      | succ n ih =>
        intro i j hi hj
        rw [List.range_succ_eq_map, List.flatMap_cons, List.flatMap_map]
        rcases i with _ | i
        · rw [List.getElem?_append_left (by rw [hf]; omega)]; simp
        · rw [List.getElem?_append_right (by rw [hf]; omega), hf,
            show 3 * (i + 1) + j - 3 = 3 * i + j by omega]
          exact ih (fun i => f (i + 1)) (fun i => hf _) i j (by omega) hj
    have k := key (fun i => rgbPixel (y.getD i 0) (cb.getD i 0) (cr.getD i 0)) (fun _ => rfl) w i
    exact ⟨k 0 hi (by omega), k 1 hi (by omega), k 2 hi (by omega)⟩

example : ycbcrToRgb 255 0 255 = .ok (255, 208, 28) ∧ ycbcrToRgb 0 255 0 = .ok (0, 48, 225) := by
  decide +kernel

/-- **C27.** For all triples every channel is within 1/2 + 1/500 of the BT.601 value limited to
0..255. -/
theorem C27_accuracy (y cb cr : UInt8) : ∃ r g b, ycbcrToRgb y cb cr = .ok (r, g, b) ∧
    |(r.toNat : ℚ) - limit (bt601R y cb cr)| ≤ 1 / 2 + 1 / 500 ∧
    |(g.toNat : ℚ) - limit (bt601G y cb cr)| ≤ 1 / 2 + 1 / 500 ∧
    |(b.toNat : ℚ) - limit (bt601B y cb cr)| ≤ 1 / 2 + 1 / 500 := by
  refine ⟨_, _, _, ycbcrToRgb_eq y cb cr, ?_, ?_, ?_⟩ <;> rw [saturate_limit]
  · exact (limit_lip _ _).trans (red_error y cb cr)
  · exact (limit_lip _ _).trans (green_error y cb cr)
  · exact (limit_lip _ _).trans (blue_error y cb cr)

/-- **C27** (greys). Neutral chroma keeps the luma. -/
theorem C27_grey (y : UInt8) : ycbcrToRgb y 128 128 = .ok (y, y, y) := by
  have h : ∀ v : Int, v = y.toNat → saturate v = y := by
    intro v hv
    have := y.toNat_lt
    unfold saturate
    rw [if_neg (by omega), if_neg (by omega), hv, Int.toNat_natCast]
    simp
  rw [ycbcrToRgb_eq, h _ (by simp [redSum]), h _ (by simp [greenSum]), h _ (by simp [blueSum])]

/-- **C27** (monotone). A brighter luma never gives a darker channel. -/
theorem C27_monotone (y y' cb cr : UInt8) (h : y ≤ y') : ∃ r g b r' g' b',
    ycbcrToRgb y cb cr = .ok (r, g, b) ∧ ycbcrToRgb y' cb cr = .ok (r', g', b') ∧
    r ≤ r' ∧ g ≤ g' ∧ b ≤ b' := by
  have hm : ∀ v v' : Int, v ≤ v' → saturate v ≤ saturate v' := by
    intro v v' hv
    rw [UInt8.le_iff_toNat_le]
    have h1 := saturate_toNat v
    have h2 := saturate_toNat v'
    omega
  rw [UInt8.le_iff_toNat_le] at h
  exact ⟨_, _, _, _, _, _, ycbcrToRgb_eq y cb cr, ycbcrToRgb_eq y' cb cr,
    hm _ _ (by unfold redSum; omega), hm _ _ (by unfold greenSum; omega),
    hm _ _ (by unfold blueSum; omega)⟩

/-- **C27** (constants). The four fixed point factors are the decimal factors of BT.601 times 65536,
rounded to nearest; both neighbours of the rounding point are more than 1/20 away, so the `f64`
evaluation of `fix!` cannot differ. -/
theorem C27_factors : ∀ p ∈ [(FIX_1_402, (1402 / 1000 : ℚ)), (FIX_1_772, 1772 / 1000),
    (FIX_0_71414, 71414 / 100000), (FIX_0_34414, 34414 / 100000)],
    (p.1 : ℚ) + 1 / 20 < p.2 * 65536 + 1 / 2 ∧ p.2 * 65536 + 1 / 2 < (p.1 : ℚ) + 1 - 1 / 50 := by
  simp only [List.forall_mem_cons, FIX_1_402, FIX_1_772, FIX_0_71414, FIX_0_34414]
  norm_num

/-- **C28.** The whole decision: three components are passed through exactly with Adobe transform 0
and converted from YCbCr otherwise; four need an Adobe marker; anything else is not an image the
decoder converts (it panics). -/
theorem C28_selection (n : Nat) (ct : Option AdobeColorTransform) :
    (chooseColorConvert n ct = .ok .null ↔ n = 3 ∧ ct = some .unknown) ∧
    (chooseColorConvert n ct = .ok .ycbcr ↔ n = 3 ∧ ct ≠ some .unknown) ∧
    (chooseColorConvert n ct = .ok .cmyk ↔ n = 4 ∧ ct = some .unknown) ∧
    (chooseColorConvert n ct = .ok .ycck ↔ n = 4 ∧ (ct = some .yCbCr ∨ ct = some .ycck)) ∧
    (chooseColorConvert n ct = .error (.err .fourComponents) ↔ n = 4 ∧ ct = none) ∧
    (chooseColorConvert n ct = .error (.panic .componentCount) ↔ n ≠ 3 ∧ n ≠ 4) := by
  match n with
  | 3 => rcases ct with _ | _ | _ | _ <;> simp [chooseColorConvert]
  | 4 => rcases ct with _ | _ | _ | _ <;> simp [chooseColorConvert]
  | 0 | 1 | 2 => simp [chooseColorConvert]
  | n + 5 => simp [chooseColorConvert]

/-- **C28** (CMYK lines). CMYK lines are inverted sample by sample. -/
theorem C28_cmyk_line (w : Nat) (data c m y k : List UInt8) (hd : data.length = 4 * w)
    (h1 : w ≤ c.length) (h2 : w ≤ m.length) (h3 : w ≤ y.length) (h4 : w ≤ k.length) :
    ColorConvertFunc.cmyk.convert data [c, m, y, k] = .ok ((List.range w).flatMap fun i =>
      [255 - c.getD i 0, 255 - m.getD i 0, 255 - y.getD i 0, 255 - k.getD i 0]) := by
  show Except.ok _ = _
  rw [cmykGo_eq w data c m y k hd h1 h2 h3 h4]

/-- **C55** (the conversion itself). Given the three lines it asks for, the YCCK conversion never sees the
black component: it complements what stood in the output line instead. -/
theorem C55_black_not_read (w : Nat) (data y cb cr : List UInt8) (hd : data.length = 4 * w) (h1 : w ≤ y.length)
    (h2 : w ≤ cb.length) (h3 : w ≤ cr.length) :
    ∃ pixels : List (UInt8 × UInt8 × UInt8), pixels.length = w ∧
      (∀ i, i < w → ∃ q, pixels[i]? = some q ∧
        ycbcrToRgb (y.getD i 0) (cb.getD i 0) (cr.getD i 0) = .ok q) ∧
      ColorConvertFunc.ycck.convert data [y, cb, cr] = .ok ((List.range w).flatMap fun i =>
        [(pixels.getD i default).1, (pixels.getD i default).2.1, (pixels.getD i default).2.2,
          255 - data.getD (4 * i + 3) 0]) := by
  refine ⟨(List.range w).map fun i => (saturate (redSum (y.getD i 0) (cb.getD i 0) (cr.getD i 0)),
    saturate (greenSum (y.getD i 0) (cb.getD i 0) (cr.getD i 0)),
    saturate (blueSum (y.getD i 0) (cb.getD i 0) (cr.getD i 0))), by simp, ?_, ?_⟩
  · intro i hi
    exact ⟨_, by rw [List.getElem?_map, List.getElem?_range hi]; rfl, ycbcrToRgb_eq _ _ _⟩
  · show ycckGo data y cb cr = _
    rw [ycckGo_eq w data y cb cr hd h1 h2 h3]
    congr 1
    refine List.flatMap_congr fun i hi => ?_
    have hi : i < w := List.mem_range.1 hi
    have : ((List.range w).map fun i => (saturate (redSum (y.getD i 0) (cb.getD i 0) (cr.getD i 0)),
      saturate (greenSum (y.getD i 0) (cb.getD i 0) (cr.getD i 0)),
      saturate (blueSum (y.getD i 0) (cb.getD i 0) (cr.getD i 0)))).getD i default =
      (saturate (redSum (y.getD i 0) (cb.getD i 0) (cr.getD i 0)),
      saturate (greenSum (y.getD i 0) (cb.getD i 0) (cr.getD i 0)),
      saturate (blueSum (y.getD i 0) (cb.getD i 0) (cr.getD i 0))) := by
      rw [List.getD_eq_getElem?_getD, List.getElem?_map, List.getElem?_range hi]; rfl
    rw [this]
    rfl

/-- Two output lines with different contents give different black. -/
example : ColorConvertFunc.ycck.convert [0, 0, 0, 0] [[128], [128], [128]] = .ok [128, 128, 128, 255] ∧
    ColorConvertFunc.ycck.convert [0, 0, 0, 55] [[128], [128], [128]] = .ok [128, 128, 128, 200] := by
  decide +kernel

/-- YCCK never succeeds: the converter insists on three lines, a frame that selects it has four. -/
theorem C28_ycck_panics (data : List UInt8) (lines : List (List UInt8)) (h : lines.length = 4) :
    ColorConvertFunc.ycck.convert data lines = .error (.panic .fixedSlice) := by
  match lines, h with
  | [_, _, _, _], _ => rfl

example : chooseColorConvert 3 none = .ok .ycbcr ∧ chooseColorConvert 4 (some .ycck) = .ok .ycck := by
  decide

end Jpeg
