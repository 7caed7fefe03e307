import Verif.Props.Outcome
import Verif.Props.Errors
import Verif.Props.Coded
import Verif.Props.Uniform
/-!
# C67: which error, which panic
-/

namespace Jpeg
open Spec

/-- **C67** (which error). A sequential file laid out as the standard says is refused with an error for two reasons
only: four components and no Adobe segment, or sampling factors for which there is no upsampler; and it then is. -/
theorem C67_error_iff (cfg : Cfg) (f : BaselineFile) (H V : Nat) (codes : List (Code × Code)) (d : Decoder)
    (hd : UsedDecoder d) (hh : Holds cfg d f.earlier) (hv : f.Valid (f.interval d.restartInterval) H V codes)
    (e : ErrKind) :
    (∃ d', d.decode cfg f.bytes = .fail (.err e) d') ↔
      (e = .fourComponents ∧ f.comps.length = 4 ∧ f.transform d.transform = none) ∨
      (e = .nonIntegerSubsampling ∧ ¬ f.Ratios H V ∧
        (f.comps.length = 3 ∨ f.comps.length = 4 ∧ f.transform d.transform ≠ none)) := by
  have key := C67_outcome cfg f H V codes d hd hh hv
  obtain ⟨d1, hdec, ht, hok, -, hp, he, -⟩ := file_result (cfg := cfg) hd hh hv
  have hn := hv.count
  have four : f.comps.length = 4 → f.transform d.transform = none →
      upsample cfg d1 = .error (.err .fourComponents) := by
    intro h4 h0
    have hct : d1.colorTransform = none := by
      rw [h0] at ht
      unfold Decoder.transform at ht
      simpa using ht
    unfold upsample
    rw [hdec.has]
    simp only [fileFrame_length, h4, hct, chooseColorConvert]
  have ratio : ¬ f.Ratios H V → f.comps.length = 3 ∨ f.comps.length = 4 ∧ f.transform d.transform ≠ none →
      upsample cfg d1 = .error (.err .nonIntegerSubsampling) := by
    intro hr h34
    obtain ⟨-, e⟩ := (ratios_upsample hv.toLaid).resolve_left fun h => hr h.1
    obtain ⟨g, hg⟩ : ∃ g, chooseColorConvert f.comps.length d1.colorTransform = .ok g := by
      rcases choose_of ht (by omega : f.comps.length = 3 ∨ f.comps.length = 4) with
        ⟨a, b, -⟩ | ⟨a, b, b', h⟩ | ⟨a, g, h, k⟩
      · exfalso
        rcases h34 with h | ⟨-, h⟩
        · omega
        · exact h b
      · exact ⟨_, h⟩
      · exact ⟨_, h⟩
    have e' : upsamplerNew (fileFrame f H V).components ⟨(fileFrame f H V).samplesPerLine, (fileFrame f H V).lines⟩ =
      .error (.err .nonIntegerSubsampling) := e
    unfold upsample
    rw [hdec.has]
    simp only [fileFrame_length, hg, e']
  constructor
  · rintro ⟨d', h⟩
    rw [h] at key
    unfold BaselineFile.outcome at key
    split_ifs at key with c1 c2 c3 c4 c5 c6
    · obtain ⟨p, d', h⟩ := key; cases h
    · rw [he _ (four c2.1 c2.2)] at h
      cases h
      exact .inl ⟨rfl, c2⟩
    · obtain ⟨p, d', h, -⟩ := key; cases h
    · obtain ⟨p, d', h⟩ := key; cases h
    · obtain ⟨p, d', h⟩ := key; cases h
    · obtain ⟨p, d', h, -⟩ := key; cases h
    · have h34 : f.comps.length = 3 ∨ f.comps.length = 4 ∧ f.transform d.transform ≠ none := by
        rcases (by omega : f.comps.length = 3 ∨ f.comps.length = 4) with h | h
        · exact .inl h
        · exact .inr ⟨h, fun hn => c2 ⟨h, hn⟩⟩
      rw [he _ (ratio c3 h34)] at h
      cases h
      exact .inr ⟨rfl, c3, h34⟩
  · rintro (⟨rfl, h4, h0⟩ | ⟨rfl, hr, h34⟩)
    · exact ⟨d1, he _ (four h4 h0)⟩
    · exact ⟨d1, he _ (ratio hr h34)⟩

/-- **C67** (which panic). The panics of sequential files laid out as the standard says: no conversion for one or two
components, the array index of the 2x1 upsampler, the missing line of the YCCK conversion. -/
theorem C67_panics (cfg : Cfg) (f : BaselineFile) (H V : Nat) (codes : List (Code × Code)) (d : Decoder)
    (hd : UsedDecoder d) (hh : Holds cfg d f.earlier) (hv : f.Valid (f.interval d.restartInterval) H V codes)
    (p : PanicSite) (d' : Decoder) (h : d.decode cfg f.bytes = .fail (.panic p) d') :
    (p = .componentCount ∧ f.comps.length < 3) ∨
    (p = .index ∧ f.HalfWidth H V ∧ f.Ratios H V ∧ f.y ≠ 0) ∨
    (p = .fixedSlice ∧ f.comps.length = 4 ∧ f.transform d.transform ≠ none ∧ f.transform d.transform ≠ some 0 ∧
      f.Ratios H V ∧ f.y ≠ 0) := by
  have key := C67_outcome cfg f H V codes d hd hh hv
  obtain ⟨d1, hdec, ht, hok, -, hp, he, -⟩ := file_result (cfg := cfg) hd hh hv
  have hn := hv.count
  obtain ⟨e, rfl⟩ : upsample cfg d1 = .error (.panic p) ∧ d1 = d' := by
    cases e : upsample cfg d1 with
    | ok image => rw [hok _ e] at h; cases h
    | error x =>
      rcases upsample_renders cfg d1 x e with rfl | rfl | ⟨q, rfl⟩
      · rw [he _ e] at h; cases h
      · rw [he _ e] at h; cases h
      · rw [hp _ e] at h; cases h; exact ⟨rfl, rfl⟩
  have hd1 : DecInv d1 := by
    have := (UsedDecoder.used cfg f.bytes hd).inv
    rwa [h] at this
  have hframe := hdec.has
  have hplanes := hdec.planes.length_eq
  have hr := upsample_panic hd1 e
  have kinds : 3 ≤ f.comps.length → p = .index ∨ (p = .fixedSlice ∧ f.comps.length = 4 ∧
      f.transform d.transform ≠ none ∧ f.transform d.transform ≠ some 0) := by
    intro h3
    have same : ∀ frame, d1.frame = some frame → frame = fileFrame f H V := fun frame h => by
      rw [hframe] at h; exact (Option.some.inj h).symm
    cases hr with
    | noFrame hx => rw [hframe] at hx; cases hx
    | componentCount frame hx h1 h2 =>
      rw [same frame hx, fileFrame_length] at h1 h2
      omega
    | noWidth frame hx h1 =>
      rw [same frame hx] at h1
      have h1 : f.x = 0 := h1
      have := hv.x.1
      omega
    | planeCount frame _ hx h1 => exact absurd (by rw [same frame hx]; exact hplanes) h1
    | missingPlane frame _ hx h1 =>
      rw [same frame hx] at h1
      omega
    | planeSize frame hx h1 => exact .inl rfl
    | ycck frame t hx h1 h2 h3 =>
      rw [same frame hx, fileFrame_length] at h1
      refine .inr ⟨rfl, h1, ?_⟩
      rw [← ht]
      unfold Decoder.transform
      rw [h2]
      cases t with
      | unknown => exact absurd rfl h3
      | yCbCr => simp [AdobeColorTransform.code]
      | ycck => simp [AdobeColorTransform.code]
    | halfWidth frame hx h1 => exact .inl rfl
  have notHalf : f.Ratios H V → f.y ≠ 0 → f.comps.length = 4 → f.transform d.transform ≠ none →
      f.transform d.transform ≠ some 0 → ¬ f.HalfWidth H V → p = .fixedSlice := by
    intro c3 c4 h4 t1 t2 hw
    obtain ⟨-, us, hu⟩ := (ratios_upsample hv.toLaid).resolve_right fun h => h.1 c3
    have hH := (Largest.map (f := Component.h) (g := fileComponent f H V)).2 hv.hmax
    have hV := (Largest.map (f := Component.v) (g := fileComponent f H V)).2 hv.vmax
    have hf : chooseColorConvert (fileFrame f H V).components.length d1.colorTransform = .ok .ycck := by
      rw [fileFrame_length]
      rcases choose_of ht (.inr h4) with ⟨-, b, -⟩ | ⟨-, -, -, h⟩ | ⟨a | a, -⟩
      · exact absurd b t1
      · exact h
      · omega
      · exact absurd a t2
    have := upsample_ycck (cfg := cfg) hdec hv.x.1 (by show 1 ≤ f.y; omega) (by rw [fileFrame_length, h4]) hf hu hH hV (by
      intro c hc h1 h2 h3
      obtain ⟨k, hk, rfl⟩ := List.mem_map.1 hc
      by_contra hcon
      apply hw
      refine ⟨k, hk, h1, h2, h3, ?_⟩
      have e1 : (fileFrame f H V).samplesPerLine = f.x := rfl
      have e2 : (fileFrame f H V).lines = f.y := rfl
      have e3 : (fileComponent f H V k).h = k.h := rfl
      rw [e1, e2, e3] at hcon
      omega)
    rw [this] at e
    cases e
    rfl
  rw [h] at key
  unfold BaselineFile.outcome at key
  split_ifs at key with c1 c2 c3 c4 c5 c6
  case neg => obtain ⟨_, _, h, -⟩ := key; cases h
  · left
    refine ⟨?_, c1⟩
    have : upsample cfg d1 = .error (.panic .componentCount) := by
      unfold upsample
      rw [hdec.has]
      simp only [fileFrame_length]
      rcases (by omega : f.comps.length = 1 ∨ f.comps.length = 2) with h | h <;> rw [h] <;> simp [chooseColorConvert]
    rw [this] at e
    cases e
    rfl
  · obtain ⟨_, _, h⟩ := key; cases h
  · obtain ⟨_, _, h, -⟩ := key; cases h
  · have h3 : 3 ≤ f.comps.length := by omega
    have t1 : f.transform d.transform ≠ none := fun h => c2 ⟨c5.1, h⟩
    rcases kinds h3 with rfl | ⟨rfl, -⟩
    · refine .inr (.inl ⟨rfl, ?_, c3, c4⟩)
      by_contra hw
      cases notHalf c3 c4 c5.1 t1 c5.2 hw
    · exact .inr (.inr ⟨rfl, c5.1, t1, c5.2, c3, c4⟩)
  · rcases kinds (by omega) with rfl | ⟨-, h4, -, h0⟩
    · exact .inr (.inl ⟨rfl, c6, c3, c4⟩)
    · exact absurd ⟨h4, h0⟩ c5
  · obtain ⟨_, _, h⟩ := key; cases h

/-! ## Cases -/

/-- Three components with 3, 2 and 2 columns. -/
abbrev comps32 : List FileComponent := [⟨⟨1, 3, 1, 0⟩, 0, 0⟩, ⟨⟨2, 2, 1, 0⟩, 0, 0⟩, ⟨⟨3, 2, 1, 0⟩, 0, 0⟩]
/-- Three components, the second and third with half the columns. -/
abbrev comps21 : List FileComponent := [⟨⟨1, 2, 1, 0⟩, 0, 0⟩, ⟨⟨2, 1, 1, 0⟩, 0, 0⟩, ⟨⟨3, 1, 1, 0⟩, 0, 0⟩]

theorem ratio32 : ¬ (codedFile (List.replicate 64 8) comps32 7 5 [] []).Ratios 3 1 := by decide
theorem panic21 : (codedFile (List.replicate 64 8) comps21 9 5 [] []).outcome none 2 1 = .panic := by decide

/-- Files with an error: four components without an Adobe segment; sampling factors 3, 2, 2. -/
example : (∃ f : BaselineFile, ∃ d', Decoder.default.decode ⟨true, false⟩ f.bytes = .fail (.err .fourComponents) d') ∧
    ∃ f : BaselineFile, ∃ d', Decoder.default.decode ⟨true, false⟩ f.bytes = .fail (.err .nonIntegerSubsampling) d' := by
  obtain ⟨data, hv⟩ := codedFile_valid (q := List.replicate 64 8)
    (comps := [⟨⟨1, 1, 1, 0⟩, 0, 0⟩, ⟨⟨2, 1, 1, 0⟩, 0, 0⟩, ⟨⟨3, 1, 1, 0⟩, 0, 0⟩, ⟨⟨4, 1, 1, 0⟩, 0, 0⟩])
    (x := 7) (y := 5) (H := 1) (V := 1) (mcus := [[[dcBlock 1], [dcBlock 2], [dcBlock 3], [dcBlock 4]]])
    ⟨by decide, by decide⟩
    ⟨by decide, by decide, by decide, by decide, by decide, ⟨by decide, by decide⟩, ⟨by decide, by decide⟩, by decide,
      by decide, by decide, by decide, by decide⟩ (by decide)
  obtain ⟨data', hv'⟩ := codedFile_valid (q := List.replicate 64 8)
    (comps := comps32)
    (x := 7) (y := 5) (H := 3) (V := 1)
    (mcus := [[[dcBlock 1, dcBlock 1, dcBlock 1], [dcBlock 2, dcBlock 2], [dcBlock 3, dcBlock 3]]])
    ⟨by decide, by decide⟩
    ⟨by decide, by decide, by decide, by decide, by decide, ⟨by decide, by decide⟩, ⟨by decide, by decide⟩, by decide,
      by decide, by decide, by decide, by decide⟩ (by decide)
  exact ⟨⟨_, (C67_error_iff ⟨true, false⟩ _ 1 1 _ Decoder.default .new (.nothing _) hv _).2
      (.inl ⟨rfl, rfl, rfl⟩)⟩,
    ⟨_, (C67_error_iff ⟨true, false⟩ _ 3 1 _ Decoder.default .new (.nothing _) hv' _).2
      (.inr ⟨rfl, ratio32, .inl rfl⟩)⟩⟩

/-- A file with a panic: half the columns in the second and third component, 9 columns. -/
example : ∃ (f : BaselineFile) (d' : Decoder),
    Decoder.default.decode ⟨true, false⟩ f.bytes = .fail (.panic .index) d' := by
  obtain ⟨data, hv⟩ := codedFile_valid (q := List.replicate 64 8)
    (comps := comps21)
    (x := 9) (y := 5) (H := 2) (V := 1)
    (mcus := [[[dcBlock 1, dcBlock 1], [dcBlock 2], [dcBlock 3]]])
    ⟨by decide, by decide⟩
    ⟨by decide, by decide, by decide, by decide, by decide, ⟨by decide, by decide⟩, ⟨by decide, by decide⟩, by decide,
      by decide, by decide, by decide, by decide⟩ (by decide)
  have h := C67_outcome ⟨true, false⟩ _ 2 1 _ Decoder.default .new (.nothing _) hv
  have e : ∀ mcus data, (codedFile (List.replicate 64 8) comps21 9 5 mcus data).outcome
      ((codedFile (List.replicate 64 8) comps21 9 5 mcus data).transform Decoder.default.transform) 2 1 = .panic :=
    fun _ _ => panic21
  rw [e] at h
  obtain ⟨p, d', h⟩ := h
  rcases C67_panics ⟨true, false⟩ _ 2 1 _ Decoder.default .new (.nothing _) hv p d' h with
    ⟨-, h3⟩ | ⟨rfl, -⟩ | ⟨-, h3, -⟩
  · exact absurd h3 (show ¬ 3 < 3 by decide)
  · exact ⟨_, d', h⟩
  · exact absurd h3 (show ¬ 3 = 4 by decide)

end Jpeg
