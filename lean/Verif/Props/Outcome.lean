import Verif.Spec.Outcome
import Verif.Props.Colors
import Mathlib.Data.List.NodupEquivFin
/-!
# C67: which sequential files decode; C68: files of other coding processes
-/

namespace Jpeg
open Spec

section

variable {cfg : Cfg} {f : BaselineFile} {H V : Nat} {codes : List (Code × Code)}

theorem ratios_upsample {r : Nat} (hv : f.Laid r H V codes) :
    (f.Ratios H V ∧ ∃ us, upsamplerNew (fileFrame f H V).components ⟨f.x, f.y⟩ = .ok us) ∨
    (¬ f.Ratios H V ∧ upsamplerNew (fileFrame f H V).components ⟨f.x, f.y⟩ = .error (.err .nonIntegerSubsampling)) := by
  have h4 : (fileFrame f H V).components.length ≤ 4 := by
    rw [fileFrame_length]
    exact hv.count.2
  rcases C30_frame (fileFrame f H V) h4 H V
    ((Largest.map (f := Component.h)).2 hv.hmax) ((Largest.map (f := Component.v)).2 hv.vmax)
    ⟨f.x, f.y⟩ with ⟨h, c, hc, e⟩ | ⟨us, h, -, hus⟩
  · right
    refine ⟨?_, h⟩
    obtain ⟨k, hk, rfl⟩ := List.mem_map.1 hc
    intro hr
    have := (C30_selection k.h k.v H V f.x f.y).2.2.2.2.2.1 e
    have := hr k hk
    omega
  · left
    refine ⟨?_, us, h⟩
    intro k hk
    obtain ⟨i, hi, rfl⟩ := List.getElem_of_mem hk
    obtain ⟨u, hu, -⟩ := hus i _ (by
      show (f.comps.map (fileComponent f H V))[i]? = _
      rw [List.getElem?_map, List.getElem?_eq_getElem hi]; rfl)
    have hu : chooseUpsampler ((f.comps[i]).h, (f.comps[i]).v) (H, V) ⟨f.x, f.y⟩ = .ok u := hu
    have := mt (C30_selection (f.comps[i]).h (f.comps[i]).v H V f.x f.y).2.2.2.2.2.2 (by rw [hu]; simp)
    omega

theorem upsample_noLines {d : Decoder} {frame : Frame} (h : Decoded d frame) (hW : 1 ≤ frame.samplesPerLine)
    (hL : frame.lines = 0) {g : ColorConvertFunc}
    (hf : chooseColorConvert frame.components.length d.colorTransform = .ok g)
    {ucs : List UpsamplerComponent}
    (hu : upsamplerNew frame.components ⟨frame.samplesPerLine, frame.lines⟩ = .ok ucs) :
    upsample cfg d = .ok [] := by
  obtain ⟨H', V', us, hH', hV', hv, hV1, rfl, hc, h4'⟩ := h.comps hu
  have hne : frame.components ≠ [] := by
    obtain ⟨c, hc, -⟩ := hH'.2
    exact List.ne_nil_of_mem hc
  unfold upsample
  rw [h.has]
  simp only [hf, hu, hv]
  rw [if_neg (by
    intro h0
    rcases Nat.mul_eq_zero.mp h0 with h0 | h0
    · omega
    · exact hne (List.length_eq_zero_iff.1 h0)), hL]
  simp [upsampleGroups]

theorem choose_of {d : Decoder} {n : Nat} {t : Option Nat} (ht : d.transform = t) (h3 : n = 3 ∨ n = 4) :
    (n = 4 ∧ t = none ∧ ∃ e, chooseColorConvert n d.colorTransform = .error (.err e)) ∨
    (n = 4 ∧ t ≠ none ∧ t ≠ some 0 ∧ chooseColorConvert n d.colorTransform = .ok .ycck) ∨
    ((n = 3 ∨ t = some 0) ∧ ∃ g, chooseColorConvert n d.colorTransform = .ok g ∧ g ≠ .ycck) := by
  subst ht
  unfold Decoder.transform
  rcases h3 with rfl | rfl <;> rcases d.colorTransform with _ | _ | _ | _ <;>
    simp [chooseColorConvert, AdobeColorTransform.code]

/-- **C67**. For every sequential file laid out as the standard says, on every decoder a program can hold:
decoding gives an image (of the right size), an error, or a panic as `outcome` says, which only looks at the
number of components, the colour transform in force, the sampling factors and the size. -/
theorem C67_outcome (cfg : Cfg) (f : BaselineFile) (H V : Nat) (codes : List (Code × Code)) (d : Decoder)
    (hd : UsedDecoder d) (hh : Holds cfg d f.earlier) (hv : f.Valid (f.interval d.restartInterval) H V codes) :
    match f.outcome (f.transform d.transform) H V with
    | .image => ∃ image d', d.decode cfg f.bytes = .ok image d' ∧ image.length = f.x * f.y * f.comps.length
    | .error => ∃ e d', d.decode cfg f.bytes = .fail (.err e) d'
    | .panic => ∃ p d', d.decode cfg f.bytes = .fail (.panic p) d' := by
  obtain ⟨d', hdec, ht, hok, -, hp, he, -⟩ := file_result (cfg := cfg) hd hh hv
  have hn := hv.count
  unfold BaselineFile.outcome
  split_ifs with c1 c2 c3 c4 c5 c6
  · refine ⟨.componentCount, d', hp _ ?_⟩
    unfold upsample
    rw [hdec.has]
    simp only [fileFrame_length]
    rcases (by omega : f.comps.length = 1 ∨ f.comps.length = 2) with h | h <;> rw [h] <;> simp [chooseColorConvert]
  · obtain ⟨e, hc⟩ : ∃ e, chooseColorConvert f.comps.length d'.colorTransform = .error (.err e) := by
      rcases choose_of ht (.inr c2.1) with ⟨-, -, h⟩ | ⟨-, h, -⟩ | ⟨h | h, -⟩
      · exact h
      · exact absurd c2.2 h
      · omega
      · rw [c2.2] at h; cases h
    refine ⟨e, d', he _ ?_⟩
    unfold upsample
    rw [hdec.has]
    simp only [fileFrame_length, hc]
  all_goals
    obtain ⟨g, hg, hgk⟩ : ∃ g, chooseColorConvert f.comps.length d'.colorTransform = .ok g ∧
        (g = .ycck → f.comps.length = 4 ∧ f.transform d.transform ≠ some 0) ∧
        (g ≠ .ycck → f.comps.length = 3 ∨ f.transform d.transform = some 0) := by
      rcases choose_of ht (by omega : f.comps.length = 3 ∨ f.comps.length = 4) with
        ⟨a, b, -⟩ | ⟨a, b, b', h⟩ | ⟨a, g, h, k⟩
      · exact absurd ⟨a, b⟩ c2
      · exact ⟨_, h, fun _ => ⟨a, b'⟩, fun h => absurd rfl h⟩
      · exact ⟨g, h, fun e => absurd e k, fun _ => a⟩
    have hf : chooseColorConvert (fileFrame f H V).components.length d'.colorTransform = .ok g := by
      rw [fileFrame_length, hg]
  rotate_right 1
  · obtain ⟨-, e⟩ := (ratios_upsample hv.toLaid).resolve_left fun h => c3 h.1
    refine ⟨.nonIntegerSubsampling, d', he _ ?_⟩
    unfold upsample
    rw [hdec.has]
    have e' : upsamplerNew (fileFrame f H V).components ⟨(fileFrame f H V).samplesPerLine, (fileFrame f H V).lines⟩ =
      .error (.err .nonIntegerSubsampling) := e
    simp only [hf, e']
  all_goals
    obtain ⟨-, us, hu⟩ := (ratios_upsample hv.toLaid).resolve_right fun h => h.1 c3
    have hH := (Largest.map (f := Component.h) (g := fileComponent f H V)).2 hv.hmax
    have hV := (Largest.map (f := Component.v) (g := fileComponent f H V)).2 hv.vmax
  · exact ⟨[], d', hok _ (upsample_noLines hdec hv.x.1 c4 hf hu), by rw [c4]; simp⟩
  · by_cases hw : f.HalfWidth H V
    · obtain ⟨c, hc, hb⟩ := hw
      obtain ⟨p, e⟩ := C32_violated cfg d' (fileFrame f H V) hdec hv.x.1 (by show 1 ≤ f.y; omega) g hf us hu H V hH hV
        ⟨_, List.mem_map_of_mem hc, hb⟩
      exact ⟨p, d', hp _ e⟩
    · refine ⟨.fixedSlice, d', hp _ (upsample_ycck hdec hv.x.1 (by show 1 ≤ f.y; omega) (by rw [fileFrame_length, c5.1])
        ?_ hu hH hV ?_)⟩
      · rw [hf]
        by_cases h : g = .ycck
        · rw [h]
        · rcases hgk.2 h with h | h
          · omega
          · exact absurd h c5.2
      · intro c hc h1 h2 h3
        obtain ⟨k, hk, rfl⟩ := List.mem_map.1 hc
        by_contra hcon
        apply hw
        refine ⟨k, hk, h1, h2, h3, ?_⟩
        have e1 : (fileFrame f H V).samplesPerLine = f.x := rfl
        have e2 : (fileFrame f H V).lines = f.y := rfl
        have e3 : (fileComponent f H V k).h = k.h := rfl
        rw [e1, e2, e3] at hcon
        omega
  · obtain ⟨c, hc, hb⟩ := c6
    obtain ⟨p, e⟩ := C32_violated cfg d' (fileFrame f H V) hdec hv.x.1 (by show 1 ≤ f.y; omega) g hf us hu H V hH hV
      ⟨_, List.mem_map_of_mem hc, hb⟩
    exact ⟨p, d', hp _ e⟩
  · obtain ⟨image, e, hl⟩ := C32_no_panic_partial cfg d' (fileFrame f H V) hdec hv.x.1 g hf
      (fun h => c5 (hgk.1 h)) us hu H V hH hV (by
        intro c hc h1 h2 h3
        obtain ⟨k, hk, rfl⟩ := List.mem_map.1 hc
        by_contra hcon
        apply c6
        refine ⟨k, hk, h1, h2, h3, ?_⟩
        have e1 : (fileFrame f H V).samplesPerLine = f.x := rfl
        have e2 : (fileFrame f H V).lines = f.y := rfl
        have e3 : (fileComponent f H V k).h = k.h := rfl
        rw [e1, e2, e3] at hcon
        omega)
    exact ⟨image, d', hok _ e, by rw [hl, fileFrame_length]; rfl⟩

/-- **C67** (image). Exactly the files with this outcome decode. -/
theorem C67_decodes_iff (cfg : Cfg) (f : BaselineFile) (H V : Nat) (codes : List (Code × Code)) (d : Decoder)
    (hd : UsedDecoder d) (hh : Holds cfg d f.earlier) (hv : f.Valid (f.interval d.restartInterval) H V codes) :
    (∃ image d', d.decode cfg f.bytes = .ok image d') ↔
      (f.comps.length = 3 ∨ f.comps.length = 4 ∧ (f.transform d.transform = some 0 ∨
        f.y = 0 ∧ f.transform d.transform ≠ none)) ∧
      f.Ratios H V ∧ (f.y = 0 ∨ ¬ f.HalfWidth H V) := by
  have key := C67_outcome cfg f H V codes d hd hh hv
  have hn := hv.count
  constructor
  · rintro ⟨image, d', e⟩
    rw [e] at key
    unfold BaselineFile.outcome at key
    split_ifs at key with c1 c2 c3 c4 c5 c6
    · simp at key
    · simp at key
    · refine ⟨?_, c3, .inl c4⟩
      rcases (by omega : f.comps.length = 3 ∨ f.comps.length = 4) with h | h
      · exact .inl h
      · exact .inr ⟨h, .inr ⟨c4, fun hn => c2 ⟨h, hn⟩⟩⟩
    · simp at key
    · simp at key
    · refine ⟨?_, c3, .inr c6⟩
      rcases (by omega : f.comps.length = 3 ∨ f.comps.length = 4) with h | h
      · exact .inl h
      · exact .inr ⟨h, .inl (not_not.1 fun hn => c5 ⟨h, hn⟩)⟩
    · simp at key
  · rintro ⟨h1, h2, h3⟩
    have : f.outcome (f.transform d.transform) H V = .image := by
      unfold BaselineFile.outcome
      rw [if_neg (by omega), if_neg, if_pos h2]
      · split_ifs with c4 c5 c6
        · rfl
        · exfalso
          rcases h1 with h1 | ⟨-, h | h⟩
          · omega
          · exact c5.2 h
          · exact c4 h.1
        · exact absurd c6 (h3.resolve_left c4)
        · rfl
      · rintro ⟨a, b⟩
        rcases h1 with h1 | ⟨-, h | h⟩
        · omega
        · rw [h] at b; cases b
        · exact h.2 b
    rw [this] at key
    obtain ⟨image, d', e, -⟩ := key
    exact ⟨image, d', e⟩

end

/-- Cases of C67: the example file of C45 is a valid file with outcome image; with factors 2x1, 1x1, 1x1, 16 columns
and 16 lines it would be a panic, with 3x1 and 2x1 an error, with 15 lines an image. -/
example : (exampleFile.outcome none 1 1 = .image) ∧
    (({ exampleFile with comps := [⟨⟨1, 2, 1, 0⟩, 0, 0⟩, ⟨⟨2, 1, 1, 0⟩, 0, 0⟩, ⟨⟨3, 1, 1, 0⟩, 0, 0⟩], y := 16, x := 16 } :
      BaselineFile).outcome none 2 1 = .panic) ∧
    (({ exampleFile with comps := [⟨⟨1, 2, 1, 0⟩, 0, 0⟩, ⟨⟨2, 1, 1, 0⟩, 0, 0⟩, ⟨⟨3, 1, 1, 0⟩, 0, 0⟩], y := 15, x := 16 } :
      BaselineFile).outcome none 2 1 = .image) ∧
    (({ exampleFile with comps := [⟨⟨1, 3, 1, 0⟩, 0, 0⟩, ⟨⟨2, 2, 1, 0⟩, 0, 0⟩, ⟨⟨3, 2, 1, 0⟩, 0, 0⟩] } :
      BaselineFile).outcome none 3 1 = .error) := by decide +kernel

example : ∃ image d', Decoder.default.decode ⟨true, false⟩ exampleFile.bytes = .ok image d' ∧
    image.length = 16 * 8 * 3 := by
  have := C67_outcome ⟨true, false⟩ exampleFile 1 1 _ Decoder.default .new (.nothing _) exampleFile_valid
  rw [show exampleFile.outcome (exampleFile.transform Decoder.default.transform) 1 1 = .image by decide +kernel] at this
  exact this

/-! ## C68 -/

section

variable {cfg : Cfg}

theorem fill_skip (k : Nat) (r : List UInt8) :
    marker (List.replicate k 0xFF ++ 0xFF :: r) = marker (0xFF :: r) := by
  have aux : ∀ k, markerAux true (List.replicate k 0xFF ++ 0xFF :: r) = markerAux true r := by
    intro k
    induction k with
    | zero => rw [List.replicate_zero, List.nil_append, markerAux, if_pos rfl]
    | succ k ih => rw [List.replicate_succ (n := k), List.cons_append, markerAux, if_pos rfl, ih]
  cases k with
  | zero => rfl
  | succ k =>
    unfold marker
    rw [List.replicate_succ (n := k), List.cons_append, markerAux, markerAux]
    exact aux k

theorem tables_head {l : List TableSegment} (r : List UInt8) :
    ∃ r', l.flatMap TableSegment.bytes ++ 0xFF :: r = 0xFF :: r' := by
  induction l with
  | nil => exact ⟨r, rfl⟩
  | cons s l ih =>
    obtain ⟨r', e⟩ := ih
    rw [List.flatMap_cons, List.append_assoc, e]
    by_cases hf : ∃ k, s = .fill k
    · obtain ⟨k, rfl⟩ := hf
      cases k with
      | zero => exact ⟨_, rfl⟩
      | succ k => exact ⟨List.replicate k 0xFF ++ 0xFF :: r', by
          show List.replicate (k + 1) 0xFF ++ _ = _
          rw [List.replicate_succ (n := k)]; rfl⟩
    · rw [TableSegment.bytes_eq (fun k e => hf ⟨k, e⟩)]
      exact ⟨_, rfl⟩

/-- A run over table segments up to a code that is not that of a known marker. -/
theorem loopAll_unknown {bits count : Nat} (hwf : ∀ l, (⟨l, bits, count⟩ : Biterator).WF) {rest : List UInt8}
    (hrest : marker (0xFF :: rest) = .error (.err .markerExpected)) : ∀ (l : List TableSegment), (∀ s ∈ l, s.Ok) →
    ∀ (d : Decoder) (inp : List UInt8), DecInv d →
      marker inp = marker (l.flatMap TableSegment.bytes ++ 0xFF :: rest) →
      ∃ s, loopAll cfg ⟨d, ⟨inp, bits, count⟩⟩ = .fail (.err .markerExpected) s := by
  intro l
  induction l with
  | nil =>
    intro _ d inp hd e
    rw [List.flatMap_nil, List.nil_append, hrest] at e
    refine ⟨⟨d, ⟨inp, bits, count⟩⟩, ?_⟩
    unfold loopAll
    rw [segmentLoop]
    simp only [e]
  | cons s l ih =>
    intro hok d inp hd e
    have hl : ∀ t ∈ l, t.Ok := fun t ht => hok t (by simp [ht])
    obtain ⟨r', er⟩ := tables_head (l := l) rest
    rw [List.flatMap_cons, List.append_assoc] at e
    by_cases hf : ∃ k, s = .fill k
    · obtain ⟨k, rfl⟩ := hf
      apply ih hl d inp hd
      rw [e, er]
      exact fill_skip k r'
    · have hnf : ∀ k, s ≠ .fill k := fun k e => hf ⟨k, e⟩
      obtain ⟨h2, h3⟩ := TableSegment.has s (hok s (by simp))
      obtain ⟨d1, -, e1⟩ := tableSegment_ok (cfg := cfg) (hok s (by simp)) hnf hd
        (l.flatMap TableSegment.bytes ++ 0xFF :: rest) bits count
      have hs := doSegment_safe (cfg := cfg) h2 (s := ⟨d, ⟨segmentOf s.content ++
        (l.flatMap TableSegment.bytes ++ 0xFF :: rest), bits, count⟩⟩) hd (hwf _)
      rw [e1] at hs
      rw [TableSegment.bytes_eq hnf, markerSegment, List.append_assoc, marker_bytes' h2] at e
      rw [loopAll_eq (s := ⟨d, ⟨inp, bits, count⟩⟩) hd (hwf _) e h3]
      simp only [St.setInput]
      rw [e1, Out.bind_ok]
      apply ih hl d1 _ hs.1
      rw [er]
      have hk := hok s (by simp)
      cases s with
      | com c => exact marker_skip (x := segmentOf c) hk.2 r'
      | _ => rfl

theorem decode_of_fail {d : Decoder} {file : List UInt8} {g : Fail} {s : St}
    (h : loopAll cfg ⟨d, Biterator.new file⟩ = .fail g s) : d.decode cfg file = .fail g s.dec := by
  unfold loopAll at h
  unfold Decoder.decode decodeParser
  rw [h]
  rfl

/-- **C68** (other processes; what holds). A file that announces a coding process this decoder does not know
(lossless, hierarchical or arithmetic coding: SOF3, SOF5 to SOF15, DAC), or any other unknown marker, behind any
tables is refused with an error, whatever follows. -/
theorem C68_unknown_partial (cfg : Cfg) (before : List TableSegment) (hb : ∀ s ∈ before, s.Ok) (c : UInt8)
    (hc : c ≠ 0 ∧ c ≠ 0xFF) (hu : ∀ m, MarkerExists m → markerCode m ≠ c.toNat) (rest : List UInt8) (d : Decoder)
    (hd : UsedDecoder d) :
    ∃ d', d.decode cfg (markerBytes .SOI ++ (before.flatMap TableSegment.bytes ++ 0xFF :: c :: rest)) =
      .fail (.err .markerExpected) d' := by
  have hm : marker (0xFF :: c :: rest) = .error (.err .markerExpected) := by
    refine C36_unknown_code _ 0 c ⟨rfl, rfl, hc.1, hc.2⟩ (by intro j c' hj; omega) hu
  obtain ⟨s, e⟩ := loopAll_unknown (cfg := cfg) wf_zero hm before hb d _ hd.inv rfl
  refine ⟨s.dec, decode_of_fail ?_⟩
  unfold Biterator.new
  rw [loopAll_eq (m := .SOI) hd.inv (wf_zero _) (marker_bytes' (m := .SOI) trivial _) (by decide)]
  simp only [St.setInput, doSegment, Out.bind_ok]
  exact e

/-- The codes of the other processes are unknown. -/
theorem C68_processes (i : Nat) (hi : i = 3 ∨ 5 ≤ i ∧ i ≤ 15) :
    ∀ m, MarkerExists m → markerCode m ≠ (UInt8.ofNat (0xC0 + i)).toNat := by
  have e : (UInt8.ofNat (0xC0 + i)).toNat = 0xC0 + i := by
    rw [UInt8.toNat_ofNat']
    omega
  rw [e]
  intro m hm
  cases m <;> simp only [MarkerExists] at hm <;> simp only [markerCode] <;> omega

theorem sublist_headers {cs : List Component} : ∀ {scan : List ScanComponent},
    (scan.map (·.id)).Sublist (cs.map (·.id)) → (cs.map (·.id)).Nodup → (∀ c ∈ scan, c.dc < 16 ∧ c.ac < 16) →
    ∃ hs : List ScanHeader, List.Forall₂ (HeaderOk cs) scan hs ∧ (hs.map (·.componentIndex)).Pairwise (· < ·) := by
  intro scan hsub hnd hsel
  obtain ⟨g, hg⟩ := List.sublist_iff_exists_orderEmbedding_getElem?_eq.1 hsub
  refine ⟨scan.mapIdx fun i c => ⟨g i, c.dc, c.ac⟩, ?_, ?_⟩
  · rw [List.forall₂_iff_get]
    refine ⟨by simp, fun i a b => ?_⟩
    simp only [List.get_eq_getElem, List.getElem_mapIdx]
    obtain ⟨s1, s2⟩ := hsel _ (List.getElem_mem a)
    refine ⟨?_, rfl, rfl, s1, s2⟩
    have := hg i
    rw [List.getElem?_map, List.getElem?_eq_getElem a, List.getElem?_map] at this
    obtain ⟨c, hc, hid⟩ := Option.map_eq_some_iff.1 this.symm
    refine ⟨⟨c, hc, hid⟩, ?_⟩
    intro j c' hj hc' he
    have h1 : (cs.map (·.id))[j]? = (cs.map (·.id))[g i]? := by
      rw [List.getElem?_map, List.getElem?_map, hc', hc]
      show some c'.id = some c.id
      rw [he, hid]
    have hjl : j < (cs.map (·.id)).length := by
      rw [List.length_map]
      exact (List.getElem?_eq_some_iff.1 hc').1
    have := (List.getElem?_inj hjl hnd).1 h1
    simp only at hj
    omega
  · rw [List.pairwise_iff_getElem]
    intro i j hi hj hij
    simp only [List.getElem_map, List.getElem_mapIdx]
    exact g.lt_iff_lt.2 hij

/-- **C68** (refutation, every file). Every progressive file panics at its first scan. -/
theorem C68_violated_every_file (cfg : Cfg) (f : ProgressiveFile) (hv : f.Valid) (d : Decoder) (hd : UsedDecoder d) :
    ∃ d', d.decode cfg f.bytes = .fail (.panic .progressive) d' := by
  have hb : ∀ s ∈ f.before, s.Ok := fun s hs => hv.tables s (by simp [hs])
  have ha : ∀ s ∈ f.after, s.Ok := fun s hs => hv.tables s (by simp [hs])
  obtain ⟨hc1, hc4⟩ := hv.count
  obtain ⟨hs1, hs4⟩ := hv.scanCount
  obtain ⟨H, V, -, -, hsof⟩ := sof_header cfg 2 f.precision hv.x hv.y f.comps
    (by intro h; simp [h] at hc1) hc4 hv.factors []
  rw [List.append_nil] at hsof
  obtain ⟨fr, hfr⟩ : ∃ fr : Frame, fr = ⟨2, f.precision, f.y, f.x, ⟨ceilDiv f.x (8 * H), ceilDiv f.y (8 * V)⟩,
    f.comps.map fun c => fullComponent f.x f.y H V (rawComponent c.id c.h c.v c.tq.toNat)⟩ := ⟨_, rfl⟩
  rw [← hfr] at hsof
  have hids : fr.components.map (·.id) = f.comps.map (·.id) := by
    rw [hfr]
    simp only [List.map_map]
    rfl
  obtain ⟨hs, hh, hi⟩ := sublist_headers (cs := fr.components) (hids ▸ hv.order) (hids ▸ hv.ids) hv.selectors
  have hseg := sosSegment_ok (fr := fr) f.ss f.se hv.approximation.1 hv.approximation.2 [] hs1 hs4 hh hi
  rw [List.append_nil] at hseg
  have hm : MarkerExists (.SOF 2) := by show 2 ≤ 2; omega
  obtain ⟨d1, -, i1, e1⟩ := loopAll_tables (cfg := cfg) wf_zero
    (rest := markerSegment (.SOF 2) (frameHeader f.precision f.y f.x f.comps) ++
      (f.after.flatMap TableSegment.bytes ++
        (markerSegment .SOS (scanHeader f.scan f.ss f.se f.ah f.al) ++ f.rest)))
    (.segment hm _ _) f.before hb d hd.inv
  have hd1 : doSegment cfg (.SOF 2) ⟨d1, ⟨segmentOf (frameHeader f.precision f.y f.x f.comps) ++
      (f.after.flatMap TableSegment.bytes ++
        (markerSegment .SOS (scanHeader f.scan f.ss f.se f.ah f.al) ++ f.rest)), 0, 0⟩⟩ =
      .ok () ⟨{ d1 with frame := some fr }, ⟨f.after.flatMap TableSegment.bytes ++
        (markerSegment .SOS (scanHeader f.scan f.ss f.se f.ah f.al) ++ f.rest), 0, 0⟩⟩ := by
    simp only [doSegment, segment, sofBody]
    rw [segmentBytes_ok cfg (by simp [frameHeader, HeaderComponent.bytes]; omega)]
    simp only
    rw [hsof]
    rfl
  have i2 := doSegment_safe (cfg := cfg) hm (s := ⟨d1, ⟨segmentOf (frameHeader f.precision f.y f.x f.comps) ++
      (f.after.flatMap TableSegment.bytes ++
        (markerSegment .SOS (scanHeader f.scan f.ss f.se f.ah f.al) ++ f.rest)), 0, 0⟩⟩) i1 (wf_zero _)
  rw [hd1] at i2
  have i2 : DecInv { d1 with frame := some fr } := i2.1
  obtain ⟨d3, t3, i3, e3⟩ := loopAll_tables (cfg := cfg) wf_zero
    (rest := markerSegment .SOS (scanHeader f.scan f.ss f.se f.ah f.al) ++ f.rest)
    (.segment (m := .SOS) trivial _ _) f.after ha _ i2
  have hf3 : d3.frame = some fr := by rw [t3.rest]
  refine ⟨{ d3 with scan := some ⟨hs, f.ss.toNat, f.se.toNat, f.ah, f.al⟩ }, decode_of_fail
    (s := ⟨{ d3 with scan := some ⟨hs, f.ss.toNat, f.se.toNat, f.ah, f.al⟩ }, ⟨f.rest, 0, 0⟩⟩) ?_⟩
  unfold Biterator.new ProgressiveFile.bytes
  rw [loopAll_eq (m := .SOI) hd.inv (wf_zero _) (marker_bytes' (m := .SOI) trivial _) (by decide)]
  simp only [St.setInput, doSegment, Out.bind_ok]
  rw [e1, markerSegment, List.append_assoc, loopAll_eq i1 (wf_zero _) (marker_bytes' hm _) (by simp)]
  simp only [St.setInput]
  rw [hd1, Out.bind_ok, e3, markerSegment, List.append_assoc,
    loopAll_eq i3 (wf_zero _) (marker_bytes' (m := .SOS) trivial _) (by simp)]
  simp only [St.setInput, doSegment]
  unfold sos
  simp only [St.setInput]
  rw [segmentBytes_ok cfg (by
    have : (f.scan.flatMap fun c => [c.id, UInt8.ofNat (c.dc * 16 + c.ac)]).length ≤ 8 := by
      rw [List.length_flatMap]
      simp
      omega
    simp only [scanHeader, List.cons_append, List.length_cons, List.length_append, List.length_nil]
    omega)]
  simp only
  rw [hf3, hseg]
  simp only
  have hproc : fr.codingProcess = .ok .progressive := by
    rw [hfr]
    simp [Frame.codingProcess]
  rw [hproc]
  rfl

end

/-- A progressive file: 16x8, three components, first scan with the DC coefficients of the first two. -/
def exampleProgressive : ProgressiveFile :=
  ⟨[.dri 4], 8, 8, 16, [⟨1, 2, 1, 0⟩, ⟨2, 1, 1, 0⟩, ⟨3, 1, 1, 0⟩], [.com [7]], [⟨1, 0, 0⟩, ⟨2, 1, 0⟩], 0, 0, 0, 1, [1, 2, 3]⟩

theorem exampleProgressive_valid : exampleProgressive.Valid where
  tables := by
    intro s hs
    simp only [exampleProgressive, List.cons_append, List.nil_append, List.mem_cons, List.not_mem_nil, or_false] at hs
    rcases hs with rfl | rfl
    · exact ⟨by decide, by decide⟩
    · refine ⟨by decide, ?_⟩
      rintro j m ⟨h1, -⟩
      have : segmentOf [7] = [0, 3, 7] := by decide
      rw [this] at h1
      rcases j with _ | _ | _ | j <;> simp at h1
  x := by decide
  y := by decide
  count := by decide
  ids := by decide
  factors := by decide
  scanCount := by decide
  order := by decide
  selectors := by decide
  approximation := by decide

/-- An arithmetic coded file (SOF9) is refused. -/
example (rest : List UInt8) : ∃ d', Decoder.default.decode ⟨true, false⟩
    (markerBytes .SOI ++ ([TableSegment.dri 4].flatMap TableSegment.bytes ++ 0xFF :: UInt8.ofNat (0xC0 + 9) :: rest)) =
      .fail (.err .markerExpected) d' :=
  C68_unknown_partial _ _ (by
    intro s hs
    rw [List.mem_singleton] at hs
    subst hs
    exact ⟨by decide, by decide⟩) _ (by decide) (C68_processes 9 (by omega)) rest _ .new

end Jpeg
