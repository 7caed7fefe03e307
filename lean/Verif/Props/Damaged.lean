import Verif.Proofs.DamagePicture
import Verif.Props.Colors
/-!
# C66: damage is confined to its restart intervals
-/

namespace Jpeg
open Spec

section

variable {cfg : Cfg} {f : BaselineFile} {H V : Nat} {codes : List (Code × Code)}

theorem planes_decoded {r : Nat} (hv : f.Laid r H V codes) {d : Decoder} (hf : d.frame = some (fileFrame f H V))
    {ms : List Mcu} (hp : d.planes = scanPlanes (ceilDiv f.x (8 * H)) d.quantTables (fileFrame f H V).components ms) :
    Decoded d (fileFrame f H V) := by
  refine ⟨hf, hv.geometry, ?_⟩
  rw [hp, List.forall₂_iff_get]
  have hl : (scanPlanes (ceilDiv f.x (8 * H)) d.quantTables (fileFrame f H V).components ms).length =
      (fileFrame f H V).components.length := by simp [scanPlanes]
  refine ⟨hl, fun i a b => ?_⟩
  have hc := List.getElem?_eq_getElem b
  have hp := scanPlanes_get (W := ceilDiv f.x (8 * H)) (qts := d.quantTables) (ms := ms) hc
  rw [List.getElem?_eq_getElem a] at hp
  rw [List.get_eq_getElem, List.get_eq_getElem, Option.some.inj hp, planeSamples_length]
  obtain ⟨k, hk, e⟩ := List.mem_map.1 (List.getElem_mem b)
  rw [← e]
  exact planeSize_eq (fileComponent_geometry hv hk)

/-- The result for a damaged file: an error, or that of the last stage. -/
theorem damaged_result {d : Decoder} (hd : UsedDecoder d) (hh : Holds cfg d f.earlier)
    (hv : f.Laid (f.interval d.restartInterval) H V codes) {bad : Nat → Prop} {data : List UInt8} {k : Nat}
    (hdata : DamagedScan codes (List.replicate k 0xFF ++ markerBytes .EOI) bad 0 f.intervals data) :
    (∃ g d2, d.decode cfg ({ f with data } : BaselineFile).bytes = .fail g d2 ∧ ∀ p, g ≠ .panic p) ∨
    ∃ d2 : Decoder, Decoded d2 (fileFrame f H V) ∧ d2.transform = f.transform d.transform ∧
      (∀ image, upsample cfg d2 = .ok image → d.decode cfg ({ f with data } : BaselineFile).bytes = .ok image d2) ∧
      TablesHeld cfg f.tables d2 ∧
      ∃ Z : List (List Mcu), Z.map List.length = f.intervals.map List.length ∧
        (∀ m ∈ Z.flatten, m.map List.length = f.comps.map fun c => c.h * c.v) ∧
        (∀ i, ¬ bad i → Z[i]? = f.intervals[i]?) ∧
        d2.planes = scanPlanes (ceilDiv f.x (8 * H)) d2.quantTables (fileFrame f H V).components Z.flatten := by
  have hs := loopAll_damaged (cfg := cfg) hd.inv hh.held hv hdata
  have hdec : d.decode cfg ({ f with data } : BaselineFile).bytes =
      match decodeParser cfg ⟨d, Biterator.new ({ f with data } : BaselineFile).bytes⟩ with
      | .fail f s => .fail f s.dec
      | .ok r s =>
        if s.bi.input ≠ [] then .fail (.panic .trailing) s.dec
        else
          match r with
          | .ok image => .ok image s.dec
          | .error f => .fail f s.dec := rfl
  unfold decodeParser at hdec
  unfold loopAll at hs
  cases e2 : segmentLoop cfg ((Biterator.new ({ f with data } : BaselineFile).bytes).input.length + 1)
      ⟨d, Biterator.new ({ f with data } : BaselineFile).bytes⟩ with
  | fail g s =>
    rw [e2] at hs
    rw [e2] at hdec
    exact .inl ⟨g, s.dec, hdec, hs⟩
  | ok u s =>
    rw [e2] at hs
    rw [e2, Out.bind_ok] at hdec
    obtain ⟨k1, k2, k3, k4, Z, k5, k0, k6, k7⟩ := hs
    refine .inr ⟨s.dec, planes_decoded hv k3 k7, k4, ?_, k2, Z, k5, k0, k6, k7⟩
    intro image e
    rw [hdec]
    simp only [e, k1]
    simp

/-- Pixels to which only MCUs contribute that are the same. -/
theorem image_kept {d : Decoder} (hd : UsedDecoder d) (hh : Holds cfg d f.earlier) (h3 : f.comps.length = 3)
    (hct : f.transform d.transform ≠ some 0)
    (hv : f.Valid (f.interval d.restartInterval) H V codes) (hr : f.Renderable H V)
    {bytes2 : List UInt8} {d2 : Decoder} (hdec2 : Decoded d2 (fileFrame f H V))
    (k4 : d2.transform = f.transform d.transform)
    (k1 : ∀ image, upsample cfg d2 = .ok image → d.decode cfg bytes2 = .ok image d2)
    (k2 : TablesHeld cfg f.tables d2) {ms : List Mcu}
    (k7 : d2.planes = scanPlanes (ceilDiv f.x (8 * H)) d2.quantTables (fileFrame f H V).components ms)
    {image : List UInt8} {d' : Decoder} (e : d.decode cfg f.bytes = .ok image d') :
    ∃ image2, d.decode cfg bytes2 = .ok image2 d2 ∧ image2.length = image.length ∧
      ∀ y x, y < f.y → x < f.x → KeptAt f H V ms (if cfg.rayon then y / V else y / V * V) x →
        ∀ j, j < 3 → image2[3 * f.x * y + (3 * x + j)]? = image[3 * f.x * y + (3 * x + j)]? := by
  obtain ⟨us, hu⟩ := file_upsamples hv.toLaid hr
  have hf : chooseColorConvert (fileFrame f H V).components.length d2.colorTransform = .ok .ycbcr := by
    rw [show (fileFrame f H V).components.length = 3 by simp [fileFrame, h3]]
    show (if d2.colorTransform = some .unknown then _ else _) = _
    rw [if_neg (fun h => hct (k4 ▸ transform_unknown.1 h))]
  obtain ⟨image2, eu2, hl⟩ := C32_no_panic_partial cfg d2 (fileFrame f H V) hdec2 hv.x.1 .ycbcr hf (by decide) us hu
    H V ((Largest.map (f := Component.h)).2 hv.hmax) ((Largest.map (f := Component.v)).2 hv.vmax) (by
      intro c hc
      obtain ⟨k, hk, rfl⟩ := List.mem_map.1 hc
      exact (hr k hk).2.2.1)
  obtain ⟨image', dd, e', hl'⟩ := C45_decodes cfg f H V codes d hd hh h3 hct hv hr
  have hlen : image.length = f.x * f.y * 3 := by
    rw [e] at e'
    simp only [Out.ok.injEq] at e'
    rw [e'.1, hl']
  refine ⟨image2, ?_, by rw [hl, hlen]; simp [fileFrame, h3], ?_⟩
  · exact k1 _ eu2
  intro y x hy hx hun
  obtain ⟨d1, bi, h1, h2, hdec1, h4, ht, h5⟩ := file_decoded (cfg := cfg) hd.inv hh.held hv
  unfold Decoder.decode decodeParser at e
  unfold loopAll at h1
  rw [h1, Out.bind_ok] at e
  have hup : upsample cfg d1 = .ok image := by
    cases eu : upsample cfg d1 with
    | error x => rw [eu] at e; cases x <;> simp [h2] at e
    | ok i => rw [eu] at e; simp [h2] at e; rw [e.1]
  obtain ⟨a, b, c, hcs⟩ : ∃ a b c, f.comps = [a, b, c] := List.length_eq_three.1 h3
  have hcomps : (fileFrame f H V).components = [fileComponent f H V a, fileComponent f H V b, fileComponent f H V c] := by
    simp [fileFrame, hcs]
  obtain ⟨p0, p1, p2, hps⟩ : ∃ a b c, d1.planes = [a, b, c] :=
    List.length_eq_three.1 (by rw [h5]; simp [scanPlanes, hcomps])
  obtain ⟨q0, q1, q2, hqs⟩ : ∃ a b c, d2.planes = [a, b, c] :=
    List.length_eq_three.1 (by rw [k7]; simp [scanPlanes, hcomps])
  have key1 := C33_group_row cfg d1 (fileFrame f H V) hdec1 image hup _ _ _ p0 p1 p2 hcomps hps
    (fun h => hct (h4 ▸ transform_unknown.1 h))
    H V ((Largest.map (f := Component.h)).2 hv.hmax) ((Largest.map (f := Component.v)).2 hv.vmax)
    (file_columns hr) y x hy hx
  have key2 := C33_group_row cfg d2 (fileFrame f H V) hdec2 image2 eu2 _ _ _ q0 q1 q2 hcomps hqs
    (fun h => hct (k4 ▸ transform_unknown.1 h))
    H V ((Largest.map (f := Component.h)).2 hv.hmax) ((Largest.map (f := Component.v)).2 hv.vmax)
    (file_columns hr) y x hy hx
  have hrow : (if cfg.rayon then y / V else y / V * V) < f.y := by
    have := Nat.div_le_self y V
    have := Nat.div_mul_le_self y V
    split <;> omega
  rw [hps] at h5
  rw [hqs] at k7
  have hq : ∀ c ∈ f.comps, quantOf d1.quantTables (fileComponent f H V c) =
      quantOf d2.quantTables (fileComponent f H V c) := fun c hc => quantOf_unique hv ht k2 hc
  simp only at key1 key2
  have u0 := upAt_kept hv hr hq (i := 0) (c := a) (p := p0) (p' := q0) (by rw [hcs]; rfl)
    (by rw [← h5]; rfl) (by rw [← k7]; rfl) hrow hx hun
  have u1 := upAt_kept hv hr hq (i := 1) (c := b) (p := p1) (p' := q1) (by rw [hcs]; rfl)
    (by rw [← h5]; rfl) (by rw [← k7]; rfl) hrow hx hun
  have u2 := upAt_kept hv hr hq (i := 2) (c := c) (p := p2) (p' := q2) (by rw [hcs]; rfl)
    (by rw [← h5]; rfl) (by rw [← k7]; rfl) hrow hx hun
  rw [u0, u1, u2] at key2
  obtain ⟨r1, g1, b1, c1, c2, c3, c4⟩ := key1
  obtain ⟨r2, g2, b2, c5, c6, c7, c8⟩ := key2
  rw [c1] at c5
  simp only [Except.ok.injEq, Prod.mk.injEq] at c5
  obtain ⟨rfl, rfl, rfl⟩ := c5
  have hsp : (fileFrame f H V).samplesPerLine = f.x := rfl
  rw [hsp] at c2 c3 c4 c6 c7 c8
  intro j hj
  rcases (by omega : j = 0 ∨ j = 1 ∨ j = 2) with rfl | rfl | rfl
  · rw [Nat.add_zero, c2, c6]
  · rw [c3, c7]
  · rw [c4, c8]

/-- **C66** (damage is confined). Take a file as in C45 and damage it: the entropy coded data of the restart
intervals in `bad` is replaced by any other bytes without markers (none, fewer, more), everything else is kept.
Decoding it fails with an error, not a panic, or gives an image of the same size, in which every pixel to which
no sample of a damaged interval contributes is as it was. -/
theorem C66_confined (cfg : Cfg) (f : BaselineFile) (H V : Nat) (codes : List (Code × Code)) (d : Decoder)
    (hd : UsedDecoder d) (hh : Holds cfg d f.earlier) (h3 : f.comps.length = 3) (hct : f.transform d.transform ≠ some 0)
    (hv : f.Valid (f.interval d.restartInterval) H V codes) (hr : f.Renderable H V)
    (bad : Nat → Prop) (data : List UInt8) (k : Nat)
    (hdata : DamagedScan codes (List.replicate k 0xFF ++ markerBytes .EOI) bad 0 f.intervals data)
    (image : List UInt8) (d' : Decoder) (e : d.decode cfg f.bytes = .ok image d') :
    (∃ g d2, d.decode cfg ({ f with data } : BaselineFile).bytes = .fail g d2 ∧ ∀ p, g ≠ .panic p) ∨
    ∃ image2 d2, d.decode cfg ({ f with data } : BaselineFile).bytes = .ok image2 d2 ∧
      image2.length = image.length ∧
      ∀ y x, y < f.y → x < f.x →
        f.Untouched (f.interval d.restartInterval) H V bad (if cfg.rayon then y / V else y / V * V) x →
        ∀ j, j < 3 → image2[3 * f.x * y + (3 * x + j)]? = image[3 * f.x * y + (3 * x + j)]? := by
  rcases damaged_result (cfg := cfg) hd hh hv.toLaid hdata with h | ⟨d2, hdec2, k4, k1, k2, Z, k5, -, k6, k7⟩
  · exact .inl h
  obtain ⟨image2, e2, hl, hk⟩ := image_kept hd hh h3 hct hv hr hdec2 k4 k1 k2 k7 e
  exact .inr ⟨image2, d2, e2, hl, fun y x hy hx hun => hk y x hy hx (keptAt_untouched hv k5 k6 hun)⟩

/-- **C66** (no subsampling). With all sampling factors 1, the pixels kept are those of the MCUs of the
undamaged intervals: pixel `(x, y)` is in MCU number `y / 8 * ceil(X / 8) + x / 8`, which is in interval number
that by `r` (the only one if `r` is 0). -/
theorem C66_confined_own (cfg : Cfg) (f : BaselineFile) (codes : List (Code × Code)) (d : Decoder)
    (hd : UsedDecoder d) (hh : Holds cfg d f.earlier) (h3 : f.comps.length = 3) (hct : f.transform d.transform ≠ some 0)
    (hv : f.Valid (f.interval d.restartInterval) 1 1 codes)
    (bad : Nat → Prop) (data : List UInt8) (k : Nat)
    (hdata : DamagedScan codes (List.replicate k 0xFF ++ markerBytes .EOI) bad 0 f.intervals data)
    (image : List UInt8) (d' : Decoder) (e : d.decode cfg f.bytes = .ok image d') :
    (∃ g d2, d.decode cfg ({ f with data } : BaselineFile).bytes = .fail g d2 ∧ ∀ p, g ≠ .panic p) ∨
    ∃ image2 d2, d.decode cfg ({ f with data } : BaselineFile).bytes = .ok image2 d2 ∧
      image2.length = image.length ∧
      ∀ y x, y < f.y → x < f.x →
        ¬ bad ((y / 8 * ((f.x + 7) / 8) + x / 8) / f.interval d.restartInterval) →
        ∀ j, j < 3 → image2[3 * f.x * y + (3 * x + j)]? = image[3 * f.x * y + (3 * x + j)]? := by
  have h1 : ∀ c ∈ f.comps, c.h = 1 ∧ c.v = 1 := by
    intro c hc
    have := hv.factors c hc
    have := hv.hmax.1 c hc
    have := hv.vmax.1 c hc
    simp only at *
    omega
  have hr : f.Renderable 1 1 := by
    intro c hc
    obtain ⟨e1, e2⟩ := h1 c hc
    rw [e1, e2]
    refine ⟨rfl, rfl, by omega, ?_⟩
    intro h
    exact absurd ⟨.inl rfl, .inl rfl⟩ h
  rcases C66_confined cfg f 1 1 codes d hd hh h3 hct hv hr bad data k hdata image d' e with h | ⟨image2, d2, k1, k2, k3⟩
  · exact .inl h
  · refine .inr ⟨image2, d2, k1, k2, fun y x hy hx hb => k3 y x hy hx ?_⟩
    rw [Nat.div_one, Nat.mul_one, ite_self]
    intro c hc Y X _ _ n1 n2
    obtain ⟨e1, e2⟩ := h1 c hc
    unfold Near at n1 n2
    rw [if_pos e2] at n1
    rw [if_pos e1] at n2
    rw [n1, n2, e1, e2, Nat.div_one, Nat.div_one]
    exact hb

/-- Pixels to which only MCUs contribute that are the same, for four components. -/
theorem image_kept_cmyk {d : Decoder} (hd : UsedDecoder d) (hh : Holds cfg d f.earlier) (h4 : f.comps.length = 4)
    (hct : f.transform d.transform = some 0)
    (hv : f.Valid (f.interval d.restartInterval) H V codes) (hr : f.Renderable H V)
    {bytes2 : List UInt8} {d2 : Decoder} (hdec2 : Decoded d2 (fileFrame f H V))
    (k4 : d2.transform = f.transform d.transform)
    (k1 : ∀ image, upsample cfg d2 = .ok image → d.decode cfg bytes2 = .ok image d2)
    (k2 : TablesHeld cfg f.tables d2) {ms : List Mcu}
    (k7 : d2.planes = scanPlanes (ceilDiv f.x (8 * H)) d2.quantTables (fileFrame f H V).components ms)
    {image : List UInt8} {d' : Decoder} (e : d.decode cfg f.bytes = .ok image d') :
    ∃ image2, d.decode cfg bytes2 = .ok image2 d2 ∧ image2.length = image.length ∧
      ∀ y x, y < f.y → x < f.x → KeptAt f H V ms (if cfg.rayon then y / V else y / V * V) x →
        ∀ j, j < 4 → image2[4 * f.x * y + (4 * x + j)]? = image[4 * f.x * y + (4 * x + j)]? := by
  obtain ⟨d1, hdec1, ht1, -, hup, -, -, htab, hpl⟩ := file_result (cfg := cfg) hd hh hv
  have hup := hup _ _ e
  have hct1 : d1.colorTransform = some .unknown := transform_unknown.2 (ht1.trans hct)
  have hct2 : d2.colorTransform = some .unknown := transform_unknown.2 (k4.trans hct)
  have hl : (fileFrame f H V).components.length = 4 := by rw [fileFrame_length, h4]
  obtain ⟨us, hu⟩ := file_upsamples hv.toLaid hr
  obtain ⟨image2, eu2, hl2⟩ := C32_no_panic_partial cfg d2 (fileFrame f H V) hdec2 hv.x.1 .cmyk
    (by rw [hl, hct2]; rfl) (by decide) us hu H V
    ((Largest.map (f := Component.h)).2 hv.hmax) ((Largest.map (f := Component.v)).2 hv.vmax) (by
      intro c hc
      obtain ⟨k, hk, rfl⟩ := List.mem_map.1 hc
      exact (hr k hk).2.2.1)
  obtain ⟨image', dd, e', hl'⟩ := C54_decodes cfg f H V codes d hd hh h4 hct hv hr
  have hlen : image.length = f.x * f.y * 4 := by
    rw [e] at e'
    simp only [Out.ok.injEq] at e'
    rw [e'.1, hl']
  refine ⟨image2, k1 _ eu2, by rw [hl2, hlen, hl]; rfl, ?_⟩
  intro y x hy hx hun j hj
  have hcm := List.getElem?_eq_getElem (l := f.comps) (i := j) (by omega)
  have hci : (fileFrame f H V).components[j]? = some (fileComponent f H V (f.comps[j]'(by omega))) := by
    simp [fileFrame, hcm]
  obtain ⟨p, hp⟩ : ∃ p, d1.planes[j]? = some p :=
    ⟨_, List.getElem?_eq_getElem (by rw [hpl]; simp [scanPlanes, hl]; exact hj)⟩
  obtain ⟨q, hq⟩ : ∃ p, d2.planes[j]? = some p :=
    ⟨_, List.getElem?_eq_getElem (by rw [k7]; simp [scanPlanes, hl]; exact hj)⟩
  have hrow : (if cfg.rayon then y / V else y / V * V) < f.y := by
    have := Nat.div_le_self y V
    have := Nat.div_mul_le_self y V
    split <;> omega
  have key1 := cmyk_group_row hdec1 hup hl hct1 ((Largest.map (f := Component.h)).2 hv.hmax)
    ((Largest.map (f := Component.v)).2 hv.vmax) (file_columns hr) (y := y) (x := x) hy hx hci hp
  have key2 := cmyk_group_row hdec2 eu2 hl hct2 ((Largest.map (f := Component.h)).2 hv.hmax)
    ((Largest.map (f := Component.v)).2 hv.vmax) (file_columns hr) (y := y) (x := x) hy hx hci hq
  have hqt : ∀ c ∈ f.comps, quantOf d1.quantTables (fileComponent f H V c) =
      quantOf d2.quantTables (fileComponent f H V c) := fun c hc => quantOf_unique hv htab k2 hc
  have hsp : (fileFrame f H V).samplesPerLine = f.x := rfl
  rw [hsp] at key1 key2
  rw [key1, key2, upAt_kept hv hr hqt hcm (p := p) (p' := q) (by rw [← hpl]; exact hp)
    (by rw [← k7]; exact hq) hrow hx hun]

/-- **C66** (CMYK). The same for four components with Adobe transform 0. -/
theorem C66_confined_cmyk (cfg : Cfg) (f : BaselineFile) (H V : Nat) (codes : List (Code × Code)) (d : Decoder)
    (hd : UsedDecoder d) (hh : Holds cfg d f.earlier) (h4 : f.comps.length = 4) (hct : f.transform d.transform = some 0)
    (hv : f.Valid (f.interval d.restartInterval) H V codes) (hr : f.Renderable H V)
    (bad : Nat → Prop) (data : List UInt8) (k : Nat)
    (hdata : DamagedScan codes (List.replicate k 0xFF ++ markerBytes .EOI) bad 0 f.intervals data)
    (image : List UInt8) (d' : Decoder) (e : d.decode cfg f.bytes = .ok image d') :
    (∃ g d2, d.decode cfg ({ f with data } : BaselineFile).bytes = .fail g d2 ∧ ∀ p, g ≠ .panic p) ∨
    ∃ image2 d2, d.decode cfg ({ f with data } : BaselineFile).bytes = .ok image2 d2 ∧
      image2.length = image.length ∧
      ∀ y x, y < f.y → x < f.x →
        f.Untouched (f.interval d.restartInterval) H V bad (if cfg.rayon then y / V else y / V * V) x →
        ∀ j, j < 4 → image2[4 * f.x * y + (4 * x + j)]? = image[4 * f.x * y + (4 * x + j)]? := by
  rcases damaged_result (cfg := cfg) hd hh hv.toLaid hdata with h | ⟨d2, hdec2, k4, k1, k2, Z, k5, -, k6, k7⟩
  · exact .inl h
  obtain ⟨image2, e2, hl, hk⟩ := image_kept_cmyk hd hh h4 hct hv hr hdec2 k4 k1 k2 k7 e
  exact .inr ⟨image2, d2, e2, hl, fun y x hy hx hun => hk y x hy hx (keptAt_untouched hv k5 k6 hun)⟩

/-- **C66** (nothing is known of the data). Whatever marker-free data stands behind the headers of such a file,
between restart markers at the right places, decoding does not panic. -/
theorem C66_no_panic (cfg : Cfg) (f : BaselineFile) (H V : Nat) (codes : List (Code × Code)) (d : Decoder)
    (hd : UsedDecoder d) (hh : Holds cfg d f.earlier) (h3 : f.comps.length = 3) (hct : f.transform d.transform ≠ some 0)
    (hv : f.Valid (f.interval d.restartInterval) H V codes) (hr : f.Renderable H V) (data : List UInt8) (k : Nat)
    (hdata : DamagedScan codes (List.replicate k 0xFF ++ markerBytes .EOI) (fun _ => True) 0 f.intervals data)
    (p : PanicSite) (d2 : Decoder) : d.decode cfg ({ f with data } : BaselineFile).bytes ≠ .fail (.panic p) d2 := by
  obtain ⟨image, d', e, -⟩ := C45_decodes cfg f H V codes d hd hh h3 hct hv hr
  intro hp
  rcases C66_confined cfg f H V codes d hd hh h3 hct hv hr _ data k hdata image d' e with ⟨g, d3, e1, e2⟩ | ⟨_, _, e1, -⟩
  · rw [e1] at hp
    simp only [Out.fail.injEq] at hp
    exact e2 p hp.1
  · rw [e1] at hp
    simp at hp

/-- With no interval damaged, the data is an encoding of the intervals. -/
theorem C66_undamaged (codes : List (Code × Code)) (tail : List UInt8) (j : Nat) (intervals : List (List Mcu))
    (data : List UInt8) : DamagedScan codes tail (fun _ => False) j intervals data ↔
      ScanBytes codes tail (j % 8) intervals data := by
  constructor
  · intro h
    induction h with
    | last hi => exact .last (hi not_false)
    | @cons j _ _ _ _ k hi _ ih =>
      refine .cons k (hi not_false) ?_
      rwa [show (j % 8 + 1) % 8 = (j + 1) % 8 by omega]
  · intro h
    generalize hn : j % 8 = n at h
    induction h generalizing j with
    | last hi => exact .last fun _ => hi
    | @cons n ms rest data bytes k hi _ ih =>
      subst hn
      exact .cons k (fun _ => hi) (ih (j + 1) (by omega))

end

/-! ## A case -/

/-- The example file of C45, restart interval 1, with the data of the first interval lost. -/
theorem exampleFile_damaged : DamagedScan (List.replicate 3 (exampleDc, exampleAc))
    (List.replicate 1 0xFF ++ markerBytes .EOI) (· = 0) 0 exampleFile.intervals
    (stuff [] ++ (List.replicate 0 0xFF ++ 0xFF :: UInt8.ofNat (0xD0 + 0 % 8) ::
      (stuff exampleData ++ (List.replicate 1 0xFF ++ markerBytes .EOI)))) := by
  have hi : IntervalData (List.replicate 3 (exampleDc, exampleAc)) [exampleMcu3] exampleData :=
    ⟨_, [false, false], _, .cons exampleMcu3_bits .nil, by decide +kernel⟩
  exact .cons 0 (fun h => absurd rfl h) (.last fun _ => hi)

/-- Decoding it does not panic, and if there is an image, its right half (columns 8 to 15: the second interval)
is that of the whole file. -/
example (data : List UInt8) (hdata : DamagedScan (List.replicate 3 (exampleDc, exampleAc))
      (List.replicate 1 0xFF ++ markerBytes .EOI) (· = 0) 0 exampleFile.intervals data)
    (image : List UInt8) (d' : Decoder) (e : Decoder.default.decode ⟨true, false⟩ exampleFile.bytes = .ok image d')
    (image2 : List UInt8) (d2 : Decoder)
    (e2 : Decoder.default.decode ⟨true, false⟩ ({ exampleFile with data } : BaselineFile).bytes = .ok image2 d2)
    (y x j : Nat) (hy : y < 8) (hx : 8 ≤ x ∧ x < 16) (hj : j < 3) :
    image2[48 * y + (3 * x + j)]? = image[48 * y + (3 * x + j)]? := by
  rcases C66_confined_own ⟨true, false⟩ exampleFile _ Decoder.default .new (.nothing _) rfl (by decide)
    exampleFile_valid _ data 1 hdata image d' e with ⟨_, _, h, -⟩ | ⟨image3, d3, h1, -, h2⟩
  · rw [e2] at h
    simp at h
  · rw [e2] at h1
    simp only [Out.ok.injEq] at h1
    obtain ⟨rfl, -⟩ := h1
    refine h2 y x hy hx.2 ?_ j hj
    show ¬ (y / 8 * ((16 + 7) / 8) + x / 8) / 1 = 0
    omega

end Jpeg
