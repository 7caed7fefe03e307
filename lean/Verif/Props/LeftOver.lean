import Verif.Props.Stream
import Verif.Props.Reading
/-!
# C44: what the bits left over by one picture make of the next

A codec keeps the bits its reader has not used when a scan ends, and starts the next file with them.
-/

namespace Jpeg
open HasInput HasLen Spec Sample

section
variable {cfg : Cfg} {f : BaselineFile} {H V : Nat} {codes : List (Code × Code)}

/-- The run over a file, with bits left over from before. -/
theorem loopAll_after {bits count : Nat} (hwf : ∀ l, (⟨l, bits, count⟩ : Biterator).WF) {d : Decoder} (hd : DecInv d)
    (hh : TablesHeld cfg f.earlier d) (hv : f.Laid (f.interval d.restartInterval) H V codes) {k : Nat} {x : List UInt8}
    (hx : ScanBytesAfter codes (List.replicate k 0xFF ++ markerBytes .EOI) (bitsN count bits) 0 f.intervals x) :
    ∃ d' bi, loopAll cfg ⟨d, ⟨({ f with data := x } : BaselineFile).bytes, bits, count⟩⟩ = .ok () ⟨d', bi⟩ ∧
      bi.input = [] ∧ TablesHeld cfg f.tables d' ∧ d'.frame = some (fileFrame f H V) ∧
      d'.transform = f.transform d.transform ∧
      d'.planes = scanPlanes (ceilDiv f.x (8 * H)) d'.quantTables (fileFrame f H V).components
        f.intervals.flatten := by
  obtain ⟨d3, i3, hh3, hf3, hr3, ht3, e3⟩ := loopAll_toScan_from (cfg := cfg) hwf hd hh hv
  obtain ⟨d4, bi, e4, h1, h2, h3⟩ := sos_after (cfg := cfg) hv i3 hf3 hh3 hr3 (starts_eoi k) (hwf []).1 (hwf []).2 hx
  rw [e3 x, e4, Out.bind_ok, loopAll_eoi (rest := []) (by
    simp only
    rw [marker_scanTail h1]
    simpa using marker_bytes (m := .EOI) trivial k [])]
  have hq : d4.quantTables = d3.quantTables := by rw [h3]
  refine ⟨d4, _, rfl, rfl, hh3.same (by rw [h3]) (by rw [h3]) (by rw [h3]), by rw [h3]; exact hf3, ?_, ?_⟩
  · have e : d4.transform = d3.transform := by rw [h3]; rfl
    rw [e, ht3]
  · rw [hq, h3]

/-- The same, and what is left over afterwards. -/
theorem loopAll_padded {bits count : Nat} (hwf : ∀ l, (⟨l, bits, count⟩ : Biterator).WF) {d : Decoder} (hd : DecInv d)
    (hh : TablesHeld cfg f.earlier d) (hv : f.Laid (f.interval d.restartInterval) H V codes) {k : Nat} {x : List UInt8}
    {pad : List Bool}
    (hx : ScanPadded codes (List.replicate k 0xFF ++ markerBytes .EOI) pad (bitsN count bits) 0 f.intervals x) :
    ∃ d' bi, loopAll cfg ⟨d, ⟨({ f with data := x } : BaselineFile).bytes, bits, count⟩⟩ =
        .ok () ⟨d', { bi with input := [] }⟩ ∧
      Rep True bi pad (List.replicate k 0xFF ++ markerBytes .EOI) := by
  obtain ⟨d3, i3, hh3, hf3, hr3, ht3, e3⟩ := loopAll_toScan_from (cfg := cfg) hwf hd hh hv
  obtain ⟨d4, bi, e4, h1, h2⟩ := sos_padded (cfg := cfg) hv i3 hf3 hh3 hr3 (starts_eoi k) (hwf []).1 (hwf []).2 hx
  rw [e3 x, e4, Out.bind_ok, loopAll_eoi (rest := []) (by
    simp only
    rw [marker_scanTail h1.tail]
    simpa using marker_bytes (m := .EOI) trivial k [])]
  exact ⟨d4, bi, rfl, h1⟩

/-- **C44** (refutation, every file that does not end with a whole byte). A picture leaves in the bit buffer as many
bits as complete its last byte, up to whole bytes; when these are fewer than eight, as the standard has it, the
buffer begins with them. The buffer is empty, as it is for a new decoder, only if there are none. -/
theorem C44_left_over_violated (cfg : Cfg) (f : BaselineFile) (H V : Nat) (codes : List (Code × Code)) (c : Codec)
    (hc : c.Idle) (hh : Holds cfg c.st.dec f.earlier)
    (hv : f.Laid (f.interval c.st.dec.restartInterval) H V codes) (k : Nat) (pad : List Bool)
    (hx : ScanPadded codes (List.replicate k 0xFF ++ markerBytes .EOI) pad (bitsN c.st.bi.count c.st.bi.bits) 0
      f.intervals f.data) (image : List UInt8) (t : St)
    (h : decodeParser cfg (c.start f.bytes) = .ok (.ok image) t) :
    t.bi.count % 8 = pad.length % 8 ∧ (pad.length < 8 → pad <+: bitsN t.bi.count t.bi.bits) ∧
      (pad.length % 8 ≠ 0 → t.bi ≠ Biterator.new []) := by
  obtain ⟨d', bi, h1, h2⟩ := loopAll_padded (cfg := cfg) (bits := c.st.bi.bits) (count := c.st.bi.count)
    (fun _ => hc.wf) hc.inv hh.held hv hx
  have ht : t.bi = { bi with input := [] } := by
    have e : segmentLoop cfg ((c.start f.bytes).bi.input.length + 1) (c.start f.bytes) =
        .ok () ⟨d', { bi with input := [] }⟩ := h1
    unfold decodeParser at h
    rw [e, Out.bind_ok] at h
    cases hu : upsample cfg d' with
    | error g =>
      simp only [hu] at h
      cases g <;> simp at h
    | ok i =>
      simp only [hu] at h
      cases h
      rfl
  have ha := h2.aligned trivial
  rw [ht]
  refine ⟨ha, fun h8 => ?_, fun h8 e => ?_⟩
  · have hle : pad.length ≤ bi.count := by
      rw [Nat.mod_eq_of_lt h8] at ha
      have := Nat.mod_le bi.count 8
      omega
    have := h2.take_buf le_rfl hle
    rw [List.take_length] at this
    exact ⟨_, by
      rw [← this]
      exact List.take_append_drop _ _⟩
  · have : bi.count = 0 := congrArg Biterator.count e
    omega

/-- The run of the parser behind `C44_shifted_partial`. -/
theorem decodeParser_after (cfg : Cfg) (f : BaselineFile) (H V : Nat) (codes : List (Code × Code)) (c : Codec)
    (hc : c.Idle) (hh : Holds cfg c.st.dec f.earlier)
    (hv : f.Valid (f.interval c.st.dec.restartInterval) H V codes) (k : Nat) (x : List UInt8)
    (hx : ScanBytesAfter codes (List.replicate k 0xFF ++ markerBytes .EOI) (bitsN c.st.bi.count c.st.bi.bits) 0
      f.intervals x) (image : List UInt8) (d2 : Decoder) (himage : c.st.dec.decode cfg f.bytes = .ok image d2) :
    ∃ t, decodeParser cfg (c.start ({ f with data := x } : BaselineFile).bytes) = .ok (.ok image) t ∧
      t.bi.input = [] := by
  obtain ⟨a', ai, a1, a2, a3, a4, a5, a6⟩ := loopAll_after (cfg := cfg) (bits := c.st.bi.bits) (count := c.st.bi.count)
    (fun _ => hc.wf) hc.inv hh.held hv.toLaid hx
  obtain ⟨b', bi, b1, b2, b3, b4, bt, b7⟩ := file_decoded (cfg := cfg) hc.inv hh.held hv
  have hpl : a'.planes = b'.planes := by
    rw [a6, b7]
    unfold scanPlanes
    apply List.map_congr_left
    intro i _
    cases hc : (fileFrame f H V).components[i]? with
    | none => rfl
    | some c =>
      obtain ⟨k, hk, rfl⟩ := List.mem_map.1 (List.mem_of_getElem? hc)
      simp only
      rw [quantOf_unique hv a3 bt hk]
  have hup : upsample cfg a' = upsample cfg b' := upsample_only (a4.trans b3.has.symm) hpl (a5.trans b4.symm)
  obtain ⟨t, e1, e2, e3, e4⟩ := decode_ok_inv himage
  have e5 : upsample cfg b' = .ok image := by
    have : segmentLoop cfg (f.bytes.length + 1) ⟨c.st.dec, Biterator.new f.bytes⟩ = .ok () ⟨b', bi⟩ := b1
    rw [this] at e1
    cases e1
    cases e2
    exact e4
  refine ⟨⟨a', ai⟩, ?_, a2⟩
  unfold decodeParser
  have : segmentLoop cfg ((c.start ({ f with data := x } : BaselineFile).bytes).bi.input.length + 1)
      (c.start ({ f with data := x } : BaselineFile).bytes) = .ok () ⟨a', ai⟩ := a1
  rw [this, Out.bind_ok, hup, e5]

/-- **C44** (what the next picture shows). A codec between two pictures gets a file laid out as the standard says
whose data, read behind the bits the codec has left over, are the MCUs of `f`. It makes of it the image that
`decode` returns for `f`, whose data are these MCUs, and keeps what is behind the file: the left-over bits count
as the first bits of the data.

Missing: that these are the MCUs of the file itself. That is false when bits are left over (`C44_violated`). -/
theorem C44_shifted_partial (cfg : Cfg) (f : BaselineFile) (H V : Nat) (codes : List (Code × Code)) (c : Codec)
    (hc : c.Idle) (hh : Holds cfg c.st.dec f.earlier)
    (hv : f.Valid (f.interval c.st.dec.restartInterval) H V codes) (k : Nat) (x : List UInt8)
    (hx : ScanBytesAfter codes (List.replicate k 0xFF ++ markerBytes .EOI) (bitsN c.st.bi.count c.st.bi.bits) 0
      f.intervals x) (image : List UInt8) (d2 : Decoder) (himage : c.st.dec.decode cfg f.bytes = .ok image d2)
    (behind : List UInt8) (chunks : List (List UInt8)) (hne : chunks ≠ [])
    (hfile : c.st.bi.input ++ chunks.flatten = ({ f with data := x } : BaselineFile).bytes ++ behind) :
    (∃ c' rest, c.feed cfg chunks = (.image (.ok image) c', rest) ∧ c'.Idle ∧
      c'.st.bi.input ++ rest.flatten = behind) ∨
    SplitAtRestart cfg c (({ f with data := x } : BaselineFile).bytes ++ behind) chunks ∨
    SplitInEobRun cfg c (({ f with data := x } : BaselineFile).bytes ++ behind) chunks := by
  obtain ⟨t, h1, h2⟩ := decodeParser_after cfg f H V codes c hc hh hv k x hx image d2 himage
  rcases C44_next_image_partial cfg c hc _ behind chunks hne hfile image t h1 h2 with ⟨c', rest, e1, e2, -, e4⟩ | h | h
  · exact .inl ⟨c', rest, e1, e2, e4⟩
  · exact .inr (.inl h)
  · exact .inr (.inr h)

end

/-! ## A case -/

/-- One code word, `0`, for the symbol 0. -/
def flatCode : Code := ⟨1 :: List.replicate 15 0, [0]⟩

def flatMcu : Mcu := List.replicate 3 [⟨0, List.replicate 63 0⟩]

/-- One MCU, all coefficients zero: six bits. -/
def flatFile : BaselineFile :=
  { exampleFile with
    x := 8
    after := [.dht [⟨false, 0, flatCode.counts, flatCode.values⟩, ⟨true, 2, flatCode.counts, flatCode.values⟩], .dri 0]
    intervals := [[flatMcu]]
    data := stuff [0] ++ markerBytes .EOI }

theorem flatMcu_bits : McuBits (List.replicate 3 (flatCode, flatCode)) [0, 0, 0] flatMcu
    (List.replicate 6 false) [0, 0, 0] := by
  have hb : BlockBits flatCode flatCode 0 (List.replicate 63 0) [false, false] :=
    C13_standard_encoder _ _ _ _ _ (by decide) (by decide +kernel)
  have h1 : BlocksBits flatCode flatCode 0 [⟨0, List.replicate 63 0⟩] _ 0 := .cons hb (by decide) .nil
  have := McuBits.cons h1 (McuBits.cons h1 (McuBits.cons h1 (McuBits.nil (ps := []))))
  unfold flatMcu
  simpa using this

theorem flatFile_valid : flatFile.Valid 0 1 1 (List.replicate 3 (flatCode, flatCode)) := by
  have hi : IntervalData (List.replicate 3 (flatCode, flatCode)) [flatMcu] [0] :=
    ⟨_, [false, false], _, .cons flatMcu_bits .nil, by decide +kernel⟩
  have hv := exampleFile_valid
  refine ⟨⟨?_, by decide, by decide, by decide, by decide, by decide, by decide, ⟨by decide, by decide⟩,
    ⟨by decide, by decide⟩, by decide, fun _ => ⟨rfl, rfl⟩, hv.quant, ?_, by decide, ?_, ?_⟩, ⟨0, .last hi⟩⟩
  · intro s hs
    simp only [flatFile, exampleFile, BaselineFile.tables, BaselineFile.segments, List.cons_append, List.nil_append,
      List.mem_cons, List.not_mem_nil, or_false] at hs
    have he : ∀ s ∈ exampleFile.before, s.Ok := fun s h => hv.tables s (by
      simp only [BaselineFile.tables, BaselineFile.segments, List.mem_append]
      exact .inr (.inl h))
    rcases hs with h | h | h | h | h | h
    · exact he s (by simp [exampleFile, h])
    · exact he s (by simp [exampleFile, h])
    · exact he s (by simp [exampleFile, h])
    · exact he s (by simp [exampleFile, h])
    · subst h
      refine ⟨by decide, ?_⟩
      intro t ht
      simp only [List.mem_cons, List.not_mem_nil, or_false] at ht
      rcases ht with rfl | rfl
      · exact ⟨⟨by decide, by decide, by decide⟩, by decide, by decide, by unfold KraftOk; decide⟩
      · exact ⟨⟨by decide, by decide, by decide⟩, by decide, by decide, by unfold KraftOk; decide⟩
    · subst h
      exact ⟨by decide, by show (0 : Nat) < 65536; decide⟩
  · exact .cons ⟨rfl, rfl⟩ (.cons ⟨rfl, rfl⟩ (.cons ⟨rfl, rfl⟩ .nil))
  · intro m hm
    have : m = flatMcu := by simpa [flatFile] using hm
    rw [this]; rfl
  · unfold IntervalsOk
    rw [if_pos rfl]
    rfl

theorem flat_after (n : Nat) (hn : 6 ≤ n) (data : List UInt8) :
    ScanBytesAfter (List.replicate 3 (flatCode, flatCode)) (List.replicate 0 0xFF ++ markerBytes .EOI)
      (List.replicate n false) 0 [[flatMcu]] (stuff data ++ markerBytes .EOI) := by
  refine .last ⟨_, List.replicate (n - 6) false ++ bitsOf data, _, .cons flatMcu_bits .nil, ?_⟩
  rw [List.append_nil, ← List.append_assoc, List.replicate_append_replicate, Nat.add_sub_cancel' hn]

/-- **C44** (refutation, for every data). A codec that has six zero bits left over, its decoder that of pictures
decoded before, takes a file with the flat code tables and whatever data for the flat picture: the data are not
looked at. -/
theorem C44_data_ignored_violated (cfg : Cfg) (c : Codec) (hc : c.Idle) (hd : UsedDecoder c.st.dec) (n : Nat)
    (hn : 6 ≤ n) (hleft : bitsN c.st.bi.count c.st.bi.bits = List.replicate n false) (data : List UInt8) :
    ∃ image d2 t, c.st.dec.decode cfg flatFile.bytes = .ok image d2 ∧
      decodeParser cfg (c.start ({ flatFile with data := stuff data ++ markerBytes .EOI } : BaselineFile).bytes) =
        .ok (.ok image) t ∧ t.bi.input = [] := by
  have hr : flatFile.interval c.st.dec.restartInterval = 0 := rfl
  have hv : flatFile.Valid (flatFile.interval c.st.dec.restartInterval) 1 1 _ := hr ▸ flatFile_valid
  have hh : Holds cfg c.st.dec flatFile.earlier := .nothing _
  obtain ⟨image, d2, e, -⟩ := C45_decodes cfg flatFile 1 1 _ c.st.dec hd hh rfl (show some 1 ≠ some 0 by decide) hv
    (by unfold BaselineFile.Renderable; decide)
  obtain ⟨t, h1, h2⟩ := decodeParser_after cfg flatFile 1 1 _ c hc hh hv 0 _
    (hleft ▸ flat_after n hn data) image d2 e
  exact ⟨image, d2, t, e, h1, h2⟩

/-- Such a codec: one that has decoded the example picture. -/
example : (match Codec.new.feed ⟨false, false⟩ [examplePlain.bytes] with
    | (.image (.ok _) c, []) =>
      decide (bitsN c.st.bi.count c.st.bi.bits = List.replicate 58 false) && decide (c.st.bi.input = [])
    | _ => false) = true := by decide +kernel

/-- A case of `C44_left_over_violated`: two bits complete the last byte of the example file. -/
example (cfg : Cfg) : ∃ image t, decodeParser cfg ((Codec.ofDecoder Decoder.default).start exampleFile.bytes) =
      .ok (.ok image) t ∧ t.bi.count % 8 = 2 ∧ t.bi ≠ Biterator.new [] := by
  obtain ⟨image, d', e, -⟩ := C45_decodes cfg exampleFile 1 1 _ Decoder.default .new (.nothing _) rfl (by decide)
    exampleFile_valid (by unfold BaselineFile.Renderable; decide)
  obtain ⟨t, h, -⟩ := decode_ok_parser e
  have hb : bitsOf exampleData = (List.replicate 3 exampleBits).flatten ++ [] ++ [false, false] := by decide +kernel
  have := C44_left_over_violated cfg exampleFile 1 1 (List.replicate 3 (exampleDc, exampleAc))
    (Codec.ofDecoder Decoder.default) (Codec.idle_ofDecoder .new) (.nothing _) exampleFile_valid.toLaid 1
    [false, false] (.cons 1 ⟨_, _, _, .cons exampleMcu3_bits .nil, hb⟩ (.last (.cons exampleMcu3_bits .nil) hb)) image t h
  exact ⟨image, t, h, this.1, this.2.2 (by decide)⟩

end Jpeg
