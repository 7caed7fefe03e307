import Verif.Proofs.Tables
import Verif.Proofs.ScanHeader
import Verif.Model.Decode
import Verif.Proofs.Geometry
import Mathlib.Data.List.Forall2
/-!
# Markers, segments, table definitions, scan headers (C36 to C39)
-/

namespace Jpeg
open Spec

/-! ## C36 -/

/-- **C36**. The marker parser finds the first position with `0xFF` and a code other than `0x00` and
`0xFF`, skipping everything before (data bytes, stuffed `FF00` pairs, fill bytes). If the code is that of
a known marker it returns the marker and the bytes behind it. -/
theorem C36_first_marker (l : List UInt8) (i : Nat) (c : UInt8) (m : Marker) (h : MarkerAt l i c)
    (hfirst : ∀ j c', j < i → ¬ MarkerAt l j c') (hm : MarkerExists m) (hc : markerCode m = c.toNat) :
    marker l = .ok (m, l.drop (i + 2)) := by
  have := markerAux_first l false i c h hfirst
  simp only [Bool.false_eq_true, if_false] at this
  unfold marker
  rw [this, codeResult, (markerOfByte_spec c m).2 ⟨hm, hc⟩]

/-- **C36**. If the first code is not that of a known marker, the parser reports an error. -/
theorem C36_unknown_code (l : List UInt8) (i : Nat) (c : UInt8) (h : MarkerAt l i c)
    (hfirst : ∀ j c', j < i → ¬ MarkerAt l j c')
    (hc : ∀ m, MarkerExists m → markerCode m ≠ c.toNat) :
    marker l = .error (.err .markerExpected) := by
  have := markerAux_first l false i c h hfirst
  simp only [Bool.false_eq_true, if_false] at this
  unfold marker
  rw [this, codeResult]
  cases hb : markerOfByte c with
  | none => rfl
  | some m => exact absurd ((markerOfByte_spec c m).1 hb).2 (hc m ((markerOfByte_spec c m).1 hb).1)

/-- **C36**. Without any such position the input is reported as ended. -/
theorem C36_no_marker (l : List UInt8) (h : ∀ i c, ¬ MarkerAt l i c) : marker l = .error .eof := by
  have := markerAux_none l false
  simp only [Bool.false_eq_true, if_false] at this
  exact this h

/-- **C36** (converse). Whatever marker is returned did stand at the first marker position. -/
theorem C36_found (l rest : List UInt8) (m : Marker) (h : marker l = .ok (m, rest)) :
    MarkerExists m ∧ ∃ i, MarkerAt l i (UInt8.ofNat (markerCode m)) ∧
      (∀ j c, j < i → ¬ MarkerAt l j c) ∧ rest = l.drop (i + 2) := by
  by_cases hno : ∀ i c, ¬ MarkerAt l i c
  · rw [C36_no_marker l hno] at h; cases h
  · simp only [not_forall, not_not] at hno
    have hex : ∃ i, ∃ c, MarkerAt l i c := hno
    classical
    obtain ⟨c, hc⟩ := Nat.find_spec hex
    have hmin : ∀ j c', j < Nat.find hex → ¬ MarkerAt l j c' := fun j c' hj hm =>
      Nat.find_min hex hj ⟨c', hm⟩
    by_cases hk : ∃ m', MarkerExists m' ∧ markerCode m' = c.toNat
    · obtain ⟨m', h1, h2⟩ := hk
      rw [C36_first_marker l _ c m' hc hmin h1 h2] at h
      simp only [Except.ok.injEq, Prod.mk.injEq] at h
      obtain ⟨rfl, rfl⟩ := h
      refine ⟨h1, _, ?_, hmin, rfl⟩
      rw [h2]
      simpa using hc
    · rw [C36_unknown_code l _ c hc hmin (fun m' h1 h2 => hk ⟨m', h1, h2⟩)] at h
      cases h

/-- A case of C36: data, a stuffed pair, fill bytes, then DHT. -/
example : marker [0x12, 0xFF, 0x00, 0x34, 0xFF, 0xFF, 0xC4, 0x55] = .ok (.DHT, [0x55]) :=
  C36_first_marker _ 5 0xC4 .DHT (by unfold MarkerAt; decide)
    (by intro j c hj; rintro ⟨h1, h2, h3, h4⟩; interval_cases j <;> simp_all <;> exact absurd h2 (by simp_all))
    (by simp [MarkerExists]) (by decide)

/-! ## C37 -/

/-- The markers whose segments `do_segment` reads as length and content. -/
def HasSegment : Marker → Prop
  | .SOF _ | .DHT | .DQT | .DRI | .APP _ => True
  | _ => False

theorem doSegment_segment {m : Marker} (hm : HasSegment m) :
    ∃ body : Cfg → List UInt8 → Decoder → Out Decoder Unit,
      ∀ cfg s, doSegment cfg m s = segment cfg (body cfg) s := by
  cases m with
  | SOF i => exact ⟨fun cfg => sofBody cfg i, fun _ _ => rfl⟩
  | DHT => exact ⟨dhtBody, fun _ _ => rfl⟩
  | DQT => exact ⟨fun _ => dqtBody, fun _ _ => rfl⟩
  | DRI => exact ⟨fun _ => driBody, fun _ _ => rfl⟩
  | APP n =>
    by_cases h : n = 14
    · exact ⟨fun _ => adobeBody, fun cfg s => by rw [doSegment, if_pos h]⟩
    · exact ⟨fun _ _ d => .ok () d, fun cfg s => by rw [doSegment, if_neg h]⟩
  | _ => simp [HasSegment] at hm

/-- **C37**. A segment that starts with its length takes exactly that many bytes, whatever of it the
content parser reads, and leaves the bits in the bit buffer alone; what is stored depends on the content
only, not on the bytes that follow. -/
theorem C37_exact_length (m : Marker) (hm : HasSegment m) (cfg : Cfg) (d : Decoder) (bits count : Nat)
    (payload : List UInt8) (hlen : payload.length + 2 < 65536) :
    ∃ r : Out Decoder Unit, ∀ rest,
      doSegment cfg m ⟨d, ⟨segmentOf payload ++ rest, bits, count⟩⟩ =
        match r with
        | .ok () d' => .ok () ⟨d', ⟨rest, bits, count⟩⟩
        | .fail f d' => .fail f ⟨d', ⟨rest, bits, count⟩⟩ := by
  obtain ⟨body, hb⟩ := doSegment_segment hm
  refine ⟨body cfg payload d, fun rest => ?_⟩
  rw [hb, segment]
  simp only [segmentBytes_ok cfg hlen]
  cases body cfg payload d <;> rfl

/-- **C37** (converse). A segment that is accepted did have a length field and that much content. Only
in release builds lengths below 2 wrap around. -/
theorem C37_accepted (m : Marker) (hm : HasSegment m) (cfg : Cfg) (s s' : St)
    (h : doSegment cfg m s = .ok () s') :
    ∃ payload rest, s'.bi = { s.bi with input := rest } ∧
      ((payload.length + 2 < 65536 ∧ s.bi.input = segmentOf payload ++ rest) ∨
        (cfg.debug = false ∧ ∃ n, n < 2 ∧ payload.length = 65534 + n ∧
          s.bi.input = be16 n ++ payload ++ rest)) := by
  obtain ⟨body, hb⟩ := doSegment_segment hm
  rw [hb, segment] at h
  cases hs : segmentBytes cfg s.bi.input with
  | error f => rw [hs] at h; simp at h
  | ok p =>
    obtain ⟨payload, rest⟩ := p
    rw [hs] at h
    simp only at h
    refine ⟨payload, rest, ?_, segmentBytes_inv hs⟩
    split at h
    · simp only [Out.ok.injEq, true_and] at h
      rw [← h]; rfl
    · simp at h

/-- **C37**. A length below 2 panics in debug builds (`len - 2` overflows). -/
theorem C37_short_length (m : Marker) (hm : HasSegment m) (d : Decoder) (bits count : Nat) (n : Nat)
    (hn : n < 2) (rest : List UInt8) (rayon : Bool) :
    doSegment ⟨true, rayon⟩ m ⟨d, ⟨be16 n ++ rest, bits, count⟩⟩ =
      .fail (.panic .segmentLen) ⟨d, ⟨be16 n ++ rest, bits, count⟩⟩ := by
  obtain ⟨body, hb⟩ := doSegment_segment hm
  rw [hb, segment]
  simp only [segmentBytes, beU16_be16 (show n < 65536 by omega)]
  simp only [if_pos hn, if_true]

/-- **C37**. A segment cut short is reported as end of input and changes nothing. -/
theorem C37_truncated (m : Marker) (hm : HasSegment m) (cfg : Cfg) (d : Decoder) (bits count : Nat)
    (n : Nat) (h2 : 2 ≤ n) (hn : n < 65536) (l : List UInt8) (hl : l.length + 2 < n) :
    doSegment cfg m ⟨d, ⟨be16 n ++ l, bits, count⟩⟩ = .fail .eof ⟨d, ⟨be16 n ++ l, bits, count⟩⟩ := by
  obtain ⟨body, hb⟩ := doSegment_segment hm
  rw [hb, segment]
  simp only [segmentBytes, beU16_be16 hn]
  rw [if_neg (by omega), takeBytes, if_pos (by omega)]

/-- **C37** for scan headers: the entropy coded data starts exactly behind the declared length, bytes of
the header beyond what the header parser reads are skipped. -/
theorem C37_scan_header (cfg : Cfg) (d : Decoder) (bits count : Nat) (header extra : List UInt8)
    (hlen : header.length + extra.length + 2 < 65536) (scan : Scan) (unread : List UInt8)
    (h : sosSegment d.frame header = .ok (scan, unread)) (rest : List UInt8) :
    sos cfg ⟨d, ⟨segmentOf (header ++ extra) ++ rest, bits, count⟩⟩ =
      sos cfg ⟨d, ⟨segmentOf header ++ rest, bits, count⟩⟩ := by
  obtain ⟨fr, comps, ss, se, ah, al, hf, hah, hal, h1, h4, rfl, hall, hi, he⟩ := sosSegment_inv h
  have h' : sosSegment d.frame (scanHeader comps ss se ah al ++ unread ++ extra) =
      .ok (scan, unread ++ extra) := by
    rw [hf, List.append_assoc, sosSegment_ok ss se hah hal _ h1 h4 hall hi, ← he]
  unfold sos
  simp only [segmentBytes_ok cfg (show (scanHeader comps ss se ah al ++ unread ++ extra).length + 2 < 65536 by
    rw [List.length_append]; exact hlen),
    segmentBytes_ok cfg (show (scanHeader comps ss se ah al ++ unread).length + 2 < 65536 by omega),
    St.setInput, h, h']

/-- A case of C37: an APP0 segment, then other bytes. -/
example (d : Decoder) : doSegment ⟨true, false⟩ (.APP 0) ⟨d, ⟨[0, 4, 0xFF, 0xD9, 7, 8], 5, 3⟩⟩ =
    .ok () ⟨d, ⟨[7, 8], 5, 3⟩⟩ := by
  simp [doSegment, segment, segmentBytes, beU16, takeBytes, St.setInput]

/-! ## C38 -/

/-- **C38** (Huffman). A DHT segment whose definitions are well formed and complete codes is accepted. -/
theorem C38_dht_accepted (cfg : Cfg) (ts : List HuffmanDef) (d : Decoder) (bits count : Nat)
    (rest : List UInt8) (hlen : (ts.flatMap HuffmanDef.bytes).length + 2 < 65536)
    (hok : ∀ t ∈ ts, t.Ok ∧ 1 ≤ t.values.length ∧ t.values.length ≤ 256 ∧ KraftOk (codeSizes t.counts)) :
    ∃ d', doSegment cfg .DHT ⟨d, ⟨segmentOf (ts.flatMap HuffmanDef.bytes) ++ rest, bits, count⟩⟩ =
      .ok () ⟨d', ⟨rest, bits, count⟩⟩ := by
  obtain ⟨d', hd⟩ := definedAll_exists (cfg := cfg) ts d hok
  refine ⟨d', ?_⟩
  simp only [doSegment, segment, segmentBytes_ok cfg hlen, dhtBody]
  rw [dhtGo_ok ts _ d d' (fun t ht => (hok t ht).1) (by omega) hd]
  rfl

/-- **C38** (Huffman). A DHT segment that is accepted consists of definitions with class 0 or 1 and
destination 0 to 3. Afterwards each of the eight table slots holds the table built from the last
definition naming it, or what it held before if none does; nothing else of the decoder changes. -/
theorem C38_dht_defines (cfg : Cfg) (d d' : Decoder) (hac : d.acTables.length = 4)
    (hdc : d.dcTables.length = 4) (payload : List UInt8) (hlen : payload.length + 2 < 65536)
    (rest : List UInt8) (bits count : Nat) (b : Biterator)
    (h : doSegment cfg .DHT ⟨d, ⟨segmentOf payload ++ rest, bits, count⟩⟩ = .ok () ⟨d', b⟩) :
    ∃ ts : List HuffmanDef, payload = ts.flatMap HuffmanDef.bytes ∧ (∀ t ∈ ts, t.Ok) ∧
      d' = { d with acTables := d'.acTables, dcTables := d'.dcTables } ∧
      d'.acTables.length = 4 ∧ d'.dcTables.length = 4 ∧
      ∀ k, k < 4 →
        (match lastWith (fun t => t.ac && t.dest == k) ts with
          | none => d'.acTables[k]? = d.acTables[k]?
          | some t => ∃ tab, d'.acTables[k]? = some (some tab) ∧ AcceptedAc cfg t.counts t.values tab) ∧
        (match lastWith (fun t => !t.ac && t.dest == k) ts with
          | none => d'.dcTables[k]? = d.dcTables[k]?
          | some t => ∃ tab, d'.dcTables[k]? = some (some tab) ∧ Accepted cfg t.counts t.values tab) := by
  simp only [doSegment, segment, segmentBytes_ok cfg hlen, dhtBody] at h
  cases hg : dhtGo cfg (payload.length + 1) payload d with
  | fail f d1 => rw [hg] at h; simp at h
  | ok u d1 =>
    rw [hg] at h
    simp only [Out.ok.injEq, true_and, St.mk.injEq] at h
    obtain ⟨rfl, -⟩ := h
    obtain ⟨ts, h1, h2, h3⟩ := dhtGo_inv _ _ _ _ hg
    obtain ⟨⟨a1, a2⟩, ⟨b1, b2⟩, c⟩ := definedAll_slots ts d d1 hac hdc h3
    refine ⟨ts, h2, h1, c, by omega, by omega, fun k hk => ⟨?_, ?_⟩⟩
    · have := a2 k hk
      rw [show (fun t : HuffmanDef => t.ac == true && t.dest == k) =
        (fun t => t.ac && t.dest == k) by funext t; cases t.ac <;> rfl] at this
      generalize hL : lastWith (fun t : HuffmanDef => t.ac && t.dest == k) ts = o at this
      cases o with
      | none => exact this
      | some t =>
        obtain ⟨tab, e1, e2⟩ := this
        have hmem : t ∈ ts := by
          have := List.mem_of_getLast? hL
          exact (List.mem_filter.1 this).1
        obtain ⟨-, o2, o3⟩ := h1 t hmem
        exact ⟨tab, e1, ⟨o2, by rw [codeSizes_length]; exact o3, e2⟩⟩
    · have := b2 k hk
      rw [show (fun t : HuffmanDef => t.ac == false && t.dest == k) =
        (fun t => !t.ac && t.dest == k) by funext t; cases t.ac <;> rfl] at this
      generalize hL : lastWith (fun t : HuffmanDef => !t.ac && t.dest == k) ts = o at this
      cases o with
      | none => exact this
      | some t =>
        obtain ⟨tab, e1, e2⟩ := this
        have hmem : t ∈ ts := by
          have := List.mem_of_getLast? hL
          exact (List.mem_filter.1 this).1
        obtain ⟨-, o2, o3⟩ := h1 t hmem
        exact ⟨tab, e1, ⟨o2, by rw [codeSizes_length]; exact o3, e2⟩⟩

/-- **C38** (quantisation). A DQT segment is accepted exactly if it consists of definitions with precision
0 or 1, destination 0 to 3 and 64 values. -/
theorem C38_dqt_accepted (cfg : Cfg) (d : Decoder) (payload : List UInt8)
    (hlen : payload.length + 2 < 65536) (rest : List UInt8) (bits count : Nat) :
    (∃ d', doSegment cfg .DQT ⟨d, ⟨segmentOf payload ++ rest, bits, count⟩⟩ =
      .ok () ⟨d', ⟨rest, bits, count⟩⟩) ↔
    ∃ ts : List QuantDef, payload = ts.flatMap QuantDef.bytes ∧ ∀ t ∈ ts, t.Ok := by
  simp only [doSegment, segment, segmentBytes_ok cfg hlen, dqtBody]
  constructor
  · rintro ⟨d', h⟩
    cases hg : dqtGo (payload.length + 1) payload d with
    | fail f d1 => rw [hg] at h; simp at h
    | ok u d1 =>
      obtain ⟨ts, h1, h2, _⟩ := dqtGo_inv _ _ _ _ hg
      exact ⟨ts, h2, h1⟩
  · rintro ⟨ts, rfl, hok⟩
    obtain ⟨d', hd⟩ := quantDefinedAll_exists ts d hok
    refine ⟨d', ?_⟩
    rw [dqtGo_ok ts _ d d' hok (by omega) hd]
    rfl

/-- **C38** (quantisation). Afterwards each of the four slots holds the 64 values of the last definition
naming it, put in natural order, or what it held before if none does; nothing else changes. -/
theorem C38_dqt_defines (cfg : Cfg) (d d' : Decoder) (hq : d.quantTables.length = 4)
    (payload : List UInt8) (hlen : payload.length + 2 < 65536)
    (rest : List UInt8) (bits count : Nat) (b : Biterator)
    (h : doSegment cfg .DQT ⟨d, ⟨segmentOf payload ++ rest, bits, count⟩⟩ = .ok () ⟨d', b⟩) :
    ∃ ts : List QuantDef, payload = ts.flatMap QuantDef.bytes ∧ (∀ t ∈ ts, t.Ok) ∧
      d' = { d with quantTables := d'.quantTables } ∧ d'.quantTables.length = 4 ∧
      ∀ k, k < 4 →
        match lastWith (fun t => t.dest == k) ts with
        | none => d'.quantTables[k]? = d.quantTables[k]?
        | some t => ∃ q, d'.quantTables[k]? = some (some q) ∧ q.length = 64 ∧
            ∀ i, i < 64 → q[zigzag i]? = t.values[i]? := by
  simp only [doSegment, segment, segmentBytes_ok cfg hlen, dqtBody] at h
  cases hg : dqtGo (payload.length + 1) payload d with
  | fail f d1 => rw [hg] at h; simp at h
  | ok u d1 =>
    rw [hg] at h
    simp only [Out.ok.injEq, true_and, St.mk.injEq] at h
    obtain ⟨rfl, -⟩ := h
    obtain ⟨ts, h1, h2, h3⟩ := dqtGo_inv _ _ _ _ hg
    obtain ⟨⟨a1, a2⟩, c⟩ := quantDefinedAll_slots ts d d1 h1 hq h3
    exact ⟨ts, h2, h1, c, by omega, a2⟩

theorem dhtGo_step {cfg : Cfg} {t : HuffmanDef} (ht : t.Ok) {d d1 : Decoder} (hd : defined cfg t d d1)
    (fuel : Nat) (l : List UInt8) :
    dhtGo cfg (fuel + 1) (t.bytes ++ l) d = dhtGo cfg fuel l d1 := by
  rw [dhtGo, if_neg (by
    have := HuffmanDef.bytes_length ht
    intro h
    have := congrArg List.length h
    simp only [List.length_append, List.length_nil] at this
    omega), huffmanTable_ok ht]
  simp only [(defineHuffman_iff cfg t d d1).2 hd]

theorem dhtGo_bad {cfg : Cfg} : ∀ (ts : List HuffmanDef) (fuel : Nat) (d : Decoder) (b : UInt8)
    (l : List UInt8),
    (∀ t ∈ ts, t.Ok ∧ 1 ≤ t.values.length ∧ t.values.length ≤ 256 ∧ KraftOk (codeSizes t.counts)) →
    (ts.flatMap HuffmanDef.bytes).length < fuel →
    (1 < b.toNat / 16 ∨ 3 < b.toNat % 16) →
    ∃ e d', dhtGo cfg fuel (ts.flatMap HuffmanDef.bytes ++ b :: l) d = .fail (.err e) d' ∧
      (e = .tableClass ∨ e = .dhtDestination) := by
  intro ts
  induction ts with
  | nil =>
    intro fuel d b l _ hf hb
    obtain ⟨fuel, rfl⟩ : ∃ k, fuel = k + 1 := ⟨fuel - 1, by omega⟩
    simp only [List.flatMap_nil, List.nil_append]
    rw [dhtGo, if_neg (by simp), huffmanTable, split4Bit_cons]
    simp only
    cases hc : TableClass.new (b.toNat / 16) with
    | none => exact ⟨_, _, rfl, .inl rfl⟩
    | some cls =>
      have : b.toNat / 16 ≤ 1 := by
        unfold TableClass.new at hc
        split at hc <;> first | omega | simp at hc
      simp only
      rw [if_pos (by unfold MAX_HUFFMAN_TABLES; omega)]
      exact ⟨_, _, rfl, .inr rfl⟩
  | cons t ts ih =>
    intro fuel d b l hok hf hb
    obtain ⟨fuel, rfl⟩ : ∃ k, fuel = k + 1 := ⟨fuel - 1, by omega⟩
    obtain ⟨d', d1, hd, _⟩ := definedAll_exists (cfg := cfg) [t] d (fun t' ht' => hok t' (by
      rw [List.mem_singleton] at ht'; simp [ht']))
    have ht := (hok t (by simp)).1
    rw [List.flatMap_cons, List.append_assoc, dhtGo_step ht hd]
    refine ih fuel d1 b l (fun t ht => hok t (by simp [ht])) ?_ hb
    have := HuffmanDef.bytes_length ht
    rw [List.flatMap_cons, List.length_append] at hf
    omega

/-- **C38**. A definition with table class above 1 or destination above 3 is an error, whatever precedes
it in the segment. -/
theorem C38_dht_rejects (cfg : Cfg) (ts : List HuffmanDef) (d : Decoder) (b : UInt8) (l rest : List UInt8)
    (bits count : Nat)
    (hok : ∀ t ∈ ts, t.Ok ∧ 1 ≤ t.values.length ∧ t.values.length ≤ 256 ∧ KraftOk (codeSizes t.counts))
    (hlen : (ts.flatMap HuffmanDef.bytes ++ b :: l).length + 2 < 65536)
    (hb : 1 < b.toNat / 16 ∨ 3 < b.toNat % 16) :
    ∃ e s', doSegment cfg .DHT
        ⟨d, ⟨segmentOf (ts.flatMap HuffmanDef.bytes ++ b :: l) ++ rest, bits, count⟩⟩ =
      .fail (.err e) s' ∧ (e = .tableClass ∨ e = .dhtDestination) := by
  obtain ⟨e, d', h, he⟩ := dhtGo_bad (cfg := cfg) ts ((ts.flatMap HuffmanDef.bytes ++ b :: l).length + 1) d b l
    hok (by simp; omega) hb
  refine ⟨e, ⟨d', ⟨rest, bits, count⟩⟩, ?_, he⟩
  simp only [doSegment, segment, segmentBytes_ok cfg hlen, dhtBody, h]
  rfl

theorem dqtGo_bad : ∀ (ts : List QuantDef) (fuel : Nat) (d : Decoder) (b : UInt8)
    (l : List UInt8), (∀ t ∈ ts, t.Ok) → (ts.flatMap QuantDef.bytes).length < fuel →
    (1 < b.toNat / 16 ∨ 3 < b.toNat % 16) →
    ∃ e d', dqtGo fuel (ts.flatMap QuantDef.bytes ++ b :: l) d = .fail (.err e) d' ∧
      (e = .dqtPrecision ∨ e = .dqtDestination) := by
  intro ts
  induction ts with
  | nil =>
    intro fuel d b l _ hf hb
    obtain ⟨fuel, rfl⟩ : ∃ k, fuel = k + 1 := ⟨fuel - 1, by omega⟩
    simp only [List.flatMap_nil, List.nil_append]
    rw [dqtGo, if_neg (by simp), dqt, split4Bit_cons]
    simp only
    by_cases h1 : b.toNat / 16 > 1
    · rw [if_pos h1]; exact ⟨_, _, rfl, .inl rfl⟩
    · rw [if_neg h1, if_pos (by unfold MAX_QUANTIZATION_TABLES; omega)]
      exact ⟨_, _, rfl, .inr rfl⟩
  | cons t ts ih =>
    intro fuel d b l hok hf hb
    obtain ⟨fuel, rfl⟩ : ∃ k, fuel = k + 1 := ⟨fuel - 1, by omega⟩
    obtain ⟨d', d1, ⟨q, e, rfl⟩, _⟩ := quantDefinedAll_exists [t] d (fun t' ht' => hok t' (by
      rw [List.mem_singleton] at ht'; simp [ht']))
    have ht := hok t (by simp)
    have hpos := QuantDef.bytes_length ht
    rw [List.flatMap_cons, List.append_assoc, dqtGo, if_neg (by
      intro h
      have := congrArg List.length h
      simp only [List.length_append, List.length_nil] at this
      omega), dqt_ok ht]
    simp only [e]
    refine ih fuel _ b l (fun t ht => hok t (by simp [ht])) ?_ hb
    rw [List.flatMap_cons, List.length_append] at hf
    omega

/-- **C38**. A definition with precision above 1 or destination above 3 is an error, whatever precedes it
in the segment. -/
theorem C38_dqt_rejects (cfg : Cfg) (ts : List QuantDef) (d : Decoder) (b : UInt8) (l rest : List UInt8)
    (bits count : Nat) (hok : ∀ t ∈ ts, t.Ok)
    (hlen : (ts.flatMap QuantDef.bytes ++ b :: l).length + 2 < 65536)
    (hb : 1 < b.toNat / 16 ∨ 3 < b.toNat % 16) :
    ∃ e s', doSegment cfg .DQT
        ⟨d, ⟨segmentOf (ts.flatMap QuantDef.bytes ++ b :: l) ++ rest, bits, count⟩⟩ =
      .fail (.err e) s' ∧ (e = .dqtPrecision ∨ e = .dqtDestination) := by
  obtain ⟨e, d', h, he⟩ := dqtGo_bad ts ((ts.flatMap QuantDef.bytes ++ b :: l).length + 1) d b l
    hok (by simp; omega) hb
  refine ⟨e, ⟨d', ⟨rest, bits, count⟩⟩, ?_, he⟩
  simp only [doSegment, segment, segmentBytes_ok cfg hlen, dqtBody, h]
  rfl

/-- A case of C38: an AC and a DC table for destination 1, and a second AC table for it. -/
def exampleHuffmanDefs : List HuffmanDef :=
  [⟨true, 1, 1 :: List.replicate 15 0, [0x21]⟩, ⟨false, 1, 0 :: 2 :: List.replicate 14 0, [3, 4]⟩,
    ⟨true, 1, 0 :: 1 :: List.replicate 14 0, [0x01]⟩]

example : (∀ t ∈ exampleHuffmanDefs, t.Ok) ∧
    (lastWith (fun t => t.ac && t.dest == 1) exampleHuffmanDefs).map (·.values) = some [0x01] := by
  unfold HuffmanDef.Ok; decide

/-! ## C39 -/

/-- **C39**. A scan header is accepted exactly if a frame is known and the header names one to four
components of the frame, in the order of the frame and none twice. The scan then refers to the first
frame component with the identifier given. -/
theorem C39_accepted_iff (frame : Option Frame) (payload rest : List UInt8) (scan : Scan) :
    sosSegment frame payload = .ok (scan, rest) ↔
      ∃ fr comps ss se ah al, frame = some fr ∧ ah < 16 ∧ al < 16 ∧
        payload = scanHeader comps ss se ah al ++ rest ∧
        1 ≤ comps.length ∧ comps.length ≤ 4 ∧
        List.Forall₂ (fun (c : ScanComponent) (h : ScanHeader) =>
          (∃ k : Component, fr.components[h.componentIndex]? = some k ∧ k.id = c.id) ∧
          (∀ (j : Nat) (k : Component), j < h.componentIndex → fr.components[j]? = some k → k.id ≠ c.id) ∧
          h.dcSel = c.dc ∧ h.acSel = c.ac ∧ c.dc < 16 ∧ c.ac < 16) comps scan.headers ∧
        (scan.headers.map (·.componentIndex)).Pairwise (· < ·) ∧
        scan.ss = ss.toNat ∧ scan.se = se.toNat ∧ scan.ah = ah ∧ scan.al = al := by
  constructor
  · intro h
    obtain ⟨fr, comps, ss, se, ah, al, hf, hah, hal, h1, h4, hp, hall, hi, he⟩ := sosSegment_inv h
    refine ⟨fr, comps, ss, se, ah, al, hf, hah, hal, hp, h1, h4, ?_, hi, ?_⟩
    · refine hall.imp fun c h hh => ?_
      obtain ⟨⟨a, b⟩, c⟩ := hh
      exact ⟨a, b, c⟩
    · rw [he]; exact ⟨rfl, rfl, rfl, rfl⟩
  · rintro ⟨fr, comps, ss, se, ah, al, rfl, hah, hal, rfl, h1, h4, hall, hi, e1, e2, e3, e4⟩
    rw [sosSegment_ok ss se hah hal rest h1 h4 (hall.imp fun c h hh => ⟨⟨hh.1, hh.2.1⟩, hh.2.2⟩) hi]
    obtain ⟨hs, _, _, _, _⟩ := scan
    simp only at e1 e2 e3 e4
    subst e1 e2 e3 e4
    rfl

/-- **C39**. A rejected header is reported as an error (or as end of input if it is cut short), it does
not panic. -/
theorem C39_no_panic (frame : Option Frame) (payload : List UInt8) (p : PanicSite) :
    sosSegment frame payload ≠ .error (.panic p) := sosSegment_noPanic frame payload p

/-- **C39**. A scan before any frame header is an error. -/
theorem C39_needs_frame (cfg : Cfg) (d : Decoder) (hd : d.frame = none) (comps : List ScanComponent)
    (ss se : UInt8) (ah al : Nat) (h1 : 1 ≤ comps.length) (h4 : comps.length ≤ 4)
    (rest : List UInt8) (bits count : Nat) :
    sos cfg ⟨d, ⟨segmentOf (scanHeader comps ss se ah al) ++ rest, bits, count⟩⟩ =
      .fail (.err .sosBeforeSof) ⟨d, ⟨rest, bits, count⟩⟩ := by
  have hlen : (scanHeader comps ss se ah al).length + 2 < 65536 := by
    unfold scanHeader
    simp only [List.cons_append, List.length_cons, List.length_append, List.length_nil]
    have : ∀ cs : List ScanComponent,
        (cs.flatMap fun c => [c.id, UInt8.ofNat (c.dc * 16 + c.ac)]).length = 2 * cs.length := by
      intro cs
      induction cs with
      | nil => rfl
      | cons c cs ih =>
        rw [List.flatMap_cons, List.length_append, ih, List.length_cons]
        simp only [List.length_cons, List.length_nil]
        omega
    have := this comps
    omega
  unfold sos
  simp only [segmentBytes_ok cfg hlen, St.setInput]
  match comps, h1 with
  | c :: cs, _ =>
    have : sosSegment d.frame (scanHeader (c :: cs) ss se ah al) = .error (.err .sosBeforeSof) := by
      rw [hd]
      unfold sosSegment scanHeader
      simp only [List.cons_append, anyByte]
      rw [ofNat_toNat (by omega), if_neg (by unfold MAX_COMPONENTS; omega), List.length_cons]
      simp only [List.flatMap_cons, List.cons_append, List.nil_append, scanHeadersP, anyByte,
        split4Bit_cons]
    simp only [this]

/-- **C39**. Zero or more than four components are an error. -/
theorem C39_component_count (frame : Option Frame) (n : UInt8) (l : List UInt8)
    (hn : n.toNat = 0 ∨ 4 < n.toNat) :
    sosSegment frame (n :: l) = .error (.err .componentCount) := by
  unfold sosSegment
  simp only [anyByte]
  rw [if_pos (by unfold MAX_COMPONENTS; omega)]

/-- A case of C39: the second and third component of a frame. -/
example (fr : Frame) (a b c : Component) (hf : fr.components = [a, b, c]) (ha : a.id = 1) (hb : b.id = 2)
    (hc : c.id = 3) : sosSegment (some fr) [2, 2, 0x01, 3, 0x12, 0, 63, 0] =
      .ok (⟨[⟨1, 0, 1⟩, ⟨2, 1, 2⟩], 0, 63, 0, 0⟩, []) := by
  rw [C39_accepted_iff]
  refine ⟨fr, [⟨2, 0, 1⟩, ⟨3, 1, 2⟩], 0, 63, 0, 0, rfl, by decide, by decide, rfl, by decide, by decide, ?_,
    by simp, rfl, rfl, rfl, rfl⟩
  refine .cons ⟨⟨b, by simp [hf, hb]⟩, ?_, rfl, rfl, by decide, by decide⟩
    (.cons ⟨⟨c, by simp [hf, hc]⟩, ?_, rfl, rfl, by decide, by decide⟩ .nil)
  · intro j k hj hk
    simp only at hj
    interval_cases j
    simp [hf] at hk
    subst hk
    simp [ha]
  · intro j k hj hk
    simp only at hj
    interval_cases j
    · simp [hf] at hk
      subst hk
      simp [ha]
    · simp [hf] at hk
      subst hk
      simp [hb]

/-- … and the same in the wrong order. -/
example (fr : Frame) (a b c : Component) (hf : fr.components = [a, b, c]) (ha : a.id = 1) (hb : b.id = 2)
    (hc : c.id = 3) : sosSegment (some fr) [2, 3, 0x01, 2, 0x12, 0, 63, 0] =
      .error (.err .componentOrder) := by
  simp [sosSegment, anyByte, scanHeadersP, split4Bit_cons, findComponent, hf, ha, hb, hc, MAX_COMPONENTS]

end Jpeg
