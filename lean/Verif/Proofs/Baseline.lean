import Verif.Spec.Baseline
import Verif.Proofs.Loop
import Verif.Proofs.Prefix
import Verif.Props.Planes
import Verif.Props.Upsample
import Verif.Props.Whole
/-!
# Whole files: tables, frame header, scan, rendering
-/

namespace Jpeg
open Spec

/-! ## Tables -/

theorem lastWith_append {α : Type} (p : α → Bool) (a b : List α) :
    lastWith p (a ++ b) = (lastWith p b).or (lastWith p a) := by
  unfold lastWith
  rw [List.filter_append, List.getLast?_append]

theorem SlotsAfter.refl {α : Type} (make : HuffmanDef → α → Prop) (kind : Bool) (old : List (Option α)) :
    SlotsAfter make kind [] old old := ⟨rfl, fun _ _ => rfl⟩

theorem SlotsAfter.trans {α : Type} {make : HuffmanDef → α → Prop} {kind : Bool} {a b : List HuffmanDef}
    {old mid new : List (Option α)} (h1 : SlotsAfter make kind a old mid) (h2 : SlotsAfter make kind b mid new) :
    SlotsAfter make kind (a ++ b) old new := by
  refine ⟨h2.1.trans h1.1, fun k hk => ?_⟩
  have e1 := h1.2 k hk
  have e2 := h2.2 k hk
  rw [lastWith_append]
  generalize lastWith (fun t : HuffmanDef => t.ac == kind && t.dest == k) a = x at e1
  generalize lastWith (fun t : HuffmanDef => t.ac == kind && t.dest == k) b = y at e2
  cases y with
  | some t => exact e2
  | none =>
    rw [Option.none_or]
    simp only at e2
    cases x with
    | none => exact e2.trans e1
    | some t =>
      obtain ⟨tab, h, h'⟩ := e1
      exact ⟨tab, e2.trans h, h'⟩

theorem QuantSlotsAfter.refl (old : List (Option (List Nat))) : QuantSlotsAfter [] old old :=
  ⟨rfl, fun _ _ => rfl⟩

theorem QuantSlotsAfter.trans {a b : List QuantDef} {old mid new : List (Option (List Nat))}
    (h1 : QuantSlotsAfter a old mid) (h2 : QuantSlotsAfter b mid new) :
    QuantSlotsAfter (a ++ b) old new := by
  refine ⟨h2.1.trans h1.1, fun k hk => ?_⟩
  have e1 := h1.2 k hk
  have e2 := h2.2 k hk
  rw [lastWith_append]
  generalize lastWith (fun t : QuantDef => t.dest == k) a = x at e1
  generalize lastWith (fun t : QuantDef => t.dest == k) b = y at e2
  cases y with
  | some t => exact e2
  | none =>
    rw [Option.none_or]
    simp only at e2
    cases x with
    | none => exact e2.trans e1
    | some t =>
      obtain ⟨tab, h, h'⟩ := e1
      exact ⟨tab, e2.trans h, h'⟩

/-- The number of a colour transform in Adobe's segment. -/
def AdobeColorTransform.code : AdobeColorTransform → Nat
  | .unknown => 0
  | .yCbCr => 1
  | .ycck => 2

/-- What the decoder was told last about the colour transform. -/
def Decoder.transform (d : Decoder) : Option Nat := d.colorTransform.map AdobeColorTransform.code

/-- What table segments do to the decoder. -/
structure TablesAfter (cfg : Cfg) (l : List TableSegment) (d d' : Decoder) : Prop where
  quant : QuantSlotsAfter (quantDefs l) d.quantTables d'.quantTables
  ac : SlotsAfter (fun t tab => AcTable.new cfg t.counts t.values = .ok tab) true (huffmanDefs l)
    d.acTables d'.acTables
  dc : SlotsAfter (fun t tab => BaseTable.new cfg t.counts t.values = .ok tab) false (huffmanDefs l)
    d.dcTables d'.dcTables
  interval : d'.restartInterval = (restartDefs l).getLast?.getD d.restartInterval
  color : d'.transform = match (transformDefs l).getLast? with
    | none => d.transform
    | some t => some t
  rest : d' = { d with
    quantTables := d'.quantTables
    acTables := d'.acTables
    dcTables := d'.dcTables
    restartInterval := d'.restartInterval
    colorTransform := d'.colorTransform }

theorem TablesAfter.refl (cfg : Cfg) (d : Decoder) : TablesAfter cfg [] d d :=
  ⟨.refl _, .refl _ _ _, .refl _ _ _, rfl, rfl, rfl⟩

theorem TablesAfter.trans {cfg : Cfg} {a b : List TableSegment} {d0 d1 d2 : Decoder}
    (h1 : TablesAfter cfg a d0 d1) (h2 : TablesAfter cfg b d1 d2) : TablesAfter cfg (a ++ b) d0 d2 := by
  refine ⟨?_, ?_, ?_, ?_, ?_, ?_⟩
  · rw [quantDefs, List.flatMap_append]; exact h1.quant.trans h2.quant
  · rw [huffmanDefs, List.flatMap_append]; exact h1.ac.trans h2.ac
  · rw [huffmanDefs, List.flatMap_append]; exact h1.dc.trans h2.dc
  · rw [h2.interval, h1.interval, restartDefs, restartDefs, restartDefs, List.flatMap_append,
      List.getLast?_append]
    cases (b.flatMap fun | .dri r => [r] | _ => []).getLast? <;> rfl
  · have e : transformDefs (a ++ b) = transformDefs a ++ transformDefs b := List.flatMap_append
    rw [h2.color, h1.color, e, List.getLast?_append]
    cases (transformDefs b).getLast? <;> rfl
  · rw [h2.rest]
    conv_lhs => rw [h1.rest]

/-- The frame in between does not matter. -/
theorem TablesAfter.setFrame {cfg : Cfg} {l : List TableSegment} {d d' : Decoder} {fr : Option Frame}
    (h : TablesAfter cfg l d d') : TablesAfter cfg l { d with frame := fr } { d' with frame := fr } :=
  ⟨h.quant, h.ac, h.dc, h.interval, h.color, by conv_lhs => rw [h.rest]⟩

theorem TableSegment.has (s : TableSegment) (h : s.Ok) : MarkerExists s.marker ∧ s.marker ≠ .EOI := by
  cases s with
  | app n c => exact ⟨h.2.1, by simp [TableSegment.marker]⟩
  | adobe v f g t => exact ⟨show 14 ≤ 15 by decide, by simp [TableSegment.marker]⟩
  | _ => exact ⟨trivial, by simp [TableSegment.marker]⟩

theorem appAdobe_ok (v f g t : Nat) (hv : v < 256) (ht : t ≤ 2) : ∃ a, a.code = t ∧
    appAdobe ([0x41, 0x64, 0x6F, 0x62, 0x65] ++ be16 v ++ be16 f ++ be16 g ++ [UInt8.ofNat t]) = .ok a := by
  have hb : be16 v = [0, UInt8.ofNat v] := by
    unfold be16
    rw [Nat.div_eq_of_lt hv]
    rw [Nat.mod_eq_of_lt hv]
    rfl
  obtain rfl | rfl | rfl : t = 0 ∨ t = 1 ∨ t = 2 := by omega
  · exact ⟨.unknown, rfl, by rw [hb]; rfl⟩
  · exact ⟨.yCbCr, rfl, by rw [hb]; rfl⟩
  · exact ⟨.ycck, rfl, by rw [hb]; rfl⟩

/-- What definitions made before, by whatever segments, left in the decoder. -/
structure TablesHeld (cfg : Cfg) (l : List TableSegment) (d : Decoder) : Prop where
  quant : ∃ old, QuantSlotsAfter (quantDefs l) old d.quantTables
  ac : ∃ old, SlotsAfter (fun t tab => AcTable.new cfg t.counts t.values = .ok tab) true (huffmanDefs l)
    old d.acTables
  dc : ∃ old, SlotsAfter (fun t tab => BaseTable.new cfg t.counts t.values = .ok tab) false (huffmanDefs l)
    old d.dcTables

theorem TablesHeld.nothing (cfg : Cfg) (d : Decoder) : TablesHeld cfg [] d :=
  ⟨⟨_, .refl _⟩, ⟨_, .refl _ _ _⟩, ⟨_, .refl _ _ _⟩⟩

theorem TablesHeld.after {cfg : Cfg} {a b : List TableSegment} {d d' : Decoder} (h1 : TablesHeld cfg a d)
    (h2 : TablesAfter cfg b d d') : TablesHeld cfg (a ++ b) d' := by
  obtain ⟨⟨q0, q⟩, ⟨x0, x⟩, ⟨y0, y⟩⟩ := h1
  refine ⟨⟨q0, ?_⟩, ⟨x0, ?_⟩, ⟨y0, ?_⟩⟩
  · rw [quantDefs, List.flatMap_append]; exact q.trans h2.quant
  · rw [huffmanDefs, List.flatMap_append]; exact x.trans h2.ac
  · rw [huffmanDefs, List.flatMap_append]; exact y.trans h2.dc

theorem TablesHeld.same {cfg : Cfg} {l : List TableSegment} {d d' : Decoder} (h : TablesHeld cfg l d)
    (h1 : d'.quantTables = d.quantTables) (h2 : d'.acTables = d.acTables) (h3 : d'.dcTables = d.dcTables) :
    TablesHeld cfg l d' := ⟨h1 ▸ h.quant, h2 ▸ h.ac, h3 ▸ h.dc⟩

/-- What a segment leaves for the search for the next marker. -/
def Spec.TableSegment.unread : TableSegment → List UInt8
  | .com c => segmentOf c
  | _ => []

theorem TableSegment.bytes_eq {s : TableSegment} (h : ∀ k, s ≠ .fill k) :
    s.bytes = markerSegment s.marker s.content := by
  cases s with
  | fill k => exact absurd rfl (h k)
  | _ => rfl

theorem tableSegment_ok {cfg : Cfg} {s : TableSegment} (hok : s.Ok) (hnf : ∀ k, s ≠ .fill k) {d : Decoder} (hd : DecInv d)
    (rest : List UInt8) (bits count : Nat) : ∃ d', TablesAfter cfg [s] d d' ∧
    doSegment cfg s.marker ⟨d, ⟨segmentOf s.content ++ rest, bits, count⟩⟩ =
      .ok () ⟨d', ⟨s.unread ++ rest, bits, count⟩⟩ := by
  obtain ⟨hlen, hok⟩ := hok
  cases s with
  | dqt ts =>
    simp only [TableSegment.content] at hlen
    obtain ⟨d', hd'⟩ := quantDefinedAll_exists ts d hok
    obtain ⟨h1, h2⟩ := quantDefinedAll_slots ts d d' hok hd.q4 hd'
    refine ⟨d', ⟨by simpa [quantDefs] using h1, ?_, ?_, ?_, ?_, ?_⟩, ?_⟩
    · rw [h2]; exact .refl _ _ _
    · rw [h2]; exact .refl _ _ _
    · rw [h2]; rfl
    · rw [h2]; rfl
    · conv_lhs => rw [h2]
      conv_rhs => rw [h2]
    · simp only [TableSegment.marker, TableSegment.content, doSegment, segment, segmentBytes_ok cfg hlen, dqtBody]
      rw [dqtGo_ok ts _ d d' hok (by omega) hd']
      rfl
  | dht ts =>
    simp only [TableSegment.content] at hlen
    obtain ⟨d', hd'⟩ := definedAll_exists (cfg := cfg) ts d hok
    obtain ⟨h1, h2, h3⟩ := definedAll_slots ts d d' hd.ac4 hd.dc4 hd'
    refine ⟨d', ⟨?_, by simpa [huffmanDefs] using h1, by simpa [huffmanDefs] using h2, ?_, ?_, ?_⟩, ?_⟩
    · rw [h3]; exact .refl _
    · rw [h3]; rfl
    · rw [h3]; rfl
    · conv_lhs => rw [h3]
      conv_rhs => rw [h3]
    · simp only [TableSegment.marker, TableSegment.content, doSegment, segment, segmentBytes_ok cfg hlen, dhtBody]
      rw [dhtGo_ok ts _ d d' (fun t ht => (hok t ht).1) (by omega) hd']
      rfl
  | dri r =>
    refine ⟨{ d with restartInterval := r }, ⟨.refl _, .refl _ _ _, .refl _ _ _, rfl, rfl, rfl⟩, ?_⟩
    simp only [TableSegment.marker, TableSegment.content, doSegment, segment, driBody]
    rw [segmentBytes_ok cfg (by simp [be16])]
    simp only
    have := beU16_be16 (show r < 65536 from hok) []
    rw [List.append_nil] at this
    rw [this]
    rfl
  | app n c =>
    refine ⟨d, ⟨.refl _, .refl _ _ _, .refl _ _ _, rfl, rfl, rfl⟩, ?_⟩
    simp only [TableSegment.content] at hlen
    simp only [TableSegment.marker, TableSegment.content, doSegment, if_neg hok.2, segment, segmentBytes_ok cfg hlen]
    rfl
  | adobe v f g t =>
    obtain ⟨a, ha, e⟩ := appAdobe_ok v f g t hok.1 hok.2
    refine ⟨{ d with colorTransform := some a }, ⟨.refl _, .refl _ _ _, .refl _ _ _, rfl, ?_, rfl⟩, ?_⟩
    · show some a.code = some t
      rw [ha]
    · simp only [TableSegment.content] at hlen
      simp only [TableSegment.marker, TableSegment.content, doSegment, if_true, segment,
        segmentBytes_ok cfg hlen, adobeBody, e]
      rfl
  | com c => exact ⟨d, ⟨.refl _, .refl _ _ _, .refl _ _ _, rfl, rfl, rfl⟩, rfl⟩
  | fill k => exact absurd rfl (hnf k)

/-- What follows begins with a marker, possibly with fill bytes. -/
def MarkerFirst (l : List UInt8) : Prop :=
  ∃ k m r, MarkerExists m ∧ l = List.replicate k 0xFF ++ (markerBytes m ++ r)

theorem MarkerFirst.head {l : List UInt8} (h : MarkerFirst l) : ∃ r, l = 0xFF :: r := by
  obtain ⟨k, m, r, -, rfl⟩ := h
  cases k with
  | zero => exact ⟨_, rfl⟩
  | succ k => exact ⟨_, by rw [List.replicate_succ (n := k)]; rfl⟩

theorem MarkerFirst.marker {l : List UInt8} (h : MarkerFirst l) : ∃ m r, Jpeg.marker l = .ok (m, r) := by
  obtain ⟨k, m, r, hm, rfl⟩ := h
  exact ⟨m, r, by rw [← List.append_assoc]; exact marker_bytes hm k r⟩

theorem MarkerFirst.segment {m : Marker} (hm : MarkerExists m) (c rest : List UInt8) :
    MarkerFirst (markerSegment m c ++ rest) := ⟨0, m, segmentOf c ++ rest, hm, by simp [markerSegment]⟩

theorem fill_marker {l : List UInt8} (h : MarkerFirst l) (k : Nat) :
    Jpeg.marker (List.replicate k 0xFF ++ l) = Jpeg.marker l := by
  obtain ⟨n, m, r, hm, rfl⟩ := h
  rw [← List.append_assoc, List.replicate_append_replicate, ← List.append_assoc, ← List.append_assoc]
  rw [marker_bytes hm, marker_bytes hm]

theorem MarkerFirst.tables {rest : List UInt8} (h : MarkerFirst rest) {l : List TableSegment}
    (hl : ∀ s ∈ l, s.Ok) : MarkerFirst (l.flatMap TableSegment.bytes ++ rest) := by
  induction l with
  | nil => exact h
  | cons s l ih =>
    by_cases hf : ∃ k, s = .fill k
    · obtain ⟨k, rfl⟩ := hf
      obtain ⟨n, m, r, hm, e⟩ := ih fun s hs => hl s (by simp [hs])
      refine ⟨k + n, m, r, hm, ?_⟩
      rw [List.flatMap_cons, List.append_assoc, e, ← List.replicate_append_replicate, List.append_assoc]
      rfl
    · refine ⟨0, s.marker, segmentOf s.content ++ (l.flatMap TableSegment.bytes ++ rest),
        (TableSegment.has s (hl s (by simp))).1, ?_⟩
      rw [List.flatMap_cons, TableSegment.bytes_eq (fun k e => hf ⟨k, e⟩), markerSegment, List.append_assoc,
        List.append_assoc]
      rfl

/-- The marker that follows is found. -/
theorem unread_marker {s : TableSegment} (hok : s.Ok) {rest : List UInt8} (h : MarkerFirst rest) :
    Jpeg.marker (s.unread ++ rest) = Jpeg.marker rest := by
  cases s with
  | com c =>
    obtain ⟨r, rfl⟩ := h.head
    exact marker_skip (x := segmentOf c) hok.2 r
  | _ => rfl

/-- A run only depends on the marker that is found. -/
theorem loopAll_found {cfg : Cfg} {bits count : Nat} (hwf : ∀ l, (⟨l, bits, count⟩ : Biterator).WF)
    {l rest : List UInt8} (hrest : MarkerFirst rest) (e1 : Jpeg.marker l = Jpeg.marker rest) {d : Decoder}
    (hi : DecInv d) : loopAll cfg ⟨d, ⟨l, bits, count⟩⟩ = loopAll cfg ⟨d, ⟨rest, bits, count⟩⟩ := by
  obtain ⟨m, r, e2⟩ := hrest.marker
  by_cases hne : m = .EOI
  · subst hne
    rw [loopAll_eoi (s := ⟨d, ⟨l, bits, count⟩⟩) (e1.trans e2), loopAll_eoi (s := ⟨d, ⟨rest, bits, count⟩⟩) e2]
    rfl
  · rw [loopAll_eq (s := ⟨d, ⟨l, bits, count⟩⟩) hi (hwf _) (e1.trans e2) hne,
      loopAll_eq (s := ⟨d, ⟨rest, bits, count⟩⟩) hi (hwf _) e2 hne]
    rfl

/-- A run over a table segment, whatever follows. -/
theorem loopAll_table_all {cfg : Cfg} {bits count : Nat} (hwf : ∀ l, (⟨l, bits, count⟩ : Biterator).WF)
    {s : TableSegment} (hok : s.Ok) {d : Decoder} (hd : DecInv d) :
    ∃ d', TablesAfter cfg [s] d d' ∧ DecInv d' ∧ ∀ rest, MarkerFirst rest →
      loopAll cfg ⟨d, ⟨s.bytes ++ rest, bits, count⟩⟩ = loopAll cfg ⟨d', ⟨rest, bits, count⟩⟩ := by
  by_cases hf : ∃ k, s = .fill k
  · obtain ⟨k, rfl⟩ := hf
    exact ⟨d, ⟨.refl _, .refl _ _ _, .refl _ _ _, rfl, rfl, rfl⟩, hd,
      fun rest hrest => loopAll_found hwf hrest (fill_marker hrest k) hd⟩
  have hnf : ∀ k, s ≠ .fill k := fun k e => hf ⟨k, e⟩
  obtain ⟨h2, h3⟩ := TableSegment.has s hok
  obtain ⟨d1, ht, e0⟩ := tableSegment_ok (cfg := cfg) hok hnf hd [] bits count
  have hs := doSegment_safe (cfg := cfg) h2
    (s := ⟨d, ⟨segmentOf s.content ++ [], bits, count⟩⟩) hd (hwf _)
  rw [e0] at hs
  refine ⟨d1, ht, hs.1, fun rest hrest => ?_⟩
  have e : doSegment cfg s.marker ⟨d, ⟨segmentOf s.content ++ rest, bits, count⟩⟩ =
      .ok () ⟨d1, ⟨s.unread ++ rest, bits, count⟩⟩ := by
    have := doSegment_grows cfg s.marker ⟨d, ⟨segmentOf s.content ++ [], bits, count⟩⟩ rest
    rw [e0] at this
    simpa [Grows, HasInput.app] using this
  rw [TableSegment.bytes_eq hnf, markerSegment, List.append_assoc,
    loopAll_eq (m := s.marker) hd (hwf _) (marker_bytes' h2 _) h3]
  simp only [St.setInput]
  rw [e, Out.bind_ok]
  exact loopAll_found hwf hrest (unread_marker hok hrest) hs.1

/-- A run over table segments, whatever follows. -/
theorem loopAll_tables_all {cfg : Cfg} {bits count : Nat} (hwf : ∀ l, (⟨l, bits, count⟩ : Biterator).WF) :
    ∀ (l : List TableSegment), (∀ s ∈ l, s.Ok) → ∀ d, DecInv d →
    ∃ d', TablesAfter cfg l d d' ∧ DecInv d' ∧ ∀ rest, MarkerFirst rest →
      loopAll cfg ⟨d, ⟨l.flatMap TableSegment.bytes ++ rest, bits, count⟩⟩ =
        loopAll cfg ⟨d', ⟨rest, bits, count⟩⟩ := by
  intro l
  induction l with
  | nil => intro _ d hd; exact ⟨d, .refl cfg d, hd, fun _ _ => rfl⟩
  | cons s l ih =>
    intro hok d hd
    have hl : ∀ t ∈ l, t.Ok := fun t ht => hok t (by simp [ht])
    obtain ⟨d1, ht, hd1, e⟩ := loopAll_table_all (cfg := cfg) hwf (hok s (by simp)) hd
    obtain ⟨d2, ht2, hd2, e2⟩ := ih hl d1 hd1
    refine ⟨d2, ht.trans ht2, hd2, fun rest hrest => ?_⟩
    rw [List.flatMap_cons, List.append_assoc, e _ (hrest.tables hl), e2 _ hrest]

/-- A run over table segments. -/
theorem loopAll_tables {cfg : Cfg} {bits count : Nat} (hwf : ∀ l, (⟨l, bits, count⟩ : Biterator).WF)
    {rest : List UInt8} (hrest : MarkerFirst rest) (l : List TableSegment) (hl : ∀ s ∈ l, s.Ok) (d : Decoder)
    (hd : DecInv d) : ∃ d', TablesAfter cfg l d d' ∧ DecInv d' ∧
      loopAll cfg ⟨d, ⟨l.flatMap TableSegment.bytes ++ rest, bits, count⟩⟩ =
        loopAll cfg ⟨d', ⟨rest, bits, count⟩⟩ := by
  obtain ⟨d', h1, h2, h3⟩ := loopAll_tables_all (cfg := cfg) hwf l hl d hd
  exact ⟨d', h1, h2, h3 rest hrest⟩

/-! ## Finished coefficients -/

theorem setFinished_eq {cfg : Cfg} {i : Nat} : ∀ (js fin : List Nat) (w : Nat), (∀ j ∈ js, j < 64) →
    fin[i]? = some w →
    setFinished cfg i js fin = .ok (fin.set i (js.foldl (fun a j => a ||| 1 <<< j) w)) := by
  intro js
  induction js with
  | nil =>
    intro fin w _ h
    obtain ⟨hi, rfl⟩ := List.getElem?_eq_some_iff.1 h
    simp [setFinished]
  | cons j js ih =>
    intro fin w hj h
    obtain ⟨hi, -⟩ := List.getElem?_eq_some_iff.1 h
    have h64 : j < 64 := hj j (by simp)
    rw [setFinished, h]
    simp only
    rw [if_neg (by omega), Nat.mod_eq_of_lt h64, ih _ (w ||| 1 <<< j) (fun k hk => hj k (by simp [hk])) (by
      rw [List.getElem?_set_self hi])]
    simp

theorem foldl_or (js : List Nat) : ∀ w : Nat,
    js.foldl (fun a j => a ||| 1 <<< j) w = w ||| js.foldl (fun a j => a ||| 1 <<< j) 0 := by
  induction js with
  | nil => intro w; simp
  | cons j js ih =>
    intro w
    rw [List.foldl_cons, List.foldl_cons, ih (w ||| 1 <<< j), ih (0 ||| 1 <<< j), Nat.zero_or, Nat.or_assoc]

theorem or_ones {w : Nat} (h : w < 2 ^ 64) : w ||| (2 ^ 64 - 1) = 2 ^ 64 - 1 := by
  apply Nat.eq_of_testBit_eq
  intro i
  rw [Nat.testBit_or, Nat.testBit_two_pow_sub_one]
  by_cases hi : i < 64
  · simp [hi]
  · rw [Nat.testBit_lt_two_pow (lt_of_lt_of_le h (Nat.pow_le_pow_right (by decide) (by omega)))]
    simp [hi]

theorem setFinished_full {cfg : Cfg} {i : Nat} {fin : List Nat} (hi : i < fin.length)
    (h : ∀ w ∈ fin, w < 2 ^ 64) :
    setFinished cfg i (inclusiveRange 0 63) fin = .ok (fin.set i (2 ^ 64 - 1)) := by
  rw [setFinished_eq _ _ _ (by simp [inclusiveRange]) (List.getElem?_eq_getElem hi), foldl_or,
    show (inclusiveRange 0 63).foldl (fun a j => a ||| 1 <<< j) 0 = 2 ^ 64 - 1 by decide,
    or_ones (h _ (List.getElem_mem hi))]

theorem setFinishedAll_full {cfg : Cfg} : ∀ (js fin : List Nat), (∀ j ∈ js, j < fin.length) →
    (∀ w ∈ fin, w < 2 ^ 64) → ∃ fin', setFinishedAll cfg (inclusiveRange 0 63) js fin = .ok fin' ∧
      (∀ j ∈ js, fin'[j]? = some (2 ^ 64 - 1)) ∧ ∀ j, j ∉ js → fin'[j]? = fin[j]? := by
  intro js
  induction js with
  | nil => intro fin _ _; exact ⟨fin, rfl, by simp, fun _ _ => rfl⟩
  | cons i js ih =>
    intro fin hlt hw
    have hi : i < fin.length := hlt i (by simp)
    obtain ⟨fin', h1, h2, h3⟩ := ih (fin.set i (2 ^ 64 - 1)) (by
      intro j hj; rw [List.length_set]; exact hlt j (by simp [hj])) (by
      intro w hw'
      rcases List.mem_or_eq_of_mem_set hw' with h | rfl
      · exact hw w h
      · decide)
    refine ⟨fin', by rw [setFinishedAll, setFinished_full hi hw]; exact h1, ?_, ?_⟩
    · intro j hj
      by_cases hjs : j ∈ js
      · exact h2 j hjs
      · have : j = i := by simpa [hjs] using hj
        rw [h3 j hjs, this, List.getElem?_set_self hi]
    · intro j hj
      simp only [List.mem_cons, not_or] at hj
      rw [h3 j hj.2, List.getElem?_set_ne (by omega)]

theorem allFinished_full {fin : List Nat} : ∀ (js : List Nat), (∀ j ∈ js, fin[j]? = some (2 ^ 64 - 1)) →
    allFinished fin js = .ok true := by
  intro js
  induction js with
  | nil => intro _; rfl
  | cons i js ih =>
    intro h
    rw [allFinished, h i (by simp)]
    simp only [if_true]
    exact ih fun j hj => h j (by simp [hj])

/-! ## Planes -/

theorem initPlane_map (p : List UInt8) : initPlane (p.map some) = .ok p := by
  induction p with
  | nil => rfl
  | cons b p ih => rw [List.map_cons, initPlane, ih]

/-- The samples of a finished plane. -/
def planeSamples (W : Nat) (c : Component) (q : List Nat) (l : List (List (List Int))) : List UInt8 :=
  (List.range (planeSize c)).map fun p => sampleAt ((l.getD (mcuIndex W c p) []).getD (blockIndex c p) []) q
    (p / c.lineStride % 8) (p % c.lineStride % 8)

theorem planeOf_samples {W H : Nat} {c : Component} (q : List Nat) {l : List (List (List Int))}
    (hl : l.length = W * H) (hg : PlaneGeom W H c) :
    planeOf W c q l = (planeSamples W c q l).map some := by
  unfold planeSamples planeOf
  rw [List.map_map]
  apply List.map_congr_left
  intro p hp
  rw [List.mem_range] at hp
  have h := mcuIndex_lt hg hp
  rw [← hl] at h
  unfold planeFn
  rw [List.getElem?_eq_getElem h, Option.map_some, Function.comp, List.getD_eq_getElem?_getD (l := l),
    List.getElem?_eq_getElem h, Option.getD_some]

theorem planeSamples_length (W : Nat) (c : Component) (q : List Nat) (l : List (List (List Int))) :
    (planeSamples W c q l).length = planeSize c := by
  simp [planeSamples]

/-- The sample in row `Y`, column `X`. -/
theorem planeSamples_get {W H : Nat} {c : Component} (hg : PlaneGeom W H c) (q : List Nat)
    (l : List (List (List Int))) {Y X : Nat} (hY : Y < 8 * (H * c.v)) (hX : X < c.lineStride) :
    (planeSamples W c q l).getD (Y * c.lineStride + X) 0 =
      sampleAt ((l.getD (Y / 8 / c.v * W + X / 8 / c.h) []).getD (Y / 8 % c.v * c.h + X / 8 % c.h) []) q
        (Y % 8) (X % 8) := by
  have hp : Y * c.lineStride + X < planeSize c := by
    calc Y * c.lineStride + X < Y * c.lineStride + c.lineStride := by omega
      _ = (Y + 1) * c.lineStride := by ring
      _ ≤ (8 * (H * c.v)) * c.lineStride := Nat.mul_le_mul_right _ hY
      _ = planeSize c := by rw [hg.size]; ring
  have hdiv : (Y * c.lineStride + X) / c.lineStride = Y := by
    rw [Nat.mul_comm, Nat.mul_add_div (by omega), Nat.div_eq_of_lt hX, Nat.add_zero]
  have hmod : (Y * c.lineStride + X) % c.lineStride = X := by
    rw [Nat.mul_comm, Nat.mul_add_mod, Nat.mod_eq_of_lt hX]
  unfold planeSamples
  rw [List.getD_eq_getElem?_getD, List.getElem?_map, List.getElem?_range hp, Option.map_some,
    Option.getD_some]
  unfold mcuIndex blockIndex
  rw [hdiv, hmod]

/-! ## The scan -/

/-- The planes of the components `cs` of a scan with the given MCUs. -/
def scanPlanes (W : Nat) (qts : List (Option (List Nat))) (cs : List Component) (ms : List Mcu) :
    List (List UInt8) :=
  (List.range cs.length).map fun i => match cs[i]? with
    | some c => planeSamples W c (quantOf qts c) (ms.map fun m => (splitBlocks cs (mcuBuf m)).getD i [])
    | none => []

theorem planesOf_scan {W H : Nat} {qts : List (Option (List Nat))} {cs : List Component} {ms : List Mcu}
    (hg : ∀ c ∈ cs, PlaneGeom W H c) (hl : ms.length = W * H) :
    planesOf W (quantOf qts) cs (lsOf cs (ms.map mcuBuf)) = (scanPlanes W qts cs ms).map (·.map some) := by
  apply List.ext_getElem?
  intro i
  unfold scanPlanes
  rw [List.getElem?_map, List.getElem?_map]
  cases hc : cs[i]? with
  | none =>
    have := List.getElem?_eq_none_iff.1 hc
    rw [List.getElem?_eq_none (by rw [planesOf_length]; exact this),
      List.getElem?_eq_none (by simpa using this)]
    rfl
  | some c =>
    rw [planesOf_get hc, List.getElem?_range (List.getElem?_eq_some_iff.1 hc).1]
    simp only [Option.map_some, hc]
    rw [planeOf_samples _ (by simp [hl]) (hg c (List.mem_of_getElem? hc)), List.map_map]
    rfl

theorem scan_after {cfg : Cfg} {d : Decoder} {scan : Scan} {frame : Frame}
    {codes : List (Code × Code)} {r : Nat}
    (hready : ScanReady cfg d scan frame codes r) (hcomps : frame.components.length ≤ 4)
    {tail : List UInt8} (htail : StartsWithMarker tail) {intervals : List (List Mcu)}
    {bytes : List UInt8} {bits count : Nat} (hc : count ≤ 64) (hb : bits < 2 ^ 64)
    {pad : List Bool} (hbytes : ScanPadded codes tail pad (bitsN count bits) 0 intervals bytes)
    (hok : IntervalsOk r intervals)
    (hfit : ∀ m ∈ intervals.flatten, m.map List.length = frame.components.map (·.blocksPerMcu) ∧
      m.flatten.length ≤ 10)
    (htotal : intervals.flatten.length = frame.mcuSize.width * frame.mcuSize.height)
    {planes : List (List (Option UInt8))}
    (hplanes : dequantAll cfg true d frame 0 intervals.flatten
      (frame.components.map allocPlane) = .ok planes) :
    ∃ s0 coef preds exp left bi, scanInit true ⟨d, ⟨bytes, bits, count⟩⟩ = .ok () s0 ∧
      s0.dec.frame = some frame ∧ s0.dec.scan = some scan ∧
      mcuLoop cfg true (mcuList frame.mcuSize) s0 = .ok () (mkSt d coef preds exp left planes bi) ∧
      Rep True bi pad tail := by
  obtain ⟨coef', preds', exp', left', bi', e, ht⟩ := mcuLoop_scan_after (cfg := cfg)
    (produce := true) hready.ctx htail hbytes 0 ScanState.default.mcuRowCoefficients 0 r
    (frame.components.map allocPlane) planes bits count hc hb rfl
    (fun m hm => ⟨(hfit m hm).1.symm, (hfit m hm).2⟩) (by omega) (fun _ => Nat.zero_mod r)
    (fun _ => by simp) (fun _ => rfl) (fun _ => rfl)
    (fun h => by unfold IntervalsOk at hok; rw [if_pos h] at hok; exact hok)
    (fun h => by
      unfold IntervalsOk at hok
      rw [if_neg (by omega)] at hok
      rcases hok with h | ⟨init, last, h1, h2, h3, h4⟩
      · exact ⟨[], [], h, by simp, Nat.zero_le _, by simp⟩
      · exact ⟨init, last, h1, h2, h4, fun _ => h3⟩) hplanes
  refine ⟨_, coef', preds', exp', left', bi', hready.init true hcomps ⟨bytes, bits, count⟩, hready.frame_eq,
    hready.scan_eq, ?_, ht⟩
  rw [mcuList_eq, List.range_eq_range']
  rw [htotal] at e
  exact e

theorem takeResults_range : ∀ (hs : List ScanHeader) (k : Nat) (results : List (List (Option UInt8)))
    (ps : List (List UInt8)), hs.map (·.componentIndex) = List.range' k hs.length → ps.length = hs.length →
    (∀ i p, ps[i]? = some p → results[k + i]? = some (p.map some)) → takeResults hs results = .ok ps := by
  intro hs
  induction hs with
  | nil => intro k results ps _ h _; simp only [List.length_nil, List.length_eq_zero_iff] at h; subst h; rfl
  | cons a hs ih =>
    intro k results ps hk hlen h
    cases ps with
    | nil => simp at hlen
    | cons p ps =>
      simp only [List.map_cons, List.length_cons, List.range'_succ, List.cons.injEq] at hk
      have h0 := h 0 p rfl
      rw [Nat.add_zero] at h0
      have hr : takeResults hs (results.set k []) = .ok ps := by
        refine ih (k + 1) _ ps hk.2 (by simpa using hlen) ?_
        intro i q hq
        rw [List.getElem?_set_ne (by omega), show k + 1 + i = k + (i + 1) by omega]
        exact h (i + 1) q hq
      rw [takeResults, hk.1, h0]
      simp only [initPlane_map, hr]

/-- A scan of all components, with bits left over from before. -/
theorem decodeScan_after {cfg : Cfg} {d : Decoder} {scan : Scan} {frame : Frame}
    {codes : List (Code × Code)} {r W H : Nat}
    (hready : ScanReady cfg d scan frame codes r) (h4 : frame.components.length ≤ 4)
    (hhs : scan.headers.map (·.componentIndex) = List.range frame.components.length)
    (hsize : frame.mcuSize = ⟨W, H⟩) (hg : ∀ c ∈ frame.components, PlaneGeom W H c)
    (hbpm : ∀ c ∈ frame.components, c.blocksPerMcu = c.v * c.h)
    (hq : ∀ c ∈ frame.components, ∃ q, d.quantTables[c.tq]? = some (some q))
    {tail : List UInt8} (htail : StartsWithMarker tail) {intervals : List (List Mcu)}
    {bytes : List UInt8} {bits count : Nat} (hc : count ≤ 64) (hb : bits < 2 ^ 64)
    {pad : List Bool} (hbytes : ScanPadded codes tail pad (bitsN count bits) 0 intervals bytes)
    (hok : IntervalsOk r intervals)
    (hfit : ∀ m ∈ intervals.flatten, m.map List.length = frame.components.map (fun c => c.v * c.h))
    (hten : (frame.components.map fun c => c.v * c.h).sum ≤ 10)
    (htotal : intervals.flatten.length = W * H) :
    ∃ ss bi, decodeScan cfg true ⟨d, ⟨bytes, bits, count⟩⟩ = .ok () ⟨{ d with
        scanState := ss
        planes := scanPlanes W d.quantTables frame.components intervals.flatten }, bi⟩ ∧
      Rep True bi pad tail := by
  have hpl := dequantAll_planes (cfg := cfg) (d := d) (frame := frame) hsize hg hq intervals.flatten [] hfit
    (by simp [htotal])
  rw [lsOf_nil, planesOf_init, List.nil_append, planesOf_scan hg htotal] at hpl
  obtain ⟨s0, coef, preds, exp, left, bi, i1, i2, i3, i4, i5⟩ := scan_after hready h4 htail
    hc hb hbytes hok (fun m hm => ⟨by
      rw [hfit m hm]
      apply List.map_congr_left
      intro c hc
      rw [hbpm c hc], by
      rw [List.length_flatten, hfit m hm]; exact hten⟩) (by rw [htotal, hsize]) hpl
  refine ⟨(mkSt d coef preds exp left ((scanPlanes W d.quantTables frame.components
    intervals.flatten).map (·.map some)) bi).dec.scanState, bi, ?_, i5⟩
  unfold decodeScan
  rw [i1, Out.bind_ok]
  simp only [i2, i3, i4, Out.bind_ok]
  have hl : scan.headers.length = frame.components.length := by
    have := congrArg List.length hhs
    simpa using this
  simp only [mkSt]
  rw [takeResults_range scan.headers 0 _ (scanPlanes W d.quantTables frame.components intervals.flatten)
    (by rw [hhs, hl, List.range_eq_range']) (by simp [scanPlanes, hl]) (by
      intro i p hp
      rw [Nat.zero_add, List.getElem?_map, hp]
      rfl)]

/-- A scan of all components. -/
theorem decodeScan_wellformed {cfg : Cfg} {d : Decoder} {scan : Scan} {frame : Frame}
    {codes : List (Code × Code)} {r W H : Nat}
    (hready : ScanReady cfg d scan frame codes r) (h4 : frame.components.length ≤ 4)
    (hhs : scan.headers.map (·.componentIndex) = List.range frame.components.length)
    (hsize : frame.mcuSize = ⟨W, H⟩) (hg : ∀ c ∈ frame.components, PlaneGeom W H c)
    (hbpm : ∀ c ∈ frame.components, c.blocksPerMcu = c.v * c.h)
    (hq : ∀ c ∈ frame.components, ∃ q, d.quantTables[c.tq]? = some (some q))
    {tail : List UInt8} (htail : StartsWithMarker tail) {intervals : List (List Mcu)}
    {bytes : List UInt8} (hbytes : ScanBytes codes tail 0 intervals bytes)
    (hok : IntervalsOk r intervals)
    (hfit : ∀ m ∈ intervals.flatten, m.map List.length = frame.components.map (fun c => c.v * c.h))
    (hten : (frame.components.map fun c => c.v * c.h).sum ≤ 10)
    (htotal : intervals.flatten.length = W * H) :
    ∃ ss bi, decodeScan cfg true ⟨d, ⟨bytes, 0, 0⟩⟩ = .ok () ⟨{ d with
        scanState := ss
        planes := scanPlanes W d.quantTables frame.components intervals.flatten }, bi⟩ ∧
      scanTail bi.input = some tail ∧ bi.WF := by
  obtain ⟨pad, hp⟩ := hbytes.after.padded
  obtain ⟨ss, bi, e, h⟩ := decodeScan_after (bits := 0) (count := 0) hready h4 hhs hsize hg hbpm hq htail (by omega)
    (by norm_num) hp hok
    hfit hten htotal
  exact ⟨ss, bi, e, h.tail, h.wf⟩

end Jpeg
