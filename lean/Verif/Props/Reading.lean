import Verif.Proofs.Reading
import Verif.Props.Damaged
/-!
# C71: the picture is the one that the entropy coded data, read as the standard says, describes
-/

namespace Jpeg
open Spec

/-! ## Reading and encoding -/

theorem scanBytes_chunks {codes : List (Code × Code)} {tail : List UInt8} {intervals : List (List Mcu)}
    {data : List UInt8} (j : Nat) : ScanBytes codes tail (j % 8) intervals data ↔
      ∃ chunks, Chunks tail j chunks data ∧ List.Forall₂ (IntervalData codes) intervals chunks := by
  constructor
  · intro h
    generalize hn : j % 8 = n at h
    induction h generalizing j with
    | last hi => exact ⟨_, .last, .cons hi .nil⟩
    | @cons n ms rest data bytes k hi _ ih =>
      subst hn
      obtain ⟨chunks, h1, h2⟩ := ih (j + 1) (by omega)
      exact ⟨_, .cons k h1, .cons hi h2⟩
  · rintro ⟨chunks, h, hf⟩
    induction h generalizing intervals with
    | last =>
      cases hf with
      | cons hi hf => cases hf; exact .last hi
    | @cons j data rest bytes k _ ih =>
      cases hf with
      | cons hi hf =>
        refine .cons k hi ?_
        have := ih hf
        rwa [show (j % 8 + 1) % 8 = (j + 1) % 8 by omega]

/-- The data of an interval reads as these MCUs, with `ns` blocks of the components. -/
def ReadsAs (codes : List (Code × Code)) (ns : List Nat) (ms : List Mcu) (data : List UInt8) : Prop :=
  ∃ rest, readInterval codes ns ms.length data = .value ms rest

section

variable {f : BaselineFile} {r H V : Nat} {codes : List (Code × Code)}

theorem laid_length (hv : f.Laid r H V codes) : (f.comps.map fun c => c.h * c.v).length = codes.length := by
  rw [List.length_map]; exact hv.huffman.length_eq

theorem laid_readsAs (hv : f.Laid r H V codes) {ms : List Mcu} {data : List UInt8}
    (hms : ∀ m ∈ ms, m.map List.length = f.comps.map fun c => c.h * c.v) :
    ReadsAs codes (f.comps.map fun c => c.h * c.v) ms data ↔ IntervalData codes ms data :=
  ⟨fun ⟨_, h⟩ => (readInterval_value (laid_length hv) h).2.2, fun h => (Laid.properAll hv).readInterval h hms⟩

end

theorem forall₂_of_mem {α β : Type} {R S : α → β → Prop} {l : List α} {l' : List β} (h : List.Forall₂ R l l')
    (hs : ∀ a ∈ l, ∀ b, R a b → S a b) : List.Forall₂ S l l' := by
  induction h with
  | nil => exact .nil
  | cons h1 _ ih => exact .cons (hs _ (by simp) _ h1) (ih fun a ha => hs a (by simp [ha]))

/-- **C71** (reading and encoding are the same). Of a file laid out as the standard says, the data is an
encoding of the MCUs exactly if it reads as them: between the restart markers there is one piece of data for
each restart interval, and the decoding procedures of F.2.2, applied to its bits, give the MCUs. -/
theorem C71_reads_iff (f : BaselineFile) (r H V : Nat) (codes : List (Code × Code)) (hv : f.Laid r H V codes) :
    f.Valid r H V codes ↔ ∃ k chunks, Chunks (List.replicate k 0xFF ++ markerBytes .EOI) 0 chunks f.data ∧
      List.Forall₂ (ReadsAs codes (f.comps.map fun c => c.h * c.v)) f.intervals chunks := by
  have hms : ∀ ms ∈ f.intervals, ∀ m ∈ ms, m.map List.length = f.comps.map fun c => c.h * c.v :=
    fun ms h m hm => hv.blocks m (List.mem_flatten.2 ⟨ms, h, hm⟩)
  constructor
  · intro h
    obtain ⟨k, hk⟩ := h.data
    obtain ⟨chunks, h1, h2⟩ := (scanBytes_chunks 0).1 hk
    exact ⟨k, chunks, h1, forall₂_of_mem h2 fun a ha b h => (laid_readsAs hv (hms a ha)).2 h⟩
  · rintro ⟨k, chunks, h1, h2⟩
    exact ⟨hv, k, (scanBytes_chunks 0).2 ⟨chunks, h1, forall₂_of_mem h2 fun a ha b h => (laid_readsAs hv (hms a ha)).1 h⟩⟩

theorem Spec.Chunks.unique {k k' : Nat} {j : Nat} {a b : List (List UInt8)} {x : List UInt8}
    (h1 : Chunks (List.replicate k 0xFF ++ markerBytes .EOI) j a x)
    (h2 : Chunks (List.replicate k' 0xFF ++ markerBytes .EOI) j b x) : a = b := by
  have heoi : ∀ k, marker (List.replicate k 0xFF ++ markerBytes .EOI) = .ok (.EOI, []) := fun k => by
    simpa using marker_bytes (m := .EOI) trivial k []
  have hn8 : ∀ j, j % 8 < 8 := fun j => Nat.mod_lt _ (by omega)
  have key : ∀ {u v : List UInt8} {t t' : List UInt8}, StartsWithMarker t → StartsWithMarker t' →
      stuff u ++ t = stuff v ++ t' → u = v ∧ t = t' := by
    intro u v t t' ht ht' e
    refine ⟨?_, ?_⟩
    · rw [← unstuff_stuff ht u, e, unstuff_stuff ht' v]
    · have := scanTail_stuff ht u
      rw [e, scanTail_stuff ht' v] at this
      exact (Option.some.inj this).symm
  induction h1 generalizing b with
  | @last j data =>
    generalize hx : stuff data ++ (List.replicate k 0xFF ++ markerBytes .EOI) = x at h2
    cases h2 with
    | last => rw [(key (starts_eoi _) (starts_eoi _) hx).1]
    | cons q _ =>
      have := congrArg marker (key (starts_eoi _) (starts_rst (hn8 j) q _) hx).2
      rw [heoi, marker_rst (hn8 j)] at this
      simp at this
  | @cons j data rest bytes q hc ih =>
    generalize hx : stuff data ++ _ = x at h2
    cases h2 with
    | last =>
      have := congrArg marker (key (starts_rst (hn8 j) q _) (starts_eoi _) hx).2
      rw [heoi, marker_rst (hn8 j)] at this
      simp at this
    | cons q' h2 =>
      obtain ⟨e1, e2⟩ := key (starts_rst (hn8 j) q _) (starts_rst (hn8 j) q' _) hx
      have := congrArg marker e2
      rw [marker_rst (hn8 j), marker_rst (hn8 j)] at this
      simp only [Except.ok.injEq, Prod.mk.injEq, true_and] at this
      subst this
      rw [e1, ih h2]

theorem lengths_unique {r : Nat} {A B : List (List Mcu)} (ha : IntervalsOk r A) (hb : IntervalsOk r B)
    (hlen : B.length = A.length) (htot : B.flatten.length = A.flatten.length) :
    B.map List.length = A.map List.length := by
  unfold IntervalsOk at ha hb
  by_cases h0 : r = 0
  · rw [if_pos h0] at ha hb
    obtain ⟨a, rfl⟩ := List.length_eq_one_iff.1 ha
    obtain ⟨b, rfl⟩ := List.length_eq_one_iff.1 hb
    simpa using htot
  · rw [if_neg h0] at ha hb
    have shape : ∀ {C : List (List Mcu)}, (C = [[]] ∨ ∃ init last, C = init ++ [last] ∧ (∀ i ∈ init, i.length = r) ∧
        1 ≤ last.length ∧ last.length ≤ r) →
        ∃ n l, C.map List.length = List.replicate n r ++ [l] := by
      rintro C (rfl | ⟨init, last, rfl, h1, -, -⟩)
      · exact ⟨0, 0, rfl⟩
      · refine ⟨init.length, last.length, ?_⟩
        rw [List.map_append, List.map_cons, List.map_nil]
        congr 1
        rw [List.eq_replicate_iff]
        refine ⟨by simp, ?_⟩
        intro x hx
        obtain ⟨i, hi, rfl⟩ := List.mem_map.1 hx
        exact h1 i hi
    obtain ⟨n, l, e1⟩ := shape ha
    obtain ⟨n', l', e2⟩ := shape hb
    have e3 : n' = n := by
      have h1 := congrArg List.length e1
      have h2 := congrArg List.length e2
      simp at h1 h2
      omega
    subst e3
    rw [List.length_flatten, List.length_flatten, e1, e2] at htot
    simp at htot
    rw [e1, e2, htot]

/-- **C71** (a file describes one picture). The bytes of a file determine its MCUs: no two lists of restart
intervals have an encoding in common. -/
theorem C71_unique (f : BaselineFile) (r H V : Nat) (codes : List (Code × Code)) (Z : List (List Mcu))
    (h1 : f.Valid r H V codes) (h2 : ({ f with intervals := Z } : BaselineFile).Valid r H V codes) :
    Z = f.intervals := by
  obtain ⟨k, chunks, c1, f1⟩ := (C71_reads_iff f r H V codes h1.toLaid).1 h1
  obtain ⟨k', chunks', c2, f2⟩ := (C71_reads_iff _ r H V codes h2.toLaid).1 h2
  have : chunks = chunks' := c1.unique c2
  subst this
  have hl : Z.map List.length = f.intervals.map List.length := by
    have a := h1.restarts
    have b := h2.restarts
    have hlen : Z.length = f.intervals.length := f2.length_eq.trans f1.length_eq.symm
    have htot : Z.flatten.length = f.intervals.flatten.length := h2.mcus.trans h1.mcus.symm
    exact lengths_unique a b hlen htot
  have hgo : ∀ {A B : List (List Mcu)} {C : List (List UInt8)}, List.Forall₂ (ReadsAs codes
      (f.comps.map fun c => c.h * c.v)) A C → List.Forall₂ (ReadsAs codes (f.comps.map fun c => c.h * c.v)) B C →
      B.map List.length = A.map List.length → B = A := by
    intro A B C ha
    induction ha generalizing B with
    | nil => intro hb _; cases hb; rfl
    | cons h1 _ ih =>
      intro hb hl
      cases hb with
      | cons h2 hb =>
        rw [List.map_cons, List.map_cons, List.cons.injEq] at hl
        obtain ⟨r1, h1⟩ := h1
        obtain ⟨r2, h2⟩ := h2
        rw [hl.1, h1] at h2
        simp only [Reading.value.injEq] at h2
        rw [ih hb hl.2, h2.1]
  exact hgo f1 f2 hl

/-! ## Refusal -/

/-- **C71** (undecodable data is refused). If the data of some restart interval, read as the standard says, runs into
bits that begin with no code word of the table in force, or into a DC category above 11, then decoding fails with
an error, not a panic; this is so whatever the other intervals contain. -/
theorem C71_refused (cfg : Cfg) (f : BaselineFile) (H V : Nat) (codes : List (Code × Code)) (d : Decoder)
    (hd : UsedDecoder d) (hh : Holds cfg d f.earlier) (hv : f.Laid (f.interval d.restartInterval) H V codes)
    (k : Nat) (chunks : List (List UInt8)) (hx : Chunks (List.replicate k 0xFF ++ markerBytes .EOI) 0 chunks f.data)
    (hlen : chunks.length = f.intervals.length) (i : Nat) (ms : List Mcu) (data : List UInt8)
    (hi : f.intervals[i]? = some ms) (hc : chunks[i]? = some data)
    (hbad : readInterval codes (f.comps.map fun c => c.h * c.v) ms.length data = .invalid) :
    ∃ g d2, d.decode cfg f.bytes = .fail g d2 ∧ ∀ p, g ≠ .panic p := by
  have hs := loopAll_invalid (cfg := cfg) hd.inv hh.held hv hx hlen ⟨i, ms, data, hi, hc, hbad⟩
  have hdec : d.decode cfg f.bytes =
      match decodeParser cfg ⟨d, Biterator.new f.bytes⟩ with
      | .fail f s => .fail f s.dec
      | .ok r s =>
        if s.bi.input ≠ [] then .fail (.panic .trailing) s.dec
        else
          match r with
          | .ok image => .ok image s.dec
          | .error f => .fail f s.dec := rfl
  unfold decodeParser at hdec
  unfold loopAll at hs
  cases e2 : segmentLoop cfg ((Biterator.new f.bytes).input.length + 1) ⟨d, Biterator.new f.bytes⟩ with
  | fail g s =>
    rw [e2] at hs
    rw [e2] at hdec
    exact ⟨g, s.dec, hdec, hs⟩
  | ok u s =>
    rw [e2] at hs
    exact hs.elim

/-! ## Outcome -/

theorem intervalsOk_lengths {r : Nat} {A B : List (List Mcu)} (h : B.map List.length = A.map List.length)
    (ha : IntervalsOk r A) : IntervalsOk r B := by
  have hl : B.length = A.length := by simpa using congrArg List.length h
  unfold IntervalsOk at *
  split
  · next h0 => rw [if_pos h0] at ha; omega
  · next h0 =>
    rw [if_neg h0] at ha
    rcases ha with rfl | ⟨init, last, rfl, h1, h2, h3⟩
    · left
      obtain ⟨b, rfl⟩ := List.length_eq_one_iff.1 hl
      simpa using h
    · right
      rw [List.map_append] at h
      obtain ⟨p, q, rfl, e1, e2⟩ := List.map_eq_append_iff.1 h
      obtain ⟨b, rfl⟩ : ∃ b, q = [b] := List.length_eq_one_iff.1 (by simpa using congrArg List.length e2)
      have e2 : b.length = last.length := by simpa using e2
      refine ⟨p, b, rfl, ?_, by omega, by omega⟩
      intro i hi
      have : i.length ∈ p.map List.length := List.mem_map.2 ⟨i, hi, rfl⟩
      rw [e1] at this
      obtain ⟨i', hi', e⟩ := List.mem_map.1 this
      rw [← e]; exact h1 i' hi'

theorem laid_with {f : BaselineFile} {r H V : Nat} {codes : List (Code × Code)} (hv : f.Laid r H V codes)
    {Z : List (List Mcu)} (hl : Z.map List.length = f.intervals.map List.length)
    (hb : ∀ m ∈ Z.flatten, m.map List.length = f.comps.map fun c => c.h * c.v) :
    ({ f with intervals := Z } : BaselineFile).Laid r H V codes :=
  ⟨hv.tables, hv.sof, hv.x, hv.y, hv.count, hv.ids, hv.factors, hv.hmax, hv.vmax, hv.ten, hv.single, hv.quant,
    hv.huffman, by
      show Z.flatten.length = _
      rw [← hv.mcus, List.length_flatten, List.length_flatten, hl],
    hb, intervalsOk_lengths hl hv.restarts⟩

theorem chunks_damaged {codes : List (Code × Code)} {tail : List UInt8} {bad : Nat → Prop} {j : Nat}
    {chunks : List (List UInt8)} {x : List UInt8} (h : Chunks tail j chunks x) {Y : List (List Mcu)}
    (hl : Y.length = chunks.length)
    (hg : ∀ i ms data, Y[i]? = some ms → chunks[i]? = some data → ¬ bad (j + i) → IntervalData codes ms data) :
    DamagedScan codes tail bad j Y x := by
  induction h generalizing Y with
  | last =>
    obtain ⟨y, rfl⟩ := List.length_eq_one_iff.1 hl
    exact .last fun hb => hg 0 _ _ rfl rfl hb
  | @cons j data rest bytes k _ ih =>
    cases Y with
    | nil => simp at hl
    | cons y Y =>
      refine .cons k (fun hb => hg 0 _ _ rfl rfl hb) (ih (by simpa using hl) ?_)
      intro i ms data h1 h2 hb
      exact hg (i + 1) ms data (by simpa using h1) (by simpa using h2) (by rwa [← Nat.add_assoc, Nat.add_right_comm])

/-- What a piece of data reads as, or `ms` if it does not. -/
private def readOr (codes : List (Code × Code)) (ns : List Nat) (ms : List Mcu) (data : List UInt8) : List Mcu :=
  match readInterval codes ns ms.length data with
  | .value z _ => z
  | _ => ms

/-- **C71** (any data). Whatever bytes without markers stand between the restart markers of a colour file laid out
as the standard says: decoding fails with an error, not a panic, or it gives an image of the right size, none
of the pieces reads as invalid, and the pixels are those of a list of restart intervals of the right shape in
which every piece that reads as MCUs stands for these.

Missing: that data which does not read as MCUs is refused; that is false of data which ends early
(`C71_short_violated`) and of data which uses symbols of progressive coding (`C71_reserved_violated`). And the row
`y` of the samples is wrong for larger vertical factors (C33). -/
theorem C71_outcome_partial (cfg : Cfg) (f : BaselineFile) (H V : Nat) (codes : List (Code × Code)) (d : Decoder)
    (hd : UsedDecoder d) (hh : Holds cfg d f.earlier) (h3 : f.comps.length = 3) (hct : f.transform d.transform ≠ some 0)
    (hv : f.Laid (f.interval d.restartInterval) H V codes) (hr : f.Renderable H V)
    (k : Nat) (chunks : List (List UInt8)) (hx : Chunks (List.replicate k 0xFF ++ markerBytes .EOI) 0 chunks f.data)
    (hlen : chunks.length = f.intervals.length) :
    (∃ g d2, d.decode cfg f.bytes = .fail g d2 ∧ ∀ p, g ≠ .panic p) ∨
    ∃ (Z : List (List Mcu)) (image : List UInt8) (d2 : Decoder), d.decode cfg f.bytes = .ok image d2 ∧
      image.length = f.x * f.y * 3 ∧
      ({ f with intervals := Z } : BaselineFile).Laid (f.interval d.restartInterval) H V codes ∧
      Z.map List.length = f.intervals.map List.length ∧
      (∀ (i : Nat) (ms z : List Mcu) (data : List UInt8), f.intervals[i]? = some ms → chunks[i]? = some data →
        readInterval codes (f.comps.map fun c => c.h * c.v) ms.length data ≠ .invalid ∧
        ∀ rest, readInterval codes (f.comps.map fun c => c.h * c.v) ms.length data = .value z rest →
          Z[i]? = some z) ∧
      (({ f with intervals := Z } : BaselineFile).InRange → ∀ y x, y < f.y → x < f.x →
        let row := if cfg.rayon then y / V else y / V * V
        let up := fun i => UInt8.ofNat (({ f with intervals := Z } : BaselineFile).upsampledSample H V i row x)
        ∃ r g b, ycbcrToRgb (up 0) (up 1) (up 2) = .ok (r, g, b) ∧
          image[3 * f.x * y + 3 * x]? = some r ∧
          image[3 * f.x * y + (3 * x + 1)]? = some g ∧
          image[3 * f.x * y + (3 * x + 2)]? = some b) := by
  by_cases hbad : ∃ (i : Nat) (ms : List Mcu) (data : List UInt8), f.intervals[i]? = some ms ∧ chunks[i]? = some data ∧
      readInterval codes (f.comps.map fun c => c.h * c.v) ms.length data = .invalid
  · obtain ⟨i, ms, data, h1, h2, h3⟩ := hbad
    exact .inl (C71_refused cfg f H V codes d hd hh hv k chunks hx hlen i ms data h1 h2 h3)
  set ns := f.comps.map fun c => c.h * c.v with hns
  have hnl : ns.length = codes.length := laid_length hv
  -- the intervals with everything that can be read filled in
  let Y := List.zipWith (readOr codes ns) f.intervals chunks
  have hor : ∀ ms data, (readOr codes ns ms data).length = ms.length ∧
      ((∀ m ∈ ms, m.map List.length = ns) → ∀ m ∈ readOr codes ns ms data, m.map List.length = ns) := by
    intro ms data
    unfold readOr
    split
    · next z rest e =>
      have := readInterval_value hnl e
      exact ⟨this.1, fun _ => this.2.1⟩
    · exact ⟨rfl, id⟩
  have hYget : ∀ i : Nat, Y[i]? = (f.intervals[i]?).bind fun ms => (chunks[i]?).map fun data => readOr codes ns ms data := by
    intro i
    show (List.zipWith _ _ _)[i]? = _
    rw [List.getElem?_zipWith]
    cases f.intervals[i]? <;> cases chunks[i]? <;> rfl
  have hYl : Y.length = chunks.length := by
    show (List.zipWith _ _ _).length = _
    rw [List.length_zipWith, hlen, Nat.min_self]
  have hYm : Y.map List.length = f.intervals.map List.length := by
    apply List.ext_getElem?
    intro i
    rw [List.getElem?_map, List.getElem?_map, hYget]
    cases e1 : f.intervals[i]? with
    | none => rfl
    | some ms =>
      cases e2 : chunks[i]? with
      | none =>
        rw [List.getElem?_eq_none_iff] at e2
        have := (List.getElem?_eq_some_iff.1 e1).1
        omega
      | some data => simp [(hor ms data).1]
  have hYb : ∀ m ∈ Y.flatten, m.map List.length = ns := by
    intro m hm
    obtain ⟨z, hz, hm⟩ := List.mem_flatten.1 hm
    obtain ⟨i, hi⟩ := List.mem_iff_getElem?.1 hz
    rw [hYget] at hi
    cases e1 : f.intervals[i]? with
    | none => rw [e1] at hi; simp at hi
    | some ms =>
      cases e2 : chunks[i]? with
      | none => rw [e1, e2] at hi; simp at hi
      | some data =>
        rw [e1, e2] at hi
        simp only [Option.bind_some, Option.map_some, Option.some.injEq] at hi
        subst hi
        refine (hor ms data).2 (fun m hm => hv.blocks m ?_) m hm
        exact List.mem_flatten.2 ⟨ms, List.mem_of_getElem? e1, hm⟩
  have hvY : ({ f with intervals := Y } : BaselineFile).Laid (f.interval d.restartInterval) H V codes :=
    laid_with hv hYm hYb
  let bad : Nat → Prop := fun i => ∀ ms data, f.intervals[i]? = some ms → chunks[i]? = some data →
    ∀ z rest, readInterval codes ns ms.length data ≠ .value z rest
  have hdam : DamagedScan codes (List.replicate k 0xFF ++ markerBytes .EOI) bad 0 Y f.data := by
    refine chunks_damaged hx hYl ?_
    intro i y data h1 h2 hb
    rw [Nat.zero_add] at hb
    have hb : ∃ (ms : List Mcu) (data : List UInt8) (z : List Mcu) (rest : List Bool), f.intervals[i]? = some ms ∧ chunks[i]? = some data ∧
        readInterval codes ns ms.length data = .value z rest := by
      by_contra hn
      refine hb fun ms data h1 h2 z rest h3 => hn ⟨ms, data, z, rest, h1, h2, h3⟩
    obtain ⟨ms, data', z, rest, e1, e2, e3⟩ := hb
    rw [e2, Option.some.injEq] at h2
    subst h2
    rw [hYget, e1, e2] at h1
    simp only [Option.bind_some, Option.map_some, Option.some.injEq] at h1
    unfold readOr at h1
    rw [e3] at h1
    subst h1
    exact (readInterval_value hnl e3).2.2
  rcases damaged_result (cfg := cfg) (f := { f with intervals := Y }) hd hh hvY hdam with
    h | ⟨d2, hdec2, k4, k1, k2, Z, k5, k0, k6, k7⟩
  · exact .inl h
  right
  have k5 : Z.map List.length = f.intervals.map List.length := k5.trans hYm
  have hvZ : ({ f with intervals := Z } : BaselineFile).Laid (f.interval d.restartInterval) H V codes :=
    laid_with hv k5 k0
  obtain ⟨us, hu⟩ := file_upsamples hv hr
  have hf : chooseColorConvert (fileFrame f H V).components.length d2.colorTransform = .ok .ycbcr := by
    rw [show (fileFrame f H V).components.length = 3 by simp [fileFrame, h3]]
    show (if d2.colorTransform = some .unknown then _ else _) = _
    rw [if_neg (fun h => hct (k4 ▸ transform_unknown.1 h))]
  obtain ⟨image, eu, hl⟩ := C32_no_panic_partial cfg d2 (fileFrame f H V) hdec2 hv.x.1 .ycbcr hf (by decide) us hu
    H V ((Largest.map (f := Component.h)).2 hv.hmax) ((Largest.map (f := Component.v)).2 hv.vmax) (by
      intro c hc
      obtain ⟨k, hk, rfl⟩ := List.mem_map.1 hc
      exact (hr k hk).2.2.1)
  refine ⟨Z, image, d2, k1 _ eu, by rw [hl]; simp [fileFrame, h3], hvZ, k5, ?_, ?_⟩
  · intro i ms z data h1 h2
    refine ⟨fun e => hbad ⟨i, ms, data, h1, h2, e⟩, ?_⟩
    intro rest e
    rw [k6 i (fun hb => hb ms data h1 h2 z rest e)]
    show Y[i]? = _
    rw [hYget, h1, h2]
    simp only [Option.bind_some, Option.map_some]
    unfold readOr
    rw [e]
  · intro hin y x hy hx
    exact pixels_of_planes (f := { f with intervals := Z }) h3 hvZ hr (givenBy_exactly hin) hdec2 (by rw [k4]; exact hct) k2 k7 eu hy hx

/-- **C71** (data that reads as MCUs). If every piece of data reads as MCUs, the file decodes to the image of C45 for
these, and only for these. -/
theorem C71_read (cfg : Cfg) (f : BaselineFile) (H V : Nat) (codes : List (Code × Code)) (d : Decoder)
    (hd : UsedDecoder d) (hh : Holds cfg d f.earlier) (h3 : f.comps.length = 3) (hct : f.transform d.transform ≠ some 0)
    (hv : f.Laid (f.interval d.restartInterval) H V codes) (hr : f.Renderable H V)
    (k : Nat) (chunks : List (List UInt8)) (hx : Chunks (List.replicate k 0xFF ++ markerBytes .EOI) 0 chunks f.data)
    (Z : List (List Mcu)) (hl : Z.map List.length = f.intervals.map List.length)
    (hZ : List.Forall₂ (ReadsAs codes (f.comps.map fun c => c.h * c.v)) Z chunks) :
    ({ f with intervals := Z } : BaselineFile).Valid (f.interval d.restartInterval) H V codes ∧
    ∃ image d', d.decode cfg f.bytes = .ok image d' ∧ image.length = f.x * f.y * 3 := by
  have hb : ∀ m ∈ Z.flatten, m.map List.length = f.comps.map fun c => c.h * c.v := by
    intro m hm
    obtain ⟨ms, hms, hm⟩ := List.mem_flatten.1 hm
    obtain ⟨i, hi⟩ := List.mem_iff_getElem.1 hms
    obtain ⟨hi, e⟩ := hi
    obtain ⟨rest, h⟩ := (List.forall₂_iff_get.1 hZ).2 i hi (by rw [← hZ.length_eq]; exact hi)
    have := readInterval_value (laid_length hv) h
    refine this.2.1 m ?_
    simpa [e] using hm
  have hvZ := laid_with hv hl hb
  have hval := (C71_reads_iff { f with intervals := Z } _ H V codes hvZ).2 ⟨k, chunks, hx, hZ⟩
  exact ⟨hval, C45_decodes cfg { f with intervals := Z } H V codes d hd hh h3 hct hval hr⟩

/-! ## What is accepted although it does not read as MCUs -/

deriving instance DecidableEq for BlockData

/-- Code words `0` and `10`: categories 0 and 5. -/
def readDcCode : Code := ⟨[1, 1, 0, 0, 0, 0, 0, 0, 0, 0, 0, 0, 0, 0, 0, 0], [0, 5]⟩

/-- Code words `0` and `10` for a list of two AC symbols. -/
def readAcCode (values : List UInt8) : Code := ⟨[1, 1, 0, 0, 0, 0, 0, 0, 0, 0, 0, 0, 0, 0, 0, 0], values⟩

/-- A block of zeros. -/
def zeroMcu : Mcu := List.replicate 3 [⟨0, List.replicate 63 0⟩]

/-- A picture of one MCU with three components, and these data. -/
def readFile (values data : List UInt8) : BaselineFile where
  before := [.dqt [⟨false, 0, List.replicate 64 1⟩]]
  sof := 0
  precision := 8
  y := 8
  x := 8
  comps := [⟨⟨1, 1, 1, 0⟩, 0, 0⟩, ⟨⟨2, 1, 1, 0⟩, 0, 0⟩, ⟨⟨3, 1, 1, 0⟩, 0, 0⟩]
  after := [.dht [⟨false, 0, readDcCode.counts, readDcCode.values⟩,
    ⟨true, 0, (readAcCode values).counts, (readAcCode values).values⟩]]
  intervals := [[zeroMcu]]
  data := stuff data ++ markerBytes .EOI

theorem readFile_laid {values : List UInt8} (hvs : values.length = 2) (data : List UInt8) :
    (readFile values data).Laid 0 1 1 (List.replicate 3 (readDcCode, readAcCode values)) := by
  have hc : ∀ c ∈ (readFile values data).comps, c.h = 1 ∧ c.v = 1 ∧ c.tq = 0 := by
    show ∀ c ∈ [(⟨⟨1, 1, 1, 0⟩, 0, 0⟩ : FileComponent), ⟨⟨2, 1, 1, 0⟩, 0, 0⟩, ⟨⟨3, 1, 1, 0⟩, 0, 0⟩], _
    decide
  refine ⟨?_, Nat.zero_le _, by show (1 : Nat) ≤ 8 ∧ (8 : Nat) < 2 ^ 16; decide, by show (8 : Nat) < 2 ^ 16; decide,
    by show (1 : Nat) ≤ 3 ∧ (3 : Nat) ≤ 4; decide,
    by show ([1, 2, 3] : List UInt8).Nodup; decide, ?_, ?_, ?_, by show (3 : Nat) ≤ 10; decide,
    fun _ => ⟨rfl, rfl⟩, ?_, ?_, by show (1 : Nat) = ceilDiv 8 (8 * 1) * ceilDiv 8 (8 * 1); decide, ?_, ?_⟩
  · intro s hs
    simp only [readFile, BaselineFile.tables, BaselineFile.segments, List.cons_append, List.nil_append, List.mem_cons,
      List.not_mem_nil, or_false] at hs
    rcases hs with rfl | rfl
    · refine ⟨by decide, ?_⟩
      intro t ht
      rw [List.mem_singleton.1 ht]
      exact ⟨by decide, by decide, by decide⟩
    · obtain ⟨a, b, rfl⟩ := List.length_eq_two.1 hvs
      refine ⟨by show (38 : Nat) + 2 < 65536; decide, ?_⟩
      intro t ht
      simp only [List.mem_cons, List.not_mem_nil, or_false] at ht
      rcases ht with rfl | rfl
      · exact ⟨⟨by decide, by decide, by decide⟩, by decide, by decide, by unfold KraftOk; decide⟩
      · exact ⟨⟨Nat.zero_le _, rfl, rfl⟩, by show (1 : Nat) ≤ 2; decide, by show (2 : Nat) ≤ 256; decide,
          by unfold KraftOk; show kraft (codeSizes readDcCode.counts) ≤ 2 ^ 16; decide⟩
  · intro c h
    obtain ⟨h1, h2, -⟩ := hc c h
    omega
  · exact ⟨fun c h => (hc c h).1.le, _, .head _, rfl⟩
  · exact ⟨fun c h => (hc c h).2.1.le, _, .head _, rfl⟩
  · show ∀ c ∈ [(⟨⟨1, 1, 1, 0⟩, 0, 0⟩ : FileComponent), ⟨⟨2, 1, 1, 0⟩, 0, 0⟩, ⟨⟨3, 1, 1, 0⟩, 0, 0⟩], _
    intro c h
    simp only [List.mem_cons, List.not_mem_nil, or_false] at h
    rcases h with rfl | rfl | rfl <;> exact ⟨List.replicate 64 1, rfl⟩
  · exact .cons ⟨rfl, rfl⟩ (.cons ⟨rfl, rfl⟩ (.cons ⟨rfl, rfl⟩ .nil))
  · intro m hm
    have : m = zeroMcu := by simpa [readFile] using hm
    rw [this]; rfl
  · unfold IntervalsOk
    rw [if_pos rfl]
    rfl

theorem readFile_renderable (values data : List UInt8) : (readFile values data).Renderable 1 1 := by
  have h : (readFile [] []).Renderable 1 1 := by
    unfold BaselineFile.Renderable
    decide
  exact h

theorem readFile_chunks (values data : List UInt8) :
    Chunks (List.replicate 0 0xFF ++ markerBytes .EOI) 0 [data] (readFile values data).data := .last

set_option maxRecDepth 100000 in
/-- **C71** (violated: symbols of progressive coding). A sequential scan whose AC symbols are EOB1 (0x10), which the
standard reserves there, does not read as MCUs, and decodes. -/
theorem C71_reserved_violated : ∃ f : BaselineFile,
    f.Laid 0 1 1 (List.replicate 3 (readDcCode, readAcCode [0x10, 0x00])) ∧ f.Renderable 1 1 ∧
    ∃ chunk, Chunks (List.replicate 0 0xFF ++ markerBytes .EOI) 0 [chunk] f.data ∧
    readInterval (List.replicate 3 (readDcCode, readAcCode [0x10, 0x00])) (f.comps.map fun c => c.h * c.v) 1 chunk = .reserved ∧
    ∃ image d, Decoder.default.decode ⟨true, false⟩ f.bytes = .ok image d ∧ image = List.replicate 192 128 := by
  refine ⟨readFile [0x10, 0x00] [0, 0], readFile_laid rfl _, readFile_renderable _ _, [0, 0], readFile_chunks _ _,
    by decide +kernel, ?_⟩
  have h : (match Decoder.default.decode ⟨true, false⟩ (readFile [0x10, 0x00] [0, 0]).bytes with
    | .ok i _ => some i | .fail _ _ => none) = some (List.replicate 192 128) := by decide +kernel
  cases e : Decoder.default.decode ⟨true, false⟩ (readFile [0x10, 0x00] [0, 0]).bytes with
  | fail f d => rw [e] at h; simp at h
  | ok i d => rw [e] at h; exact ⟨i, d, rfl, Option.some.inj h⟩

set_option maxRecDepth 100000 in
/-- **C71** (violated: data that ends early). A scan without any entropy coded data does not read as MCUs, and decodes:
behind the end of the data the decoder goes on with zero bits. -/
theorem C71_short_violated : ∃ f : BaselineFile,
    f.Laid 0 1 1 (List.replicate 3 (readDcCode, readAcCode [0x00, 0x10])) ∧ f.Renderable 1 1 ∧
    ∃ chunk, Chunks (List.replicate 0 0xFF ++ markerBytes .EOI) 0 [chunk] f.data ∧
    readInterval (List.replicate 3 (readDcCode, readAcCode [0x00, 0x10])) (f.comps.map fun c => c.h * c.v) 1 chunk = .short ∧
    ∃ image d, Decoder.default.decode ⟨true, false⟩ f.bytes = .ok image d ∧ image = List.replicate 192 128 := by
  refine ⟨readFile [0x00, 0x10] [], readFile_laid rfl _, readFile_renderable _ _, [], readFile_chunks _ _,
    by decide +kernel, ?_⟩
  have h : (match Decoder.default.decode ⟨true, false⟩ (readFile [0x00, 0x10] []).bytes with
    | .ok i _ => some i | .fail _ _ => none) = some (List.replicate 192 128) := by decide +kernel
  cases e : Decoder.default.decode ⟨true, false⟩ (readFile [0x00, 0x10] []).bytes with
  | fail f d => rw [e] at h; simp at h
  | ok i d => rw [e] at h; exact ⟨i, d, rfl, Option.some.inj h⟩

/-- `11…` is no code word: the file is refused. -/
example : ∃ g d2, Decoder.default.decode ⟨true, false⟩ (readFile [0x00, 0x10] [0x3F, 0xFF, 0xFF]).bytes = .fail g d2 ∧
    ∀ p, g ≠ .panic p :=
  C71_refused ⟨true, false⟩ (readFile [0x00, 0x10] [0x3F, 0xFF, 0xFF]) 1 1 _ Decoder.default .new (.nothing _)
    (readFile_laid rfl _) 0 _ (readFile_chunks _ _) rfl 0 _ _ rfl rfl (by decide +kernel)

/-- The code words `10 00001 0`, `0 0`, `0 0` (a difference of category 5), and four bits of padding. -/
example : ({ readFile [0x00, 0x10] [0x82, 0x0F] with
      intervals := [[[[⟨-30, List.replicate 63 0⟩], [⟨0, List.replicate 63 0⟩], [⟨0, List.replicate 63 0⟩]]]] } :
        BaselineFile).Valid 0 1 1 (List.replicate 3 (readDcCode, readAcCode [0x00, 0x10])) ∧
    ∃ image d', Decoder.default.decode ⟨true, false⟩ (readFile [0x00, 0x10] [0x82, 0x0F]).bytes = .ok image d' ∧
      image.length = 192 :=
  C71_read ⟨true, false⟩ (readFile [0x00, 0x10] [0x82, 0x0F]) 1 1 _ Decoder.default .new (.nothing _) rfl
    (by decide) (readFile_laid rfl _) (readFile_renderable _ _) 0 _ (readFile_chunks _ _) _ rfl
    (.cons ⟨[true, true, true, true], by decide +kernel⟩ .nil)

/-- The example file of C45 is an encoding of no other MCUs. -/
example (Z : List (List Mcu)) (h : ({ exampleFile with intervals := Z } : BaselineFile).Valid 1 1 1
    (List.replicate 3 (exampleDc, exampleAc))) : Z = exampleFile.intervals :=
  C71_unique exampleFile 1 1 1 _ Z exampleFile_valid h

/-- Whatever the data are, decoding does not panic. -/
example (data : List UInt8) (p : PanicSite) (d2 : Decoder) :
    Decoder.default.decode ⟨true, false⟩ (readFile [0x00, 0x10] data).bytes ≠ .fail (.panic p) d2 := by
  rcases C71_outcome_partial ⟨true, false⟩ (readFile [0x00, 0x10] data) 1 1 _ Decoder.default .new (.nothing _) rfl
    (by show (none : Option Nat) ≠ some 0; decide) (readFile_laid rfl _) (readFile_renderable _ _) 0 _ (readFile_chunks _ _) rfl with
    ⟨g, d3, h, hp⟩ | ⟨Z, image, d3, h, -⟩
  · rw [h]
    intro e
    simp only [Out.fail.injEq] at e
    exact hp p e.1
  · rw [h]; simp

end Jpeg
