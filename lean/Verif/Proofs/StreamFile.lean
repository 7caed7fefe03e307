import Verif.Proofs.StreamTables
import Verif.Proofs.BaselineRun
/-!
# The decoder between the segments of a baseline file
-/

namespace Jpeg
open HasInput HasLen Spec

/-- No restart interval, and no end of band runs in the AC tables. -/
structure Decoder.Plain (d : Decoder) : Prop where
  interval : d.restartInterval = 0
  tables : ∀ (i : Nat) (t : AcTable), d.acTables[i]? = some (some t) → ¬ HasEobRun t.table.values

theorem Decoder.plain_default : Decoder.default.Plain := by
  refine ⟨rfl, ?_⟩
  intro i t h
  have h : [none, none, none, none][i]? = some (some t) := h
  match i, h with
  | 0, h | 1, h | 2, h | 3, h => cases h
  | _ + 4, h => cases h

theorem AcTable.new_values {cfg : Cfg} {counts values : List UInt8} {t : AcTable}
    (h : AcTable.new cfg counts values = .ok t) (hv : ¬ HasEobRun values) : ¬ HasEobRun t.table.values := by
  rcases AcTable.new_cases cfg counts values with ⟨f, -, h'⟩ | ⟨b, hb, h'⟩
  · rw [h'] at h; cases h
  rw [h'] at h
  cases h
  have : b.values = values ++ List.replicate (256 - values.length) 0 := by
    unfold BaseTable.new at hb
    split at hb
    · cases hb
    · split at hb
      · cases hb
      · split at hb
        · cases hb
        · split at hb
          · cases hb
          · simp only at hb
            split at hb
            · cases hb
            · split at hb
              · cases hb
              · split at hb
                · cases hb
                · cases hb; rfl
  rintro ⟨v, hm, h1, h2, h3⟩
  simp only [this] at hm
  rcases List.mem_append.1 hm with hm | hm
  · exact hv ⟨v, hm, h1, h2, h3⟩
  · rw [(List.mem_replicate.1 hm).2] at h2
    simp at h2

theorem TablesAfter.plain {cfg : Cfg} {l : List TableSegment} {d d' : Decoder} (h : TablesAfter cfg l d d')
    (hl : PlainTables l) (h4 : d.acTables.length = 4) (hd : d.Plain) : d'.Plain := by
  constructor
  · rw [h.interval]
    cases e : (restartDefs l).getLast? with
    | none => exact hd.interval
    | some r => exact hl.interval r (List.mem_of_getLast? e)
  · intro i t ht
    have hi : i < 4 := by
      rw [← h4, ← h.ac.1]
      exact (List.getElem?_eq_some_iff.1 ht).1
    have := h.ac.2 i hi
    generalize e : lastWith (fun t : HuffmanDef => t.ac == true && t.dest == i) (huffmanDefs l) = o at this
    cases o with
    | none => simp only at this; exact hd.tables i t (by rw [← this]; exact ht)
    | some q =>
      obtain ⟨tab, h1, h2⟩ := this
      rw [ht] at h1
      cases h1
      obtain ⟨h3, h5⟩ := lastWith_some e
      simp only [beq_true, Bool.and_eq_true] at h5
      exact AcTable.new_values h2 (hl.tables q h3 h5.1)

theorem PlainTables.append {a b : List TableSegment} (h : PlainTables (a ++ b)) : PlainTables a ∧ PlainTables b := by
  refine ⟨⟨fun r hr => h.interval r ?_, fun t ht => h.tables t ?_⟩,
    ⟨fun r hr => h.interval r ?_, fun t ht => h.tables t ?_⟩⟩
  · rw [restartDefs, List.flatMap_append]; exact List.mem_append_left _ hr
  · rw [huffmanDefs, List.flatMap_append]; exact List.mem_append_left _ ht
  · rw [restartDefs, List.flatMap_append]; exact List.mem_append_right _ hr
  · rw [huffmanDefs, List.flatMap_append]; exact List.mem_append_right _ ht

/-- Where the same marker is found, the same follows. -/
theorem Visits.sameMarker {cfg : Cfg} {d : Decoder} {l1 l2 : List UInt8} {bits count : Nat} {u : St}
    (h : Visits cfg ⟨d, ⟨l1, bits, count⟩⟩ u) (e : marker l1 = marker l2) :
    u = ⟨d, ⟨l1, bits, count⟩⟩ ∨ Visits cfg ⟨d, ⟨l2, bits, count⟩⟩ u := by
  cases h with
  | refl => exact .inl rfl
  | step hm hne hd h => exact .inr (.step (s := ⟨d, ⟨l2, bits, count⟩⟩) (e.symm.trans hm) hne hd h)

/-- Along table segments. -/
theorem visits_tables {cfg : Cfg} {u : St} {rest : List UInt8} (hrest : MarkerFirst rest) :
    ∀ (l : List TableSegment),
    (∀ s ∈ l, s.Ok) → PlainTables l → ∀ d, DecInv d → d.Plain →
    Visits cfg ⟨d, ⟨l.flatMap TableSegment.bytes ++ rest, 0, 0⟩⟩ u →
    u.dec.Plain ∨ ∃ d', TablesAfter cfg l d d' ∧ DecInv d' ∧ d'.Plain ∧ Visits cfg ⟨d', ⟨rest, 0, 0⟩⟩ u := by
  intro l
  induction l with
  | nil => intro _ _ d hd hp h; exact .inr ⟨d, .refl cfg d, hd, hp, h⟩
  | cons s l ih =>
    intro hok hl d hd hp h
    obtain ⟨h2, h3⟩ := TableSegment.has s (hok s (by simp))
    obtain ⟨p1, p2⟩ := PlainTables.append (a := [s]) (b := l) hl
    have hl' : ∀ t ∈ l, t.Ok := fun t ht => hok t (by simp [ht])
    by_cases hf : ∃ k, s = .fill k
    · obtain ⟨k, rfl⟩ := hf
      rw [List.flatMap_cons, List.append_assoc] at h
      rcases h.sameMarker (fill_marker (hrest.tables hl') k) with rfl | h
      · exact .inl hp
      · rcases ih hl' p2 d hd hp h with h | ⟨d2, a, b, c, v⟩
        · exact .inl h
        · exact .inr ⟨d2, .trans (a := [.fill k]) ⟨.refl _, .refl _ _ _, .refl _ _ _, rfl, rfl, rfl⟩ a, b, c, v⟩
    have hnf : ∀ k, s ≠ .fill k := fun k e => hf ⟨k, e⟩
    obtain ⟨d1, ht, e⟩ := tableSegment_ok (cfg := cfg) (hok s (by simp)) hnf hd
      (l.flatMap TableSegment.bytes ++ rest) 0 0
    have hs := doSegment_safe (cfg := cfg) h2
      (s := ⟨d, ⟨segmentOf s.content ++ (l.flatMap TableSegment.bytes ++ rest), 0, 0⟩⟩) hd (wf_zero _)
    rw [e] at hs
    have hp1 := ht.plain p1 hd.ac4 hp
    rw [List.flatMap_cons, TableSegment.bytes_eq hnf, markerSegment, List.append_assoc, List.append_assoc] at h
    rcases h.cases_step (marker_bytes' h2 _) (fun _ => e) with rfl | h
    · exact .inl hp
    · rcases h.sameMarker (unread_marker (hok s (by simp)) (hrest.tables hl')) with rfl | h
      · exact .inl hp1
      · rcases ih hl' p2 d1 hs.1 hp1 h with h | ⟨d2, a, b, c, v⟩
        · exact .inl h
        · exact .inr ⟨d2, ht.trans a, b, c, v⟩

/-- Up to the scan of a file. -/
theorem visits_scan {cfg : Cfg} {f : BaselineFile} {H V : Nat} {codes : List (Code × Code)} {d : Decoder}
    (hd : DecInv d) (hh : TablesHeld cfg f.earlier d)
    (hv : f.Laid (f.interval d.restartInterval) H V codes) (hl : PlainTables f.segments)
    (hp : d.Plain) {u : St} (h : Visits cfg ⟨d, Biterator.new f.bytes⟩ u) : u.dec.Plain ∨
      ∃ d3, DecInv d3 ∧ d3.frame = some (fileFrame f H V) ∧ TablesHeld cfg f.tables d3 ∧
        d3.restartInterval = f.interval d.restartInterval ∧ d3.Plain ∧
        Visits cfg ⟨d3, ⟨markerSegment .SOS (scanHeader (f.comps.map fun c => ⟨c.id, c.dc, c.ac⟩) 0 63 0 0) ++ f.data,
          0, 0⟩⟩ u := by
  have hb : ∀ s ∈ f.before, s.Ok := fun s hs => hv.tables s (by simp [BaselineFile.tables, BaselineFile.segments, hs])
  have ha : ∀ s ∈ f.after, s.Ok := fun s hs => hv.tables s (by simp [BaselineFile.tables, BaselineFile.segments, hs])
  obtain ⟨p1, p2⟩ := PlainTables.append (a := f.before) (b := f.after) hl
  have hm : MarkerExists (.SOF f.sof) := by have := hv.sof; show f.sof ≤ 2; omega
  unfold Biterator.new BaselineFile.bytes at h
  rcases h.cases_step (t := ⟨d, ⟨_, 0, 0⟩⟩) (marker_bytes' (m := .SOI) trivial _) (fun _ => rfl) with rfl | h
  · exact .inl hp
  rcases visits_tables (.segment hm _ _) f.before hb p1 d hd hp h with h | ⟨d1, t1, i1, q1, h⟩
  · exact .inl h
  have hsof := sof_file (cfg := cfg) hv d1 (f.after.flatMap TableSegment.bytes ++
        (markerSegment .SOS (scanHeader (f.comps.map fun c => ⟨c.id, c.dc, c.ac⟩) 0 63 0 0) ++ f.data)) 0 0
  have i2 := doSegment_safe (cfg := cfg) hm (s := ⟨d1, ⟨segmentOf (frameHeader f.precision f.y f.x
        (f.comps.map (·.toHeaderComponent))) ++ (f.after.flatMap TableSegment.bytes ++
        (markerSegment .SOS (scanHeader (f.comps.map fun c => ⟨c.id, c.dc, c.ac⟩) 0 63 0 0) ++ f.data)), 0, 0⟩⟩)
        i1 (wf_zero _)
  rw [hsof] at i2
  have i2 : DecInv { d1 with frame := some (fileFrame f H V) } := i2.1
  rw [show ∀ (c rest : List UInt8), markerSegment (.SOF f.sof) c ++ rest =
    markerBytes (.SOF f.sof) ++ (segmentOf c ++ rest) from fun c rest => by rw [markerSegment, List.append_assoc]] at h
  rcases h.cases_step (marker_bytes' hm _) (fun _ => hsof) with rfl | h
  · exact .inl q1
  rcases visits_tables (.segment (m := .SOS) trivial _ _) f.after ha p2 _ i2 ⟨q1.interval, q1.tables⟩ h with h | ⟨d3, t3, i3, q3, h⟩
  · exact .inl h
  have ht : TablesAfter cfg f.segments { d with frame := some (fileFrame f H V) } d3 := t1.setFrame.trans t3
  have hh3 : TablesHeld cfg f.tables d3 :=
    (hh.same (d' := { d with frame := some (fileFrame f H V) }) rfl rfl rfl).after ht
  have hf3 : d3.frame = some (fileFrame f H V) := by rw [t3.rest]
  exact .inr ⟨d3, i3, hf3, hh3, by rw [ht.interval]; rfl, q3, h⟩

/-- Along a whole file. -/
theorem visits_file {cfg : Cfg} {f : BaselineFile} {H V : Nat} {codes : List (Code × Code)} {d : Decoder}
    (hd : DecInv d) (hh : TablesHeld cfg f.earlier d)
    (hv : f.Valid (f.interval d.restartInterval) H V codes) (hl : PlainTables f.segments)
    (hp : d.Plain) {u : St} (h : Visits cfg ⟨d, Biterator.new f.bytes⟩ u) : u.dec.Plain := by
  rcases visits_scan hd hh hv.toLaid hl hp h with h | ⟨d3, i3, hf3, hh3, hr3, q3, h⟩
  · exact h
  obtain ⟨d4, bi, k, e4, h1, h2, h3⟩ := sos_wellformed (cfg := cfg) hv i3 hf3 hh3 hr3
  rw [markerSegment, List.append_assoc] at h
  rcases h.cases_step (marker_bytes' (m := .SOS) trivial _) (fun _ => e4) with rfl | h
  · exact q3
  · have : u = ⟨d4, bi⟩ := h.eoi (rest := []) (by
      simp only
      rw [marker_scanTail h1]
      simpa using marker_bytes (m := .EOI) trivial k [])
    rw [this]
    refine ⟨?_, ?_⟩
    · show d4.restartInterval = 0
      rw [h3]; exact q3.interval
    · intro i t hi
      have hi : d4.acTables[i]? = some (some t) := hi
      rw [h3] at hi
      exact q3.tables i t hi

end Jpeg
