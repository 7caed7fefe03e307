import Verif.Props.Framed
import Verif.Props.Read
import Verif.Props.Start
/-!
# Files that can be delivered in any pieces (C83)

C43, C70 and C80 have two exceptions: a wait in front of a restart marker, and a piece that ends in an end of band
run. Here: a condition on the bytes that rules out the first, and a check that rules out both, applied to the
images of the repository's tests (tests/test.rs), whose assertions about random read patterns become statements
about all of them.
-/

namespace Jpeg
open Spec Sample

section
variable {cfg : Cfg}

theorem sos_interval {s t : St} (h : sos cfg s = .ok () t) : t.dec.restartInterval = s.dec.restartInterval := by
  rw [sos_eq] at h
  cases hs : sosStart cfg s with
  | fail f u => rw [hs] at h; cases h
  | ok pd u =>
    rw [hs, Out.bind_ok] at h
    obtain ⟨-, frame, scan, hf, hsc, -, hi, -⟩ := sosStart_facts hs
    rw [sosBody_rest hf hsc] at h
    unfold scanRest at h
    have ho := mcuLoop_only cfg pd (mcuList frame.mcuSize) u
    cases h1 : mcuLoop cfg pd (mcuList frame.mcuSize) u with
    | fail f s2 => rw [h1] at h; cases h
    | ok v s2 =>
      rw [h1] at h ho
      rw [Out.bind_ok] at h
      have ho : OnlyScan u.dec s2.dec := ho
      rw [scanEnd_some (ho.scan.trans hsc)] at h
      split at h
      · cases h
      · cases h
        exact ho.interval.trans hi

theorem defineHuffman_interval (t : DHT) (d : Decoder) :
    (defineHuffman cfg t d).state.restartInterval = d.restartInterval := by
  unfold defineHuffman
  split
  · split <;> rfl
  · split <;> rfl

theorem dhtGo_interval : ∀ (fuel : Nat) (l : List UInt8) (d : Decoder),
    (dhtGo cfg fuel l d).state.restartInterval = d.restartInterval := by
  intro fuel
  induction fuel with
  | zero => intro l d; rfl
  | succ fuel ih =>
    intro l d
    rw [dhtGo]
    split
    · rfl
    · split
      · rfl
      · rename_i t l' _
        have hs := defineHuffman_interval (cfg := cfg) t d
        cases h : defineHuffman cfg t d with
        | fail f d1 => rw [h] at hs; exact hs
        | ok u d1 => rw [h] at hs; exact (ih l' d1).trans hs

theorem dqtGo_interval : ∀ (fuel : Nat) (l : List UInt8) (d : Decoder),
    (dqtGo fuel l d).state.restartInterval = d.restartInterval := by
  intro fuel
  induction fuel with
  | zero => intro l d; rfl
  | succ fuel ih =>
    intro l d
    rw [dqtGo]
    split
    · rfl
    · split
      · rfl
      · split
        · rfl
        · rw [ih]

theorem doSegment_interval {m : Marker} (hm : m ≠ .DRI) {s t : St} (h : doSegment cfg m s = .ok () t) :
    t.dec.restartInterval = s.dec.restartInterval := by
  have hseg : ∀ body : List UInt8 → Decoder → Out Decoder Unit,
      (∀ l d, (body l d).state.restartInterval = d.restartInterval) →
      (segment cfg body s).state.dec.restartInterval = s.dec.restartInterval := by
    intro body hb
    unfold segment
    split
    · rfl
    · rename_i p rest _
      have := hb p s.dec
      cases h : body p s.dec with
      | ok u d => rw [h] at this; exact this
      | fail f d => rw [h] at this; exact this
  by_cases hsos : m = .SOS
  · subst hsos; exact sos_interval h
  · have : (doSegment cfg m s).state.dec.restartInterval = s.dec.restartInterval := by
      unfold doSegment
      cases m with
      | SOI | RST _ | COM | EOI => rfl
      | SOF i => exact hseg _ fun l d => by unfold sofBody; split <;> rfl
      | DHT => exact hseg _ fun l d => dhtGo_interval _ l d
      | DQT => exact hseg _ fun l d => dqtGo_interval _ l d
      | DRI => exact absurd rfl hm
      | SOS => exact absurd rfl hsos
      | APP n =>
        simp only
        split
        · exact hseg _ fun l d => by unfold adobeBody; split <;> rfl
        · exact hseg _ fun l d => rfl
    rw [h] at this
    exact this

/-- Without the bytes of a DRI marker anywhere in the data the restart interval stays. -/
theorem visits_interval {s u : St} (h : Visits cfg s u) : DecInv s.dec → s.bi.WF →
    ¬ ([0xFF, 0xDD] : List UInt8) <:+: s.bi.input → u.dec.restartInterval = s.dec.restartInterval := by
  induction h with
  | refl s => intro _ _ _; rfl
  | @step s t u m rest hm hne hdo _ ih =>
    intro hd hwf hno
    obtain ⟨pre, hpre⟩ := marker_split hm
    have hs := doSegment_safe (cfg := cfg) (C36_found _ _ _ hm).1 (s := s.setInput rest) hd hwf
    rw [hdo] at hs
    obtain ⟨gap, hgap⟩ := hs.suffix
    simp only [Out.state, setInput_bi] at hgap
    have hdri : m ≠ .DRI := by
      rintro rfl
      exact hno ⟨pre, rest, hpre.symm⟩
    rw [ih hs.inv hs.wf fun ⟨a, b, hab⟩ => hno ⟨pre ++ markerBytes m ++ gap ++ a, b, by
      rw [hpre, ← hgap, ← hab]; simp only [List.append_assoc]⟩]
    exact doSegment_interval (s := s.setInput rest) hdri hdo

end

/-! ## Data without the bytes of a DRI marker -/

/-- No decoder seen between the segments of the data has an AC table with end of band runs (as only progressive
files use). -/
def Spec.NoEobRuns (cfg : Cfg) (file : List UInt8) : Prop :=
  ∀ u, Between cfg ⟨Decoder.default, Biterator.new file⟩ u → ∀ (i : Nat) (t : AcTable), u.acTables[i]? = some (some t) →
    ¬ HasEobRun t.table.values

/-- **C83** (asynchronous). A file that `decode` accepts, in which the two bytes of a DRI marker do not occur and
whose tables have no end of band runs, may be delivered in any pieces, with any waiting in between: the stream has
the image `decode` returns, and ends. -/
theorem C83_async (cfg : Cfg) (file image : List UInt8) (h : decode cfg file = .ok image)
    (hno : ¬ ([0xFF, 0xDD] : List UInt8) <:+: file) (he : NoEobRuns cfg file)
    (reads : List PollRead) (hs : Steady reads) (hf : (piecesOf reads).flatten = file) :
    Codec.new.collect cfg reads = ([image], .finished) := by
  obtain ⟨d', h⟩ : ∃ d', Decoder.default.decode cfg file = .ok image d' := by
    unfold decode at h
    split at h
    · rename_i e; cases h; exact ⟨_, e⟩
    · cases h
  rcases C80_one_image_partial cfg Decoder.default .new file image d' h reads hs hf with h | ⟨-, u, h1, h2⟩ |
    ⟨-, u, h1, i, t, h2, h3⟩
  · exact h
  · obtain ⟨v, hv, rfl⟩ := h1
    have := visits_interval hv DecInv.default (new_wf file) hno
    exact absurd (this.trans rfl) (by show ¬ v.dec.restartInterval = 0; omega)
  · exact absurd h3 (he u h1 i t h2)

/-- **C83** (synchronous). The same for a `ReadDecoder`, whatever the sizes of the reads and however often they
fail in between; nothing is left behind. -/
theorem C83_sync (cfg : Cfg) (file image : List UInt8) (h : decode cfg file = .ok image)
    (hno : ¬ ([0xFF, 0xDD] : List UInt8) <:+: file) (he : NoEobRuns cfg file)
    (reads : List ReadResult) (hne : NoEmptyRead reads) (hf : dataOf reads = file) (n : Nat) (hn : errorsOf reads ≤ n) :
    ∃ r rest, ReadDecoder.new.retry cfg n reads = (.image (.ok image) r, rest) ∧
      r.codec.st.bi.input = [] ∧ dataOf rest = [] := by
  obtain ⟨d', h⟩ : ∃ d', Decoder.default.decode cfg file = .ok image d' := by
    unfold decode at h
    split at h
    · rename_i e; cases h; exact ⟨_, e⟩
    · cases h
  rcases C70_image_partial cfg Decoder.default .new file [] reads hne (by rw [hf, List.append_nil]) image d' h n hn with
    ⟨r, rest, h1, -, h3⟩ | ⟨-, u, h1, h2⟩ | ⟨-, u, h1, i, t, h2, h3⟩
  · rw [List.append_eq_nil_iff] at h3
    exact ⟨r, rest, h1, h3.1, h3.2⟩
  · rw [List.append_nil] at h1
    obtain ⟨v, hv, rfl⟩ := h1
    have := visits_interval hv DecInv.default (new_wf file) hno
    exact absurd (this.trans rfl) (by show ¬ v.dec.restartInterval = 0; omega)
  · rw [List.append_nil] at h1
    exact absurd h3 (he u h1 i t h2)

/-! ## Any number of files -/

theorem segmentLoop_interval {cfg : Cfg} : ∀ (fuel : Nat) (s t : St), DecInv s.dec → s.bi.WF →
    ¬ ([0xFF, 0xDD] : List UInt8) <:+: s.bi.input → segmentLoop cfg fuel s = .ok () t →
    t.dec.restartInterval = s.dec.restartInterval := by
  intro fuel
  induction fuel with
  | zero => intro s t _ _ _ h; rw [segmentLoop] at h; cases h
  | succ fuel ih =>
    intro s t hd hwf hno h
    rw [segmentLoop] at h
    cases hm : marker s.bi.input with
    | error f => rw [hm] at h; cases h
    | ok p =>
      obtain ⟨m, rest⟩ := p
      rw [hm] at h
      simp only at h
      by_cases he : m = .EOI
      · rw [if_pos he] at h; cases h; rfl
      · rw [if_neg he] at h
        obtain ⟨pre, hpre⟩ := marker_split hm
        have hs := doSegment_safe (cfg := cfg) (C36_found _ _ _ hm).1 (s := s.setInput rest) hd hwf
        cases hdo : doSegment cfg m (s.setInput rest) with
        | fail f u => rw [hdo] at h; cases h
        | ok v u =>
          rw [hdo] at hs h
          rw [Out.bind_ok] at h
          obtain ⟨gap, hgap⟩ := hs.suffix
          simp only [Out.state, setInput_bi] at hgap
          have hdri : m ≠ .DRI := by
            rintro rfl
            exact hno ⟨pre, rest, hpre.symm⟩
          rw [ih u t hs.inv hs.wf (fun ⟨a, b, hab⟩ => hno ⟨pre ++ markerBytes m ++ gap ++ a, b, by
            rw [hpre, ← hgap, ← hab]; simp only [List.append_assoc]⟩) h]
          exact doSegment_interval (s := s.setInput rest) hdri hdo

/-- No end of band runs in the tables the parser has between the segments, when it is run over one file after the
other. -/
def Spec.NoEobRunsIn (cfg : Cfg) : St → List (List UInt8) → Prop
  | _, [] => True
  | s, file :: files =>
    (∀ u, Between cfg ⟨s.dec, { s.bi with input := (file :: files).flatten }⟩ u →
      ∀ (i : Nat) (t : AcTable), u.acTables[i]? = some (some t) → ¬ HasEobRun t.table.values) ∧
    ∀ image t, decodeParser cfg ⟨s.dec, { s.bi with input := file }⟩ = .ok (.ok image) t → Spec.NoEobRunsIn cfg t files

theorem goOn_plain {cfg : Cfg} : ∀ (files images : List (List UInt8)) (c : Codec) (reads : List PollRead), c.Idle →
    Steady reads → c.st.bi.input ++ (piecesOf reads).flatten = files.flatten →
    Pictures cfg (c.start []) files images → c.st.dec.restartInterval = 0 →
    ¬ ([0xFF, 0xDD] : List UInt8) <:+: files.flatten → NoEobRunsIn cfg (c.start []) files →
    c.goOn cfg reads = (images, .finished) := by
  intro files
  induction files with
  | nil =>
    intro images c reads hc hs hf h _ _ _
    cases h
    rw [List.flatten_nil, List.append_eq_nil_iff] at hf
    exact goOn_nothing hf.1 hs hf.2
  | cons file files ih =>
    intro images c reads hc hs hf h h0 hno hr
    cases h with
    | @cons _ t _ _ image images h1 h2 h3 =>
    rw [List.flatten_cons] at hf
    have hwf : (c.start (file ++ files.flatten)).bi.WF := hc.wf
    rcases C44_next_image_partial cfg c hc file files.flatten ([] :: piecesOf reads) (by simp)
      (by rw [List.flatten_cons, List.nil_append, hf]) image t h1 h2 with
      ⟨c', rest, e1, e2, e3, e4⟩ | ⟨-, u, ⟨v, hv, rfl⟩, h4⟩ | ⟨-, u, h4, i, t', h5, h6⟩
    · have key := goOn_feed (cfg := cfg) reads c (by unfold StageInv; rw [hc.stage]; exact ⟨hc.inv, hc.wf⟩) hs
      rw [e1] at key
      obtain ⟨reads', g1, g2, g3⟩ := key
      have hl : segmentLoop cfg (file.length + 1) (c.start file) = .ok () t := by
        unfold decodeParser at h1
        cases hl : segmentLoop cfg (file.length + 1) (c.start file) with
        | fail f t => erw [hl] at h1; cases h1
        | ok u t' =>
          erw [hl, Out.bind_ok] at h1
          cases hu : upsample cfg t'.dec with
          | error f => rw [hu] at h1; cases f <;> cases h1
          | ok r => rw [hu] at h1; cases h1; rfl
      have h7 : c'.st.dec.restartInterval = 0 := by
        have : c'.st.dec = t.dec := by rw [← e3]; rfl
        rw [this, segmentLoop_interval _ (c.start file) _ hc.inv hc.wf (fun ⟨a, b, (hab : _ = file)⟩ =>
          hno ⟨a, b ++ files.flatten, by rw [List.flatten_cons, ← hab, List.append_assoc _ b]⟩) hl]
        exact h0
      rw [g3, ih images c' reads' e2 g1 (by rw [g2]; exact e4) (by rw [e3]; exact h3) h7
        (fun ⟨a, b, hab⟩ => hno ⟨file ++ a, b, by rw [List.flatten_cons, ← hab]; simp only [List.append_assoc]⟩)
        (by rw [e3]; exact hr.2 image t h1)]
    · have := visits_interval hv hc.inv hwf (by rw [List.flatten_cons] at hno; exact hno)
      exact absurd (this.trans h0) (by omega)
    · exact absurd h6 (hr.1 u (by rw [List.flatten_cons]; exact h4) i t' h5)

/-- **C83** (any number of files). Files without the bytes of a DRI marker and without end of band runs, one after the
other, delivered in any pieces (which need not end where a file ends), with any waiting in between: the items of the
stream are the images of the parser run over one file after the other, and the stream ends. -/
theorem C83_stream (cfg : Cfg) (files images : List (List UInt8))
    (h : Pictures cfg ⟨Decoder.default, Biterator.new []⟩ files images)
    (hno : ¬ ([0xFF, 0xDD] : List UInt8) <:+: files.flatten)
    (he : NoEobRunsIn cfg ⟨Decoder.default, Biterator.new []⟩ files)
    (reads : List PollRead) (hs : Steady reads) (hf : (piecesOf reads).flatten = files.flatten) :
    Codec.new.collect cfg reads = (images, .finished) := by
  have hp : (Codec.ofDecoder Decoder.default).poll cfg = .pending (Codec.ofDecoder Decoder.default) := by
    unfold Codec.poll
    exact if_pos rfl
  have := goOn_plain files images (Codec.ofDecoder Decoder.default) reads (Codec.idle_ofDecoder .new) hs hf h rfl hno he
  rw [goOn_pending hp] at this
  exact this


/-! ## The check -/

/-- No end of band run among the values. -/
def noEobRun (values : List UInt8) : Bool :=
  values.all fun v => !(v.toNat % 16 == 0 && decide (1 ≤ v.toNat / 16) && decide (v.toNat / 16 ≤ 14))

/-- No end of band runs in the AC tables of a decoder. -/
def plainTables (d : Decoder) : Bool :=
  d.acTables.all fun t => match t with | none => true | some t => noEobRun t.table.values

/-- The segments are worked off, looking at the tables in between. -/
def plainRun (cfg : Cfg) : Nat → St → Bool
  | 0, _ => false
  | fuel + 1, s =>
    plainTables s.dec &&
    match marker s.bi.input with
    | .error _ => true
    | .ok (m, rest) =>
      if m = .EOI then true
      else
        match doSegment cfg m (s.setInput rest) with
        | .fail _ _ => true
        | .ok () t => plainRun cfg fuel t

theorem noEobRun_sound {values : List UInt8} (h : noEobRun values = true) : ¬ HasEobRun values := by
  rintro ⟨v, hv, h1, h2, h3⟩
  unfold noEobRun at h
  rw [List.all_eq_true] at h
  have := h v hv
  simp [h1, h2, h3] at this

theorem plainRun_sound {cfg : Cfg} {s u : St} (h : Visits cfg s u) : ∀ fuel, plainRun cfg fuel s = true →
    plainTables u.dec = true := by
  induction h with
  | refl s =>
    intro fuel h
    cases fuel with
    | zero => cases h
    | succ fuel => rw [plainRun, Bool.and_eq_true] at h; exact h.1
  | step hm hne hdo _ ih =>
    intro fuel h
    cases fuel with
    | zero => cases h
    | succ fuel =>
      rw [plainRun, Bool.and_eq_true, hm] at h
      simp only [if_neg hne, hdo] at h
      exact ih fuel h.2

theorem noEobRuns_of_check {cfg : Cfg} {file : List UInt8}
    (h : plainRun cfg (file.length + 1) ⟨Decoder.default, Biterator.new file⟩ = true) : NoEobRuns cfg file := by
  rintro u ⟨v, hv, rfl⟩ i t ht
  have hp := plainRun_sound hv _ h
  unfold plainTables at hp
  rw [List.all_eq_true] at hp
  exact noEobRun_sound (hp _ (List.mem_of_getElem? ht))

/-- The check for several files. -/
def plainRuns (cfg : Cfg) : St → List (List UInt8) → Bool
  | _, [] => true
  | s, file :: files =>
    plainRun cfg ((file :: files).flatten.length + 1) ⟨s.dec, { s.bi with input := (file :: files).flatten }⟩ &&
    match decodeParser cfg ⟨s.dec, { s.bi with input := file }⟩ with
    | .ok (.ok _) t => plainRuns cfg t files
    | _ => false

theorem plainRuns_sound {cfg : Cfg} : ∀ (files : List (List UInt8)) (s : St), plainRuns cfg s files = true →
    NoEobRunsIn cfg s files := by
  intro files
  induction files with
  | nil => intro s _; trivial
  | cons file files ih =>
    intro s h
    rw [plainRuns, Bool.and_eq_true] at h
    refine ⟨?_, ?_⟩
    · rintro u ⟨v, hv, rfl⟩ i t ht
      have hp := plainRun_sound hv _ h.1
      unfold plainTables at hp
      rw [List.all_eq_true] at hp
      exact noEobRun_sound (hp _ (List.mem_of_getElem? ht))
    · intro image t e
      have h2 := h.2
      rw [e] at h2
      exact ih t h2

/-- A case of `C83_stream`: three files. -/
example : ∃ images, images.length = 3 ∧ ∀ reads, Steady reads → (piecesOf reads).flatten = [grey, exact, grey].flatten →
    Codec.new.collect dbg reads = (images, .finished) := by
  have h : ((picturesOf dbg ⟨Decoder.default, Biterator.new []⟩ [grey, exact, grey]).map List.length) = some 3 := by
    decide +kernel
  cases hp : picturesOf dbg ⟨Decoder.default, Biterator.new []⟩ [grey, exact, grey] with
  | none => rw [hp] at h; cases h
  | some is =>
    rw [hp] at h
    exact ⟨is, Option.some.inj h, fun reads hs hf => C83_stream dbg _ is (picturesOf_sound _ _ _ hp) (by decide +kernel)
      (plainRuns_sound _ _ (by decide +kernel)) reads hs hf⟩

end Jpeg
