import Verif.Proofs.RenderKind
import Verif.Proofs.PollKind
import Verif.Proofs.CutShort
import Verif.Props.Stream
import Verif.Props.Reading
import Verif.Props.Wellformed
/-!
# C72: a streaming decoder that has been given a whole file answers
-/

namespace Jpeg
open HasInput Spec

theorem decode_eof_iff (cfg : Cfg) (d : Decoder) (a : List UInt8) :
    (∃ d', d.decode cfg a = .fail .eof d') ↔
      ∃ t, segmentLoop cfg (a.length + 1) ⟨d, Biterator.new a⟩ = .fail .eof t := by
  have hdec : d.decode cfg a =
      match decodeParser cfg ⟨d, Biterator.new a⟩ with
      | .fail f s => .fail f s.dec
      | .ok r s =>
        if s.bi.input ≠ [] then .fail (.panic .trailing) s.dec
        else
          match r with
          | .ok image => .ok image s.dec
          | .error f => .fail f s.dec := rfl
  unfold decodeParser at hdec
  have e : (⟨d, Biterator.new a⟩ : St).bi.input.length = a.length := rfl
  rw [e] at hdec
  rw [hdec]
  cases segmentLoop cfg (a.length + 1) ⟨d, Biterator.new a⟩ with
  | fail f s =>
    constructor
    · rintro ⟨d', h⟩
      cases h
      exact ⟨s, rfl⟩
    · rintro ⟨t, h⟩
      cases h
      exact ⟨s.dec, rfl⟩
  | ok r s =>
    rw [Out.bind_ok]
    refine ⟨?_, by rintro ⟨t, h⟩; cases h⟩
    rintro ⟨d', h⟩
    exfalso
    have hr := upsample_renders cfg s.dec
    cases e : upsample cfg s.dec with
    | ok image =>
      rw [e] at h
      simp only at h
      split at h <;> cases h
    | error f =>
      rw [e] at h hr
      rcases hr f rfl with rfl | rfl | ⟨p, rfl⟩ <;> simp only at h
      · split at h <;> cases h
      · split at h <;> cases h
      · cases h

theorem Codec.feed_nothing (cfg : Cfg) (c : Codec) (h : c.st.bi.input = []) : ∀ chunks : List (List UInt8),
    chunks.flatten = [] → c.feed cfg chunks = (.pending c, []) := by
  intro chunks
  induction chunks with
  | nil => intro _; rfl
  | cons chunk chunks ih =>
    intro hf
    rw [List.flatten_cons, List.append_eq_nil_iff] at hf
    have e : c.push chunk = c := by
      obtain ⟨st, d, ⟨i, b, n⟩⟩ := c
      have h : i = [] := h
      rw [hf.1, h]
      rfl
    rw [Codec.feed, e]
    have e2 : c.poll cfg = .pending c := by
      unfold Codec.poll
      rw [if_pos (by rw [h])]
    rw [e2]
    exact ih hf.2

/-- **C72** (part). A codec that has been given some bytes, however they are cut, is still waiting exactly if `decode`
on these bytes reports an unexpected end of the input, up to the two exceptions of C43.

Missing: that `decode` does so only if bytes are missing. That is false, see `C72_undecodable_violated`,
`C72_segment_violated`. -/
theorem C72_waiting_iff_partial (cfg : Cfg) (d : Decoder) (hd : UsedDecoder d) (chunks : List (List UInt8)) :
    ((∃ c rest, (Codec.ofDecoder d).feed cfg chunks = (.pending c, rest)) ↔
      ∃ d', d.decode cfg chunks.flatten = .fail .eof d') ∨
    SplitAtRestart cfg (Codec.ofDecoder d) chunks.flatten chunks ∨
    SplitInEobRun cfg (Codec.ofDecoder d) chunks.flatten chunks := by
  rw [decode_eof_iff]
  by_cases hne : chunks.flatten = []
  · refine .inl ⟨fun _ => ?_, fun _ => ⟨_, _, Codec.feed_nothing cfg _ rfl chunks hne⟩⟩
    rw [hne, segmentLoop]
    exact ⟨_, rfl⟩
  have hcs : chunks ≠ [] := by rintro rfl; exact hne rfl
  have := feed_idle (cfg := cfg) (Codec.idle_ofDecoder hd) chunks hcs (by
    simpa [Codec.ofDecoder, Biterator.new] using hne)
  have e1 : (Codec.ofDecoder d).st.bi.input ++ chunks.flatten = chunks.flatten := rfl
  have e2 : (Codec.ofDecoder d).st.dec = d := rfl
  have e3 : ((Codec.ofDecoder d).start chunks.flatten).bi.input = chunks.flatten := rfl
  simp only [e1, e2, e3] at this
  rw [Codec.start_ofDecoder] at this
  generalize segmentLoop cfg (chunks.flatten.length + 1) ⟨d, Biterator.new chunks.flatten⟩ = o at this ⊢
  rcases this with g | g | ⟨g, c', g'⟩ | ⟨f', s, rest, g, g'⟩ | ⟨r, c', rest, g, g6, g7, g8, g9⟩
  · exact .inr (.inl g)
  · exact .inr (.inr g)
  · exact .inl ⟨fun _ => g, fun _ => ⟨c', [], g'⟩⟩
  · refine .inl ⟨?_, ?_⟩
    · rintro ⟨c, r, h⟩
      rw [g] at h
      cases h
    · rintro ⟨t, rfl⟩
      exfalso
      rcases g' with g' | ⟨g', -⟩
      · cases g'
        exact Codec.feed_failed _ _ _ _ _ g rfl
      · cases g'
  · refine .inl ⟨?_, ?_⟩
    · rintro ⟨c, r, h⟩
      rw [g] at h
      cases h
    · rintro ⟨t, rfl⟩
      cases g7

/-- Without restart intervals and end of band runs. -/
theorem waits_of_plain {cfg : Cfg} {chunks : List (List UInt8)}
    (hb : ∀ u, Between cfg ⟨Decoder.default, Biterator.new chunks.flatten⟩ u → u.Plain)
    (h : ∃ t, loopAll cfg ⟨Decoder.default, Biterator.new chunks.flatten⟩ = .fail .eof t) :
    ∃ c rest, Codec.new.feed cfg chunks = (.pending c, rest) := by
  rcases C72_waiting_iff_partial cfg Decoder.default .new chunks with h' | ⟨-, u, h1, h2⟩ | ⟨-, u, h1, i, t, h2, h3⟩
  · exact h'.2 ((decode_eof_iff _ _ _).2 h)
  · rw [Codec.start_ofDecoder] at h1
    rw [(hb u h1).interval] at h2
    omega
  · rw [Codec.start_ofDecoder] at h1
    exact absurd h3 ((hb u h1).tables i t h2)

theorem Visits.fails {cfg : Cfg} {s t u : St} {m : Marker} {rest : List UInt8} {f : Fail} (h : Visits cfg s u)
    (hm : marker s.bi.input = .ok (m, rest)) (hd : doSegment cfg m (s.setInput rest) = .fail f t) : u = s := by
  cases h with
  | refl => rfl
  | step hm' hne hd' h' =>
    rw [hm] at hm'
    cases hm'
    rw [hd] at hd'
    cases hd'

/-- **C72** (violated: undecodable data). A file laid out as the standard says, without restart intervals and end
of band runs, complete with its end marker, whose entropy coded data runs into bits that begin with no code word
of the table in force: however it is cut and whatever follows it, the codec never reports anything, but waits for
more. -/
theorem C72_undecodable_violated (cfg : Cfg) (f : BaselineFile) (H V : Nat) (codes : List (Code × Code))
    (he : f.earlier = []) (hv : f.Laid (f.interval 0) H V codes) (hp : PlainTables f.segments)
    (hdc : ∀ c ∈ codes, ∀ v ∈ c.1.values, v.toNat ≤ 11)
    (ms : List Mcu) (data : List UInt8) (k : Nat) (hone : f.intervals = [ms])
    (hdata : f.data = stuff data ++ (List.replicate k 0xFF ++ markerBytes .EOI))
    (hbad : readInterval codes (f.comps.map fun c => c.h * c.v) ms.length data = .invalid)
    (behind : List UInt8) (chunks : List (List UInt8)) (hf : chunks.flatten = f.bytes ++ behind) :
    ∃ c rest, Codec.new.feed cfg chunks = (.pending c, rest) := by
  have hbig : ¬ ∃ c ∈ codes, c.1.Big := by
    rintro ⟨c, hc, v, hv, h⟩
    have := hdc c hc v hv
    omega
  set tail := List.replicate k 0xFF ++ markerBytes .EOI ++ behind with htail
  have hst : StartsWithMarker tail := by
    obtain ⟨m, rest, e, hm⟩ := starts_eoi k
    exact ⟨m, rest ++ behind, by rw [htail, e]; rfl, hm⟩
  let g : BaselineFile := { f with data := stuff data ++ tail }
  have hg : chunks.flatten = g.bytes := by
    rw [hf]
    simp only [BaselineFile.bytes, g, htail, hdata, List.append_assoc]
  have hvg : g.Laid (g.interval 0) H V codes := ⟨hv.tables, hv.sof, hv.x, hv.y, hv.count, hv.ids, hv.factors, hv.hmax,
    hv.vmax, hv.ten, hv.single, hv.quant, hv.huffman, hv.mcus, hv.blocks, hv.restarts⟩
  have hh : TablesHeld cfg g.earlier Decoder.default := by
    show TablesHeld cfg f.earlier _
    rw [he]; exact .nothing _ _
  refine waits_of_plain ?_ ?_
  · rintro _ ⟨u, h, rfl⟩
    rw [hg] at h
    rcases visits_scan (UsedDecoder.new).inv hh hvg hp Decoder.plain_default h with h | ⟨d3, i3, hf3, hh3, hr3, q3, h⟩
    · exact h
    obtain ⟨s, es⟩ := sos_undecodable (cfg := cfg) i3 hf3 hh3 hr3 hvg hst hone hbad hbig
    rw [markerSegment, List.append_assoc] at h
    rw [h.fails (marker_bytes' (m := .SOS) trivial _) es]
    exact q3
  · rw [hg]
    obtain ⟨D, hctx, hready, e⟩ := scanStart (cfg := cfg) (UsedDecoder.new).inv hh hvg (stuff data ++ tail)
    have e : loopAll cfg ⟨Decoder.default, Biterator.new g.bytes⟩ = _ := e
    rw [e]
    have hb := hvg.blocks
    have hm := hvg.mcus
    have hi := hvg.restarts
    have hone' : g.intervals = [ms] := hone
    rw [hone'] at hb hm hi
    obtain ⟨s, es⟩ := decodeScan_undecodable hctx hready hst hi
      (fun m hm => hctx.fits.2 (by rw [hb m (by simpa using hm), fileFrame_blocks])) (by simpa using hm)
      (by rw [fileFrame_blocks]; exact hbad) hbig
    rw [es]
    exact ⟨_, rfl⟩

theorem doSegment_cutShort {cfg : Cfg} {m : Marker} (hm : HasSegment m) (d : Decoder) (bits count : Nat)
    (payload more rest : List UInt8) (hlen : (payload ++ more).length + 2 < 65536) (hw : WellFormed m (payload ++ more))
    (hn : ¬ WellFormed m payload) :
    ∃ t, doSegment cfg m ⟨d, ⟨segmentOf payload ++ rest, bits, count⟩⟩ = .fail .eof t := by
  have hl : payload.length + 2 < 65536 := by rw [List.length_append] at hlen; omega
  obtain ⟨d1, h1⟩ := doSegment_wellFormed (cfg := cfg) hm d bits count (payload ++ more) rest hlen hw
  have h2 := (C69_segment cfg m hm d bits count payload rest hl).1
  have key : ∀ body : List UInt8 → Decoder → Out Decoder Unit, MonoBody body →
      (∀ s, doSegment cfg m s = segment cfg body s) →
      ∃ t, doSegment cfg m ⟨d, ⟨segmentOf payload ++ rest, bits, count⟩⟩ = .fail .eof t := by
    intro body hb e
    rw [e] at h1 h2 ⊢
    unfold segment at h1 h2 ⊢
    simp only [segmentBytes_ok cfg hl, segmentBytes_ok cfg hlen] at h1 h2 ⊢
    cases e2 : body payload d with
    | ok u d' =>
      rw [e2] at h2
      exact absurd (h2.1 ⟨_, rfl⟩) hn
    | fail f d' =>
      by_cases hf : f = .eof
      · subst hf; exact ⟨_, rfl⟩
      · obtain ⟨d2, e3⟩ := hb payload more d f d' e2 hf
        rw [e3] at h1
        cases h1
  cases m with
  | SOF i => exact key _ (sofBody_mono cfg i) fun _ => rfl
  | DHT => exact key _ (dhtBody_mono cfg) fun _ => rfl
  | DQT => exact key _ dqtBody_mono fun _ => rfl
  | DRI => exact key _ driBody_mono fun _ => rfl
  | APP n =>
    by_cases h : n = 14
    · exact key _ adobeBody_mono fun s => by rw [doSegment, if_pos h]
    · exact absurd (fun h' => absurd h' h) hn
  | _ => exact hm.elim

/-- Segments other than DHT, DRI and SOS keep the AC tables and the restart interval. -/
theorem doSegment_keepsAc {cfg : Cfg} {m : Marker} (h1 : m ≠ .DHT) (h2 : m ≠ .DRI) (h3 : m ≠ .SOS) {s t : St}
    (h : doSegment cfg m s = .ok () t) :
    t.dec.restartInterval = s.dec.restartInterval ∧ t.dec.acTables = s.dec.acTables := by
  have key : ∀ body : List UInt8 → Decoder → Out Decoder Unit,
      (∀ l d d', body l d = .ok () d' → d'.restartInterval = d.restartInterval ∧ d'.acTables = d.acTables) →
      segment cfg body s = .ok () t →
      t.dec.restartInterval = s.dec.restartInterval ∧ t.dec.acTables = s.dec.acTables := by
    intro body hb e
    unfold segment at e
    split at e
    · cases e
    · split at e
      · next e2 => cases e; exact hb _ _ _ e2
      · cases e
  cases m with
  | SOI | RST | COM | EOI => cases h; exact ⟨rfl, rfl⟩
  | DHT => exact absurd rfl h1
  | DRI => exact absurd rfl h2
  | SOS => exact absurd rfl h3
  | SOF i =>
    refine key _ ?_ h
    intro l d d' e
    unfold sofBody at e
    split at e
    · cases e
    · cases e; exact ⟨rfl, rfl⟩
  | DQT =>
    refine key _ ?_ h
    have : ∀ (n : Nat) (l : List UInt8) (d d' : Decoder), dqtGo n l d = .ok () d' →
        d'.restartInterval = d.restartInterval ∧ d'.acTables = d.acTables := by
      intro n
      induction n with
      | zero => intro l d d' e; cases e
      | succ n ih =>
        intro l d d' e
        rw [dqtGo] at e
        split at e
        · cases e; exact ⟨rfl, rfl⟩
        · split at e
          · cases e
          · split at e
            · cases e
            · have := ih _ _ _ e
              exact this
    exact fun l d d' e => this _ l d d' e
  | APP n =>
    rw [doSegment] at h
    split at h
    · refine key _ ?_ h
      intro l d d' e
      unfold adobeBody at e
      split at e
      · cases e
      · cases e; exact ⟨rfl, rfl⟩
    · refine key _ ?_ h
      intro l d d' e
      cases e; exact ⟨rfl, rfl⟩

/-- **C72** (violated: segments cut short). A file with a segment that contains only the beginning of what such a
segment contains, by its length field: however it is cut and whatever follows, the codec never reports
anything, but waits for more. (No Huffman tables and restart interval in front.) -/
theorem C72_segment_violated (cfg : Cfg) (segs : List (Marker × List UInt8)) (hs : HeaderSegments segs)
    (hplain : ∀ s ∈ segs, s.1 ≠ .DHT ∧ s.1 ≠ .DRI) (m : Marker) (hm : HasSegment m) (he : MarkerExists m)
    (payload more : List UInt8) (hlen : (payload ++ more).length + 2 < 65536) (hw : WellFormed m (payload ++ more))
    (hn : ¬ WellFormed m payload) (behind : List UInt8) (chunks : List (List UInt8))
    (hf : chunks.flatten = fileOf segs (markerSegment m payload ++ behind)) :
    ∃ c rest, Codec.new.feed cfg chunks = (.pending c, rest) := by
  have hne : m ≠ .EOI := by rintro rfl; exact hm
  refine waits_of_plain ?_ ?_
  · have key : ∀ (segs : List (Marker × List UInt8)), HeaderSegments segs →
        (∀ s ∈ segs, s.1 ≠ .DHT ∧ s.1 ≠ .DRI) → ∀ (d : Decoder), d.Plain → ∀ u,
        Visits cfg ⟨d, ⟨segs.flatMap (fun p => markerSegment p.1 p.2) ++ (markerSegment m payload ++ behind), 0, 0⟩⟩ u →
        u.dec.Plain := by
      intro segs
      induction segs with
      | nil =>
        intro _ _ d hd u h
        obtain ⟨t, e⟩ := doSegment_cutShort (cfg := cfg) hm d 0 0 payload more behind hlen hw hn
        rw [List.flatMap_nil, List.nil_append, markerSegment, List.append_assoc] at h
        rw [h.fails (marker_bytes' he _) e]
        exact hd
      | cons s segs ih =>
        intro hs hp d hd u h
        obtain ⟨a1, a2, a3, a4⟩ := hs s (by simp)
        obtain ⟨d', e⟩ := doSegment_wellFormed (cfg := cfg) a1 d 0 0 s.2
          (segs.flatMap (fun p => markerSegment p.1 p.2) ++ (markerSegment m payload ++ behind)) a3 a4
        rw [List.flatMap_cons, markerSegment, List.append_assoc, List.append_assoc] at h
        rcases h.cases_step (marker_bytes' a2 _) (fun _ => e) with rfl | h
        · exact hd
        · obtain ⟨b1, b2⟩ := hp s (by simp)
          have hsame := doSegment_keepsAc b1 b2 (by intro h; rw [h] at a1; exact a1) e
          refine ih (fun s h => hs s (by simp [h])) (fun s h => hp s (by simp [h])) d' ⟨?_, ?_⟩ u h
          · rw [show d'.restartInterval = d.restartInterval from hsame.1]; exact hd.interval
          · intro i t ht
            rw [show d'.acTables = d.acTables from hsame.2] at ht
            exact hd.tables i t ht
    rintro _ ⟨u, h, rfl⟩
    rw [hf] at h
    rcases h.cases_step (t := ⟨Decoder.default, ⟨_, 0, 0⟩⟩) (marker_bytes' (m := .SOI) trivial _) (fun _ => rfl) with
      rfl | h
    · exact Decoder.plain_default
    · exact key segs hs hplain _ Decoder.plain_default u h
  · rw [hf]
    obtain ⟨d', hi, -, e⟩ := decode_fileOf (cfg := cfg) .new hs (markerSegment m payload ++ behind)
    rw [e]
    rw [loopAll_eq (s := ⟨d', ⟨markerSegment m payload ++ behind, 0, 0⟩⟩) hi (wf_zero _) (m := m)
      (rest := segmentOf payload ++ behind) (by rw [← marker_bytes' he]; simp [markerSegment]) hne]
    obtain ⟨t, e⟩ := doSegment_cutShort (cfg := cfg) hm d' 0 0 payload more behind hlen hw hn
    simp only [St.setInput]
    rw [e]
    exact ⟨_, rfl⟩

/-! ## Examples -/

/-- `11…` is no code word: the whole file, in one piece or byte by byte, and anything behind. -/
example (chunks : List (List UInt8)) (behind : List UInt8)
    (h : chunks.flatten = (readFile [0x00, 0x11] [0x3F, 0xFF, 0xFF]).bytes ++ behind) :
    ∃ c rest, Codec.new.feed ⟨true, false⟩ chunks = (.pending c, rest) :=
  C72_undecodable_violated ⟨true, false⟩ (readFile [0x00, 0x11] [0x3F, 0xFF, 0xFF]) 1 1 _ rfl
    (readFile_laid rfl _) (by
      refine ⟨by decide, ?_⟩
      unfold HasEobRun
      decide +kernel) (by decide) _ [0x3F, 0xFF, 0xFF] 0 rfl rfl (by decide +kernel) behind chunks h

/-- A restart interval of one byte. -/
example (chunks : List (List UInt8)) (behind : List UInt8)
    (h : chunks.flatten = [0xFF, 0xD8, 0xFF, 0xDD, 0x00, 0x03, 0x05] ++ behind) :
    ∃ c rest, Codec.new.feed ⟨true, false⟩ chunks = (.pending c, rest) :=
  C72_segment_violated ⟨true, false⟩ [] (by intro s hs; cases hs) (by intro s hs; cases hs) .DRI trivial trivial [0x05]
    [0x00] (by decide) (by show 2 ≤ 2; omega) (by show ¬ 2 ≤ 1; omega) behind chunks (by rw [h]; rfl)

set_option maxRecDepth 100000 in
/-- A good file, for comparison, is answered. -/
example : ∃ c rest, Codec.new.feed ⟨true, false⟩ [(readFile [0x00, 0x11] [0x00]).bytes] =
    (.image (.ok (List.replicate 192 128)) c, rest) := by
  have h : (match Codec.new.feed ⟨true, false⟩ [(readFile [0x00, 0x11] [0x00]).bytes] with
    | (.image (.ok i) _, _) => some i | _ => none) = some (List.replicate 192 128) := by decide +kernel
  split at h
  · next i c rest e => rw [e]; exact ⟨c, rest, by rw [Option.some.inj h]⟩
  · cases h

end Jpeg
