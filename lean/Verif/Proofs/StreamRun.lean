import Verif.Proofs.Stream
import Verif.Proofs.SegFail
/-!
# A codec fed in pieces does what the parser does on the whole
-/

namespace Jpeg
open HasInput HasLen

/-! ## The rest of a scan -/

/-- The MCUs `todo` and the end of the scan. -/
def scanRest (cfg : Cfg) (pd : Bool) (todo : List (Nat × Nat)) (s : St) : Out St Unit :=
  (mcuLoop cfg pd todo s).bind fun _ s => scanEnd s

theorem mcuStep_only (cfg : Cfg) (pd : Bool) (y x : Nat) (s : St) :
    OnlyScan s.dec (mcuStep cfg pd y x s).state.dec := by
  unfold mcuStep
  have ho := decodeRow_only s
  cases hr : decodeRow s with
  | fail f s1 => rw [hr] at ho; exact ho
  | ok u s1 =>
    rw [hr] at ho
    rw [Out.bind_ok]
    have ho2 := restartParser_only cfg x y s1
    cases hr2 : restartParser cfg x y s1 with
    | fail f s2 => rw [hr2] at ho2; exact ho.trans ho2
    | ok u s2 =>
      rw [hr2] at ho2
      rw [Out.bind_ok]
      cases pd with
      | false => exact ho.trans ho2
      | true =>
        have hq := (dequantize_only (cfg := cfg) (x := x) (y := y) (d := s2.dec)).1
        simp only [if_true]
        cases hdq : dequantize cfg x y s2.dec with
        | fail f d => rw [hdq] at hq; exact (ho.trans ho2).trans hq
        | ok u d => rw [hdq] at hq; exact (ho.trans ho2).trans hq

theorem mcuLoop_only (cfg : Cfg) (pd : Bool) : ∀ (l : List (Nat × Nat)) (s : St),
    OnlyScan s.dec (mcuLoop cfg pd l s).state.dec := by
  intro l
  induction l with
  | nil => intro s; exact rfl
  | cons p l ih =>
    intro s
    obtain ⟨y, x⟩ := p
    rw [mcuLoop]
    have ho := mcuStep_only cfg pd y x s
    cases hr : mcuStep cfg pd y x s with
    | fail f s1 => rw [hr] at ho; exact ho
    | ok u s1 => rw [hr] at ho; exact OnlyScan.trans ho (ih s1)

/-- What `sos` does after `sosStart`. -/
def sosBody (cfg : Cfg) (pd : Bool) (s : St) : Out St Unit :=
  match s.dec.frame, s.dec.scan with
  | some frame, some scan =>
    (mcuLoop cfg pd (mcuList frame.mcuSize) s).bind fun _ s =>
    match takeResults scan.headers s.dec.scanState.results with
    | .error f => .fail f s
    | .ok planes => .ok () { s with dec := { s.dec with planes } }
  | _, _ => .fail (.panic .noFrame) s

theorem sos_eq (cfg : Cfg) (s : St) : sos cfg s = (sosStart cfg s).bind (sosBody cfg) := by
  unfold sos sosStart
  cases segmentBytes cfg s.bi.input with
  | error f => rfl
  | ok r =>
    obtain ⟨p, rest⟩ := r
    simp only
    cases sosSegment (s.setInput rest).dec.frame p with
    | error f => rfl
    | ok r =>
      obtain ⟨scan, _⟩ := r
      simp only
      cases (s.setInput rest).dec.frame with
      | none => rfl
      | some frame =>
        simp only
        cases frame.codingProcess with
        | error f => rfl
        | ok cp =>
          cases cp with
          | progressive => rfl
          | baseline | sequential | lossLess =>
            simp only
            cases (if scan.al = 0 then
              setFinishedAll cfg (inclusiveRange scan.ss scan.se) (scan.headers.map (·.componentIndex))
                (s.setInput rest).dec.coefficientsFinished
              else .ok (s.setInput rest).dec.coefficientsFinished) with
            | error f => rfl
            | ok fin =>
              simp only
              cases allFinished fin (scan.headers.map (·.componentIndex)) with
              | error f => rfl
              | ok b =>
                simp only
                unfold decodeScan
                generalize scanInit b _ = o
                cases o with
                | fail f s => rfl
                | ok u s => rfl

theorem scanEnd_some {s : St} {scan : Scan} (h : s.dec.scan = some scan) :
    scanEnd s = match takeResults scan.headers s.dec.scanState.results with
      | .error f => .fail f s
      | .ok planes => .ok () { s with dec := { s.dec with planes } } := by
  obtain ⟨⟨fr, sc, ac, dc, qt, pl, ct, ri, cf, ss⟩, bi⟩ := s
  cases h
  rfl

theorem sosBody_rest {cfg : Cfg} {pd : Bool} {s : St} {frame : Frame} {scan : Scan}
    (hf : s.dec.frame = some frame) (hs : s.dec.scan = some scan) :
    sosBody cfg pd s = scanRest cfg pd (mcuList frame.mcuSize) s := by
  unfold sosBody scanRest
  rw [hf, hs]
  simp only
  have ho := mcuLoop_only cfg pd (mcuList frame.mcuSize) s
  cases hr : mcuLoop cfg pd (mcuList frame.mcuSize) s with
  | fail f s1 => rfl
  | ok u s1 =>
    rw [hr] at ho
    have hs1 : s1.dec.scan = some scan := (OnlyScan.scan ho).trans hs
    rw [Out.bind_ok, Out.bind_ok]
    exact (scanEnd_some hs1).symm

/-- After `x` is appended to the input the outcome is the same, with `x` behind. -/
def Follows {α : Type} (x : List UInt8) (o o' : Out St α) : Prop :=
  match o with
  | .ok a s => o' = .ok a (app s x)
  | .fail f s => o' = .fail f (app s x)

theorem Follows.bind {α β : Type} {x : List UInt8} {o o' : Out St α} {k k' : α → St → Out St β}
    (h : Follows x o o') (hk : ∀ a s, Follows x (k a s) (k' a (app s x))) :
    Follows x (o.bind k) (o'.bind k') := by
  cases o with
  | ok a s => cases h; exact hk a s
  | fail f s => cases h; exact rfl

theorem scanInit_follows (pd : Bool) (s : St) (x : List UInt8) :
    Follows x (scanInit pd s) (scanInit pd (app s x)) := by
  unfold scanInit
  have e : (app s x).dec = s.dec := rfl
  rw [e]
  cases s.dec.frame with
  | none => exact rfl
  | some frame =>
    cases s.dec.scan with
    | none => exact rfl
    | some scan =>
      simp only
      cases (if scan.ss = 0 then anyUnset s.dec.dcTables (scan.headers.map (·.dcSel))
        else .ok false) with
      | error f => exact rfl
      | ok b =>
        cases b with
        | true => exact rfl
        | false =>
          simp only
          cases (if scan.se > 1 then anyUnset s.dec.acTables (scan.headers.map (·.acSel))
            else .ok false) with
          | error f => exact rfl
          | ok b =>
            cases b with
            | true => exact rfl
            | false =>
              simp only
              split
              · split
                · exact rfl
                · exact rfl
              · exact rfl

theorem scanInit_facts {pd : Bool} {s s' : St} (h : scanInit pd s = .ok () s') :
    ∃ frame scan, s'.dec.frame = some frame ∧ s'.dec.scan = some scan ∧ s'.bi = s.bi ∧
      s'.dec.restartInterval = s.dec.restartInterval ∧ s'.dec.acTables = s.dec.acTables := by
  unfold scanInit at h
  cases hf : s.dec.frame with
  | none => rw [hf] at h; cases h
  | some frame =>
    cases hs : s.dec.scan with
    | none => rw [hf, hs] at h; cases h
    | some scan =>
      rw [hf, hs] at h
      simp only at h
      cases h1 : (if scan.ss = 0 then anyUnset s.dec.dcTables (scan.headers.map (·.dcSel))
        else .ok false) with
      | error f => rw [h1] at h; cases h
      | ok b =>
        cases b with
        | true => rw [h1] at h; cases h
        | false =>
          rw [h1] at h
          simp only at h
          cases h2 : (if scan.se > 1 then anyUnset s.dec.acTables (scan.headers.map (·.acSel))
            else .ok false) with
          | error f => rw [h2] at h; cases h
          | ok b =>
            cases b with
            | true => rw [h2] at h; cases h
            | false =>
              rw [h2] at h
              simp only at h
              split at h
              · split at h
                · cases h
                · cases h; exact ⟨frame, scan, hf, hs, rfl, rfl, rfl⟩
              · cases h; exact ⟨frame, scan, hf, hs, rfl, rfl, rfl⟩

theorem sosStart_follows {cfg : Cfg} {s : St} {r : List UInt8 × List UInt8}
    (hs : segmentBytes cfg s.bi.input = .ok r) (x : List UInt8) :
    Follows x (sosStart cfg s) (sosStart cfg (app s x)) := by
  unfold sosStart
  obtain ⟨p, rest⟩ := r
  have h' : segmentBytes cfg (app s x).bi.input = .ok (p, rest ++ x) := segmentBytes_grows hs x
  rw [hs, h']
  simp only
  have e : ((app s x).setInput (rest ++ x)).dec = (s.setInput rest).dec := rfl
  have e0 : (s.setInput rest).dec = s.dec := rfl
  rw [e, e0]
  cases sosSegment s.dec.frame p with
  | error f => exact rfl
  | ok r =>
    obtain ⟨scan, _⟩ := r
    simp only
    cases s.dec.frame with
    | none => exact rfl
    | some frame =>
      simp only
      cases frame.codingProcess with
      | error f => exact rfl
      | ok cp =>
        cases cp with
        | progressive => exact rfl
        | baseline | sequential | lossLess =>
          simp only
          cases (if scan.al = 0 then
            setFinishedAll cfg (inclusiveRange scan.ss scan.se) (scan.headers.map (·.componentIndex))
              s.dec.coefficientsFinished
            else .ok s.dec.coefficientsFinished) with
          | error f => exact rfl
          | ok fin =>
            simp only
            cases allFinished fin (scan.headers.map (·.componentIndex)) with
            | error f => exact rfl
            | ok b => exact Follows.bind (scanInit_follows b _ x) fun _ _ => rfl

theorem sosStart_facts {cfg : Cfg} {s s' : St} {pd : Bool} (h : sosStart cfg s = .ok pd s') :
    (∃ r, segmentBytes cfg s.bi.input = .ok r) ∧
    ∃ frame scan, s'.dec.frame = some frame ∧ s'.dec.scan = some scan ∧ len s' ≤ len s ∧
      s'.dec.restartInterval = s.dec.restartInterval ∧ s'.dec.acTables = s.dec.acTables := by
  unfold sosStart at h
  cases hs : segmentBytes cfg s.bi.input with
  | error f => rw [hs] at h; cases h
  | ok r =>
    obtain ⟨p, rest⟩ := r
    refine ⟨⟨_, rfl⟩, ?_⟩
    have hlen : rest.length ≤ len s := segmentBytes_shorter hs
    rw [hs] at h
    simp only at h
    cases h1 : sosSegment (s.setInput rest).dec.frame p with
    | error f => rw [h1] at h; cases h
    | ok r =>
      obtain ⟨scan, _⟩ := r
      rw [h1] at h
      simp only at h
      cases h2 : (s.setInput rest).dec.frame with
      | none => rw [h2] at h; cases h
      | some frame =>
        rw [h2] at h
        simp only at h
        cases h3 : frame.codingProcess with
        | error f => rw [h3] at h; cases h
        | ok cp =>
          rw [h3] at h
          cases cp with
          | progressive => cases h
          | baseline | sequential | lossLess =>
            simp only at h
            cases h4 : (if scan.al = 0 then
              setFinishedAll cfg (inclusiveRange scan.ss scan.se) (scan.headers.map (·.componentIndex))
                (s.setInput rest).dec.coefficientsFinished
              else .ok (s.setInput rest).dec.coefficientsFinished) with
            | error f => rw [h4] at h; cases h
            | ok fin =>
              rw [h4] at h
              simp only at h
              cases h5 : allFinished fin (scan.headers.map (·.componentIndex)) with
              | error f => rw [h5] at h; cases h
              | ok b =>
                rw [h5] at h
                simp only at h
                generalize hi : scanInit b _ = o at h
                cases o with
                | fail f s => cases h
                | ok u s1 =>
                  cases h
                  obtain ⟨fr, sc, a1, a2, a3, a4, a5⟩ := scanInit_facts hi
                  exact ⟨fr, sc, a1, a2, by
                    show s'.bi.input.length ≤ _
                    rw [a3]
                    exact hlen, a4, a5⟩

/-- With the segment not yet complete nothing has changed. -/
theorem sosStart_short {cfg : Cfg} {s : St} {f : Fail} (hs : segmentBytes cfg s.bi.input = .error f) :
    sosStart cfg s = .fail f s := by
  unfold sosStart
  rw [hs]

theorem segment_short {cfg : Cfg} {body : List UInt8 → Decoder → Out Decoder Unit} {s : St} {f : Fail}
    (hs : segmentBytes cfg s.bi.input = .error f) : segment cfg body s = .fail f s := by
  unfold segment
  rw [hs]

theorem segment_follows {cfg : Cfg} {body : List UInt8 → Decoder → Out Decoder Unit} {s : St}
    {r : List UInt8 × List UInt8} (hs : segmentBytes cfg s.bi.input = .ok r) (x : List UInt8) :
    Follows x (segment cfg body s) (segment cfg body (app s x)) := by
  unfold segment
  obtain ⟨p, rest⟩ := r
  have h' : segmentBytes cfg (app s x).bi.input = .ok (p, rest ++ x) := segmentBytes_grows hs x
  rw [hs, h']
  have e : (app s x).dec = s.dec := rfl
  simp only [e]
  cases body p s.dec with
  | ok a d => exact rfl
  | fail f d => exact rfl

/-- Segments other than scans: all there, or waiting unchanged, or broken. -/
theorem doSegment_cases {cfg : Cfg} {m : Marker} (hm : m ≠ .SOS) (s : St) (x : List UInt8) :
    Follows x (doSegment cfg m s) (doSegment cfg m (app s x)) ∨
    doSegment cfg m s = .fail .eof s := by
  have hseg : ∀ body, Follows x (segment cfg body s) (segment cfg body (app s x)) ∨
      segment cfg body s = .fail .eof s := by
    intro body
    cases hs : segmentBytes cfg s.bi.input with
    | ok r => exact .inl (segment_follows hs x)
    | error f =>
      rw [segment_short hs]
      by_cases hf : f = .eof
      · exact .inr (by rw [hf])
      · refine .inl ?_
        have : Final f := by
          unfold segmentBytes at hs
          cases hb : beU16 s.bi.input with
          | error g =>
            rw [hb] at hs
            cases hs
            have := beU16_error hb
            exact absurd this hf
          | ok q =>
            obtain ⟨n, l⟩ := q
            rw [hb] at hs
            simp only at hs
            split at hs
            · split at hs
              · cases hs; exact ⟨by simp, by simp, by simp⟩
              · exact absurd (takeBytes_eof hs) hf
            · exact absurd (takeBytes_eof hs) hf
        show segment cfg body (app s x) = _
        exact segment_short (s := app s x) (segmentBytes_grows_err hs this x)
  unfold doSegment
  cases m with
  | SOI | RST _ | COM | EOI => exact .inl rfl
  | SOF i => exact hseg _
  | DHT => exact hseg _
  | DQT => exact hseg _
  | DRI => exact hseg _
  | SOS => exact absurd rfl hm
  | APP n =>
    simp only
    split
    · exact hseg _
    · exact hseg _

/-! ## Segments that end too early

A segment whose bytes are all there but whose content ends too early fails with the end of the input, and so
looks to a streaming decoder as if bytes were missing. It is tried again each time bytes arrive. -/

/-- The content of a segment that ends too early does so whatever the decoder. -/
def EndsEarly (body : List UInt8 → Decoder → Out Decoder Unit) : Prop :=
  ∀ (l : List UInt8) (d d' : Decoder), body l d = .fail .eof d' → ∀ d2, ∃ d3, body l d2 = .fail .eof d3

theorem defineHuffman_any {cfg : Cfg} {t : DHT} (d d2 : Decoder) :
    (∃ f d' d3, defineHuffman cfg t d = .fail f d' ∧ defineHuffman cfg t d2 = .fail f d3) ∨
    (∃ d' d3, defineHuffman cfg t d = .ok () d' ∧ defineHuffman cfg t d2 = .ok () d3) := by
  unfold defineHuffman
  cases t.cls with
  | ac =>
    simp only
    cases AcTable.new cfg t.codeLengths t.values with
    | error f => exact .inl ⟨_, _, _, rfl, rfl⟩
    | ok q => exact .inr ⟨_, _, rfl, rfl⟩
  | dc =>
    simp only
    cases BaseTable.new cfg t.codeLengths t.values with
    | error f => exact .inl ⟨_, _, _, rfl, rfl⟩
    | ok q => exact .inr ⟨_, _, rfl, rfl⟩

theorem dhtBody_early (cfg : Cfg) : EndsEarly (dhtBody cfg) := by
  have : ∀ (n : Nat) (l : List UInt8) (d d' : Decoder), dhtGo cfg n l d = .fail .eof d' →
      ∀ d2, ∃ d3, dhtGo cfg n l d2 = .fail .eof d3 := by
    intro n
    induction n with
    | zero => intro l d d' h; cases h
    | succ n ih =>
      intro l d d' h d2
      rw [dhtGo] at h ⊢
      split at h
      · cases h
      · next hl =>
        rw [if_neg hl]
        cases ht : huffmanTable l with
        | error f =>
          rw [ht] at h
          simp only [Out.fail.injEq] at h
          exact ⟨d2, by simp only [h.1]⟩
        | ok q =>
          obtain ⟨t, l'⟩ := q
          rw [ht] at h
          simp only at h ⊢
          rcases defineHuffman_any (cfg := cfg) (t := t) d d2 with ⟨f, d1, d3, e1, e2⟩ | ⟨d1, d3, e1, e2⟩
          · rw [e1] at h
            simp only [Out.fail.injEq] at h
            rw [e2]
            exact ⟨d3, by simp only [h.1]⟩
          · rw [e1] at h
            rw [e2]
            exact ih l' d1 d' h d3
  exact fun l d d' h => this _ l d d' h

theorem dqtBody_early : EndsEarly dqtBody := by
  have : ∀ (n : Nat) (l : List UInt8) (d d' : Decoder), dqtGo n l d = .fail .eof d' →
      ∀ d2, ∃ d3, dqtGo n l d2 = .fail .eof d3 := by
    intro n
    induction n with
    | zero => intro l d d' h; cases h
    | succ n ih =>
      intro l d d' h d2
      rw [dqtGo] at h ⊢
      split at h
      · cases h
      · next hl =>
        rw [if_neg hl]
        cases ht : dqt l with
        | error f =>
          rw [ht] at h
          simp only [Out.fail.injEq] at h
          exact ⟨d2, by simp only [h.1]⟩
        | ok q =>
          obtain ⟨⟨i, table⟩, l'⟩ := q
          rw [ht] at h
          simp only at h ⊢
          cases hq : quantizationTable table with
          | error f =>
            rw [hq] at h
            simp only [Out.fail.injEq] at h
            exact ⟨d2, by simp only [h.1]⟩
          | ok q =>
            rw [hq] at h
            exact ih l' _ d' h _
  exact fun l d d' h => this _ l d d' h

theorem sofBody_early (cfg : Cfg) (i : Nat) : EndsEarly (sofBody cfg i) := by
  intro l d d' h d2
  unfold sofBody at h ⊢
  cases hs : sof cfg i l with
  | error f =>
    rw [hs] at h
    simp only [Out.fail.injEq] at h
    exact ⟨d2, by simp only [h.1]⟩
  | ok q => rw [hs] at h; cases h

theorem driBody_early : EndsEarly driBody := by
  intro l d d' h d2
  unfold driBody at h ⊢
  cases hs : beU16 l with
  | error f =>
    rw [hs] at h
    simp only [Out.fail.injEq] at h
    exact ⟨d2, by simp only [h.1]⟩
  | ok q => rw [hs] at h; cases h

theorem adobeBody_early : EndsEarly adobeBody := by
  intro l d d' h d2
  unfold adobeBody at h ⊢
  cases hs : appAdobe l with
  | error f =>
    rw [hs] at h
    simp only [Out.fail.injEq] at h
    exact ⟨d2, by simp only [h.1]⟩
  | ok q => rw [hs] at h; cases h

/-- The content of the segment in front of the decoder ends too early. -/
def StuckAt (cfg : Cfg) (s : St) : Prop :=
  ∃ (m : Marker) (rest payload behind : List UInt8), marker s.bi.input = .ok (m, rest) ∧ m ≠ .EOI ∧
    segmentBytes cfg rest = .ok (payload, behind) ∧
    ((m = .SOS ∧ sosSegment s.dec.frame payload = .error .eof) ∨
    (m ≠ .SOS ∧ ∀ (d : Decoder) (bits count : Nat) (x : List UInt8),
      ∃ t, doSegment cfg m ⟨d, ⟨rest ++ x, bits, count⟩⟩ = .fail .eof t))

theorem segment_stuck {cfg : Cfg} {body : List UInt8 → Decoder → Out Decoder Unit} (hb : EndsEarly body)
    {s t : St} {payload behind : List UInt8} (hs : segmentBytes cfg s.bi.input = .ok (payload, behind))
    (h : segment cfg body s = .fail .eof t) (d : Decoder) (bits count : Nat) (x : List UInt8) :
    ∃ t, segment cfg body ⟨d, ⟨s.bi.input ++ x, bits, count⟩⟩ = .fail .eof t := by
  unfold segment at h ⊢
  rw [hs] at h
  simp only at h
  cases hp : body payload s.dec with
  | ok u d' => rw [hp] at h; cases h
  | fail f d' =>
    rw [hp] at h
    simp only [Out.fail.injEq] at h
    rw [h.1] at hp
    obtain ⟨d3, h3⟩ := hb payload s.dec d' hp d
    simp only [segmentBytes_grows hs x, h3]
    exact ⟨_, rfl⟩

theorem stuckAt_of_fail {cfg : Cfg} {s t : St} {m : Marker} {rest : List UInt8}
    (hm : marker s.bi.input = .ok (m, rest)) (h1 : m ≠ .EOI) (h2 : m ≠ .SOS)
    (hd : doSegment cfg m (s.setInput rest) = .fail .eof t) :
    t = s.setInput rest ∨ ∀ u : St, u.bi.input = s.bi.input → StuckAt cfg u := by
  cases hs : segmentBytes cfg rest with
  | error f =>
    have hs' : segmentBytes cfg (s.setInput rest).bi.input = .error f := hs
    left
    unfold doSegment at hd
    cases m with
    | SOI | RST _ | COM | EOI => cases hd
    | SOF i | DHT | DQT | DRI =>
      simp only [segment_short hs', Out.fail.injEq] at hd
      exact hd.2.symm
    | SOS => exact absurd rfl h2
    | APP n =>
      simp only [segment_short hs', ite_self, Out.fail.injEq] at hd
      exact hd.2.symm
  | ok q =>
    obtain ⟨payload, behind⟩ := q
    refine .inr fun u hu => ⟨m, rest, payload, behind, by rw [hu]; exact hm, h1, hs, .inr ⟨h2, fun d bits count x => ?_⟩⟩
    have hs' : segmentBytes cfg (s.setInput rest).bi.input = .ok (payload, behind) := hs
    unfold doSegment at hd ⊢
    cases m with
    | SOI | RST _ | COM | EOI => cases hd
    | SOF i => exact segment_stuck (sofBody_early cfg i) hs' hd d bits count x
    | DHT => exact segment_stuck (dhtBody_early cfg) hs' hd d bits count x
    | DQT => exact segment_stuck dqtBody_early hs' hd d bits count x
    | DRI => exact segment_stuck driBody_early hs' hd d bits count x
    | SOS => exact absurd rfl h2
    | APP n =>
      simp only at hd ⊢
      split at hd
      · next hn =>
        rw [if_pos hn]
        exact segment_stuck adobeBody_early hs' hd d bits count x
      · unfold segment at hd
        rw [hs'] at hd
        cases hd

theorem setFinishedAll_notEof {cfg : Cfg} {js is fin : List Nat} :
    setFinishedAll cfg js is fin ≠ .error .eof := by
  have h1 : ∀ (js fin : List Nat) (i : Nat), setFinished cfg i js fin ≠ .error .eof := by
    intro js
    induction js with
    | nil => intro fin i h; cases h
    | cons j js ih =>
      intro fin i h
      rw [setFinished] at h
      split at h
      · cases h
      · split at h
        · cases h
        · exact ih _ _ h
  induction is generalizing fin with
  | nil => intro h; cases h
  | cons i is ih =>
    intro h
    rw [setFinishedAll] at h
    split at h
    · next f e => exact h1 _ _ _ (e.trans h)
    · exact ih h

theorem allFinished_notEof {fin is : List Nat} : allFinished fin is ≠ .error .eof := by
  induction is with
  | nil => intro h; cases h
  | cons i is ih =>
    intro h
    rw [allFinished] at h
    split at h
    · cases h
    · split at h
      · exact ih h
      · cases h

theorem anyUnset_notEof {α : Type} {ts : List (Option α)} {sels : List Nat} :
    anyUnset ts sels ≠ .error .eof := by
  induction sels with
  | nil => intro h; cases h
  | cons i is ih =>
    intro h
    rw [anyUnset] at h
    split at h
    · cases h
    · cases h
    · exact ih h

theorem scanInit_notEof {pd : Bool} {s t : St} : scanInit pd s ≠ .fail .eof t := by
  intro h
  unfold scanInit at h
  split at h
  · split at h
    · next f e =>
      simp only [Out.fail.injEq] at h
      rw [h.1] at e
      split at e
      · exact anyUnset_notEof e
      · cases e
    · cases h
    · split at h
      · next f e =>
        simp only [Out.fail.injEq] at h
        rw [h.1] at e
        split at e
        · exact anyUnset_notEof e
        · cases e
      · cases h
      · simp only at h
        split at h
        · split at h
          · cases h
          · cases h
        · cases h
  · cases h

/-- The header of a scan that fails with the end of the input is not complete or ends too early. -/
theorem sosStart_eof {cfg : Cfg} {s t : St} {payload behind : List UInt8}
    (hs : segmentBytes cfg s.bi.input = .ok (payload, behind)) (h : sosStart cfg s = .fail .eof t) :
    sosSegment s.dec.frame payload = .error .eof ∧ t.dec = s.dec ∧ t = s.setInput behind := by
  unfold sosStart at h
  rw [hs] at h
  simp only at h
  have e0 : (s.setInput behind).dec = s.dec := rfl
  rw [e0] at h
  cases hp : sosSegment s.dec.frame payload with
  | error f =>
    rw [hp] at h
    simp only [Out.fail.injEq] at h
    obtain ⟨rfl, rfl⟩ := h
    exact ⟨rfl, rfl, rfl⟩
  | ok q =>
    exfalso
    obtain ⟨scan, l⟩ := q
    rw [hp] at h
    simp only at h
    cases hf : s.dec.frame with
    | none => rw [hf] at h; cases h
    | some frame =>
      rw [hf] at h
      simp only at h
      cases hc : frame.codingProcess with
      | error f =>
        rw [hc] at h
        simp only [Out.fail.injEq] at h
        rw [h.1] at hc
        unfold Frame.codingProcess at hc
        split_ifs at hc
        cases hc
      | ok cp =>
        rw [hc] at h
        cases cp with
        | progressive => cases h
        | baseline | sequential | lossLess =>
          simp only at h
          split at h
          · next f e =>
            simp only [Out.fail.injEq] at h
            rw [h.1] at e
            split at e
            · exact setFinishedAll_notEof e
            · cases e
          · next fin e =>
            split at h
            · next f e2 =>
              simp only [Out.fail.injEq] at h
              rw [h.1] at e2
              exact allFinished_notEof e2
            · next b e2 =>
              revert h
              generalize hi : scanInit b _ = r
              intro h
              cases r with
              | fail f t' =>
                simp only [Out.bind_fail, Out.fail.injEq] at h
                rw [h.1] at hi
                exact scanInit_notEof hi
              | ok u t' => cases h

/-- Nothing that arrives gets a decoder past such a segment. -/
theorem StuckAt.step {cfg : Cfg} {s : St} (h : StuckAt cfg s) :
    ∃ s', segmentStep cfg s = .wait .segments s' ∧ s'.bi.input = s.bi.input ∧ StuckAt cfg s' := by
  obtain ⟨m, rest, payload, behind, hm, h1, h2, h3⟩ := h
  unfold segmentStep
  rw [hm]
  simp only
  rw [if_neg h1]
  rcases h3 with ⟨h3, h4⟩ | ⟨h3, h4⟩
  · rw [if_pos h3]
    subst h3
    have : sosStart cfg (s.setInput rest) = .fail .eof ((s.setInput rest).setInput behind) := by
      unfold sosStart
      have e : (s.setInput rest).bi.input = rest := rfl
      rw [e, h2]
      simp only
      have e : ((s.setInput rest).setInput behind).dec = s.dec := rfl
      rw [e, h4]
    rw [this]
    exact ⟨_, rfl, rfl, .SOS, rest, payload, behind, hm, h1, h2, .inl ⟨rfl, h4⟩⟩
  · rw [if_neg h3]
    obtain ⟨t, ht⟩ := h4 s.dec s.bi.bits s.bi.count []
    rw [List.append_nil] at ht
    have ht : doSegment cfg m (s.setInput rest) = .fail .eof t := ht
    rw [ht]
    exact ⟨_, rfl, rfl, m, rest, payload, behind, hm, h1, h2, .inr ⟨h3, h4⟩⟩

theorem StuckAt.app {cfg : Cfg} {s : St} (h : StuckAt cfg s) (x : List UInt8) : StuckAt cfg (app s x) := by
  obtain ⟨m, rest, payload, behind, hm, h1, h2, h3⟩ := h
  refine ⟨m, rest ++ x, payload, behind ++ x, marker_grows hm x, h1, segmentBytes_grows h2 x, ?_⟩
  rcases h3 with h3 | ⟨h3, h4⟩
  · exact .inl h3
  · refine .inr ⟨h3, fun d bits count y => ?_⟩
    rw [List.append_assoc]
    exact h4 d bits count (x ++ y)

/-- A codec at such a segment. -/
def Codec.Stuck (cfg : Cfg) (c : Codec) : Prop := c.stage = .segments ∧ StuckAt cfg c.st

theorem Codec.Stuck.poll {cfg : Cfg} {c : Codec} (h : c.Stuck cfg) (chunk : List UInt8) :
    ∃ c', (c.push chunk).poll cfg = .pending c' ∧ c'.Stuck cfg := by
  obtain ⟨h1, h2⟩ := h
  obtain ⟨stage, s⟩ := c
  subst h1
  have hs : StuckAt cfg (app s chunk) := h2.app chunk
  have e : (Codec.push ⟨.segments, s⟩ chunk) = ⟨.segments, app s chunk⟩ := rfl
  rw [e]
  unfold Codec.poll
  split
  · exact ⟨_, rfl, rfl, hs⟩
  · obtain ⟨s', h1, -, h3⟩ := hs.step
    refine ⟨⟨.segments, s'⟩, ?_, rfl, h3⟩
    rw [codecRun]
    have e2 : stageStep cfg (Codec.mk .segments (app s chunk)).stage (Codec.mk .segments (app s chunk)).st =
        .wait .segments s' := h1
    rw [e2]

theorem Codec.Stuck.feed {cfg : Cfg} : ∀ (chunks : List (List UInt8)) {c : Codec}, c.Stuck cfg →
    ∃ c', c.feed cfg chunks = (.pending c', []) := by
  intro chunks
  induction chunks with
  | nil => intro c _; exact ⟨c, rfl⟩
  | cons chunk chunks ih =>
    intro c h
    obtain ⟨c', h1, h2⟩ := h.poll chunk
    rw [Codec.feed, h1]
    exact ih h2

/-! ## The rest of the file -/

/-- From a stage to the end of the image, on the bytes in the input. -/
def finish (cfg : Cfg) (fuel : Nat) : Stage → St → Out St Unit
  | .segments, s => segmentLoop cfg fuel s
  | .scan pd _ todo, s => (scanRest cfg pd todo s).bind fun _ s => segmentLoop cfg fuel s

/-- The states between segments when the parser runs on the whole of its input. -/
inductive Visits (cfg : Cfg) : St → St → Prop
  | refl (s : St) : Visits cfg s s
  | step {s t u : St} {m : Marker} {rest : List UInt8} (hm : marker s.bi.input = .ok (m, rest))
      (hne : m ≠ .EOI) (hd : doSegment cfg m (s.setInput rest) = .ok () t) (h : Visits cfg t u) :
      Visits cfg s u

/-- The restart interval and the AC tables of a decoder satisfy `D`. -/
def Decoder.Has (D : Nat → List (Option AcTable) → Prop) (d : Decoder) : Prop :=
  D d.restartInterval d.acTables

theorem Decoder.Has.only {D : Nat → List (Option AcTable) → Prop} {d d' : Decoder} (h : d.Has D)
    (ho : OnlyScan d d') : d'.Has D := by
  unfold Decoder.Has at h ⊢
  rwa [OnlyScan.interval ho, OnlyScan.acTables ho]

/-- All decoders seen by the rest of the run on the whole input satisfy `D`. -/
def Seen (cfg : Cfg) (D : Nat → List (Option AcTable) → Prop) : Stage → St → Prop
  | .segments, s => ∀ u, Visits cfg s u → u.dec.Has D
  | .scan pd _ todo, s => s.dec.Has D ∧
      ∀ t, scanRest cfg pd todo s = .ok () t → ∀ u, Visits cfg t u → u.dec.Has D

/-- The outcome of the rest of the file, whatever bound is put on the number of segments, and what is
seen on the way. -/
def Ends (cfg : Cfg) (D : Nat → List (Option AcTable) → Prop) (stage : Stage) (s : St)
    (o : Out St Unit) : Prop :=
  (∃ n, ∀ fuel, n ≤ fuel → finish cfg fuel stage s = o) ∧ Seen cfg D stage s

section
variable {cfg : Cfg} {D : Nat → List (Option AcTable) → Prop}

theorem Ends.segments {s : St} {o : Out St Unit} (h : Ends cfg D .segments s o) :
    ∃ n, ∀ fuel, n ≤ fuel → segmentLoop cfg (fuel + 1) s = o := by
  obtain ⟨⟨n, h⟩, -⟩ := h
  exact ⟨n, fun fuel hf => h (fuel + 1) (by omega)⟩

theorem Ends.marker_error {s : St} {o : Out St Unit} {f : Fail} (h : Ends cfg D .segments s o)
    (hm : marker s.bi.input = .error f) : o = .fail f s := by
  obtain ⟨n, h⟩ := h.segments
  have h := h n (Nat.le_refl _)
  rw [segmentLoop, hm] at h
  exact h.symm

theorem Ends.eoi {s : St} {o : Out St Unit} {rest : List UInt8} (h : Ends cfg D .segments s o)
    (hm : marker s.bi.input = .ok (.EOI, rest)) : o = .ok () (s.setInput rest) := by
  obtain ⟨n, h⟩ := h.segments
  have h := h n (Nat.le_refl _)
  rw [segmentLoop, hm] at h
  exact h.symm

theorem Ends.fail {s t : St} {o : Out St Unit} {m : Marker} {rest : List UInt8} {f : Fail}
    (h : Ends cfg D .segments s o) (hm : marker s.bi.input = .ok (m, rest)) (hne : m ≠ .EOI)
    (hd : doSegment cfg m (s.setInput rest) = .fail f t) : o = .fail f t := by
  obtain ⟨n, h⟩ := h.segments
  have h := h n (Nat.le_refl _)
  rw [segmentLoop, hm] at h
  simp only [if_neg hne, hd] at h
  exact h.symm

theorem Ends.next {s t : St} {o : Out St Unit} {m : Marker} {rest : List UInt8}
    (h : Ends cfg D .segments s o) (hm : marker s.bi.input = .ok (m, rest)) (hne : m ≠ .EOI)
    (hd : doSegment cfg m (s.setInput rest) = .ok () t) : Ends cfg D .segments t o := by
  refine ⟨?_, fun u hu => h.2 u (.step hm hne hd hu)⟩
  obtain ⟨n, h⟩ := h.segments
  refine ⟨n, fun fuel hf => ?_⟩
  have h := h fuel hf
  rw [segmentLoop, hm] at h
  simp only [if_neg hne, hd] at h
  exact h

theorem Ends.scan {s t : St} {o : Out St Unit} {rest : List UInt8} {pd : Bool} {frame : Frame}
    {scan : Scan} (h : Ends cfg D .segments s o) (hm : marker s.bi.input = .ok (.SOS, rest))
    (hd : sosStart cfg (s.setInput rest) = .ok pd t) (hf : t.dec.frame = some frame)
    (hs : t.dec.scan = some scan) : Ends cfg D (.scan pd .row (mcuList frame.mcuSize)) t o := by
  have hsos : doSegment cfg .SOS (s.setInput rest) = scanRest cfg pd (mcuList frame.mcuSize) t := by
    show sos cfg _ = _
    rw [sos_eq, hd, Out.bind_ok, sosBody_rest hf hs]
  refine ⟨?_, ?_, fun t' ht' u hu => h.2 u (.step hm (by simp) (hsos.trans ht') hu)⟩
  swap
  · have h0 := h.2 s (.refl s)
    obtain ⟨-, _, _, -, -, -, h1, h2⟩ := sosStart_facts hd
    unfold Decoder.Has at h0 ⊢
    rw [h1, h2]
    exact h0
  obtain ⟨n, h⟩ := h.segments
  refine ⟨n, fun fuel hfu => ?_⟩
  have h := h fuel hfu
  rw [segmentLoop, hm] at h
  simp only [if_neg (show Marker.SOS ≠ Marker.EOI by simp), doSegment, sos_eq, hd, Out.bind_ok,
    sosBody_rest hf hs] at h
  exact h

/-- Whether a stage waits for a restart marker. -/
def Stage.atRestart : Stage → Prop
  | .scan _ .restart _ => True
  | _ => False

/-- One step of the codec against the rest of the file. -/
def StepSim (cfg : Cfg) (D : Nat → List (Option AcTable) → Prop) (x : List UInt8) (s : St) (o : Out St Unit) (used : Nat) : Step → Prop
  | .next s' => Ends cfg D .segments (app s' x) o ∧ len s' + used ≤ len s
  | .wait stage s' => (stage.atRestart ∧ 0 < s'.dec.restartInterval ∧ s'.dec.Has D) ∨
      ((∃ t, o = .fail .eof t) ∧ Codec.Stuck cfg ⟨stage, s'⟩) ∨
      (¬ stage.atRestart ∧ (x = [] → ∃ t, o = .fail .eof t) ∧ Ends cfg D stage (app s' x) o)
  | .eoi s' => o = .ok () (app s' x)
  | .failed f s' => o = .fail f (app s' x) ∨ (f = .err .outOfBits ∧ EobRuns s'.dec ∧ s'.dec.Has D)

theorem scanEnd_follows (s : St) (x : List UInt8) : Follows x (scanEnd s) (scanEnd (app s x)) := by
  unfold scanEnd
  have e : (app s x).dec = s.dec := rfl
  rw [e]
  cases s.dec.scan with
  | none => exact rfl
  | some scan =>
    simp only
    cases takeResults scan.headers s.dec.scanState.results with
    | error f => exact rfl
    | ok planes => exact rfl

theorem scanEnd_len (s : St) : len (scanEnd s).state = len s := by
  unfold scanEnd
  cases s.dec.scan with
  | none => rfl
  | some scan =>
    simp only
    cases takeResults scan.headers s.dec.scanState.results with
    | error f => rfl
    | ok planes => rfl

theorem scanStep_sim {x : List UInt8} {s : St} {o : Out St Unit} {pd : Bool}
    {todo : List (Nat × Nat)} (h : Ends cfg D (.scan pd .row todo) (app s x) o) :
    StepSim cfg D x s o 0 (scanStep cfg pd .row todo s) := by
  obtain ⟨⟨n, h⟩, hD, hseen⟩ := h
  have hD : s.dec.Has D := hD
  have hr := mcuResume_row (cfg := cfg) (pd := pd) (x := x) todo s
  unfold scanStep
  simp only [finish, scanRest] at h
  cases hm : mcuResume cfg pd .row todo s with
  | done s' =>
    rw [hm] at hr
    obtain ⟨h1, h2, h3⟩ := hr
    simp only [h1, Out.bind_ok] at h
    have hf := scanEnd_follows s' x
    have hlen := scanEnd_len s'
    simp only
    cases he : scanEnd s' with
    | fail f t =>
      rw [he] at hf
      have hf : scanEnd (app s' x) = .fail f (app t x) := hf
      simp only [hf, Out.bind_fail] at h
      exact .inl (h n (Nat.le_refl _)).symm
    | ok u t =>
      rw [he] at hf hlen
      have hf : scanEnd (app s' x) = .ok u (app t x) := hf
      have hlen : len t = len s' := hlen
      simp only [hf, Out.bind_ok] at h
      refine ⟨⟨⟨n, h⟩, hseen _ ?_⟩, by omega⟩
      unfold scanRest
      rw [h1, Out.bind_ok, hf]
  | wait ph todo' s' =>
    rw [hm] at hr
    cases ph with
    | restart =>
      refine .inl ⟨trivial, ?_, hD.only hr.2⟩
      rw [OnlyScan.interval hr.2]
      exact hr.1
    | row =>
      obtain ⟨h1, h2, h3, h4⟩ := hr
      refine .inr (.inr ⟨id, fun hx => ?_, ⟨n, fun fuel hfu => ?_⟩, hD.only h4, ?_⟩)
      · obtain ⟨t, ht⟩ := h2 hx
        simp only [ht, Out.bind_fail] at h
        exact ⟨t, (h n (Nat.le_refl _)).symm⟩
      · simp only [finish, scanRest, h1]
        exact h fuel hfu
      · unfold scanRest at hseen ⊢
        rw [h1]
        exact hseen
  | failed f s' =>
    rw [hm] at hr
    obtain ⟨h1, h2⟩ := hr
    rcases h1 with h1 | ⟨h1, h3⟩
    · simp only [h1, Out.bind_fail] at h
      exact .inl (h n (Nat.le_refl _)).symm
    · refine .inr ⟨h1, ?_, hD.only h2⟩
      unfold EobRuns at h3 ⊢
      rwa [OnlyScan.acTables h2]

theorem doSegment_shorter {m : Marker} (hm : m ≠ .SOS) (s : St) :
    Within (len s) (doSegment cfg m s) := by
  have h0 : len s ≤ len s := Nat.le_refl _
  unfold doSegment
  cases m with
  | SOI | RST _ | COM | EOI => exact h0
  | SOF i => exact segment_within h0
  | DHT => exact segment_within h0
  | DQT => exact segment_within h0
  | DRI => exact segment_within h0
  | SOS => exact absurd rfl hm
  | APP n =>
    simp only
    split
    · exact segment_within h0
    · exact segment_within h0

theorem setInput_input (s : St) (rest : List UInt8) : (s.setInput rest).setInput s.bi.input = s := rfl

theorem setInput_app (s : St) (rest x : List UInt8) :
    (app s x).setInput (rest ++ x) = app (s.setInput rest) x := rfl

theorem segmentStep_sim {x : List UInt8} {s : St} {o : Out St Unit}
    (h : Ends cfg D .segments (app s x) o) : StepSim cfg D x s o 1 (segmentStep cfg s) := by
  unfold segmentStep
  have again : ∀ {f : Fail} {t : St}, (x = [] → o = .fail f t) → f = .eof →
      StepSim cfg D x s o 1 (.wait .segments s) := by
    intro f t hx hf
    exact .inr (.inr ⟨id, fun hx0 => ⟨t, by rw [hx hx0, hf]⟩, h⟩)
  cases hm : marker s.bi.input with
  | error f =>
    simp only
    by_cases hf : f = .eof
    · rw [if_pos hf]
      refine again (f := f) (t := s) ?_ hf
      rintro rfl
      rw [app_nil] at h
      exact h.marker_error hm
    · rw [if_neg hf]
      have hfin : Final f := by
        rcases marker_error_cases hm with h | h
        · exact absurd h hf
        · rw [h]; exact ⟨by simp, by simp, by simp⟩
      exact .inl (h.marker_error (marker_grows_err hm hfin x))
  | ok r =>
    obtain ⟨m, rest⟩ := r
    have hm' : marker (app s x).bi.input = .ok (m, rest ++ x) := marker_grows hm x
    have hlen : rest.length + 1 ≤ len s := marker_shorter hm
    simp only
    by_cases h1 : m = .EOI
    · rw [if_pos h1]
      subst h1
      exact h.eoi hm'
    · rw [if_neg h1]
      by_cases h2 : m = .SOS
      · rw [if_pos h2]
        subst h2
        cases hs : segmentBytes cfg (s.setInput rest).bi.input with
        | error f =>
          rw [sosStart_short hs]
          simp only
          by_cases hf : f = .eof
          · rw [if_pos hf]
            refine again (f := f) (t := s.setInput rest) ?_ hf
            rintro rfl
            rw [app_nil] at h
            refine h.fail hm (by simp) ?_
            show sos cfg (s.setInput rest) = _
            rw [sos_eq, sosStart_short hs]
            rfl
          · rw [if_neg hf]
            have hfin : Final f := by
              rcases segmentBytes_error hs with h | ⟨h, -⟩
              · exact absurd h hf
              · rw [h]; exact ⟨by simp, by simp, by simp⟩
            refine .inl (h.fail hm' (by simp) ?_)
            show sos cfg ((app s x).setInput (rest ++ x)) = _
            rw [sos_eq, setInput_app, sosStart_short (s := app (s.setInput rest) x)
              (segmentBytes_grows_err hs hfin x)]
            rfl
        | ok r =>
          have hfo := sosStart_follows hs x
          cases hst : sosStart cfg (s.setInput rest) with
          | fail f t =>
            rw [hst] at hfo
            have hfo : sosStart cfg (app (s.setInput rest) x) = .fail f (app t x) := hfo
            have ho : o = .fail f (app t x) := by
              refine h.fail hm' (by simp) ?_
              show sos cfg ((app s x).setInput (rest ++ x)) = _
              rw [sos_eq, setInput_app, hfo]
              rfl
            simp only
            by_cases hf : f = .eof
            · rw [if_pos hf]
              subst hf
              obtain ⟨a1, a2, -⟩ := sosStart_eof hs hst
              refine .inr (.inl ⟨⟨_, ho⟩, rfl, .SOS, rest, r.1, r.2, hm, by simp, hs, .inl ⟨rfl, ?_⟩⟩)
              show sosSegment t.dec.frame r.1 = _
              rw [a2]
              exact a1
            · rw [if_neg hf]
              exact .inl ho
          | ok pd t =>
            rw [hst] at hfo
            have hfo : sosStart cfg (app (s.setInput rest) x) = .ok pd (app t x) := hfo
            obtain ⟨-, frame, scan, hf, hsc, hle, -, -⟩ := sosStart_facts hst
            simp only
            rw [hf]
            simp only
            have hE := h.scan hm' (by rw [setInput_app]; exact hfo) (t := app t x) hf hsc
            have hsim := scanStep_sim hE
            have hle : len t + 1 ≤ len s := Nat.le_trans (Nat.succ_le_succ hle) hlen
            revert hsim
            cases scanStep cfg pd .row (mcuList frame.mcuSize) t with
            | next s' => exact fun ⟨a, b⟩ => ⟨a, by omega⟩
            | wait stage s' => exact id
            | eoi s' => exact id
            | failed f s' => exact id
      · rw [if_neg h2]
        have hw := doSegment_shorter (cfg := cfg) h2 (s.setInput rest)
        rcases doSegment_cases (cfg := cfg) h2 (s.setInput rest) x with hfo | hshort
        · cases hd : doSegment cfg m (s.setInput rest) with
          | fail f t =>
            rw [hd] at hfo
            have hfo : doSegment cfg m (app (s.setInput rest) x) = .fail f (app t x) := hfo
            have ho : o = .fail f (app t x) := h.fail hm' h1 hfo
            simp only
            by_cases hf : f = .eof
            · rw [if_pos hf]
              subst hf
              rcases stuckAt_of_fail hm h1 h2 hd with rfl | hst
              · refine again (f := .eof) (t := s.setInput rest) ?_ rfl
                rintro rfl
                rw [app_nil] at ho
                exact ho
              · exact .inr (.inl ⟨⟨_, ho⟩, rfl, hst _ rfl⟩)
            · rw [if_neg hf]
              exact .inl ho
          | ok u t =>
            rw [hd] at hfo hw
            have hfo : doSegment cfg m (app (s.setInput rest) x) = .ok u (app t x) := hfo
            have hw : len t ≤ rest.length := hw
            exact ⟨h.next hm' h1 hfo, by omega⟩
        · rw [hshort]
          simp only [if_true]
          refine again (f := .eof) (t := s.setInput rest) ?_ rfl
          rintro rfl
          rw [app_nil] at h
          exact h.fail hm h1 hshort

theorem stageStep_sim {x : List UInt8} {s : St} {o : Out St Unit} {stage : Stage}
    (hst : ¬ stage.atRestart) (h : Ends cfg D stage (app s x) o) :
    StepSim cfg D x s o (if stage = .segments then 1 else 0) (stageStep cfg stage s) := by
  cases stage with
  | segments => exact segmentStep_sim h
  | scan pd ph todo =>
    cases ph with
    | row => exact scanStep_sim h
    | restart => exact absurd trivial hst

/-! ## The codec -/

/-- The outcome of a call against the rest of the file. -/
def PollSim (cfg : Cfg) (D : Nat → List (Option AcTable) → Prop) (x : List UInt8) (o : Out St Unit) : Poll → Prop
  | .pending c => (c.stage.atRestart ∧ 0 < c.st.dec.restartInterval ∧ c.st.dec.Has D) ∨
      ((∃ t, o = .fail .eof t) ∧ c.Stuck cfg) ∨
      (¬ c.stage.atRestart ∧ (x = [] → ∃ t, o = .fail .eof t) ∧ Ends cfg D c.stage (app c.st x) o)
  | .image r c => c.stage = .segments ∧ o = .ok () (app c.st x) ∧ r = upsample cfg c.st.dec ∧
      ∀ p, r ≠ .error (.panic p)
  | .failed f s => o = .fail f (app s x) ∨ (f = .err .outOfBits ∧ EobRuns s.dec ∧ s.dec.Has D) ∨
      (o = .ok () (app s x) ∧ ∃ p, f = .panic p ∧ upsample cfg s.dec = .error f)

theorem codecRun_sim {x : List UInt8} {o : Out St Unit} : ∀ (fuel : Nat) (stage : Stage) (s : St),
    ¬ stage.atRestart → Ends cfg D stage (app s x) o →
    len s + (if stage = .segments then 1 else 2) ≤ fuel → PollSim cfg D x o (codecRun cfg fuel stage s) := by
  intro fuel
  induction fuel with
  | zero => intro stage s _ _ h; split at h <;> omega
  | succ fuel ih =>
    intro stage s hst h hfu
    rw [codecRun]
    have hsim := stageStep_sim hst h
    revert hsim
    cases stageStep cfg stage s with
    | next s' =>
      rintro ⟨h1, h2⟩
      refine ih .segments s' id h1 ?_
      rw [if_pos rfl]
      split at h2
      · next hs => rw [if_pos hs] at hfu; omega
      · next hs => rw [if_neg hs] at hfu; omega
    | wait stage' s' => exact id
    | failed f s' =>
      rintro (h1 | h1)
      · exact .inl h1
      · exact .inr (.inl h1)
    | eoi s' =>
      intro h1
      simp only
      split
      · next p hu => exact .inr (.inr ⟨h1, p, rfl, hu⟩)
      · next hne => exact ⟨rfl, h1, rfl, fun p hp => hne p hp⟩

theorem push_app (c : Codec) (chunk x : List UInt8) : app (c.push chunk).st x = app c.st (chunk ++ x) := by
  show ({ c.st with bi := { c.st.bi with input := c.st.bi.input ++ chunk ++ x } } : St) = _
  rw [List.append_assoc]
  rfl

/-- With no input left the rest of the file cannot be parsed. -/
theorem Ends.empty {stage : Stage} {s : St} {o : Out St Unit} (hst : ¬ stage.atRestart)
    (h : Ends cfg D stage s o) (hi : s.bi.input = []) : ∀ t, o ≠ .ok () t := by
  rintro t rfl
  have hseg : ∀ {s t : St}, s.bi.input = [] → Ends cfg D .segments s (.ok () t) → False := by
    intro s t hi h
    have := h.marker_error (f := .eof) (by rw [hi]; rfl)
    cases this
  cases stage with
  | segments => exact hseg hi h
  | scan pd ph todo =>
    obtain ⟨⟨n, h⟩, -, hseen⟩ := h
    simp only [finish] at h
    have hw : Within 0 (scanRest cfg pd todo s) := by
      unfold scanRest
      have h0 : len s ≤ 0 := by
        show s.bi.input.length ≤ 0
        rw [hi]
        exact Nat.le_refl _
      refine Within.bind (mcuLoop_within todo h0) fun _ s hs => ?_
      have := scanEnd_len s
      show len (scanEnd s).state ≤ 0
      omega
    cases hr : scanRest cfg pd todo s with
    | fail f t' =>
      simp only [hr, Out.bind_fail] at h
      have := h n (Nat.le_refl _)
      cases this
    | ok u t' =>
      rw [hr] at hw
      have hw : t'.bi.input.length ≤ 0 := hw
      simp only [hr, Out.bind_ok] at h
      exact hseg (List.eq_nil_of_length_eq_zero (by omega)) ⟨⟨n, h⟩, hseen _ hr⟩

/-- What a codec that has returned something has to do with the whole file; `x` are the bytes still to
come. -/
def FinalSim (cfg : Cfg) (D : Nat → List (Option AcTable) → Prop) (x : List UInt8) (o : Out St Unit) :
    Poll → Prop
  | .pending _ => False
  | .image r c => c.stage = .segments ∧ o = .ok () (app c.st x) ∧ r = upsample cfg c.st.dec ∧
      ∀ p, r ≠ .error (.panic p)
  | .failed f s => o = .fail f (app s x) ∨ (f = .err .outOfBits ∧ EobRuns s.dec ∧ s.dec.Has D) ∨
      (o = .ok () (app s x) ∧ ∃ p, f = .panic p ∧ upsample cfg s.dec = .error f)

/-- Some of the first chunks leave the codec waiting for a restart marker. -/
def RestartSplit (cfg : Cfg) (D : Nat → List (Option AcTable) → Prop) (c : Codec)
    (chunks : List (List UInt8)) : Prop :=
  ∃ k c', c.feed cfg (chunks.take k) = (.pending c', []) ∧ c'.stage.atRestart ∧
    0 < c'.st.dec.restartInterval ∧ c'.st.dec.Has D

theorem feed_cons_pending {c c' : Codec} {chunk : List UInt8} (h : (c.push chunk).poll cfg = .pending c')
    (chunks : List (List UInt8)) : c.feed cfg (chunk :: chunks) = c'.feed cfg chunks := by
  rw [Codec.feed, h]

theorem feed_sim {o : Out St Unit} : ∀ (chunks : List (List UInt8)) (c : Codec),
    ¬ c.stage.atRestart → (chunks = [] ∨ c.st.bi.input ++ chunks.flatten = [] → ∃ t, o = .fail .eof t) →
    Ends cfg D c.stage (app c.st chunks.flatten) o → RestartSplit cfg D c chunks ∨
    ((∃ t, o = .fail .eof t) ∧ ∃ c', c.feed cfg chunks = (.pending c', [])) ∨
    ∃ p rest, c.feed cfg chunks = (p, rest) ∧ FinalSim cfg D rest.flatten o p := by
  intro chunks
  induction chunks with
  | nil => intro c _ h _; exact .inr (.inl ⟨h (.inl rfl), c, rfl⟩)
  | cons chunk chunks ih =>
    intro c hst hne h
    rw [List.flatten_cons, ← push_app] at h
    have next : ∀ c', (c.push chunk).poll cfg = .pending c' → ¬ c'.stage.atRestart →
        (chunks = [] ∨ c'.st.bi.input ++ chunks.flatten = [] → ∃ t, o = .fail .eof t) →
        Ends cfg D c'.stage (app c'.st chunks.flatten) o →
        RestartSplit cfg D c (chunk :: chunks) ∨
        ((∃ t, o = .fail .eof t) ∧ ∃ c', c.feed cfg (chunk :: chunks) = (.pending c', [])) ∨
        ∃ p rest, c.feed cfg (chunk :: chunks) = (p, rest) ∧ FinalSim cfg D rest.flatten o p := by
      intro c' hp hst' hne' h'
      rw [feed_cons_pending hp]
      rcases ih c' hst' hne' h' with ⟨k, c2, a1, a2⟩ | h1 | h1
      · refine .inl ⟨k + 1, c2, ?_, a2⟩
        rw [List.take_succ_cons, feed_cons_pending hp]
        exact a1
      · exact .inr (.inl h1)
      · exact .inr (.inr h1)
    by_cases hi : (c.push chunk).st.bi.input = []
    · have hp : (c.push chunk).poll cfg = .pending (c.push chunk) := by
        unfold Codec.poll
        rw [if_pos hi]
      refine next _ hp hst (fun hx => hne (.inr ?_)) h
      have hi' : c.st.bi.input ++ chunk = [] := hi
      rw [List.append_eq_nil_iff] at hi'
      rw [List.flatten_cons, hi'.1, hi'.2, List.nil_append, List.nil_append]
      rcases hx with rfl | hx
      · rfl
      · rw [hi, List.nil_append] at hx
        exact hx
    · have hp : (c.push chunk).poll cfg =
          codecRun cfg ((c.push chunk).st.bi.input.length + 2) c.stage (c.push chunk).st := by
        unfold Codec.poll
        rw [if_neg hi]
        rfl
      have hsim := codecRun_sim ((c.push chunk).st.bi.input.length + 2) c.stage (c.push chunk).st hst h
        (by
          show (c.push chunk).st.bi.input.length + _ ≤ _
          split <;> omega)
      rw [← hp] at hsim
      cases hpoll : (c.push chunk).poll cfg with
      | pending c' =>
        rw [hpoll] at hsim
        rcases hsim with h1 | ⟨h1, h2⟩ | ⟨h1, h2, h3⟩
        · refine .inl ⟨1, c', ?_, h1⟩
          rw [List.take_succ_cons, feed_cons_pending hpoll, List.take_zero, Codec.feed]
        · refine .inr (.inl ⟨h1, ?_⟩)
          rw [feed_cons_pending hpoll]
          exact h2.feed chunks
        · refine next c' hpoll h1 (fun hx => h2 ?_) h3
          rcases hx with rfl | hx
          · rfl
          · exact (List.append_eq_nil_iff.1 hx).2
      | image r c' =>
        rw [hpoll] at hsim
        refine .inr (.inr ⟨.image r c', chunks, ?_, hsim⟩)
        rw [Codec.feed, hpoll]
      | failed f s =>
        rw [hpoll] at hsim
        refine .inr (.inr ⟨.failed f s, chunks, ?_, hsim⟩)
        rw [Codec.feed, hpoll]

/-! ## Enough fuel -/

theorem doSegment_len {m : Marker} {s t : St} (h : doSegment cfg m s = .ok () t) : len t ≤ len s := by
  by_cases hm : m = .SOS
  · subst hm
    have h : sos cfg s = .ok () t := h
    rw [sos_eq] at h
    cases hs : sosStart cfg s with
    | fail f u => rw [hs] at h; cases h
    | ok pd u =>
      rw [hs, Out.bind_ok] at h
      obtain ⟨-, frame, scan, hf, hsc, hle, -, -⟩ := sosStart_facts hs
      rw [sosBody_rest hf hsc] at h
      have hw : Within (len s) (scanRest cfg pd (mcuList frame.mcuSize) u) := by
        unfold scanRest
        refine Within.bind (mcuLoop_within _ hle) fun _ s hs => ?_
        have := scanEnd_len s
        show len (scanEnd s).state ≤ _
        omega
      rw [h] at hw
      exact hw
  · have := doSegment_shorter (cfg := cfg) hm s
    rw [h] at this
    exact this

theorem segmentLoop_enough : ∀ (f1 f2 : Nat) (s : St), len s < f1 → len s < f2 →
    segmentLoop cfg f1 s = segmentLoop cfg f2 s := by
  intro f1
  induction f1 with
  | zero => intro f2 s h; omega
  | succ f1 ih =>
    intro f2 s h1 h2
    obtain ⟨f2, rfl⟩ : ∃ k, f2 = k + 1 := ⟨f2 - 1, by omega⟩
    rw [segmentLoop, segmentLoop]
    cases e : marker s.bi.input with
    | error f => rfl
    | ok q =>
      obtain ⟨m, rest⟩ := q
      have hlen : rest.length + 1 ≤ len s := marker_shorter e
      simp only
      split
      · rfl
      · cases hd : doSegment cfg m (s.setInput rest) with
        | fail f t => rfl
        | ok u t =>
          have : len t ≤ rest.length := doSegment_len hd
          exact ih f2 t (by omega) (by omega)

/-- What the whole run sees. -/
def Seeing (cfg : Cfg) (s : St) (interval : Nat) (tables : List (Option AcTable)) : Prop :=
  ∃ u, Visits cfg s u ∧ u.dec.restartInterval = interval ∧ u.dec.acTables = tables

theorem ends_run (s : St) :
    Ends cfg (Seeing cfg s) .segments s (segmentLoop cfg (s.bi.input.length + 1) s) := by
  refine ⟨⟨s.bi.input.length + 1, fun fuel hf => ?_⟩, fun u hu => ⟨u, hu, rfl, rfl⟩⟩
  exact segmentLoop_enough fuel _ s (by show s.bi.input.length < _; omega)
    (by show s.bi.input.length < _; omega)

end

end Jpeg
