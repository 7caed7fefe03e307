import Verif.Spec.Wellformed
import Verif.Props.Outcome
/-!
# C69: segments are accepted exactly if they are well formed
-/

namespace Jpeg
open Spec

section

variable {cfg : Cfg}

/-- Reported with an error, not a panic. -/
def Fail.Reported : Fail → Prop
  | .eof => True
  | .err _ => True
  | .unit => False
  | .panic _ => False

theorem takeBytes_reported {n : Nat} {l : List UInt8} {f : Fail} (h : takeBytes n l = .error f) : f.Reported := by
  rw [takeBytes_error h]; trivial

theorem beU16_reported {l : List UInt8} {f : Fail} (h : beU16 l = .error f) : f.Reported := by
  rw [beU16_error h]; trivial

theorem anyByte_reported {l : List UInt8} {f : Fail} (h : anyByte l = .error f) : f.Reported := by
  unfold anyByte at h
  split at h
  · cases h; trivial
  · cases h

theorem split4Bit_reported {l : List UInt8} {f : Fail} (h : split4Bit l = .error f) : f.Reported := by
  unfold split4Bit at h
  split at h
  · rename_i e; cases h; exact anyByte_reported e
  · cases h

theorem huffmanTable_reported {l : List UInt8} {f : Fail} (h : huffmanTable l = .error f) : f.Reported := by
  unfold huffmanTable at h
  split at h
  · rename_i e; cases h; exact split4Bit_reported e
  · split at h
    · cases h; trivial
    · split at h
      · cases h; trivial
      · split at h
        · rename_i e; cases h; exact takeBytes_reported e
        · split at h
          · rename_i e; cases h; exact takeBytes_reported e
          · cases h

/-- The ways a table definition can end. -/
theorem defineHuffman_cases {t : HuffmanDef} (ht : t.Ok) (d : Decoder) :
    (t.Usable ∧ ∃ d', defineHuffman cfg (HuffmanDef.dht t) d = .ok () d') ∨
    ((t.values = [] ∨ cfg.debug = true ∧ 256 < t.values.length) ∧
      ∃ p, defineHuffman cfg (HuffmanDef.dht t) d = .fail (.panic p) d) ∨
    (¬ t.Usable ∧ ¬ (t.values = [] ∨ cfg.debug = true ∧ 256 < t.values.length) ∧
      ∃ e, defineHuffman cfg (HuffmanDef.dht t) d = .fail (.err e) d) := by
  have hok := ht
  obtain ⟨h1, h2, h3⟩ := ht
  have hv : t.values.length = (codeSizes t.counts).length := by rw [codeSizes_length, h3]
  obtain ⟨c1, c2, c3⟩ := C06_rejection cfg t.counts t.values h2 hv
  have fails : ∀ f, BaseTable.new cfg t.counts t.values = .error f →
      defineHuffman cfg (HuffmanDef.dht t) d = .fail f d := by
    intro f hf
    unfold defineHuffman HuffmanDef.dht
    rcases AcTable.new_cases cfg t.counts t.values with ⟨f', e1, e2⟩ | ⟨b, e1, e2⟩
    · rw [hf] at e1
      cases e1
      cases t.ac <;> simp [hf, e2]
    · rw [hf] at e1
      cases e1
  by_cases a0 : t.values.length = 0
  · refine .inr (.inl ⟨.inl (List.length_eq_zero_iff.1 a0), _, fails _ (c1 (by omega))⟩)
  by_cases a1 : 256 < t.values.length
  · have e := c2 (by omega)
    by_cases hd : cfg.debug
    · rw [if_pos hd] at e
      exact .inr (.inl ⟨.inr ⟨hd, a1⟩, _, fails _ e⟩)
    · rw [if_neg hd] at e
      refine .inr (.inr ⟨fun h => ?_, ?_, _, fails _ e⟩)
      · have := h.2.2.1; omega
      · rintro (h | h)
        · simp [h] at a0
        · exact hd h.1
  by_cases hk : KraftOk (codeSizes t.counts)
  · have hu : t.Usable := ⟨hok, by omega, by omega, hk⟩
    obtain ⟨d', d1, hd, -⟩ := definedAll_exists (cfg := cfg) [t] d (fun t' ht' => by
      rw [List.mem_singleton] at ht'; rw [ht']; exact hu)
    exact .inl ⟨hu, d1, (defineHuffman_iff cfg t d d1).2 hd⟩
  · refine .inr (.inr ⟨fun h => hk h.2.2.2, ?_, _, fails _ (c3 (by omega) (by omega) hk)⟩)
    rintro (h | h)
    · simp [h] at a0
    · omega

theorem dhtGo_cases : ∀ (fuel : Nat) (l : List UInt8) (d : Decoder), l.length < fuel →
    match dhtGo cfg fuel l d with
    | .ok _ _ => WellFormed .DHT l
    | .fail (.panic _) _ => Fatal cfg.debug .DHT l
    | .fail f _ => f.Reported := by
  intro fuel
  induction fuel with
  | zero => intro l d h; omega
  | succ fuel ih =>
    intro l d hl
    rw [dhtGo]
    by_cases h0 : l = []
    · rw [if_pos h0, h0]
      exact ⟨[], rfl, by simp⟩
    rw [if_neg h0]
    cases e : huffmanTable l with
    | error f =>
      have := huffmanTable_reported e
      cases f <;> simp_all [Fail.Reported]
    | ok q =>
      obtain ⟨t', rest⟩ := q
      obtain ⟨t, hok, rfl, rfl⟩ := huffmanTable_inv e
      simp only
      rcases defineHuffman_cases (cfg := cfg) hok d with ⟨hu, d', e'⟩ | ⟨hf, p, e'⟩ | ⟨-, -, k, e'⟩ <;> rw [e'] <;>
        simp only
      · have hb := HuffmanDef.bytes_length hok
        rw [List.length_append] at hl
        have := ih rest d' (by omega)
        generalize dhtGo cfg fuel rest d' = o at this
        match o, this with
        | .ok _ _, this =>
          obtain ⟨ts, rfl, h⟩ := this
          exact ⟨t :: ts, rfl, by simpa using ⟨hu, h⟩⟩
        | .fail (.panic _) _, this =>
          obtain ⟨ts, t1, after, rfl, h, h'⟩ := this
          exact ⟨t :: ts, t1, after, by simp, by simpa using ⟨hu, h⟩, h'⟩
        | .fail .unit _, this => exact this
        | .fail .eof _, this => exact this
        | .fail (.err _) _, this => exact this
      · exact ⟨[], t, rest, rfl, by simp, hok, hf⟩
      · trivial

theorem dhtGo_fatal : ∀ (ts : List HuffmanDef) (fuel : Nat) (d : Decoder) (t : HuffmanDef) (l : List UInt8),
    (∀ t ∈ ts, t.Usable) → (ts.flatMap HuffmanDef.bytes).length < fuel → t.Ok →
    (t.values = [] ∨ cfg.debug = true ∧ 256 < t.values.length) →
    ∃ p d', dhtGo cfg fuel (ts.flatMap HuffmanDef.bytes ++ (t.bytes ++ l)) d = .fail (.panic p) d' := by
  intro ts
  induction ts with
  | nil =>
    intro fuel d t l _ hf hok hb
    obtain ⟨fuel, rfl⟩ : ∃ k, fuel = k + 1 := ⟨fuel - 1, by omega⟩
    simp only [List.flatMap_nil, List.nil_append]
    have hpos := HuffmanDef.bytes_length hok
    rw [dhtGo, if_neg (by
      intro h
      have := congrArg List.length h
      simp only [List.length_append, List.length_nil] at this
      omega), huffmanTable_ok hok]
    simp only
    rcases defineHuffman_cases (cfg := cfg) hok d with ⟨hu, -⟩ | ⟨-, p, e'⟩ | ⟨-, hn, -⟩
    · exfalso
      rcases hb with h | h
      · have := hu.2.1; simp [h] at this
      · have := hu.2.2.1; omega
    · rw [e']; exact ⟨p, d, rfl⟩
    · exact absurd hb hn
  | cons t ts ih =>
    intro fuel d t1 l hok hf h1 hb
    obtain ⟨fuel, rfl⟩ : ∃ k, fuel = k + 1 := ⟨fuel - 1, by omega⟩
    obtain ⟨d', d1, hd, _⟩ := definedAll_exists (cfg := cfg) [t] d (fun t' ht' => hok t' (by
      rw [List.mem_singleton] at ht'; simp [ht']))
    have ht := (hok t (by simp)).1
    rw [List.flatMap_cons, List.append_assoc, dhtGo_step ht hd]
    refine ih fuel d1 t1 l (fun t ht => hok t (by simp [ht])) ?_ h1 hb
    have := HuffmanDef.bytes_length ht
    rw [List.flatMap_cons, List.length_append] at hf
    omega

theorem bytesP_reported : ∀ (n : Nat) (l : List UInt8) (f : Fail), bytesP n l = .error f → f.Reported := by
  intro n
  induction n with
  | zero => intro l f h; cases h
  | succ n ih =>
    intro l f h
    rw [bytesP] at h
    split at h
    · rename_i e; cases h; exact anyByte_reported e
    · split at h
      · rename_i e; cases h; exact ih _ _ e
      · cases h

theorem wordsP_reported : ∀ (n : Nat) (l : List UInt8) (f : Fail), wordsP n l = .error f → f.Reported := by
  intro n
  induction n with
  | zero => intro l f h; cases h
  | succ n ih =>
    intro l f h
    rw [wordsP] at h
    split at h
    · rename_i e; cases h; exact beU16_reported e
    · split at h
      · rename_i e; cases h; exact ih _ _ e
      · cases h

theorem dqt_reported {l : List UInt8} {f : Fail} (h : dqt l = .error f) : f.Reported := by
  unfold dqt at h
  split at h
  · rename_i e; cases h; exact split4Bit_reported e
  · split at h
    · cases h; trivial
    · split at h
      · cases h; trivial
      · split at h
        · rename_i e
          cases h
          split at e
          · exact bytesP_reported _ _ _ e
          · exact wordsP_reported _ _ _ e
        · cases h

theorem dqtGo_cases : ∀ (fuel : Nat) (l : List UInt8) (d : Decoder), l.length < fuel →
    match dqtGo fuel l d with
    | .ok _ _ => WellFormed .DQT l
    | .fail f _ => f.Reported := by
  intro fuel
  induction fuel with
  | zero => intro l d h; omega
  | succ fuel ih =>
    intro l d hl
    rw [dqtGo]
    by_cases h0 : l = []
    · rw [if_pos h0, h0]
      exact ⟨[], rfl, by simp⟩
    rw [if_neg h0]
    cases e : dqt l with
    | error f => exact dqt_reported e
    | ok q =>
      obtain ⟨⟨i, table⟩, rest⟩ := q
      obtain ⟨t, hok, rfl, rfl, rfl⟩ := dqt_inv e
      obtain ⟨q, e', -⟩ := quantizationTable_ok t.values hok.2.1
      simp only [e']
      have hb := QuantDef.bytes_length hok
      rw [List.length_append] at hl
      have := ih rest { d with quantTables := d.quantTables.set t.dest (some q) } (by omega)
      generalize dqtGo fuel rest _ = o at this
      match o, this with
      | .ok _ _, this =>
        obtain ⟨ts, rfl, h⟩ := this
        exact ⟨t :: ts, rfl, by simpa using ⟨hok, h⟩⟩
      | .fail _ _, this => exact this

theorem driBody_cases (l : List UInt8) (d : Decoder) :
    match driBody l d with
    | .ok _ _ => 2 ≤ l.length
    | .fail f _ => ¬ 2 ≤ l.length ∧ f.Reported := by
  unfold driBody
  match l with
  | [] => exact ⟨by simp, trivial⟩
  | [_] => exact ⟨by simp, trivial⟩
  | _ :: _ :: _ => simp [beU16]

theorem adobeBody_cases (l : List UInt8) (d : Decoder) :
    match adobeBody l d with
    | .ok _ _ => WellFormed (.APP 14) l
    | .fail f _ => ¬ WellFormed (.APP 14) l ∧ f.Reported := by
  unfold adobeBody
  have tag : ([0x41, 0x64, 0x6F, 0x62, 0x65, 0x00] : List UInt8).length = 6 := rfl
  cases e : appAdobe l with
  | ok t =>
    unfold appAdobe at e
    cases e1 : takeBytes 6 l with
    | error f => rw [e1] at e; cases e
    | ok q =>
      obtain ⟨a, l1⟩ := q
      rw [e1] at e
      simp only at e
      split at e
      · cases e
      rename_i ha
      simp only [ne_eq, not_not] at ha
      subst ha
      cases e2 : takeBytes 5 l1 with
      | error f => rw [e2] at e; cases e
      | ok q =>
        obtain ⟨five, l2⟩ := q
        rw [e2] at e
        simp only at e
        cases l2 with
        | nil => cases e
        | cons b l3 =>
          simp only [anyByte] at e
          obtain ⟨rfl, h5⟩ := takeBytes_inv e2
          obtain ⟨rfl, -⟩ := takeBytes_inv e1
          intro _
          refine ⟨five, b, l3, by simp, h5, ?_⟩
          split at e
          · rename_i h; rw [h]; decide
          · split at e
            · rename_i h; rw [h]; decide
            · split at e
              · rename_i h; rw [h]; decide
              · cases e
  | error f =>
    refine ⟨?_, ?_⟩
    · intro h
      obtain ⟨five, t, extra, rfl, h5, ht⟩ := h rfl
      unfold appAdobe at e
      rw [← tag, List.append_assoc, takeBytes_append] at e
      simp only [ne_eq, not_true_eq_false, if_false] at e
      rw [← h5, takeBytes_append] at e
      simp only [anyByte] at e
      have : t = 0 ∨ t = 1 ∨ t = 2 := by
        rcases (by omega : t.toNat = 0 ∨ t.toNat = 1 ∨ t.toNat = 2) with h | h | h
        · exact .inl (UInt8.toNat_inj.1 h)
        · exact .inr (.inl (UInt8.toNat_inj.1 h))
        · exact .inr (.inr (UInt8.toNat_inj.1 h))
      rcases this with rfl | rfl | rfl <;> simp at e
    · unfold appAdobe at e
      split at e
      · rename_i e1; cases e; exact takeBytes_reported e1
      · split at e
        · cases e; trivial
        · split at e
          · rename_i e1; cases e; exact takeBytes_reported e1
          · split at e
            · rename_i e1; cases e; exact anyByte_reported e1
            · split at e
              · cases e
              · split at e
                · cases e
                · split at e
                  · cases e
                  · cases e; trivial

theorem componentP_cases (l : List UInt8) :
    match componentP l with
    | .ok (_, rest) => ∃ c : HeaderComponent, FactorsOk c.h c.v ∧ l = c.bytes ++ rest
    | .error f => f.Reported := by
  cases e : componentP l with
  | ok q =>
    obtain ⟨c, rest⟩ := q
    obtain ⟨id, b, tq, rfl, rfl, hf⟩ := componentP_ok e
    refine ⟨⟨id, b.toNat / 16, b.toNat % 16, tq⟩, ?_, ?_⟩
    · have : FactorsOk (b.toNat >>> 4) (b.toNat &&& 0x0F) := hf
      rw [Nat.shiftRight_eq_div_pow, show (0x0F : Nat) = 2 ^ 4 - 1 from rfl, Nat.and_two_pow_sub_one_eq_mod] at this
      exact this
    · unfold HeaderComponent.bytes
      rw [← selNibbles_inv b]
      rfl
  | error f =>
    unfold componentP at e
    simp only [bind, Except.bind] at e
    split at e
    · rename_i e1; cases e; exact anyByte_reported e1
    · split at e
      · rename_i e1; cases e; exact split4Bit_reported e1
      · split at e
        · rename_i e1
          cases e
          unfold checkSamplingFactor at e1
          split at e1 <;> cases e1; trivial
        · split at e
          · rename_i e1
            cases e
            unfold checkSamplingFactor at e1
            split at e1 <;> cases e1; trivial
          · split at e
            · rename_i e1; cases e; exact anyByte_reported e1
            · cases e

theorem componentsP_cases : ∀ (n : Nat) (l : List UInt8),
    match componentsP n l with
    | .ok (_, rest) => ∃ cs : List HeaderComponent, cs.length = n ∧ (∀ c ∈ cs, FactorsOk c.h c.v) ∧
        l = cs.flatMap HeaderComponent.bytes ++ rest
    | .error f => f.Reported := by
  intro n
  induction n with
  | zero => intro l; exact ⟨[], rfl, by simp, rfl⟩
  | succ n ih =>
    intro l
    simp only [componentsP, bind, Except.bind]
    have h1 := componentP_cases l
    cases e1 : componentP l with
    | error f => rw [e1] at h1; exact h1
    | ok q =>
      obtain ⟨c', l1⟩ := q
      rw [e1] at h1
      obtain ⟨c, hf, rfl⟩ := h1
      simp only
      have h2 := ih l1
      cases e2 : componentsP n l1 with
      | error f => rw [e2] at h2; exact h2
      | ok q =>
        obtain ⟨cs', l2⟩ := q
        rw [e2] at h2
        obtain ⟨cs, rfl, hcs, rfl⟩ := h2
        exact ⟨c :: cs, by simp, by simpa using ⟨hf, hcs⟩, by simp⟩

theorem frameHeader_eq (p : UInt8) (y x : Nat) (cs : List HeaderComponent) :
    frameHeader p y x cs = p :: be16 y ++ be16 x ++ UInt8.ofNat cs.length :: cs.flatMap HeaderComponent.bytes := rfl

theorem sof_cases (i : Nat) (l : List UInt8) :
    match sof cfg i l with
    | .ok _ => WellFormed (.SOF i) l
    | .error (.panic _) => Fatal cfg.debug (.SOF i) l
    | .error f => f.Reported := by
  unfold sof
  simp only [bind, Except.bind]
  cases l with
  | nil => trivial
  | cons p l1 =>
    simp only [anyByte]
    cases e2 : beU16 l1 with
    | error f => rw [beU16_error e2]; trivial
    | ok q2 =>
      obtain ⟨y, l2⟩ := q2
      obtain ⟨hy, rfl⟩ := beU16_inv e2
      simp only
      cases e3 : beU16 l2 with
      | error f => rw [beU16_error e3]; trivial
      | ok q3 =>
        obtain ⟨x, l3⟩ := q3
        obtain ⟨hx, rfl⟩ := beU16_inv e3
        simp only
        cases l3 with
        | nil => trivial
        | cons n l4 =>
          simp only
          have h5 := componentsP_cases n.toNat l4
          cases e5 : componentsP n.toNat l4 with
          | error f =>
            rw [e5] at h5
            cases f <;> first | exact h5 | exact absurd h5 id
          | ok q5 =>
            obtain ⟨cs', l5⟩ := q5
            rw [e5] at h5
            obtain ⟨cs, hn, hcs, rfl⟩ := h5
            have hn256 := n.toNat_lt
            have hb : p :: (be16 y ++ (be16 x ++ n :: (cs.flatMap HeaderComponent.bytes ++ l5))) =
                frameHeader p y x cs ++ l5 := by
              rw [frameHeader_eq, hn, UInt8.ofNat_toNat]
              simp
            rw [hb]
            by_cases h0 : cs = []
            · have hl := (componentsP_ok _ e5).1
              rw [h0, List.length_nil] at hn
              rw [← hn, List.length_eq_zero_iff] at hl
              subst hl
              rw [h0]
              exact ⟨p, y, x, l5, rfl, hy, hx⟩
            · obtain ⟨hl, hc⟩ := componentsP_ok _ e5
              have h1 : 1 ≤ cs.length := List.length_pos_iff.2 h0
              obtain ⟨H, V, -, -, hb⟩ := buildFrame_eq cfg i p hx hy cs'
                (by intro h; rw [h, List.length_nil] at hl; omega) (by
                  intro c hc'
                  obtain ⟨_, _, _, _, rfl, hf⟩ := hc c hc'
                  exact hf)
              simp only [hb]
              exact ⟨p, y, x, cs, l5, rfl, hy, hx, h1, by omega, hcs⟩

theorem sof_fatal {i : Nat} {l : List UInt8} (h : Fatal cfg.debug (.SOF i) l) :
    ∃ p, sof cfg i l = .error (.panic p) := by
  obtain ⟨p, y, x, extra, rfl, hy, hx⟩ := h
  refine ⟨.noComponents, ?_⟩
  rw [frameHeader_eq]
  unfold sof
  simp only [bind, Except.bind, List.cons_append, List.append_assoc, anyByte]
  rw [beU16_be16 (by omega)]
  simp only
  rw [beU16_be16 (by omega)]
  rfl

theorem segment_result {body : List UInt8 → Decoder → Out Decoder Unit} {d : Decoder} {payload rest : List UInt8}
    {bits count : Nat} (hlen : payload.length + 2 < 65536) :
    segment cfg body ⟨d, ⟨segmentOf payload ++ rest, bits, count⟩⟩ =
      match body payload d with
      | .ok _ d' => .ok () ⟨d', ⟨rest, bits, count⟩⟩
      | .fail f d' => .fail f ⟨d', ⟨rest, bits, count⟩⟩ := by
  rw [segment]
  simp only [segmentBytes_ok cfg hlen]
  cases body payload d <;> rfl

theorem doSegment_kinds {m : Marker} (hm : HasSegment m) (d : Decoder) (bits count : Nat)
    (payload rest : List UInt8) (hlen : payload.length + 2 < 65536) :
    match doSegment cfg m ⟨d, ⟨segmentOf payload ++ rest, bits, count⟩⟩ with
    | .ok _ _ => WellFormed m payload
    | .fail (.panic _) _ => Fatal cfg.debug m payload
    | .fail f _ => f.Reported := by
  cases m with
  | SOF i =>
    rw [doSegment, segment_result hlen, sofBody]
    have := sof_cases (cfg := cfg) i payload
    generalize sof cfg i payload = o at this
    match o, this with
    | .ok q, this => exact this
    | .error (.panic _), this => exact this
    | .error .unit, this => exact this
    | .error .eof, this => exact this
    | .error (.err _), this => exact this
  | DHT =>
    rw [doSegment, segment_result hlen, dhtBody]
    have := dhtGo_cases (cfg := cfg) (payload.length + 1) payload d (by omega)
    generalize dhtGo cfg (payload.length + 1) payload d = o at this
    match o, this with
    | .ok _ _, this => exact this
    | .fail (.panic _) _, this => exact this
    | .fail .unit _, this => exact this
    | .fail .eof _, this => exact this
    | .fail (.err _) _, this => exact this
  | DQT =>
    rw [doSegment, segment_result hlen, dqtBody]
    have := dqtGo_cases (payload.length + 1) payload d (by omega)
    generalize dqtGo (payload.length + 1) payload d = o at this
    match o, this with
    | .ok _ _, this => exact this
    | .fail (.panic _) _, this => exact absurd this id
    | .fail .unit _, this => exact this
    | .fail .eof _, this => exact this
    | .fail (.err _) _, this => exact this
  | DRI =>
    rw [doSegment, segment_result hlen]
    have := driBody_cases payload d
    generalize driBody payload d = o at this
    match o, this with
    | .ok _ _, this => exact this
    | .fail (.panic _) _, this => exact absurd this.2 id
    | .fail .unit _, this => exact this.2
    | .fail .eof _, this => exact this.2
    | .fail (.err _) _, this => exact this.2
  | APP n =>
    rw [doSegment]
    by_cases h : n = 14
    · subst h
      rw [if_pos rfl, segment_result hlen]
      have := adobeBody_cases payload d
      generalize adobeBody payload d = o at this
      match o, this with
      | .ok _ _, this => exact this
      | .fail (.panic _) _, this => exact absurd this.2 id
      | .fail .unit _, this => exact this.2
      | .fail .eof _, this => exact this.2
      | .fail (.err _) _, this => exact this.2
    · rw [if_neg h, segment_result hlen]
      exact fun e => absurd e h
  | _ => exact absurd hm id

theorem doSegment_wellFormed {m : Marker} (hm : HasSegment m) (d : Decoder) (bits count : Nat)
    (payload rest : List UInt8) (hlen : payload.length + 2 < 65536) (h : WellFormed m payload) :
    ∃ d', doSegment cfg m ⟨d, ⟨segmentOf payload ++ rest, bits, count⟩⟩ = .ok () ⟨d', ⟨rest, bits, count⟩⟩ := by
  cases m with
  | SOF i =>
    obtain ⟨p, y, x, cs, extra, rfl, hy, hx, h1, h255, hf⟩ := h
    obtain ⟨H, V, -, -, e⟩ := sof_header cfg i p hx hy cs (by intro h; simp [h] at h1) h255 hf extra
    rw [doSegment, segment_result hlen, sofBody, e]
    exact ⟨_, rfl⟩
  | DHT =>
    obtain ⟨ts, rfl, hts⟩ := h
    exact C38_dht_accepted cfg ts d bits count rest hlen hts
  | DQT => exact (C38_dqt_accepted cfg d payload hlen rest bits count).2 h
  | DRI =>
    rw [doSegment, segment_result hlen]
    have := driBody_cases payload d
    generalize driBody payload d = o at this
    match o, this with
    | .ok _ d', _ => exact ⟨d', rfl⟩
    | .fail _ _, this => exact absurd h this.1
  | APP n =>
    rw [doSegment]
    by_cases hn : n = 14
    · subst hn
      rw [if_pos rfl, segment_result hlen]
      have := adobeBody_cases payload d
      generalize adobeBody payload d = o at this
      match o, this with
      | .ok _ d', _ => exact ⟨d', rfl⟩
      | .fail _ _, this => exact absurd h this.1
    · rw [if_neg hn, segment_result hlen]
      exact ⟨d, rfl⟩
  | _ => exact absurd hm id

theorem doSegment_fatal {m : Marker} (hm : HasSegment m) (d : Decoder) (bits count : Nat)
    (payload rest : List UInt8) (hlen : payload.length + 2 < 65536) (h : Fatal cfg.debug m payload) :
    ∃ p s', doSegment cfg m ⟨d, ⟨segmentOf payload ++ rest, bits, count⟩⟩ = .fail (.panic p) s' := by
  cases m with
  | SOF i =>
    obtain ⟨p, e⟩ := sof_fatal h
    rw [doSegment, segment_result hlen, sofBody, e]
    exact ⟨_, _, rfl⟩
  | DHT =>
    obtain ⟨ts, t, after, rfl, hts, hok, hb⟩ := h
    obtain ⟨p, d', e⟩ := dhtGo_fatal (cfg := cfg) ts
      ((ts.flatMap HuffmanDef.bytes ++ (t.bytes ++ after)).length + 1) d t after hts (by simp; omega) hok hb
    rw [doSegment, segment_result hlen, dhtBody, e]
    exact ⟨_, _, rfl⟩
  | DQT => exact absurd h id
  | DRI => exact absurd h id
  | APP n => exact absurd h id
  | _ => exact absurd hm id

end

/-- **C69** (a segment). On every decoder, a frame header, table, restart interval, application or Adobe segment
is accepted exactly if its content is well formed; it panics exactly for the contents listed in `Fatal`;
everything else is reported as an error. -/
theorem C69_segment (cfg : Cfg) (m : Marker) (hm : HasSegment m) (d : Decoder) (bits count : Nat)
    (payload rest : List UInt8) (hlen : payload.length + 2 < 65536) :
    ((∃ s', doSegment cfg m ⟨d, ⟨segmentOf payload ++ rest, bits, count⟩⟩ = .ok () s') ↔ WellFormed m payload) ∧
    ((∃ p s', doSegment cfg m ⟨d, ⟨segmentOf payload ++ rest, bits, count⟩⟩ = .fail (.panic p) s') ↔
      Fatal cfg.debug m payload) ∧
    (¬ WellFormed m payload → ¬ Fatal cfg.debug m payload →
      ∃ f s', doSegment cfg m ⟨d, ⟨segmentOf payload ++ rest, bits, count⟩⟩ = .fail f s' ∧
        (f = .eof ∨ ∃ e, f = .err e)) := by
  have hc := doSegment_kinds (cfg := cfg) hm d bits count payload rest hlen
  refine ⟨⟨?_, fun h => ?_⟩, ⟨?_, fun h => ?_⟩, fun h1 h2 => ?_⟩
  · rintro ⟨s', e⟩; rw [e] at hc; exact hc
  · obtain ⟨d', e⟩ := doSegment_wellFormed (cfg := cfg) hm d bits count payload rest hlen h; exact ⟨_, e⟩
  · rintro ⟨p, s', e⟩; rw [e] at hc; exact hc
  · exact doSegment_fatal hm d bits count payload rest hlen h
  · generalize doSegment cfg m ⟨d, ⟨segmentOf payload ++ rest, bits, count⟩⟩ = o at hc
    match o, hc with
    | .ok _ _, hc => exact absurd hc h1
    | .fail (.panic _) _, hc => exact absurd hc h2
    | .fail .unit _, hc => exact absurd hc id
    | .fail .eof s', _ => exact ⟨_, s', rfl, .inl rfl⟩
    | .fail (.err e) s', _ => exact ⟨_, s', rfl, .inr ⟨e, rfl⟩⟩

/-- The segments of a file in front of its first scan: any of the kinds of C69, well formed. -/
def HeaderSegments (segs : List (Marker × List UInt8)) : Prop :=
  ∀ s ∈ segs, HasSegment s.1 ∧ MarkerExists s.1 ∧ s.2.length + 2 < 65536 ∧ WellFormed s.1 s.2

/-- A file: the segments, then anything. -/
def fileOf (segs : List (Marker × List UInt8)) (rest : List UInt8) : List UInt8 :=
  markerBytes .SOI ++ (segs.flatMap (fun p => markerSegment p.1 p.2) ++ rest)

section

variable {cfg : Cfg}

theorem loopAll_segs {bits count : Nat} (hwf : ∀ l, (⟨l, bits, count⟩ : Biterator).WF) (rest : List UInt8) :
    ∀ (segs : List (Marker × List UInt8)), HeaderSegments segs → ∀ d, DecInv d → ∃ d', DecInv d' ∧
      (∀ ids, (d'.frame.map fun f => f.components.map (·.id)) = some ids →
        idsAfter (d.frame.map fun f => f.components.map (·.id)) segs ids) ∧
      loopAll cfg ⟨d, ⟨segs.flatMap (fun p => markerSegment p.1 p.2) ++ rest, bits, count⟩⟩ =
        loopAll cfg ⟨d', ⟨rest, bits, count⟩⟩ := by
  intro segs
  induction segs with
  | nil => intro _ d hd; exact ⟨d, hd, fun ids h => .inr ⟨by simp, h⟩, rfl⟩
  | cons q segs ih =>
    intro hq d hd
    obtain ⟨m, payload⟩ := q
    obtain ⟨h1, h2, h3, h4⟩ := hq (m, payload) (by simp)
    have hne : m ≠ .EOI := by rintro rfl; exact h1
    obtain ⟨d1, e1⟩ := doSegment_wellFormed (cfg := cfg) h1 d bits count payload
      (segs.flatMap (fun p => markerSegment p.1 p.2) ++ rest) h3 h4
    have hs := doSegment_safe (cfg := cfg) h2 (s := ⟨d, ⟨segmentOf payload ++
      (segs.flatMap (fun p => markerSegment p.1 p.2) ++ rest), bits, count⟩⟩) hd (hwf _)
    rw [e1] at hs
    obtain ⟨d', i', f', e'⟩ := ih (fun p hp => hq p (by simp [hp])) d1 hs.inv
    refine ⟨d', i', ?_, ?_⟩
    · intro ids hids
      rcases f' ids hids with ⟨before, i, p, y, x, cs, extra, after, rfl, g1, g2, g3⟩ | ⟨g1, g2⟩
      · exact .inl ⟨(m, payload) :: before, i, p, y, x, cs, extra, after, rfl, g1, g2, g3⟩
      · by_cases hm : ∃ i, m = .SOF i
        · obtain ⟨i, rfl⟩ := hm
          obtain ⟨p, y, x, cs, extra, rfl, hy, hx, c1, c255, hf⟩ := h4
          obtain ⟨H, V, -, -, e⟩ := sof_header cfg i p hx hy cs (by intro h; simp [h] at c1) c255 hf extra
          rw [doSegment, segment_result h3, sofBody, e] at e1
          simp only [Out.ok.injEq, true_and, St.mk.injEq] at e1
          rw [← e1.1] at g2
          refine .inl ⟨[], i, p, y, x, cs, extra, segs, rfl, c255, g1, ?_⟩
          simp only [Option.map_some, Option.some.injEq, List.map_map] at g2
          rw [← g2]
          rfl
        · have hf := hs.frame (fun i e => hm ⟨i, e⟩)
          simp only [Out.state] at hf
          rw [hf] at g2
          refine .inr ⟨?_, g2⟩
          intro s hs' j
          rw [List.mem_cons] at hs'
          rcases hs' with rfl | hs'
          · exact fun e => hm ⟨j, e⟩
          · exact g1 s hs' j
    · rw [loopAll_eq hd (hwf _) (m := m) (rest := segmentOf payload ++
        (segs.flatMap (fun p => markerSegment p.1 p.2) ++ rest)) (by
          rw [← marker_bytes' h2]; simp [markerSegment]) hne]
      simp only [St.setInput]
      rw [e1, Out.bind_ok, e']

theorem decode_fileOf {d : Decoder} (hd : UsedDecoder d) {segs : List (Marker × List UInt8)}
    (hs : HeaderSegments segs) (rest : List UInt8) : ∃ d', DecInv d' ∧
      (∀ ids, (d'.frame.map fun f => f.components.map (·.id)) = some ids →
        idsAfter (d.frame.map fun f => f.components.map (·.id)) segs ids) ∧
      loopAll cfg ⟨d, Biterator.new (fileOf segs rest)⟩ = loopAll cfg ⟨d', ⟨rest, 0, 0⟩⟩ := by
  obtain ⟨d', h1, h2, h3⟩ := loopAll_segs (cfg := cfg) wf_zero rest segs hs d hd.inv
  refine ⟨d', h1, h2, ?_⟩
  unfold fileOf Biterator.new
  rw [loopAll_eq (m := .SOI) hd.inv (wf_zero _) (marker_bytes' (m := .SOI) trivial _) (by decide)]
  simp only [St.setInput, doSegment, Out.bind_ok]
  exact h3

end

/-- **C69** (a file). A file whose first malformed segment is not one of the fatal ones is refused with an error,
whatever follows; one whose first malformed segment is fatal makes decode panic. -/
theorem C69_malformed (cfg : Cfg) (segs : List (Marker × List UInt8)) (hs : HeaderSegments segs) (m : Marker)
    (hm : HasSegment m) (he : MarkerExists m) (payload rest : List UInt8) (hlen : payload.length + 2 < 65536)
    (hw : ¬ WellFormed m payload) (d : Decoder) (hd : UsedDecoder d) :
    (¬ Fatal cfg.debug m payload → ∃ f d', d.decode cfg (fileOf segs (markerSegment m payload ++ rest)) = .fail f d' ∧
      (f = .eof ∨ ∃ e, f = .err e)) ∧
    (Fatal cfg.debug m payload → ∃ p d', d.decode cfg (fileOf segs (markerSegment m payload ++ rest)) =
      .fail (.panic p) d') := by
  obtain ⟨d', hi, -, e⟩ := decode_fileOf (cfg := cfg) hd hs (markerSegment m payload ++ rest)
  have hne : m ≠ .EOI := by rintro rfl; exact hm
  rw [loopAll_eq (s := ⟨d', ⟨markerSegment m payload ++ rest, 0, 0⟩⟩) hi (wf_zero _) (m := m) (rest := segmentOf payload ++ rest) (by
    rw [← marker_bytes' he]; simp [markerSegment]) hne] at e
  simp only [St.setInput] at e
  obtain ⟨-, c2, c3⟩ := C69_segment cfg m hm d' 0 0 payload rest hlen
  constructor
  · intro hf
    obtain ⟨f, s', e1, h⟩ := c3 hw hf
    rw [e1, Out.bind_fail] at e
    exact ⟨f, _, decode_of_fail e, h⟩
  · intro hf
    obtain ⟨p, s', e1⟩ := c2.2 hf
    rw [e1, Out.bind_fail] at e
    exact ⟨p, _, decode_of_fail e⟩

theorem scanHeadersP_reported (frame : Option Frame) : ∀ (n : Nat) (mi : Option Nat) (l : List UInt8) (f : Fail),
    scanHeadersP frame n mi l = .error f → f.Reported := by
  intro n
  induction n with
  | zero => intro mi l f h; cases h
  | succ n ih =>
    intro mi l f h
    rw [scanHeadersP] at h
    split at h
    · rename_i e; cases h; exact anyByte_reported e
    · split at h
      · rename_i e; cases h; exact split4Bit_reported e
      · split at h
        · cases h; trivial
        · split at h
          · cases h; trivial
          · split at h
            · cases h; trivial
            · split at h
              · rename_i e; cases h; exact ih _ _ _ e
              · cases h

theorem sosSegment_reported {frame : Option Frame} {l : List UInt8} {f : Fail}
    (h : sosSegment frame l = .error f) : f.Reported := by
  unfold sosSegment at h
  split at h
  · rename_i e; cases h; exact anyByte_reported e
  · split at h
    · cases h; trivial
    · split at h
      · rename_i e; cases h; exact scanHeadersP_reported _ _ _ _ _ e
      · split at h
        · rename_i e; cases h; exact anyByte_reported e
        · split at h
          · rename_i e; cases h; exact anyByte_reported e
          · split at h
            · rename_i e; cases h; exact split4Bit_reported e
            · cases h

/-- **C69** (scan headers). A file whose first scan header does not fit the frame header in force, or that has a scan
header but no frame header, is refused with an error, whatever follows. -/
theorem C69_scan_header (cfg : Cfg) (segs : List (Marker × List UInt8)) (hs : HeaderSegments segs)
    (payload rest : List UInt8) (hlen : payload.length + 2 < 65536) (d : Decoder) (hd : UsedDecoder d)
    (hw : ∀ ids, idsAfter (d.frame.map fun f => f.components.map (·.id)) segs ids → ¬ ScanHeaderFor ids payload) :
    ∃ f d', d.decode cfg (fileOf segs (markerSegment .SOS payload ++ rest)) = .fail f d' ∧
      (f = .eof ∨ ∃ e, f = .err e) := by
  obtain ⟨d', hi, hids, e⟩ := decode_fileOf (cfg := cfg) hd hs (markerSegment .SOS payload ++ rest)
  rw [loopAll_eq (s := ⟨d', ⟨markerSegment .SOS payload ++ rest, 0, 0⟩⟩) hi (wf_zero _) (m := .SOS) (rest := segmentOf payload ++ rest) (by
    rw [← marker_bytes' (m := .SOS) trivial]; simp [markerSegment]) (by decide)] at e
  simp only [St.setInput, doSegment, sos, segmentBytes_ok cfg hlen] at e
  cases eh : sosSegment d'.frame payload with
  | error f =>
    rw [eh, Out.bind_fail] at e
    refine ⟨f, _, decode_of_fail e, ?_⟩
    have := sosSegment_reported eh
    cases f with
    | eof => exact .inl rfl
    | err k => exact .inr ⟨k, rfl⟩
    | unit => exact absurd this id
    | panic p => exact absurd this id
  | ok q =>
    exfalso
    obtain ⟨scan, unread⟩ := q
    obtain ⟨fr, comps, ss, se, ah, al, hf, hah, hal, h1, h4, rfl, hall, hi', -⟩ := sosSegment_inv eh
    refine hw (fr.components.map (·.id)) (hids _ (by rw [hf]; rfl)) ⟨comps, ss, se, ah, al, unread,
      scan.headers.map (·.componentIndex), rfl, hah, hal, h1, h4, ?_, ?_, hi'⟩
    · intro c hc
      clear hi' h4 h1 eh hlen e hw
      generalize scan.headers = hs at hall
      induction hall with
      | nil => cases hc
      | cons hh _ ih =>
        rw [List.mem_cons] at hc
        rcases hc with rfl | hc
        · exact hh.2.2.2
        · exact ih hc
    · rw [List.forall₂_map_right_iff]
      refine hall.imp ?_
      rintro c h ⟨⟨⟨k, hk, hkid⟩, hfirst⟩, -⟩
      refine ⟨by rw [List.getElem?_map, hk, ← hkid]; rfl, ?_⟩
      intro j hj hne
      rw [List.getElem?_map, Option.map_eq_some_iff] at hne
      obtain ⟨k', hk', e'⟩ := hne
      exact hfirst j k' hj hk' e'

/-- A case of C69: a restart interval, then an Adobe segment with transform 3. -/
example : HeaderSegments [(.DRI, [0, 7])] ∧
    ¬ WellFormed (.APP 14) [0x41, 0x64, 0x6F, 0x62, 0x65, 0x00, 0x64, 0, 0, 0, 0, 3] ∧
    ¬ Fatal true (.APP 14) [0x41, 0x64, 0x6F, 0x62, 0x65, 0x00, 0x64, 0, 0, 0, 0, 3] := by
  refine ⟨?_, ?_, id⟩
  · intro s hs
    rw [List.mem_singleton] at hs
    subst hs
    exact ⟨trivial, trivial, by decide, by show 2 ≤ 2; omega⟩
  · intro h
    obtain ⟨five, t, extra, e, h5, ht⟩ := h rfl
    match five, h5 with
    | [a, b, c, d, f], _ =>
      simp only [List.cons_append, List.nil_append, List.cons.injEq, true_and] at e
      obtain ⟨-, -, -, -, -, rfl, -⟩ := e
      exact absurd ht (by decide)

/-- A fatal case: a frame without components. -/
example : Fatal false (.SOF 0) [8, 0, 1, 0, 1, 0] ∧ ¬ WellFormed (.SOF 0) [8, 0, 1, 0, 1, 0] := by
  refine ⟨⟨8, 1, 1, [], rfl, by omega, by omega⟩, ?_⟩
  rintro ⟨p, y, x, cs, extra, e, -, -, h1, h255, -⟩
  unfold frameHeader at e
  simp only [List.cons_append, List.nil_append, List.cons.injEq] at e
  have := congrArg UInt8.toNat e.2.2.2.2.2.1
  rw [UInt8.toNat_ofNat', Nat.mod_eq_of_lt (by omega)] at this
  have h0 : (0 : UInt8).toNat = 0 := rfl
  omega

/-- A scan header on a new decoder without a frame header. -/
example (payload : List UInt8) :
    ∀ ids, idsAfter (Decoder.default.frame.map fun f => f.components.map (·.id)) [(.DRI, [0, 7])] ids →
      ¬ ScanHeaderFor ids payload := by
  rintro ids (⟨before, i, p, y, x, cs, extra, after, e, -⟩ | ⟨-, h⟩)
  · exfalso
    match before, e with
    | [], e => simp at e
    | [_], e => simp at e
    | _ :: _ :: _, e => simp at e
  · cases h

end Jpeg
