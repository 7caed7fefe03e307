import Verif.Proofs.Parser
import Verif.Props.Huffman
import Verif.Spec.ZigZag
/-!
# Lemmas about DHT and DQT segments
-/

namespace Jpeg
open Spec

theorem codeSizes_length (counts : List UInt8) :
    (codeSizes counts).length = (counts.map UInt8.toNat).sum := by
  unfold codeSizes
  generalize 0 = k
  induction counts generalizing k with
  | nil => rfl
  | cons c cs ih => simp [sizesFrom, ih]

/-- Class and destination of a table definition. -/
def defByte (hi : Bool) (dest : Nat) : UInt8 := UInt8.ofNat ((if hi then 16 else 0) + dest)

theorem defByte_div {hi : Bool} {dest : Nat} (h : dest ≤ 3) :
    (defByte hi dest).toNat / 16 = (if hi then 1 else 0) ∧ (defByte hi dest).toNat % 16 = dest := by
  unfold defByte
  cases hi
  · simp only [Bool.false_eq_true, if_false]
    rw [ofNat_toNat (by omega)]
    omega
  · simp only [if_true]
    rw [ofNat_toNat (by omega)]
    omega

theorem defByte_inv {b : UInt8} (h1 : b.toNat / 16 ≤ 1) (h2 : b.toNat % 16 ≤ 3) :
    b = defByte (b.toNat / 16 == 1) (b.toNat % 16) := by
  unfold defByte
  symm
  rw [UInt8.ofNat_eq_iff]
  · rcases Nat.lt_or_ge (b.toNat / 16) 1 with h | h
    · rw [show (b.toNat / 16 == 1) = false by simp; omega]
      simp only [Bool.false_eq_true, if_false]
      omega
    · rw [show (b.toNat / 16 == 1) = true by simp; omega]
      simp only [if_true]
      omega
  · split <;> omega

/-! ## Huffman tables -/

/-- The parsed form of a definition. -/
def HuffmanDef.dht (t : HuffmanDef) : DHT := ⟨if t.ac then .ac else .dc, t.dest, t.counts, t.values⟩

theorem huffmanTable_ok {t : HuffmanDef} (h : t.Ok) (rest : List UInt8) :
    huffmanTable (t.bytes ++ rest) = .ok (HuffmanDef.dht t, rest) := by
  obtain ⟨h1, h2, h3⟩ := h
  have hb := defByte_div (hi := t.ac) h1
  unfold huffmanTable HuffmanDef.bytes
  rw [List.cons_append, split4Bit_cons]
  simp only
  change (match TableClass.new ((defByte t.ac t.dest).toNat / 16) with | none => _ | some _ => _) = _
  rw [show (UInt8.ofNat ((if t.ac = true then 16 else 0) + t.dest)) = defByte t.ac t.dest from rfl,
    hb.1, hb.2]
  have hc : TableClass.new (if t.ac = true then 1 else 0) = some (if t.ac then .ac else .dc) := by
    cases t.ac <;> rfl
  rw [hc]
  simp only
  rw [if_neg (by unfold MAX_HUFFMAN_TABLES; omega), List.append_assoc, ← h2, takeBytes_append]
  simp only
  rw [← h3, takeBytes_append]
  rfl

theorem huffmanTable_inv {l rest : List UInt8} {t : DHT} (h : huffmanTable l = .ok (t, rest)) :
    ∃ d : HuffmanDef, d.Ok ∧ l = d.bytes ++ rest ∧ t = HuffmanDef.dht d := by
  unfold huffmanTable at h
  cases l with
  | nil => simp [split4Bit, anyByte] at h
  | cons b l =>
    rw [split4Bit_cons] at h
    simp only at h
    cases hc : TableClass.new (b.toNat / 16) with
    | none => rw [hc] at h; simp at h
    | some cls =>
      rw [hc] at h
      simp only at h
      split at h
      · simp at h
      · rename_i hd
        have hd : b.toNat % 16 ≤ 3 := by unfold MAX_HUFFMAN_TABLES at hd; omega
        cases h16 : takeBytes 16 l with
        | error f => rw [h16] at h; simp at h
        | ok p =>
          obtain ⟨lengths, l'⟩ := p
          obtain ⟨rfl, hlen⟩ := takeBytes_inv h16
          rw [h16] at h
          simp only at h
          cases hv : takeBytes (lengths.map (·.toNat)).sum l' with
          | error f => rw [hv] at h; simp at h
          | ok p =>
            obtain ⟨values, l''⟩ := p
            obtain ⟨rfl, hvl⟩ := takeBytes_inv hv
            rw [hv] at h
            simp only [Except.ok.injEq, Prod.mk.injEq] at h
            obtain ⟨rfl, rfl⟩ := h
            have hcl : b.toNat / 16 ≤ 1 ∧ cls = if (b.toNat / 16 == 1) then .ac else .dc := by
              unfold TableClass.new at hc
              split at hc
              · rename_i e; injection hc with hc; subst hc; rw [e]; exact ⟨by omega, rfl⟩
              · rename_i e; injection hc with hc; subst hc; rw [e]; exact ⟨by omega, rfl⟩
              · simp at hc
            refine ⟨⟨b.toNat / 16 == 1, b.toNat % 16, lengths, values⟩, ⟨hd, hlen, hvl⟩, ?_, ?_⟩
            · unfold HuffmanDef.bytes
              have := defByte_inv hcl.1 hd
              unfold defByte at this
              simp only
              rw [List.cons_append, List.append_assoc, ← this]
            · unfold HuffmanDef.dht
              simp only
              rw [hcl.2]

theorem HuffmanDef.bytes_length {t : HuffmanDef} (h : t.Ok) : 17 ≤ t.bytes.length := by
  unfold HuffmanDef.bytes
  simp [h.2.1]

/-- What a definition does to the decoder, given that its table can be built. -/
def defined (cfg : Cfg) (t : HuffmanDef) (d d' : Decoder) : Prop :=
  if t.ac then ∃ tab, AcTable.new cfg t.counts t.values = .ok tab ∧
    d' = { d with acTables := d.acTables.set t.dest (some tab) }
  else ∃ tab, BaseTable.new cfg t.counts t.values = .ok tab ∧
    d' = { d with dcTables := d.dcTables.set t.dest (some tab) }

theorem defineHuffman_iff (cfg : Cfg) (t : HuffmanDef) (d d' : Decoder) :
    defineHuffman cfg (HuffmanDef.dht t) d = .ok () d' ↔ defined cfg t d d' := by
  unfold defineHuffman defined HuffmanDef.dht
  cases t.ac
  · simp only [Bool.false_eq_true, if_false]
    cases BaseTable.new cfg t.counts t.values with
    | error f => simp
    | ok tab => simp [eq_comm]
  · simp only [if_true]
    cases AcTable.new cfg t.counts t.values with
    | error f => simp
    | ok tab => simp [eq_comm]

/-- A list of definitions carried out in order. -/
def definedAll (cfg : Cfg) : List HuffmanDef → Decoder → Decoder → Prop
  | [], d, d' => d' = d
  | t :: ts, d, d' => ∃ d1, defined cfg t d d1 ∧ definedAll cfg ts d1 d'

theorem dhtGo_ok {cfg : Cfg} : ∀ (ts : List HuffmanDef) (fuel : Nat) (d d' : Decoder),
    (∀ t ∈ ts, t.Ok) → (ts.flatMap HuffmanDef.bytes).length < fuel → definedAll cfg ts d d' →
    dhtGo cfg fuel (ts.flatMap HuffmanDef.bytes) d = .ok () d' := by
  intro ts
  induction ts with
  | nil =>
    intro fuel d d' _ hf h
    obtain ⟨fuel, rfl⟩ : ∃ k, fuel = k + 1 := ⟨fuel - 1, by omega⟩
    rw [show d' = d from h]
    simp [dhtGo]
  | cons t ts ih =>
    intro fuel d d' hok hf h
    obtain ⟨fuel, rfl⟩ : ∃ k, fuel = k + 1 := ⟨fuel - 1, by omega⟩
    obtain ⟨d1, h1, h2⟩ := h
    have ht := HuffmanDef.bytes_length (hok t (by simp))
    rw [List.flatMap_cons] at hf ⊢
    rw [List.length_append] at hf
    have hne : t.bytes ++ ts.flatMap HuffmanDef.bytes ≠ [] := by
      intro e; rw [List.append_eq_nil_iff] at e; rw [e.1] at ht; simp at ht
    rw [dhtGo, if_neg hne, huffmanTable_ok (hok t (by simp))]
    simp only
    rw [(defineHuffman_iff cfg t d d1).2 h1]
    exact ih fuel d1 d' (fun t h => hok t (by simp [h])) (by omega) h2

theorem dhtGo_inv {cfg : Cfg} : ∀ (fuel : Nat) (l : List UInt8) (d d' : Decoder),
    dhtGo cfg fuel l d = .ok () d' →
    ∃ ts : List HuffmanDef, (∀ t ∈ ts, t.Ok) ∧ l = ts.flatMap HuffmanDef.bytes ∧
      definedAll cfg ts d d' := by
  intro fuel
  induction fuel with
  | zero => intro l d d' h; simp [dhtGo] at h
  | succ fuel ih =>
    intro l d d' h
    rw [dhtGo] at h
    split at h
    · rename_i hl
      simp only [Out.ok.injEq, true_and] at h
      exact ⟨[], by simp, by simp [hl], h.symm⟩
    · cases hh : huffmanTable l with
      | error f => rw [hh] at h; simp at h
      | ok p =>
        obtain ⟨t, l'⟩ := p
        obtain ⟨t, hok, rfl, rfl⟩ := huffmanTable_inv hh
        rw [hh] at h
        simp only at h
        cases hd : defineHuffman cfg (HuffmanDef.dht t) d with
        | fail f d1 => rw [hd] at h; simp at h
        | ok u d1 =>
          rw [hd] at h
          obtain ⟨ts, hts, rfl, hall⟩ := ih l' d1 d' h
          refine ⟨t :: ts, ?_, by rw [List.flatMap_cons], d1, (defineHuffman_iff cfg t d d1).1 hd, hall⟩
          intro x hx
          rcases List.mem_cons.1 hx with rfl | hx
          · exact hok
          · exact hts x hx

/-! ### The resulting tables -/

theorem lastWith_cons {α : Type} (p : α → Bool) (a : α) (l : List α) :
    lastWith p (a :: l) = match lastWith p l with
      | some x => some x
      | none => if p a then some a else none := by
  unfold lastWith
  rw [List.filter_cons]
  by_cases ha : p a
  · simp only [ha, if_true]
    cases hf : l.filter p with
    | nil => simp
    | cons x xs =>
      rw [List.getLast?_cons_cons]
      cases hg : (x :: xs).getLast? with
      | none => simp at hg
      | some y => rfl
  · simp only [ha]
    simp only [Bool.false_eq_true, if_false]
    cases (l.filter p).getLast? <;> rfl

/-- The effect of the definitions `ts` on the slots of one kind. -/
def SlotsAfter {α : Type} (make : HuffmanDef → α → Prop) (kind : Bool) (ts : List HuffmanDef)
    (old new : List (Option α)) : Prop :=
  new.length = old.length ∧ ∀ k, k < 4 →
    match lastWith (fun t => t.ac == kind && t.dest == k) ts with
    | none => new[k]? = old[k]?
    | some t => ∃ tab, new[k]? = some (some tab) ∧ make t tab

theorem SlotsAfter.cons {α : Type} {make : HuffmanDef → α → Prop} {kind : Bool} {t : HuffmanDef}
    {ts : List HuffmanDef} {old mid new : List (Option α)} (hlen : old.length = 4)
    (hmid : if t.ac = kind then ∃ tab, make t tab ∧ mid = old.set t.dest (some tab) else mid = old)
    (h : SlotsAfter make kind ts mid new) : SlotsAfter make kind (t :: ts) old new := by
  have hml : mid.length = old.length := by
    split at hmid
    · obtain ⟨tab, _, rfl⟩ := hmid; simp
    · rw [hmid]
  refine ⟨h.1.trans hml, fun k hk => ?_⟩
  have hk' := h.2 k hk
  rw [lastWith_cons]
  cases hl : lastWith (fun t => t.ac == kind && t.dest == k) ts with
  | some x => rw [hl] at hk'; exact hk'
  | none =>
    rw [hl] at hk'
    simp only at hk' ⊢
    by_cases ha : t.ac = kind
    · rw [if_pos ha] at hmid
      obtain ⟨tab, hm, rfl⟩ := hmid
      by_cases hd : t.dest = k
      · rw [if_pos (by simp [ha, hd])]
        simp only
        refine ⟨tab, ?_, hm⟩
        rw [hk', ← hd]
        simp [show t.dest < old.length by omega]
      · rw [if_neg (by simp [ha, hd])]
        simp only
        rw [hk', List.getElem?_set_ne hd]
    · rw [if_neg ha] at hmid
      rw [if_neg (by simp [ha])]
      simp only
      rw [hk', hmid]

theorem definedAll_slots {cfg : Cfg} : ∀ (ts : List HuffmanDef) (d d' : Decoder),
    d.acTables.length = 4 → d.dcTables.length = 4 → definedAll cfg ts d d' →
    SlotsAfter (fun t tab => AcTable.new cfg t.counts t.values = .ok tab) true ts
      d.acTables d'.acTables ∧
    SlotsAfter (fun t tab => BaseTable.new cfg t.counts t.values = .ok tab) false ts
      d.dcTables d'.dcTables ∧
    d' = { d with acTables := d'.acTables, dcTables := d'.dcTables } := by
  intro ts
  induction ts with
  | nil =>
    intro d d' _ _ h
    rw [show d' = d from h]
    exact ⟨⟨rfl, fun _ _ => rfl⟩, ⟨rfl, fun _ _ => rfl⟩, rfl⟩
  | cons t ts ih =>
    intro d d' ha hd h
    obtain ⟨d1, h1, h2⟩ := h
    unfold defined at h1
    cases hac : t.ac
    · rw [hac] at h1
      simp only [Bool.false_eq_true, if_false] at h1
      obtain ⟨tab, e, rfl⟩ := h1
      obtain ⟨i1, i2, i3⟩ := ih _ d' (by exact ha) (by simpa using hd) h2
      refine ⟨.cons ha (by simp [hac]) i1, .cons hd ?_ i2, ?_⟩
      · rw [hac, if_pos rfl]; exact ⟨tab, e, rfl⟩
      · rw [i3]
    · rw [hac] at h1
      simp only [if_true] at h1
      obtain ⟨tab, e, rfl⟩ := h1
      obtain ⟨i1, i2, i3⟩ := ih _ d' (by simpa using ha) (by exact hd) h2
      refine ⟨.cons ha ?_ i1, .cons hd (by simp [hac]) i2, ?_⟩
      · rw [hac, if_pos rfl]; exact ⟨tab, e, rfl⟩
      · rw [i3]

theorem definedAll_exists {cfg : Cfg} : ∀ (ts : List HuffmanDef) (d : Decoder),
    (∀ t ∈ ts, t.Ok ∧ 1 ≤ t.values.length ∧ t.values.length ≤ 256 ∧ KraftOk (codeSizes t.counts)) →
    ∃ d', definedAll cfg ts d d' := by
  intro ts
  induction ts with
  | nil => intro d _; exact ⟨d, rfl⟩
  | cons t ts ih =>
    intro d h
    obtain ⟨hok, h1, h2, h3⟩ := h t (by simp)
    have hv : t.values.length = (codeSizes t.counts).length := by
      rw [codeSizes_length]; exact hok.2.2
    have hd : ∃ d1, defined cfg t d d1 := by
      unfold defined
      cases t.ac
      · obtain ⟨tab, e⟩ := (C06_acceptance cfg t.counts t.values hok.2.1 hv).2
          ⟨by omega, by omega, h3⟩
        exact ⟨_, by simp only [Bool.false_eq_true, if_false]; exact ⟨tab, e, rfl⟩⟩
      · obtain ⟨tab, e⟩ := (C06_acceptance_ac cfg t.counts t.values hok.2.1 hv).2
          ⟨by omega, by omega, h3⟩
        exact ⟨_, by simp only [if_true]; exact ⟨tab, e, rfl⟩⟩
    obtain ⟨d1, hd1⟩ := hd
    obtain ⟨d', hd'⟩ := ih d1 fun t ht => h t (by simp [ht])
    exact ⟨d', d1, hd1, hd'⟩

/-! ## Quantisation tables -/

theorem flatMap_be16 (l : List Nat) : l.flatMap be16 = beWords l := by
  induction l with
  | nil => rfl
  | cons a l ih => rw [List.flatMap_cons, ih]; rfl

theorem bytesP_inv : ∀ (n : Nat) (l : List UInt8) (t : List Nat) (r : List UInt8),
    bytesP n l = .ok (t, r) → t.length = n ∧ (∀ v ∈ t, v < 256) ∧ l = t.map UInt8.ofNat ++ r := by
  intro n
  induction n with
  | zero => intro l t r h; simp [bytesP] at h; obtain ⟨rfl, rfl⟩ := h; simp
  | succ n ih =>
    intro l t r h
    cases l with
    | nil => simp [bytesP, anyByte] at h
    | cons b l =>
      simp only [bytesP, anyByte] at h
      cases hb : bytesP n l with
      | error f => rw [hb] at h; simp at h
      | ok p =>
        obtain ⟨bs, l'⟩ := p
        rw [hb] at h
        simp only [Except.ok.injEq, Prod.mk.injEq] at h
        obtain ⟨rfl, rfl⟩ := h
        obtain ⟨h1, h2, h3⟩ := ih l bs l' hb
        refine ⟨by simp [h1], ?_, ?_⟩
        · intro v hv
          rcases List.mem_cons.1 hv with rfl | hv
          · exact b.toNat_lt
          · exact h2 v hv
        · rw [List.map_cons, List.cons_append, ← h3]; simp

theorem wordsP_inv : ∀ (n : Nat) (l : List UInt8) (t : List Nat) (r : List UInt8),
    wordsP n l = .ok (t, r) → t.length = n ∧ (∀ v ∈ t, v < 65536) ∧ l = t.flatMap be16 ++ r := by
  intro n
  induction n with
  | zero => intro l t r h; simp [wordsP] at h; obtain ⟨rfl, rfl⟩ := h; simp
  | succ n ih =>
    intro l t r h
    rw [wordsP] at h
    cases hw : beU16 l with
    | error f => rw [hw] at h; simp at h
    | ok p =>
      obtain ⟨w, l1⟩ := p
      obtain ⟨hlt, rfl⟩ := beU16_inv hw
      rw [hw] at h
      simp only at h
      cases hb : wordsP n l1 with
      | error f => rw [hb] at h; simp at h
      | ok p =>
        obtain ⟨bs, l'⟩ := p
        rw [hb] at h
        simp only [Except.ok.injEq, Prod.mk.injEq] at h
        obtain ⟨rfl, rfl⟩ := h
        obtain ⟨h1, h2, h3⟩ := ih l1 bs l' hb
        refine ⟨by simp [h1], ?_, ?_⟩
        · intro v hv
          rcases List.mem_cons.1 hv with rfl | hv
          · exact hlt
          · exact h2 v hv
        · rw [List.flatMap_cons, List.append_assoc, ← h3]

theorem dqt_ok {t : QuantDef} (h : t.Ok) (rest : List UInt8) :
    dqt (t.bytes ++ rest) = .ok ((t.dest, t.values), rest) := by
  obtain ⟨h1, h2, h3⟩ := h
  have hb := defByte_div (hi := t.wide) h1
  unfold dqt QuantDef.bytes
  rw [List.cons_append, split4Bit_cons,
    show (UInt8.ofNat ((if t.wide = true then 16 else 0) + t.dest)) = defByte t.wide t.dest from rfl,
    hb.1, hb.2]
  simp only
  rw [if_neg (by split <;> omega), if_neg (by unfold MAX_QUANTIZATION_TABLES; omega)]
  cases hw : t.wide
  · rw [hw] at h3
    simp only [Bool.false_eq_true, if_false, if_true] at h3 ⊢
    have := bytesP_append (t.values.map UInt8.ofNat) rest
    rw [List.length_map, h2, List.map_map] at this
    rw [this]
    simp only [Except.ok.injEq, Prod.mk.injEq, true_and, and_true]
    rw [List.map_congr_left (g := id)]
    · simp
    · intro v hv; exact ofNat_toNat (h3 v hv)
  · rw [hw] at h3
    simp only [if_true] at h3 ⊢
    rw [if_neg (by omega), flatMap_be16, ← h2, wordsP_append _ h3]

theorem dqt_inv {l rest : List UInt8} {i : Nat} {table : List Nat}
    (h : dqt l = .ok ((i, table), rest)) :
    ∃ t : QuantDef, t.Ok ∧ l = t.bytes ++ rest ∧ i = t.dest ∧ table = t.values := by
  unfold dqt at h
  cases l with
  | nil => simp [split4Bit, anyByte] at h
  | cons b l =>
    rw [split4Bit_cons] at h
    simp only at h
    split at h
    · simp at h
    · rename_i hp
      split at h
      · simp at h
      · rename_i hd
        have hd : b.toNat % 16 ≤ 3 := by unfold MAX_QUANTIZATION_TABLES at hd; omega
        have hbyte := defByte_inv (b := b) (by omega) hd
        unfold defByte at hbyte
        cases hv : (if b.toNat / 16 = 0 then bytesP 64 l else wordsP 64 l) with
        | error f => rw [hv] at h; simp at h
        | ok p =>
          obtain ⟨tab, l'⟩ := p
          rw [hv] at h
          simp only [Except.ok.injEq, Prod.mk.injEq] at h
          obtain ⟨⟨rfl, rfl⟩, rfl⟩ := h
          refine ⟨⟨b.toNat / 16 == 1, b.toNat % 16, tab⟩, ?_, ?_, rfl, rfl⟩
          · split at hv
            · rename_i h0
              obtain ⟨e1, e2, _⟩ := bytesP_inv _ _ _ _ hv
              refine ⟨hd, e1, ?_⟩
              simp only [h0]
              simpa using e2
            · rename_i h0
              obtain ⟨e1, e2, _⟩ := wordsP_inv _ _ _ _ hv
              refine ⟨hd, e1, ?_⟩
              simp only [show b.toNat / 16 = 1 by omega]
              simpa using e2
          · unfold QuantDef.bytes
            simp only
            rw [List.cons_append, ← hbyte]
            congr 1
            split at hv
            · rename_i h0
              obtain ⟨_, _, e3⟩ := bytesP_inv _ _ _ _ hv
              rw [h0, e3]; rfl
            · rename_i h0
              obtain ⟨_, _, e3⟩ := wordsP_inv _ _ _ _ hv
              rw [show b.toNat / 16 = 1 by omega, e3]; rfl

theorem QuantDef.bytes_length {t : QuantDef} (_ : t.Ok) : 1 ≤ t.bytes.length := by
  unfold QuantDef.bytes
  simp

/-- What a definition does to the decoder. -/
def quantDefined (t : QuantDef) (d d' : Decoder) : Prop :=
  ∃ q, quantizationTable t.values = .ok q ∧
    d' = { d with quantTables := d.quantTables.set t.dest (some q) }

/-- A list of definitions carried out in order. -/
def quantDefinedAll : List QuantDef → Decoder → Decoder → Prop
  | [], d, d' => d' = d
  | t :: ts, d, d' => ∃ d1, quantDefined t d d1 ∧ quantDefinedAll ts d1 d'

theorem dqtGo_ok : ∀ (ts : List QuantDef) (fuel : Nat) (d d' : Decoder),
    (∀ t ∈ ts, t.Ok) → (ts.flatMap QuantDef.bytes).length < fuel → quantDefinedAll ts d d' →
    dqtGo fuel (ts.flatMap QuantDef.bytes) d = .ok () d' := by
  intro ts
  induction ts with
  | nil =>
    intro fuel d d' _ hf h
    obtain ⟨fuel, rfl⟩ : ∃ k, fuel = k + 1 := ⟨fuel - 1, by omega⟩
    rw [show d' = d from h]
    simp [dqtGo]
  | cons t ts ih =>
    intro fuel d d' hok hf h
    obtain ⟨fuel, rfl⟩ : ∃ k, fuel = k + 1 := ⟨fuel - 1, by omega⟩
    obtain ⟨d1, ⟨q, hq, rfl⟩, h2⟩ := h
    have ht := QuantDef.bytes_length (hok t (by simp))
    rw [List.flatMap_cons] at hf ⊢
    rw [List.length_append] at hf
    have hne : t.bytes ++ ts.flatMap QuantDef.bytes ≠ [] := by
      intro e; rw [List.append_eq_nil_iff] at e; rw [e.1] at ht; simp at ht
    rw [dqtGo, if_neg hne, dqt_ok (hok t (by simp))]
    simp only
    rw [hq]
    exact ih fuel _ d' (fun t h => hok t (by simp [h])) (by omega) h2

theorem dqtGo_inv : ∀ (fuel : Nat) (l : List UInt8) (d d' : Decoder),
    dqtGo fuel l d = .ok () d' →
    ∃ ts : List QuantDef, (∀ t ∈ ts, t.Ok) ∧ l = ts.flatMap QuantDef.bytes ∧
      quantDefinedAll ts d d' := by
  intro fuel
  induction fuel with
  | zero => intro l d d' h; simp [dqtGo] at h
  | succ fuel ih =>
    intro l d d' h
    rw [dqtGo] at h
    split at h
    · rename_i hl
      simp only [Out.ok.injEq, true_and] at h
      exact ⟨[], by simp, by simp [hl], h.symm⟩
    · cases hh : dqt l with
      | error f => rw [hh] at h; simp at h
      | ok p =>
        obtain ⟨⟨i, table⟩, l'⟩ := p
        obtain ⟨t, hok, rfl, rfl, rfl⟩ := dqt_inv hh
        rw [hh] at h
        simp only at h
        cases hd : quantizationTable t.values with
        | error f => rw [hd] at h; simp at h
        | ok q =>
          rw [hd] at h
          obtain ⟨ts, hts, rfl, hall⟩ := ih l' _ d' h
          refine ⟨t :: ts, ?_, by rw [List.flatMap_cons], _, ⟨q, hd, rfl⟩, hall⟩
          intro x hx
          rcases List.mem_cons.1 hx with rfl | hx
          · exact hok
          · exact hts x hx

/-- The effect of the definitions `ts` on the slots. -/
def QuantSlotsAfter (ts : List QuantDef) (old new : List (Option (List Nat))) : Prop :=
  new.length = old.length ∧ ∀ k, k < 4 →
    match lastWith (fun t => t.dest == k) ts with
    | none => new[k]? = old[k]?
    | some t => ∃ q, new[k]? = some (some q) ∧ q.length = 64 ∧
        ∀ i, i < 64 → q[zigzag i]? = t.values[i]?

theorem quantDefinedAll_slots : ∀ (ts : List QuantDef) (d d' : Decoder), (∀ t ∈ ts, t.Ok) →
    d.quantTables.length = 4 → quantDefinedAll ts d d' →
    QuantSlotsAfter ts d.quantTables d'.quantTables ∧
    d' = { d with quantTables := d'.quantTables } := by
  intro ts
  induction ts with
  | nil =>
    intro d d' _ _ h
    rw [show d' = d from h]
    exact ⟨⟨rfl, fun _ _ => rfl⟩, rfl⟩
  | cons t ts ih =>
    intro d d' hok hd h
    obtain ⟨d1, ⟨q, hq, rfl⟩, h2⟩ := h
    obtain ⟨i1, i2⟩ := ih _ d' (fun t h => hok t (by simp [h])) (by simpa using hd) h2
    refine ⟨⟨by simpa using i1.1, fun k hk => ?_⟩, by rw [i2]⟩
    have hk' := i1.2 k hk
    rw [lastWith_cons]
    cases hl : lastWith (fun t => t.dest == k) ts with
    | some x => rw [hl] at hk'; exact hk'
    | none =>
      rw [hl] at hk'
      simp only at hk' ⊢
      by_cases hdest : t.dest = k
      · rw [if_pos (by simp [hdest])]
        simp only
        obtain ⟨q', e, hl, hz⟩ := quantizationTable_ok t.values (hok t (by simp)).2.1
        rw [hq] at e; injection e with e; subst e
        refine ⟨q, ?_, hl, hz⟩
        rw [hk', ← hdest]
        simp [show t.dest < d.quantTables.length by have := (hok t (by simp)).1; omega]
      · rw [if_neg (by simp [hdest])]
        simp only
        rw [hk', List.getElem?_set_ne hdest]

theorem quantDefinedAll_exists : ∀ (ts : List QuantDef) (d : Decoder), (∀ t ∈ ts, t.Ok) →
    ∃ d', quantDefinedAll ts d d' := by
  intro ts
  induction ts with
  | nil => intro d _; exact ⟨d, rfl⟩
  | cons t ts ih =>
    intro d h
    obtain ⟨q, e, _⟩ := quantizationTable_ok t.values (h t (by simp)).2.1
    obtain ⟨d', hd'⟩ := ih { d with quantTables := d.quantTables.set t.dest (some q) }
      fun t ht => h t (by simp [ht])
    exact ⟨d', _, ⟨q, e, rfl⟩, hd'⟩

end Jpeg
