import Verif.Proofs.Tables
import Verif.Model.Decode
/-!
# Parsers of segments on content that is cut short

What a parser reports on some bytes, other than their end, it reports with more bytes behind.
-/

namespace Jpeg
open Spec

/-- More bytes change only what is reported as an end of the input. -/
def Mono {α : Type} (p : List UInt8 → Except Fail (α × List UInt8)) : Prop :=
  ∀ l x, (∀ a r, p l = .ok (a, r) → p (l ++ x) = .ok (a, r ++ x)) ∧
    (∀ f, p l = .error f → f ≠ .eof → p (l ++ x) = .error f)

theorem Mono.bind {α β : Type} {p : List UInt8 → Except Fail (α × List UInt8)}
    {q : α → List UInt8 → Except Fail (β × List UInt8)} (hp : Mono p) (hq : ∀ a, Mono (q a)) :
    Mono fun l => p l >>= fun r => q r.1 r.2 := by
  intro l x
  obtain ⟨h1, h2⟩ := hp l x
  cases e : p l with
  | error f =>
    refine ⟨fun a r h => ?_, fun g h hn => ?_⟩
    · simp only [e, bind, Except.bind] at h; cases h
    · simp only [e, bind, Except.bind] at h
      cases h
      simp only [h2 f e hn]
      rfl
  | ok ar =>
    obtain ⟨a, r⟩ := ar
    have e2 := h1 a r e
    obtain ⟨h3, h4⟩ := hq a r x
    refine ⟨fun b s h => ?_, fun g h hn => ?_⟩
    · simp only [e, bind, Except.bind] at h
      simp only [e2, bind, Except.bind]
      exact h3 b s h
    · simp only [e, bind, Except.bind] at h
      simp only [e2, bind, Except.bind]
      exact h4 g h hn

theorem Mono.pure {α : Type} (a : α) : Mono fun l => .ok (a, l) := by
  intro l x
  refine ⟨fun b r h => ?_, fun f h => ?_⟩ <;> cases h
  rfl

theorem Mono.error {α : Type} (f : Fail) : Mono fun _ => (.error f : Except Fail (α × List UInt8)) := by
  intro l x
  exact ⟨fun b r h => (by cases h), fun g h _ => h⟩

theorem Mono.ite {α : Type} {c : Prop} [Decidable c] {p q : List UInt8 → Except Fail (α × List UInt8)} (hp : Mono p)
    (hq : Mono q) : Mono fun l => if c then p l else q l := by
  by_cases h : c
  · simpa only [if_pos h] using hp
  · simpa only [if_neg h] using hq

theorem anyByte_mono : Mono anyByte := by
  intro l x
  cases l with
  | nil => exact ⟨fun a r h => (by cases h), fun f h hn => by cases h; exact absurd rfl hn⟩
  | cons b l => exact ⟨fun a r h => (by cases h; rfl), fun f h => by cases h⟩

theorem beU16_mono : Mono beU16 := by
  intro l x
  match l with
  | [] | [_] => exact ⟨fun a r h => (by cases h), fun f h hn => by cases h; exact absurd rfl hn⟩
  | a :: b :: l => exact ⟨fun a r h => (by cases h; rfl), fun f h => by cases h⟩

theorem takeBytes_mono (n : Nat) : Mono (takeBytes n) := by
  intro l x
  unfold takeBytes
  by_cases h : l.length < n
  · rw [if_pos h]
    exact ⟨fun a r h => (by cases h), fun f h hn => by cases h; exact absurd rfl hn⟩
  · rw [if_neg h, if_neg (by simp; omega)]
    refine ⟨fun a r h' => ?_, fun f h => by cases h⟩
    cases h'
    rw [List.take_append_of_le_length (by omega), List.drop_append_of_le_length (by omega)]

theorem Mono.congr {α : Type} {p q : List UInt8 → Except Fail (α × List UInt8)} (hp : Mono p) (h : ∀ l, q l = p l) :
    Mono q := by
  intro l x
  rw [h, h]
  exact hp l x

theorem split4Bit_mono : Mono split4Bit := by
  refine (anyByte_mono.bind (q := fun b l => .ok ((b.toNat >>> 4, b.toNat &&& 0x0F), l)) fun b => .pure _).congr ?_
  intro l
  unfold split4Bit
  cases anyByte l <;> rfl

theorem bytesP_mono : ∀ n, Mono (bytesP n) := by
  intro n
  induction n with
  | zero => exact .pure _
  | succ n ih =>
    refine (anyByte_mono.bind (q := fun b l => bytesP n l >>= fun r => .ok (b.toNat :: r.1, r.2)) fun b =>
      ih.bind (q := fun bs l => .ok (b.toNat :: bs, l)) fun bs => .pure _).congr ?_
    intro l
    rw [bytesP]
    cases anyByte l with
    | error f => rfl
    | ok r =>
      simp only [bind, Except.bind]
      cases bytesP n r.2 <;> rfl

theorem wordsP_mono : ∀ n, Mono (wordsP n) := by
  intro n
  induction n with
  | zero => exact .pure _
  | succ n ih =>
    refine (beU16_mono.bind (q := fun b l => wordsP n l >>= fun r => .ok (b :: r.1, r.2)) fun b =>
      ih.bind (q := fun bs l => .ok (b :: bs, l)) fun bs => .pure _).congr ?_
    intro l
    rw [wordsP]
    cases beU16 l with
    | error f => rfl
    | ok r =>
      simp only [bind, Except.bind]
      cases wordsP n r.2 <;> rfl

theorem dqt_mono : Mono dqt := by
  refine (split4Bit_mono.bind (q := fun pi l => if pi.1 > 1 then .error (.err .dqtPrecision)
    else if ¬ pi.2 < MAX_QUANTIZATION_TABLES then .error (.err .dqtDestination)
    else (if pi.1 = 0 then bytesP 64 l else wordsP 64 l) >>= fun r => .ok ((pi.2, r.1), r.2)) fun pi => ?_).congr ?_
  · refine .ite (.error _) (.ite (.error _) ?_)
    exact (Mono.ite (bytesP_mono 64) (wordsP_mono 64)).bind (q := fun t l => .ok ((pi.2, t), l)) fun t => .pure _
  · intro l
    unfold dqt
    cases split4Bit l with
    | error f => rfl
    | ok r =>
      obtain ⟨⟨p, i⟩, l⟩ := r
      simp only [bind, Except.bind]
      split
      · rfl
      · split
        · rfl
        · cases (if p = 0 then bytesP 64 l else wordsP 64 l) <;> rfl

theorem huffmanTable_mono : Mono huffmanTable := by
  have hin : ∀ (cls : TableClass) (dest : Nat), Mono fun l => takeBytes 16 l >>= fun r =>
      takeBytes (r.1.map (·.toNat)).sum r.2 >>= fun s => .ok ((⟨cls, dest, r.1, s.1⟩ : DHT), s.2) := fun cls dest =>
    (takeBytes_mono 16).bind (q := fun ls l => takeBytes (ls.map (·.toNat)).sum l >>= fun s =>
        .ok ((⟨cls, dest, ls, s.1⟩ : DHT), s.2)) fun ls =>
      (takeBytes_mono _).bind (q := fun vs l => .ok ((⟨cls, dest, ls, vs⟩ : DHT), l)) fun vs => .pure _
  refine (split4Bit_mono.bind (q := fun pi l => match TableClass.new pi.1 with
    | none => .error (.err .tableClass)
    | some cls => if ¬ pi.2 < MAX_HUFFMAN_TABLES then .error (.err .dhtDestination)
      else takeBytes 16 l >>= fun r =>
      takeBytes (r.1.map (·.toNat)).sum r.2 >>= fun s => .ok ((⟨cls, pi.2, r.1, s.1⟩ : DHT), s.2)) fun pi => ?_).congr ?_
  · cases TableClass.new pi.1 with
    | none => exact .error _
    | some cls => exact .ite (.error _) (hin cls _)
  · intro l
    unfold huffmanTable
    cases split4Bit l with
    | error f => rfl
    | ok r =>
      obtain ⟨⟨p, i⟩, l⟩ := r
      simp only [bind, Except.bind]
      cases TableClass.new p with
      | none => rfl
      | some cls =>
        simp only
        split
        · rfl
        · cases takeBytes 16 l with
          | error f => rfl
          | ok r =>
            obtain ⟨ls, l⟩ := r
            simp only
            cases takeBytes (ls.map (·.toNat)).sum l <;> rfl

theorem componentsP_mono : ∀ n, Mono (componentsP n) := by
  have h1 : Mono componentP := by
    let mk : UInt8 → Nat × Nat → UInt8 → Component := fun id hv tq => {
        id, h := hv.1, v := hv.2, tq := tq.toNat, blocksPerMcu := hv.1 * hv.2
        mcuSampleSize := ⟨hv.1 * DCT_SIZE, hv.2 * DCT_SIZE⟩
        bytesPerMcuLine := 0, lineStride := 0, blockSize := ⟨0, 0⟩, size := ⟨0, 0⟩ }
    refine Mono.congr (p := fun l => anyByte l >>= fun r => split4Bit r.2 >>= fun s => checkSamplingFactor s.1.1 >>= fun _ =>
      checkSamplingFactor s.1.2 >>= fun _ => anyByte s.2 >>= fun t => .ok (mk r.1 s.1 t.1, t.2)) ?_ fun _ => rfl
    refine anyByte_mono.bind (q := fun id l => split4Bit l >>= fun r => checkSamplingFactor r.1.1 >>= fun _ =>
      checkSamplingFactor r.1.2 >>= fun _ => anyByte r.2 >>= fun t => .ok (mk id r.1 t.1, t.2)) fun id => ?_
    refine split4Bit_mono.bind (q := fun hv l => checkSamplingFactor hv.1 >>= fun _ =>
      checkSamplingFactor hv.2 >>= fun _ => anyByte l >>= fun t => .ok (mk id hv t.1, t.2)) fun hv => ?_
    have hin := anyByte_mono.bind (q := fun tq l => .ok (mk id hv tq, l)) fun t => .pure _
    cases checkSamplingFactor hv.1 with
    | error f => exact .error _
    | ok u =>
      cases checkSamplingFactor hv.2 with
      | error f => exact .error _
      | ok u => exact hin
  intro n
  induction n with
  | zero => exact .pure _
  | succ n ih =>
    exact h1.bind (q := fun c l => componentsP n l >>= fun r => .ok (c :: r.1, r.2)) fun c =>
      ih.bind (q := fun cs l => .ok (c :: cs, l)) fun cs => .pure _

theorem sof_mono (cfg : Cfg) (i : Nat) : Mono (sof cfg i) := by
  unfold sof
  refine anyByte_mono.bind (q := fun p l => beU16 l >>= fun y => beU16 y.2 >>= fun x => anyByte x.2 >>= fun n =>
    componentsP n.1.toNat n.2 >>= fun cs => buildFrame cfg i p y.1 x.1 cs.1 >>= fun fr => .ok (fr, cs.2)) fun p => ?_
  refine beU16_mono.bind (q := fun y l => beU16 l >>= fun x => anyByte x.2 >>= fun n =>
    componentsP n.1.toNat n.2 >>= fun cs => buildFrame cfg i p y x.1 cs.1 >>= fun fr => .ok (fr, cs.2)) fun y => ?_
  refine beU16_mono.bind (q := fun x l => anyByte l >>= fun n =>
    componentsP n.1.toNat n.2 >>= fun cs => buildFrame cfg i p y x cs.1 >>= fun fr => .ok (fr, cs.2)) fun x => ?_
  refine anyByte_mono.bind (q := fun n l =>
    componentsP n.toNat l >>= fun cs => buildFrame cfg i p y x cs.1 >>= fun fr => .ok (fr, cs.2)) fun n => ?_
  refine (componentsP_mono _).bind (q := fun cs l => buildFrame cfg i p y x cs >>= fun fr => .ok (fr, l)) fun cs => ?_
  cases buildFrame cfg i p y x cs with
  | error f => exact .error _
  | ok fr => exact .pure _

/-- A failure on the content, other than its end, stays. -/
def MonoBody (body : List UInt8 → Decoder → Out Decoder Unit) : Prop :=
  ∀ l x d f d', body l d = .fail f d' → f ≠ .eof → ∃ d2, body (l ++ x) d = .fail f d2

theorem sofBody_mono (cfg : Cfg) (i : Nat) : MonoBody (sofBody cfg i) := by
  intro l x d f d' h hn
  unfold sofBody at h ⊢
  cases e : sof cfg i l with
  | ok r => rw [e] at h; cases h
  | error g =>
    rw [e] at h
    cases h
    rw [(sof_mono cfg i l x).2 f e hn]
    exact ⟨_, rfl⟩

theorem driBody_mono : MonoBody driBody := by
  intro l x d f d' h hn
  unfold driBody at h ⊢
  cases e : beU16 l with
  | ok r => rw [e] at h; cases h
  | error g =>
    rw [e] at h
    cases h
    rw [(beU16_mono l x).2 f e hn]
    exact ⟨_, rfl⟩

theorem adobeBody_mono : MonoBody adobeBody := by
  have hm : Mono fun l => takeBytes 6 l >>= fun r => if r.1 ≠ [0x41, 0x64, 0x6F, 0x62, 0x65, 0x00] then
      .error (.err .adobeTag) else takeBytes 5 r.2 >>= fun s => anyByte s.2 >>= fun b =>
        if b.1 = 0 then .ok (AdobeColorTransform.unknown, b.2) else if b.1 = 1 then .ok (.yCbCr, b.2)
        else if b.1 = 2 then .ok (.ycck, b.2) else .error (.err .adobeTransform) := by
    refine (takeBytes_mono 6).bind (q := fun tag l => if tag ≠ [0x41, 0x64, 0x6F, 0x62, 0x65, 0x00] then
      .error (.err .adobeTag) else takeBytes 5 l >>= fun s => anyByte s.2 >>= fun b =>
        if b.1 = 0 then .ok (AdobeColorTransform.unknown, b.2) else if b.1 = 1 then .ok (.yCbCr, b.2)
        else if b.1 = 2 then .ok (.ycck, b.2) else .error (.err .adobeTransform)) fun tag => .ite (.error _) ?_
    refine (takeBytes_mono 5).bind (q := fun _ l => anyByte l >>= fun b =>
        if b.1 = 0 then .ok (AdobeColorTransform.unknown, b.2) else if b.1 = 1 then .ok (.yCbCr, b.2)
        else if b.1 = 2 then .ok (.ycck, b.2) else .error (.err .adobeTransform)) fun _ => ?_
    exact anyByte_mono.bind (q := fun b l =>
        if b = 0 then .ok (AdobeColorTransform.unknown, l) else if b = 1 then .ok (.yCbCr, l)
        else if b = 2 then .ok (.ycck, l) else .error (.err .adobeTransform)) fun b =>
      .ite (.pure _) (.ite (.pure _) (.ite (.pure _) (.error _)))
  have he : ∀ l, appAdobe l = (takeBytes 6 l >>= fun r => if r.1 ≠ [0x41, 0x64, 0x6F, 0x62, 0x65, 0x00] then
      .error (.err .adobeTag) else takeBytes 5 r.2 >>= fun s => anyByte s.2 >>= fun b =>
        if b.1 = 0 then .ok (AdobeColorTransform.unknown, b.2) else if b.1 = 1 then .ok (.yCbCr, b.2)
        else if b.1 = 2 then .ok (.ycck, b.2) else .error (.err .adobeTransform)).map Prod.fst := by
    intro l
    unfold appAdobe
    simp only [bind, Except.bind, Except.map]
    cases takeBytes 6 l with
    | error f => rfl
    | ok r =>
      obtain ⟨tag, l⟩ := r
      simp only
      split
      · rfl
      · cases takeBytes 5 l with
        | error f => rfl
        | ok r =>
          simp only
          cases anyByte r.2 with
          | error f => rfl
          | ok r =>
            simp only
            split
            · rfl
            · split
              · rfl
              · split <;> rfl
  intro l x d f d' h hn
  unfold adobeBody at h ⊢
  rw [he] at h ⊢
  have := hm l x
  simp only at this
  generalize (takeBytes 6 l >>= _ : Except Fail (AdobeColorTransform × List UInt8)) = o at h this
  cases o with
  | ok r => cases h
  | error g =>
    cases h
    rw [this.2 f rfl hn]
    exact ⟨_, rfl⟩

theorem dqtBody_mono : MonoBody dqtBody := by
  have key : ∀ (n m : Nat) (l x : List UInt8) (d d' : Decoder) (f : Fail), l.length < n → n ≤ m →
      dqtGo n l d = .fail f d' → f ≠ .eof → ∃ d2, dqtGo m (l ++ x) d = .fail f d2 := by
    intro n
    induction n with
    | zero => intro m l x d d' f h; omega
    | succ n ih =>
      intro m l x d d' f hl hm h hn
      obtain ⟨m, rfl⟩ : ∃ k, m = k + 1 := ⟨m - 1, by omega⟩
      rw [dqtGo] at h ⊢
      split at h
      · cases h
      · next hne =>
        rw [if_neg (by simp [hne])]
        cases e : dqt l with
        | error g =>
          rw [e] at h
          cases h
          rw [(dqt_mono l x).2 f e hn]
          exact ⟨_, rfl⟩
        | ok r =>
          obtain ⟨⟨i, t⟩, r⟩ := r
          rw [e] at h
          rw [(dqt_mono l x).1 _ _ e]
          simp only at h ⊢
          cases e2 : quantizationTable t with
          | error g =>
            rw [e2] at h
            cases h
            exact ⟨_, rfl⟩
          | ok q =>
            rw [e2] at h
            have hr : r.length < l.length := by
              obtain ⟨t, -, h2, -⟩ := dqt_inv e
              have : 0 < t.bytes.length := by unfold QuantDef.bytes; simp
              rw [h2, List.length_append]; omega
            exact ih m r x _ d' f (by omega) (by omega) h hn
  intro l x d f d' h hn
  exact key _ _ l x d d' f (by omega) (by simp) h hn

theorem dhtBody_mono (cfg : Cfg) : MonoBody (dhtBody cfg) := by
  have key : ∀ (n m : Nat) (l x : List UInt8) (d d' : Decoder) (f : Fail), l.length < n → n ≤ m →
      dhtGo cfg n l d = .fail f d' → f ≠ .eof → ∃ d2, dhtGo cfg m (l ++ x) d = .fail f d2 := by
    intro n
    induction n with
    | zero => intro m l x d d' f h; omega
    | succ n ih =>
      intro m l x d d' f hl hm h hn
      obtain ⟨m, rfl⟩ : ∃ k, m = k + 1 := ⟨m - 1, by omega⟩
      rw [dhtGo] at h ⊢
      split at h
      · cases h
      · next hne =>
        rw [if_neg (by simp [hne])]
        cases e : huffmanTable l with
        | error g =>
          rw [e] at h
          cases h
          rw [(huffmanTable_mono l x).2 f e hn]
          exact ⟨_, rfl⟩
        | ok r =>
          obtain ⟨t, r⟩ := r
          rw [e] at h
          rw [(huffmanTable_mono l x).1 _ _ e]
          simp only at h ⊢
          cases e2 : defineHuffman cfg t d with
          | fail g d2 =>
            rw [e2] at h
            cases h
            exact ⟨_, rfl⟩
          | ok u d2 =>
            rw [e2] at h
            have hr : r.length < l.length := by
              obtain ⟨t, h1, h2, -⟩ := huffmanTable_inv e
              have := HuffmanDef.bytes_length h1
              rw [h2, List.length_append]; omega
            exact ih m r x _ d' f (by omega) (by omega) h hn
  intro l x d f d' h hn
  exact key _ _ l x d d' f (by omega) (by simp) h hn

end Jpeg
