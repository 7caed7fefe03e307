import Verif.Model.Framed
import Verif.Props.StreamPending
import Verif.Props.StreamSafe
import Verif.Props.Truncated
/-!
# C80, C81: a `DecoderCodec` in tokio's `FramedRead`
-/

namespace Jpeg
open Spec Sample

/-- The pieces a reader gives. -/
def Spec.piecesOf : List PollRead → List (List UInt8)
  | [] => []
  | .data chunk :: reads => chunk :: piecesOf reads
  | .pending :: reads => piecesOf reads
  | .error :: reads => piecesOf reads

/-- A reader that reports no error and gives no empty piece before its end. It may have nothing to give for a while
(`Poll::Pending`). -/
def Spec.Steady (reads : List PollRead) : Prop := PollRead.error ∉ reads ∧ PollRead.data [] ∉ reads

section
variable {cfg : Cfg}

/-! ## The loop over the buffer ends -/

theorem codecRun_shorter : ∀ (fuel : Nat) (st : Stage) (s : St), StageInv st s →
    ∀ r c, codecRun cfg fuel st s = .image r c → c.st.bi.input.length < s.bi.input.length := by
  intro fuel
  induction fuel with
  | zero => intro st s _ r c h; rw [codecRun] at h; cases h
  | succ fuel ih =>
    intro st s hs r c h
    rw [codecRun] at h
    have key : match stageStep cfg st s with
        | .next t => StageInv .segments t ∧ t.bi.input.length ≤ s.bi.input.length
        | .eoi t => t.bi.input.length < s.bi.input.length
        | _ => True := by
      cases st with
      | segments =>
        have h1 := segmentStep_inv (cfg := cfg) hs.1 hs.2 (List.suffix_refl _)
        have h2 : ∀ t, segmentStep cfg s = .eoi t → t.bi.input.length < s.bi.input.length := by
          intro t e
          unfold segmentStep at e
          cases em : marker s.bi.input with
          | error f => rw [em] at e; simp only at e; split at e <;> cases e
          | ok p =>
            obtain ⟨m, rest⟩ := p
            rw [em] at e
            simp only at e
            have := marker_length em
            by_cases hm : m = .EOI
            · rw [if_pos hm] at e
              cases e
              show rest.length < _
              omega
            · rw [if_neg hm] at e
              have hsc : ∀ pd ph todo s', scanStep cfg pd ph todo s' ≠ .eoi t := by
                intro pd ph todo s' e
                unfold scanStep at e
                split at e
                · cases e
                · cases e
                · split at e <;> cases e
              by_cases hm2 : m = .SOS
              · rw [if_pos hm2] at e
                split at e
                · split at e <;> cases e
                · split at e
                  · cases e
                  · exact absurd e (hsc _ _ _ _)
              · rw [if_neg hm2] at e
                split at e
                · split at e <;> cases e
                · cases e
        show match segmentStep cfg s with
          | .next t => StageInv .segments t ∧ t.bi.input.length ≤ s.bi.input.length
          | .eoi t => t.bi.input.length < s.bi.input.length
          | _ => True
        revert h1 h2
        cases segmentStep cfg s with
        | next t => rintro ⟨a, b, -⟩ -; exact ⟨a, b.length_le⟩
        | wait st t => intros; trivial
        | eoi t => intro _ h; exact h t rfl
        | failed f t => intros; trivial
      | scan pd ph todo =>
        obtain ⟨scan, frame, k, hm⟩ := hs
        have h1 := scanStep_inv (cfg := cfg) hm
        show match scanStep cfg pd ph todo s with
          | .next t => StageInv .segments t ∧ t.bi.input.length ≤ s.bi.input.length
          | .eoi t => t.bi.input.length < s.bi.input.length
          | _ => True
        revert h1
        cases scanStep cfg pd ph todo s with
        | next t => rintro ⟨a, b⟩; exact ⟨a, b.length_le⟩
        | wait st t => intros; trivial
        | eoi t => exact False.elim
        | failed f t => intros; trivial
    cases e : stageStep cfg st s with
    | next t =>
      rw [e] at key h
      exact Nat.lt_of_lt_of_le (ih _ _ key.1 r c h) key.2
    | wait st' t => rw [e] at h; cases h
    | failed f t => rw [e] at h; cases h
    | eoi t =>
      rw [e] at key h
      simp only at h
      split at h
      · cases h
      · cases h; exact key

theorem poll_shorter {c c' : Codec} {r : Except Fail (List UInt8)} (hc : StageInv c.stage c.st)
    (h : c.poll cfg = .image r c') : c'.st.bi.input.length < c.st.bi.input.length := by
  unfold Codec.poll at h
  split at h
  · cases h
  · exact codecRun_shorter _ _ _ hc _ _ h

theorem codecRun_notPanic : ∀ (fuel : Nat) (st : Stage) (s : St) (r : Except Fail (List UInt8)) (c : Codec),
    codecRun cfg fuel st s = .image r c → ∀ p, r ≠ .error (.panic p) := by
  intro fuel
  induction fuel with
  | zero => intro st s r c h; cases h
  | succ fuel ih =>
    intro st s r c h
    rw [codecRun] at h
    cases e : stageStep cfg st s with
    | next t => rw [e] at h; exact ih _ _ _ _ h
    | wait st' t => rw [e] at h; cases h
    | failed f t => rw [e] at h; cases h
    | eoi t =>
      rw [e] at h
      simp only at h
      split at h
      · cases h
      · next hr => cases h; exact hr

theorem poll_notPanic {c c' : Codec} {r : Except Fail (List UInt8)} (h : c.poll cfg = .image r c') :
    ∀ p, r ≠ .error (.panic p) := by
  unfold Codec.poll at h
  split at h
  · cases h
  · exact codecRun_notPanic _ _ _ _ _ h

theorem drain_fuel : ∀ (a b : Nat) (c : Codec), StageInv c.stage c.st → c.st.bi.input.length < a →
    c.st.bi.input.length < b → c.drain cfg a = c.drain cfg b := by
  intro a
  induction a with
  | zero => intro b c _ h; omega
  | succ a ih =>
    intro b c hc ha hb
    cases b with
    | zero => omega
    | succ b =>
      rw [Codec.drain, Codec.drain]
      have hi := poll_inv (cfg := cfg) hc
      cases e : c.poll cfg with
      | pending c' => rfl
      | failed f s => rfl
      | image r c' =>
        cases r with
        | error f => rfl
        | ok image =>
          rw [e] at hi
          have := poll_shorter hc e
          simp only
          rw [ih b c' hi (by omega) (by omega)]

/-- The bound of the loop is never reached. -/
theorem drain_noFuel : ∀ (a : Nat) (c : Codec), StageInv c.stage c.st → c.st.bi.input.length < a →
    (c.drain cfg a).2 ≠ .error (.panic .fuel) := by
  intro a
  induction a with
  | zero => intro c _ h; omega
  | succ a ih =>
    intro c hc ha
    rw [Codec.drain]
    have hi := poll_inv (cfg := cfg) hc
    cases e : c.poll cfg with
    | pending c' => simp
    | failed f s =>
      rw [e] at hi
      simp only
      intro h
      cases h
      exact (hi .fuel rfl).real.2 rfl
    | image r c' =>
      rw [e] at hi
      cases r with
      | error f =>
        simp only
        intro h
        cases h
        exact poll_notPanic e _ rfl
      | ok image =>
        exact ih c' hi (by have := poll_shorter hc e; omega)

theorem drain_inv : ∀ (a : Nat) (c : Codec), StageInv c.stage c.st → ∀ is c', c.drain cfg a = (is, .ok c') →
    StageInv c'.stage c'.st := by
  intro a
  induction a with
  | zero => intro c _ is c' h; cases h
  | succ a ih =>
    intro c hc is c' h
    rw [Codec.drain] at h
    have hi := poll_inv (cfg := cfg) hc
    cases e : c.poll cfg with
    | pending c1 => rw [e] at h hi; cases h; exact hi
    | failed f s => rw [e] at h; cases h
    | image r c1 =>
      rw [e] at h hi
      cases r with
      | error f => cases h
      | ok image =>
        simp only [Prod.mk.injEq] at h
        exact ih c1 hi _ c' (Prod.ext rfl h.2)

/-! ## Items of the stream and answers of the codec -/

/-- The items from the moment the codec is called with what is in the buffer. -/
def Codec.goOn (cfg : Cfg) (c : Codec) (reads : List PollRead) : List (List UInt8) × StreamEnd :=
  match c.drain cfg (c.st.bi.input.length + 1) with
  | (images, .error f) => (images, .failed f)
  | (images, .ok c) => (images ++ (c.collect cfg reads).1, (c.collect cfg reads).2)

theorem goOn_pending {c c' : Codec} {reads : List PollRead} (h : c.poll cfg = .pending c') :
    c.goOn cfg reads = c'.collect cfg reads := by
  unfold Codec.goOn
  rw [Codec.drain, h]
  rfl

theorem goOn_image {c c' : Codec} {reads : List PollRead} {image : List UInt8} (hc : StageInv c.stage c.st)
    (h : c.poll cfg = .image (.ok image) c') :
    c.goOn cfg reads = (image :: (c'.goOn cfg reads).1, (c'.goOn cfg reads).2) := by
  have hi := poll_inv (cfg := cfg) hc
  rw [h] at hi
  unfold Codec.goOn
  rw [Codec.drain, h]
  simp only
  rw [drain_fuel c.st.bi.input.length (c'.st.bi.input.length + 1) c' hi (poll_shorter hc h) (by omega)]
  cases c'.drain cfg (c'.st.bi.input.length + 1) with
  | mk images r => cases r <;> rfl

theorem goOn_failed {c : Codec} {s : St} {reads : List PollRead} {f : Fail} (h : c.poll cfg = .failed f s) :
    c.goOn cfg reads = ([], .failed f) := by
  unfold Codec.goOn
  rw [Codec.drain, h]

theorem goOn_refused {c c' : Codec} {reads : List PollRead} {f : Fail} (h : c.poll cfg = .image (.error f) c') :
    c.goOn cfg reads = ([], .failed f) := by
  unfold Codec.goOn
  rw [Codec.drain, h]

theorem collect_data {c : Codec} {chunk : List UInt8} {reads : List PollRead} (h : chunk ≠ []) :
    c.collect cfg (.data chunk :: reads) = (c.push chunk).goOn cfg reads := by
  rw [Codec.collect, if_neg h]
  rfl

theorem Spec.Steady.tail {r : PollRead} {reads : List PollRead} (h : Steady (r :: reads)) : Steady reads :=
  ⟨fun h1 => h.1 (List.mem_cons_of_mem _ h1), fun h1 => h.2 (List.mem_cons_of_mem _ h1)⟩

/-- The first answer of the codec is the first item. -/
theorem collect_feed : ∀ (reads : List PollRead) (c : Codec), StageInv c.stage c.st → Steady reads →
    match c.feed cfg (piecesOf reads) with
    | (.pending c', _) => c.collect cfg reads = c'.collectEnd cfg
    | (.image (.ok image) c', rest) => ∃ reads', Steady reads' ∧ piecesOf reads' = rest ∧
        c.collect cfg reads = (image :: (c'.goOn cfg reads').1, (c'.goOn cfg reads').2)
    | (.image (.error f) _, _) => c.collect cfg reads = ([], .failed f)
    | (.failed f _, _) => c.collect cfg reads = ([], .failed f) := by
  intro reads
  induction reads with
  | nil => intro c _ _; rfl
  | cons r reads ih =>
    intro c hc hs
    cases r with
    | pending => exact ih c hc hs.tail
    | error => exact absurd (List.mem_cons_self ..) hs.1
    | data chunk =>
      have hne : chunk ≠ [] := by rintro rfl; exact hs.2 (List.mem_cons_self ..)
      have hi := poll_inv (cfg := cfg) (c := c.push chunk) (hc.setInput _)
      rw [collect_data hne, piecesOf, Codec.feed]
      cases e : (c.push chunk).poll cfg with
      | pending c1 =>
        rw [e] at hi
        rw [goOn_pending e]
        exact ih c1 hi hs.tail
      | failed f s => exact goOn_failed e
      | image res c1 =>
        cases res with
        | error f => exact goOn_refused e
        | ok image => exact ⟨reads, hs.tail, rfl, goOn_image (hc.setInput _) e⟩

theorem Codec.push_nil (c : Codec) : c.push [] = c := by
  obtain ⟨st, d, ⟨i, b, n⟩⟩ := c
  simp [Codec.push, St.setInput]

/-- The same for a codec that is called with what is in the buffer. -/
theorem goOn_feed (reads : List PollRead) (c : Codec) (hc : StageInv c.stage c.st) (hs : Steady reads) :
    match c.feed cfg ([] :: piecesOf reads) with
    | (.pending c', _) => c.goOn cfg reads = c'.collectEnd cfg
    | (.image (.ok image) c', rest) => ∃ reads', Steady reads' ∧ piecesOf reads' = rest ∧
        c.goOn cfg reads = (image :: (c'.goOn cfg reads').1, (c'.goOn cfg reads').2)
    | (.image (.error f) _, _) => c.goOn cfg reads = ([], .failed f)
    | (.failed f _, _) => c.goOn cfg reads = ([], .failed f) := by
  have hi := poll_inv (cfg := cfg) hc
  rw [Codec.feed, Codec.push_nil]
  cases e : c.poll cfg with
  | pending c1 =>
    rw [e] at hi
    rw [goOn_pending e]
    exact collect_feed reads c1 hi hs
  | failed f s => exact goOn_failed e
  | image res c1 =>
    cases res with
    | error f => exact goOn_refused e
    | ok image => exact ⟨reads, hs, rfl, goOn_image hc e⟩

theorem feed_image_inv : ∀ (chunks : List (List UInt8)) (c : Codec), StageInv c.stage c.st → ∀ r c' rest,
    c.feed cfg chunks = (.image r c', rest) → StageInv c'.stage c'.st := by
  intro chunks
  induction chunks with
  | nil => intro c _ r c' rest h; cases h
  | cons chunk chunks ih =>
    intro c hc r c' rest h
    have hi := poll_inv (cfg := cfg) (c := c.push chunk) (hc.setInput _)
    rw [Codec.feed] at h
    cases e : (c.push chunk).poll cfg with
    | pending c1 => rw [e] at h hi; exact ih c1 hi _ _ _ h
    | failed f s => rw [e] at h; cases h
    | image res c1 => rw [e] at h hi; cases h; exact hi

/-- Nothing in the buffer and nothing to come. -/
theorem collect_nothing {c : Codec} (h : c.st.bi.input = []) : ∀ (reads : List PollRead), Steady reads →
    piecesOf reads = [] → c.collect cfg reads = ([], .finished) := by
  have hp : c.poll cfg = .pending c := by unfold Codec.poll; rw [if_pos h]
  intro reads
  induction reads with
  | nil =>
    intro _ _
    rw [Codec.collect, Codec.collectEnd, Codec.drain, hp]
    simp only
    rw [if_pos h]
  | cons r reads ih =>
    intro hs he
    cases r with
    | pending => rw [Codec.collect]; exact ih hs.tail he
    | error => exact absurd (List.mem_cons_self ..) hs.1
    | data chunk => cases he

theorem Spec.Steady.pieces : ∀ {reads : List PollRead}, Steady reads → (piecesOf reads).flatten = [] → piecesOf reads = [] := by
  intro reads
  induction reads with
  | nil => intro _ _; rfl
  | cons r reads ih =>
    intro hs he
    cases r with
    | pending => exact ih hs.tail he
    | error => exact ih hs.tail he
    | data chunk =>
      rw [piecesOf, List.flatten_cons, List.append_eq_nil_iff] at he
      exact absurd (he.1 ▸ List.mem_cons_self ..) hs.2

theorem goOn_nothing {c : Codec} (h : c.st.bi.input = []) {reads : List PollRead} (hs : Steady reads)
    (he : (piecesOf reads).flatten = []) : c.goOn cfg reads = ([], .finished) := by
  have hp : c.poll cfg = .pending c := by unfold Codec.poll; rw [if_pos h]
  rw [goOn_pending hp]
  exact collect_nothing h reads hs (hs.pieces he)

end

/-! ## C80 -/

/-- **C80** (part). A reader gives a file that `decode` accepts, in any pieces and with any waiting in between:
the stream has one item, the image `decode` returns, and ends, unless a piece ends in front of a restart marker or
in an end of band run.

Missing: these two cases, where it is false, see `C80_violated`. -/
theorem C80_one_image_partial (cfg : Cfg) (d : Decoder) (hd : UsedDecoder d) (file image : List UInt8) (d' : Decoder)
    (h : d.decode cfg file = .ok image d') (reads : List PollRead) (hs : Steady reads)
    (hfile : (piecesOf reads).flatten = file) :
    (Codec.ofDecoder d).collect cfg reads = ([image], .finished) ∨
    SplitAtRestart cfg (Codec.ofDecoder d) file (piecesOf reads) ∨
    SplitInEobRun cfg (Codec.ofDecoder d) file (piecesOf reads) := by
  have hne : piecesOf reads ≠ [] := by
    intro h0
    rw [h0] at hfile
    obtain ⟨t, h1, -⟩ := decode_ok_inv h
    rw [← hfile, List.flatten_nil, segmentLoop] at h1
    cases h1
  have hi := Codec.idle_ofDecoder hd
  have key := collect_feed (cfg := cfg) reads (Codec.ofDecoder d) ⟨hi.inv, hi.wf⟩ hs
  rcases C43_chunks_partial cfg d hd file [] (piecesOf reads) hne (by rw [hfile, List.append_nil]) image d' h with
    ⟨c', rest, h1, -, -, h2⟩ | h1 | h1
  · rw [h1] at key
    obtain ⟨reads', g1, g2, g3⟩ := key
    rw [List.append_eq_nil_iff] at h2
    left
    rw [g3, goOn_nothing h2.1 g1 (by rw [g2]; exact h2.2)]
  · rw [List.append_nil] at h1; exact .inr (.inl h1)
  · rw [List.append_nil] at h1; exact .inr (.inr h1)

/-- **C80** (part). For every sequential file laid out as the standard says, with three components in one scan, not
marked as RGB, with sampling factors this decoder can render, without restart intervals and end of band runs,
however its bytes arrive.

Missing: files with a restart interval, see `C80_violated`. -/
theorem C80_baseline_partial (cfg : Cfg) (f : BaselineFile) (H V : Nat) (codes : List (Code × Code))
    (hh : f.earlier = []) (h3 : f.comps.length = 3) (hct : f.transform none ≠ some 0)
    (hv : f.Valid (f.interval 0) H V codes) (hr : f.Renderable H V) (hp : PlainTables f.segments)
    (reads : List PollRead) (hs : Steady reads) (hf : (piecesOf reads).flatten = f.bytes) :
    ∃ image, decode cfg f.bytes = .ok image ∧ image.length = f.x * f.y * 3 ∧
      Codec.new.collect cfg reads = ([image], .finished) := by
  obtain ⟨image, c, rest, h1, h2, h3, h4, h5⟩ := C43_baseline_partial cfg f H V codes hh h3 hct hv hr hp (piecesOf reads) hf
  have key := collect_feed (cfg := cfg) reads Codec.new ⟨DecInv.default, new_wf []⟩ hs
  rw [h3] at key
  obtain ⟨reads', g1, g2, g3⟩ := key
  exact ⟨image, h1, h2, by rw [g3, goOn_nothing h4 g1 (by rw [g2]; exact h5)]⟩

/-- **C80** (part, errors). What `decode` reports, other than an unexpected end of the input and bytes behind the
image, is the only item, up to the same two exceptions. -/
theorem C80_errors_partial (cfg : Cfg) (d : Decoder) (hd : UsedDecoder d) (f : Fail) (d' : Decoder)
    (reads : List PollRead) (hs : Steady reads) (h : d.decode cfg (piecesOf reads).flatten = .fail f d')
    (h1 : f ≠ .eof) (h2 : f ≠ .panic .trailing) :
    (Codec.ofDecoder d).collect cfg reads = ([], .failed f) ∨
    SplitAtRestart cfg (Codec.ofDecoder d) (piecesOf reads).flatten (piecesOf reads) ∨
    SplitInEobRun cfg (Codec.ofDecoder d) (piecesOf reads).flatten (piecesOf reads) := by
  have hi := Codec.idle_ofDecoder hd
  have key := collect_feed (cfg := cfg) reads (Codec.ofDecoder d) ⟨hi.inv, hi.wf⟩ hs
  rcases C43_errors_partial cfg d hd _ f d' h h1 h2 with ⟨s, rest, e, -⟩ | ⟨c, rest, e, -⟩ | e | e
  · rw [e] at key; exact .inl key
  · rw [e] at key; exact .inl key
  · exact .inr (.inl e)
  · exact .inr (.inr e)

/-- **C80** (part, two files). Two files one after the other give two items, the images a decoder returns for them,
if the first leaves nothing in the bit buffer, up to the same two exceptions.

Missing: bits left over by the first image, see `C44_violated` and `C80_twice_violated`. -/
theorem C80_two_images_partial (cfg : Cfg) (d : Decoder) (hd : UsedDecoder d) (a b : List UInt8)
    (reads : List PollRead) (hs : Steady reads) (hfile : (piecesOf reads).flatten = a ++ b)
    (image1 image2 : List UInt8) (d2 : Decoder) (t : St)
    (h1 : decodeParser cfg ⟨d, Biterator.new a⟩ = .ok (.ok image1) t) (ht : t.bi = Biterator.new [])
    (h2 : t.dec.decode cfg b = .ok image2 d2) :
    (Codec.ofDecoder d).collect cfg reads = ([image1, image2], .finished) ∨
    (∃ c rest, (Codec.ofDecoder d).feed cfg (piecesOf reads) = (.image (.ok image1) c, rest) ∧
      (SplitAtRestart cfg c b ([] :: rest) ∨ SplitInEobRun cfg c b ([] :: rest))) ∨
    SplitAtRestart cfg (Codec.ofDecoder d) (a ++ b) (piecesOf reads) ∨
    SplitInEobRun cfg (Codec.ofDecoder d) (a ++ b) (piecesOf reads) := by
  have hi := Codec.idle_ofDecoder hd
  have hsi : StageInv (Codec.ofDecoder d).stage (Codec.ofDecoder d).st := ⟨hi.inv, hi.wf⟩
  have key := collect_feed (cfg := cfg) reads (Codec.ofDecoder d) hsi hs
  rcases C44_second_partial cfg d hd a b (piecesOf reads) hfile image1 image2 d2 t h1 ht h2 with
    ⟨c, rest, e, h⟩ | h | h
  · rcases h with ⟨c', rest', g1, -, g2, g3⟩ | h
    · rw [e] at key
      obtain ⟨reads', k1, k2, k3⟩ := key
      have hc : StageInv c.stage c.st := feed_image_inv _ _ hsi _ _ _ e
      have key2 := goOn_feed (cfg := cfg) reads' c hc k1
      rw [k2, g1] at key2
      obtain ⟨reads2, m1, m2, m3⟩ := key2
      left
      rw [k3, m3, goOn_nothing g2 m1 (by rw [m2]; exact g3)]
    · exact .inr (.inl ⟨c, rest, e, h⟩)
  · exact .inr (.inr (.inl h))
  · exact .inr (.inr (.inr h))

/-- The parser over one file after the other: it finds in `s` the bits left over, reads a file, and so on. -/
inductive Pictures (cfg : Cfg) : St → List (List UInt8) → List (List UInt8) → Prop
  | nil {s} : Pictures cfg s [] []
  | cons {s t file files image images} :
      decodeParser cfg { s with bi := { s.bi with input := file } } = .ok (.ok image) t → t.bi.input = [] →
      Pictures cfg t files images → Pictures cfg s (file :: files) (image :: images)

/-- The codec comes to wait in front of a restart marker or in an end of band run, in one of the files of a stream. -/
inductive Disturbed (cfg : Cfg) : Codec → List (List UInt8) → List (List UInt8) → Prop
  | here {c files chunks} : SplitAtRestart cfg c files.flatten chunks ∨ SplitInEobRun cfg c files.flatten chunks →
      Disturbed cfg c files chunks
  | later {c file files chunks image c' rest} : c.feed cfg chunks = (.image (.ok image) c', rest) →
      Disturbed cfg c' files ([] :: rest) → Disturbed cfg c (file :: files) chunks

theorem goOn_pictures {cfg : Cfg} : ∀ (files images : List (List UInt8)) (c : Codec) (reads : List PollRead), c.Idle →
    Steady reads → c.st.bi.input ++ (piecesOf reads).flatten = files.flatten →
    Pictures cfg (c.start []) files images →
    c.goOn cfg reads = (images, .finished) ∨ Disturbed cfg c files ([] :: piecesOf reads) := by
  intro files
  induction files with
  | nil =>
    intro images c reads hc hs hf h
    cases h
    rw [List.flatten_nil, List.append_eq_nil_iff] at hf
    exact .inl (goOn_nothing hf.1 hs hf.2)
  | cons file files ih =>
    intro images c reads hc hs hf h
    cases h with
    | @cons _ t _ _ image images h1 h2 h3 =>
    rw [List.flatten_cons] at hf
    rcases C44_next_image_partial cfg c hc file files.flatten ([] :: piecesOf reads) (by simp)
      (by rw [List.flatten_cons, List.nil_append, hf]) image t h1 h2 with ⟨c', rest, e1, e2, e3, e4⟩ | e | e
    · have key := goOn_feed (cfg := cfg) reads c (by unfold StageInv; rw [hc.stage]; exact ⟨hc.inv, hc.wf⟩) hs
      rw [e1] at key
      obtain ⟨reads', g1, g2, g3⟩ := key
      rcases ih images c' reads' e2 g1 (by rw [g2]; exact e4) (by rw [e3]; exact h3) with k | k
      · left; rw [g3, k]
      · right; rw [g2] at k; exact .later e1 k
    · exact .inr (.here (.inl e))
    · exact .inr (.here (.inr e))

/-- **C80** (part, any number of files). One file after the other, in any pieces: the items are the images the parser
returns for them when it is run over one file after the other, and the stream ends, up to the same two exceptions.

Missing: that each image is the one of its file. That is false, as the parser takes the bits left over by one file
for the first of the next, see `C80_twice_violated` and `C44_left_over_violated`. -/
theorem C80_images_partial (cfg : Cfg) (d : Decoder) (hd : UsedDecoder d) (files images : List (List UInt8))
    (reads : List PollRead) (hs : Steady reads) (hfile : (piecesOf reads).flatten = files.flatten)
    (h : Pictures cfg ⟨d, Biterator.new []⟩ files images) :
    (Codec.ofDecoder d).collect cfg reads = (images, .finished) ∨
      Disturbed cfg (Codec.ofDecoder d) files ([] :: piecesOf reads) := by
  have hi := Codec.idle_ofDecoder hd
  have hp : (Codec.ofDecoder d).poll cfg = .pending (Codec.ofDecoder d) := by
    unfold Codec.poll
    exact if_pos rfl
  rw [← goOn_pending hp]
  exact goOn_pictures files images (Codec.ofDecoder d) reads hi hs hfile h

/-- **C80** (part, the reader's errors). When the reader reports an error before the file is complete, that error is
the only item, up to the same two exceptions. -/
theorem C80_reader_error_partial (cfg : Cfg) (d : Decoder) (hd : UsedDecoder d) (before after : List PollRead)
    (hs : Steady before) (missing image : List UInt8) (d' : Decoder)
    (h : d.decode cfg ((piecesOf before).flatten ++ missing) = .ok image d') (hm : missing ≠ []) :
    (Codec.ofDecoder d).collect cfg (before ++ .error :: after) = ([], .io) ∨
    SplitAtRestart cfg (Codec.ofDecoder d) ((piecesOf before).flatten ++ missing) (piecesOf before) ∨
    SplitInEobRun cfg (Codec.ofDecoder d) ((piecesOf before).flatten ++ missing) (piecesOf before) := by
  rcases C65_pending cfg d hd (piecesOf before) missing image d' h hm with ⟨c, e⟩ | e
  · left
    clear h hm
    revert e
    generalize Codec.ofDecoder d = c0
    intro e
    induction before generalizing c0 with
    | nil => rfl
    | cons r before ih =>
      cases r with
      | pending => exact ih hs.tail c0 e
      | error => exact absurd (List.mem_cons_self ..) hs.1
      | data chunk =>
        have hne : chunk ≠ [] := by rintro rfl; exact hs.2 (List.mem_cons_self ..)
        rw [List.cons_append, collect_data hne]
        rw [piecesOf, Codec.feed] at e
        cases e1 : (c0.push chunk).poll cfg with
        | pending c1 =>
          rw [e1] at e
          rw [goOn_pending e1]
          exact ih hs.tail c1 e
        | failed f s => rw [e1] at e; cases e
        | image res c1 => rw [e1] at e; cases e
  · exact .inr e

/-- **C80** (violated). The example file, two MCUs with a restart marker between them, from a reader that gives
everything in front of the marker first. -/
theorem C80_violated :
    Codec.new.collect ⟨true, false⟩ [.data (exampleFile.bytes.take 202), .data (exampleFile.bytes.drop 202)] =
      ([], .failed (.panic .restartUnderflow)) ∧
    (decode ⟨true, false⟩ exampleFile.bytes).toOption.isSome ∧
    Codec.new.collect ⟨true, false⟩ [.data (exampleFile.bytes.take 203), .data (exampleFile.bytes.drop 203)] =
      ((decode ⟨true, false⟩ exampleFile.bytes).toOption.toList, .finished) := by
  refine ⟨?_, ?_, ?_⟩ <;> decide +kernel

/-- **C80** (violated: the same file twice). Two items, and they differ. -/
theorem C80_twice_violated :
    (match Codec.new.collect ⟨false, false⟩ [.data (exampleFile.bytes ++ exampleFile.bytes)],
        decode ⟨false, false⟩ exampleFile.bytes with
    | ([first, second], .finished), .ok image => decide (first = image) && decide (second ≠ image)
    | _, _ => false) = true := by decide +kernel

/-! ## C81 -/

/-- **C81** (part). A reader gives all of a file but its end, in any pieces: the stream has no image. It ends, with
an error exactly if the codec has left bytes in the buffer, up to the two exceptions (the call at the end of the
input counts as a piece).

Missing: an error in every case, see `C81_silent_violated`. -/
theorem C81_no_image_partial (cfg : Cfg) (d : Decoder) (hd : UsedDecoder d) (reads : List PollRead) (hs : Steady reads)
    (missing image : List UInt8) (d' : Decoder)
    (h : d.decode cfg ((piecesOf reads).flatten ++ missing) = .ok image d') (hm : missing ≠ []) :
    (∃ c, (Codec.ofDecoder d).feed cfg (piecesOf reads ++ [[]]) = (.pending c, []) ∧
      (Codec.ofDecoder d).collect cfg reads = ([], if c.st.bi.input = [] then .finished else .remaining)) ∨
    SplitAtRestart cfg (Codec.ofDecoder d) ((piecesOf reads).flatten ++ missing) (piecesOf reads ++ [[]]) ∨
    SplitInEobRun cfg (Codec.ofDecoder d) ((piecesOf reads).flatten ++ missing) (piecesOf reads ++ [[]]) := by
  have hi := Codec.idle_ofDecoder hd
  have key := collect_feed (cfg := cfg) reads (Codec.ofDecoder d) ⟨hi.inv, hi.wf⟩ hs
  have e0 : (piecesOf reads ++ [[]]).flatten = (piecesOf reads).flatten := by simp
  rcases C65_pending cfg d hd (piecesOf reads ++ [[]]) missing image d' (by rw [e0]; exact h) hm with ⟨c, e⟩ | e
  · left
    refine ⟨c, e, ?_⟩
    rcases Codec.feed_append cfg (piecesOf reads) [[]] (Codec.ofDecoder d) with ⟨c1, g1, g2⟩ | ⟨g1, g2⟩
    · rw [g1] at key
      rw [g2, Codec.feed, Codec.push_nil] at e
      have e1 : c1.poll cfg = .pending c := by
        cases e1 : c1.poll cfg with
        | pending c2 => rw [e1] at e; cases e; rfl
        | failed f s => rw [e1] at e; cases e
        | image res c2 => rw [e1] at e; cases e
      rw [key, Codec.collectEnd, Codec.drain, e1]
    · rw [g2] at e
      exact absurd (Prod.mk.inj e).1 (g1 c)
  · rw [e0] at e
    exact .inr e

/-- **C81** (part, baseline files). For every sequential file laid out as the standard says, without restart
intervals and end of band runs: no image from any proper beginning of it, in any pieces. -/
theorem C81_baseline_partial (cfg : Cfg) (f : BaselineFile) (H V : Nat) (codes : List (Code × Code))
    (hh : f.earlier = []) (h3 : f.comps.length = 3) (hct : f.transform none ≠ some 0)
    (hv : f.Valid (f.interval 0) H V codes) (hr : f.Renderable H V) (hp : PlainTables f.segments)
    (reads : List PollRead) (hs : Steady reads) (hf : (piecesOf reads).flatten <+: f.bytes)
    (hne : (piecesOf reads).flatten ≠ f.bytes) :
    Codec.new.collect cfg reads = ([], .finished) ∨ Codec.new.collect cfg reads = ([], .remaining) := by
  have e0 : (piecesOf reads ++ [[]]).flatten = (piecesOf reads).flatten := by simp
  obtain ⟨c, e⟩ := C65_baseline_pending cfg f H V codes hh h3 hct hv hr hp (piecesOf reads ++ [[]])
    (by rw [e0]; exact hf) (by rw [e0]; exact hne)
  have key := collect_feed (cfg := cfg) reads Codec.new ⟨DecInv.default, new_wf []⟩ hs
  rcases Codec.feed_append cfg (piecesOf reads) [[]] Codec.new with ⟨c1, g1, g2⟩ | ⟨g1, g2⟩
  · rw [g1] at key
    rw [g2, Codec.feed, Codec.push_nil] at e
    have e1 : c1.poll cfg = .pending c := by
      cases e1 : c1.poll cfg with
      | pending c2 => rw [e1] at e; cases e; rfl
      | failed f s => rw [e1] at e; cases e
      | image res c2 => rw [e1] at e; cases e
    rw [key, Codec.collectEnd, Codec.drain, e1]
    simp only
    by_cases h0 : c.st.bi.input = []
    · rw [if_pos h0]; exact .inl rfl
    · rw [if_neg h0]; exact .inr rfl
  · rw [g2] at e
    exact absurd (Prod.mk.inj e).1 (g1 c)

section
variable {cfg : Cfg}

/-- A block of bytes that is worked off as a whole, and waited for as long as it is not complete. -/
structure Chews (cfg : Cfg) (b : List UInt8) : Prop where
  ne : b ≠ []
  whole : ∀ d more bits count, ∃ d', segmentStep cfg ⟨d, ⟨b ++ more, bits, count⟩⟩ = .next ⟨d', ⟨more, bits, count⟩⟩
  part : ∀ p more, p ++ more = b → more ≠ [] → ∀ d bits count,
    segmentStep cfg ⟨d, ⟨p, bits, count⟩⟩ = .wait .segments ⟨d, ⟨p, bits, count⟩⟩

theorem segmentStep_short (d : Decoder) (bits count : Nat) {p : List UInt8} {m : Marker} {more : List UInt8}
    (h : p ++ more = markerBytes m) (hm : more ≠ []) :
    segmentStep cfg ⟨d, ⟨p, bits, count⟩⟩ = .wait .segments ⟨d, ⟨p, bits, count⟩⟩ := by
  unfold markerBytes at h
  match p, h with
  | [], _ => rfl
  | [x], h =>
    simp only [List.cons_append, List.nil_append, List.cons.injEq] at h
    rw [h.1]
    rfl
  | [x, y], h =>
    simp only [List.cons_append, List.nil_append, List.cons.injEq] at h
    exact absurd h.2.2 hm
  | x :: y :: z :: r, h => simp at h

theorem chews_soi : Chews cfg (markerBytes .SOI) where
  ne := by simp [markerBytes]
  whole := by
    intro d more bits count
    refine ⟨d, ?_⟩
    unfold segmentStep
    simp only
    rw [marker_bytes' (m := .SOI) trivial]
    rfl
  part := fun p more h hm d bits count => segmentStep_short d bits count h hm

theorem segmentBytes_short {p more payload : List UInt8} (h : p ++ more = segmentOf payload) (hm : more ≠ [])
    (hlen : payload.length + 2 < 65536) : segmentBytes cfg p = .error .eof := by
  unfold segmentBytes
  unfold segmentOf at h
  match p, h with
  | [], _ => rfl
  | [x], _ => rfl
  | x :: y :: r, h =>
    have hl : (be16 (payload.length + 2)).length = 2 := rfl
    have h1 : [x, y] = be16 (payload.length + 2) ∧ r ++ more = payload := List.append_inj (by simpa using h) (by rw [hl]; rfl)
    have h2 : x :: y :: r = be16 (payload.length + 2) ++ r := by rw [← h1.1]; rfl
    rw [h2, beU16_be16 hlen]
    simp only
    rw [if_neg (by omega), Nat.add_sub_cancel]
    have : r.length < payload.length := by
      rw [← h1.2, List.length_append]
      have := List.length_pos_iff.2 hm
      omega
    unfold takeBytes
    rw [if_pos (by omega)]

theorem chews_segment {m : Marker} {payload : List UInt8} (h1 : HasSegment m) (h2 : MarkerExists m)
    (h3 : payload.length + 2 < 65536) (h4 : WellFormed m payload) : Chews cfg (markerSegment m payload) := by
  have hne : m ≠ .EOI := by rintro rfl; exact h1
  have hne2 : m ≠ .SOS := by rintro rfl; exact h1
  have hlen : (markerBytes m).length = 2 := rfl
  refine ⟨by simp [markerSegment, markerBytes], ?_, ?_⟩
  · intro d more bits count
    obtain ⟨d', e⟩ := doSegment_wellFormed (cfg := cfg) h1 d bits count payload more h3 h4
    refine ⟨d', ?_⟩
    unfold segmentStep markerSegment
    simp only [List.append_assoc]
    rw [marker_bytes' h2]
    simp only [St.setInput]
    rw [if_neg hne, if_neg hne2, e]
  · intro p more h hm d bits count
    unfold markerSegment at h
    by_cases hp : p.length < 2
    · obtain ⟨u, hu⟩ : ∃ u, p ++ u = markerBytes m := by
        have : p <+: markerBytes m := List.prefix_of_prefix_length_le ⟨more, h⟩ (List.prefix_append _ _) (by omega)
        exact this
      refine segmentStep_short d bits count hu ?_
      rintro rfl
      rw [List.append_nil] at hu
      rw [hu] at hp
      omega
    · obtain ⟨q, rfl⟩ : markerBytes m <+: p :=
        List.prefix_of_prefix_length_le (List.prefix_append _ _) ⟨more, h⟩ (by omega)
      rw [List.append_assoc, List.append_cancel_left_eq] at h
      unfold segmentStep
      simp only
      rw [marker_bytes' h2]
      simp only [St.setInput]
      rw [if_neg hne, if_neg hne2]
      obtain ⟨body, eb⟩ := doSegment_segment h1
      rw [eb, segment]
      simp only [segmentBytes_short h hm h3]
      rfl

/-- Blocks arriving in part are worked off as far as they are complete. -/
theorem codecRun_chews : ∀ (bs : List (List UInt8)), (∀ b ∈ bs, Chews cfg b) → ∀ (fuel : Nat) (p more : List UInt8)
    (d : Decoder) (bits count : Nat), p ++ more = bs.flatten → p.length < fuel →
    ∃ d' p' bs', codecRun cfg fuel .segments ⟨d, ⟨p, bits, count⟩⟩ = .pending ⟨.segments, ⟨d', ⟨p', bits, count⟩⟩⟩ ∧
      bs' <:+ bs ∧ p' ++ more = bs'.flatten ∧ (more = [] → p' = []) := by
  intro bs
  induction bs with
  | nil =>
    intro _ fuel p more d bits count h hf
    rw [List.flatten_nil, List.append_eq_nil_iff] at h
    obtain ⟨rfl, rfl⟩ := h
    cases fuel with
    | zero => simp at hf
    | succ fuel => exact ⟨d, [], [], rfl, List.suffix_refl _, rfl, fun _ => rfl⟩
  | cons b bs ih =>
    intro hb fuel p more d bits count h hf
    have hc := hb b (List.mem_cons_self ..)
    cases fuel with
    | zero => omega
    | succ fuel =>
      rw [List.flatten_cons] at h
      by_cases hl : b.length ≤ p.length
      · obtain ⟨q, rfl⟩ : b <+: p := List.prefix_of_prefix_length_le (List.prefix_append _ _) ⟨more, h⟩ hl
        rw [List.append_assoc, List.append_cancel_left_eq] at h
        obtain ⟨d1, e1⟩ := hc.whole d q bits count
        obtain ⟨d', p', bs', g1, g2, g3, g4⟩ := ih (fun x hx => hb x (List.mem_cons_of_mem _ hx)) fuel q more d1 bits count h (by
          have := List.length_pos_iff.2 hc.ne
          rw [List.length_append] at hf
          omega)
        refine ⟨d', p', bs', ?_, g2.trans (List.suffix_cons _ _), g3, g4⟩
        rw [codecRun, stageStep, e1]
        exact g1
      · obtain ⟨u, hu⟩ : p <+: b := List.prefix_of_prefix_length_le ⟨more, h⟩ (List.prefix_append _ _) (by omega)
        have hune : u ≠ [] := by rintro rfl; rw [List.append_nil] at hu; rw [hu] at hl; omega
        refine ⟨d, p, b :: bs, ?_, List.suffix_refl _, by rw [List.flatten_cons]; exact h, ?_⟩
        · rw [codecRun, stageStep, hc.part p u hu hune]
        · rintro rfl
          rw [List.append_nil] at h
          rw [h, List.length_append] at hl
          omega

/-- A reader that gives blocks, all of them complete, in any pieces. -/
theorem collect_chews : ∀ (reads : List PollRead), Steady reads → ∀ (bs : List (List UInt8)), (∀ b ∈ bs, Chews cfg b) →
    ∀ (p : List UInt8) (d : Decoder) (bits count : Nat), p ++ (piecesOf reads).flatten = bs.flatten →
    (piecesOf reads = [] → p = []) →
    Codec.collect cfg ⟨.segments, ⟨d, ⟨p, bits, count⟩⟩⟩ reads = ([], .finished) := by
  intro reads
  induction reads with
  | nil =>
    intro hs bs _ p d bits count _ hp
    exact collect_nothing (hp rfl) _ hs rfl
  | cons r reads ih =>
    intro hs bs hb p d bits count h hp
    cases r with
    | pending => exact ih hs.tail bs hb p d bits count h hp
    | error => exact absurd (List.mem_cons_self ..) hs.1
    | data chunk =>
      have hne : chunk ≠ [] := by rintro rfl; exact hs.2 (List.mem_cons_self ..)
      rw [piecesOf, List.flatten_cons, ← List.append_assoc] at h
      obtain ⟨d', p', bs', g1, g2, g3, g4⟩ := codecRun_chews bs hb ((p ++ chunk).length + 2) (p ++ chunk) _ d bits count h
        (by omega)
      rw [collect_data hne, goOn_pending (c' := ⟨.segments, ⟨d', ⟨p', bits, count⟩⟩⟩)]
      · exact ih hs.tail bs' (fun x hx => hb x (g2.subset hx)) p' d' bits count g3 (fun h0 => g4 (by rw [h0]; rfl))
      · unfold Codec.poll
        rw [if_neg (by show p ++ chunk ≠ []; simp [hne])]
        exact g1

end

/-- **C81** (violated). Whatever tables, frame headers and application segments a file begins with: when the reader
ends behind one of these segments, however its bytes arrived, the stream ends without an image and without an
error. -/
theorem C81_silent_violated (cfg : Cfg) (segs : List (Marker × List UInt8)) (hs : HeaderSegments segs)
    (reads : List PollRead) (hr : Steady reads) (hf : (piecesOf reads).flatten = fileOf segs []) :
    Codec.new.collect cfg reads = ([], .finished) := by
  refine collect_chews reads hr (markerBytes .SOI :: segs.map fun p => markerSegment p.1 p.2) ?_ [] Decoder.default 0 0 ?_
    (fun _ => rfl)
  · intro b hb
    rw [List.mem_cons, List.mem_map] at hb
    rcases hb with rfl | ⟨q, hq, rfl⟩
    · exact chews_soi
    · obtain ⟨h1, h2, h3, h4⟩ := hs q hq
      exact chews_segment h1 h2 h3 h4
  · rw [List.nil_append, hf, fileOf, List.append_nil, List.flatten_cons, List.flatMap_def]

/-- The other ends, checked by running the codec on each beginning of the plain file, in one piece: some are
reported, others, as behind the scan header, are not. -/
example : (List.range examplePlain.bytes.length).all (fun n =>
      let r := Codec.new.collect dbg [.data (examplePlain.bytes.take n)]
      decide (r = ([], .finished)) || decide (r = ([], .remaining))) = true ∧
    Codec.new.collect dbg [.data (examplePlain.bytes.take (examplePlain.bytes.length - 1))] = ([], .remaining) := by
  constructor <;> decide +kernel

/-! ## The stream ends -/

/-- **C50** (the framed codec). The bound on the number of images per call is never reached: each image takes at
least two bytes from the buffer. -/
theorem C50_framed (cfg : Cfg) (d : Decoder) (hd : UsedDecoder d) (reads : List PollRead) :
    ((Codec.ofDecoder d).collect cfg reads).2 ≠ .failed (.panic .fuel) := by
  have hi := Codec.idle_ofDecoder hd
  have hsi : StageInv (Codec.ofDecoder d).stage (Codec.ofDecoder d).st := ⟨hi.inv, hi.wf⟩
  have hend : ∀ c : Codec, StageInv c.stage c.st → (c.collectEnd cfg).2 ≠ .failed (.panic .fuel) := by
    intro c hc
    have h := drain_noFuel (cfg := cfg) (c.st.bi.input.length + 1) c hc (by omega)
    unfold Codec.collectEnd
    generalize c.drain cfg (c.st.bi.input.length + 1) = r at h
    obtain ⟨is, r⟩ := r
    cases r with
    | error f =>
      intro e
      simp only [StreamEnd.failed.injEq] at e
      exact h (by rw [e])
    | ok c' =>
      simp only
      split <;> simp
  generalize Codec.ofDecoder d = c at hsi
  clear hi
  induction reads generalizing c with
  | nil => exact hend c hsi
  | cons r reads ih =>
    cases r with
    | pending => exact ih c hsi
    | error => simp [Codec.collect]
    | data chunk =>
      by_cases hne : chunk = []
      · rw [Codec.collect, if_pos hne]; exact hend c hsi
      · have hp : StageInv (c.push chunk).stage (c.push chunk).st := hsi.setInput _
        have h := drain_noFuel (cfg := cfg) ((c.push chunk).st.bi.input.length + 1) _ hp (by omega)
        have h2 := drain_inv (cfg := cfg) ((c.push chunk).st.bi.input.length + 1) _ hp
        rw [collect_data hne]
        unfold Codec.goOn
        generalize (c.push chunk).drain cfg ((c.push chunk).st.bi.input.length + 1) = r at h h2
        obtain ⟨is, r⟩ := r
        cases r with
        | error f =>
          intro e
          simp only [StreamEnd.failed.injEq] at e
          exact h (by rw [e])
        | ok c' => exact ih c' (h2 is c' rfl)

/-! ## Cases -/

/-- A case of `C80_baseline_partial`: byte by byte, with a wait in front of each. -/
example : ∃ image, decode dbg examplePlain.bytes = .ok image ∧ image.length = 192 ∧
    Codec.new.collect dbg (examplePlain.bytes.flatMap fun b => [.pending, .data [b]]) = ([image], .finished) := by
  have h1 : ∀ l : List UInt8, piecesOf (l.flatMap fun b => [.pending, .data [b]]) = l.map fun b => [b] := by
    intro l
    induction l with
    | nil => rfl
    | cons b l ih => simp only [List.flatMap_cons, List.cons_append, List.nil_append, piecesOf, ih, List.map_cons]
  exact C80_baseline_partial dbg examplePlain 1 1 _ rfl rfl (by decide) examplePlain_valid
    (by unfold BaselineFile.Renderable; decide) examplePlain_plain _
    ⟨by simp [List.mem_flatMap], by simp [List.mem_flatMap]⟩
    (by rw [h1, ← List.flatMap_def, List.flatMap_singleton'])

/-- A case of `C80_two_images_partial`, whose hypotheses are checked in `Props/Stream.lean`. -/
example : (match Codec.new.collect dbg [.data (exact.take 50), .pending, .data (exact.drop 50 ++ grey)] with
    | ([a, b], .finished) => decide (a.length = 384) && decide (.ok b = decode dbg grey)
    | _ => false) = true := by decide +kernel

/-- Running the parser over files. -/
def picturesOf (cfg : Cfg) : St → List (List UInt8) → Option (List (List UInt8))
  | _, [] => some []
  | s, file :: files =>
    match decodeParser cfg { s with bi := { s.bi with input := file } } with
    | .ok (.ok image) t => if t.bi.input = [] then (picturesOf cfg t files).map (image :: ·) else none
    | _ => none

theorem picturesOf_sound {cfg : Cfg} : ∀ (files : List (List UInt8)) (s : St) (images : List (List UInt8)),
    picturesOf cfg s files = some images → Pictures cfg s files images := by
  intro files
  induction files with
  | nil => intro s images h; cases h; exact .nil
  | cons file files ih =>
    intro s images h
    rw [picturesOf] at h
    split at h
    · next image t e =>
      split at h
      · next ht =>
        cases hp : picturesOf cfg t files with
        | none => rw [hp] at h; cases h
        | some is => rw [hp] at h; cases h; exact .cons e ht (ih t is hp)
      · cases h
    · cases h

/-- A case of `C80_images_partial`: three files. -/
example : ∃ images, images.length = 3 ∧
    Pictures ⟨false, false⟩ ⟨Decoder.default, Biterator.new []⟩ [exampleFile.bytes, exampleFile.bytes, grey] images := by
  have h : ((picturesOf ⟨false, false⟩ ⟨Decoder.default, Biterator.new []⟩
      [exampleFile.bytes, exampleFile.bytes, grey]).map List.length) = some 3 := by decide +kernel
  cases hp : picturesOf ⟨false, false⟩ ⟨Decoder.default, Biterator.new []⟩
      [exampleFile.bytes, exampleFile.bytes, grey] with
  | none => rw [hp] at h; cases h
  | some is => rw [hp] at h; exact ⟨is, Option.some.inj h, picturesOf_sound _ _ _ hp⟩

/-- A case of `C80_errors_partial`. -/
example : Codec.new.collect dbg [.data (file [markerSegment .DHT (0 :: [3] ++ List.replicate 15 0 ++ [0, 1, 2])])] =
      ([], .failed (.err .badHuffCode)) := by decide +kernel

/-- A case of `C80_reader_error_partial`. -/
example : Codec.new.collect dbg [.data (grey.take 40), .error, .data (grey.drop 40)] = ([], .io) ∧
    (decode dbg (grey.take 40 ++ grey.drop 40)).toOption.isSome := by constructor <;> decide +kernel

/-- A case of `C81_silent_violated`: a restart interval and an application segment, byte by byte. -/
example : Codec.new.collect dbg ((fileOf [(.DRI, [0, 7]), (.APP 3, [1, 2])] []).map fun b => .data [b]) = ([], .finished) := by
  refine C81_silent_violated dbg [(.DRI, [0, 7]), (.APP 3, [1, 2])] ?_ _ ?_ ?_
  · intro s hs
    simp only [List.mem_cons, List.not_mem_nil, or_false] at hs
    rcases hs with rfl | rfl
    · exact ⟨trivial, trivial, by decide, by show 2 ≤ 2; omega⟩
    · exact ⟨trivial, by show 3 ≤ 15; omega, by decide, fun e => by cases e⟩
  · constructor <;> decide
  · decide

end Jpeg
