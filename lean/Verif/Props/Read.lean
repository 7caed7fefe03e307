import Verif.Model.ReadDecoder
import Verif.Props.StreamSafe
import Verif.Props.Truncated
/-!
# C70: decoding from a reader
-/

namespace Jpeg
open HasInput HasLen Spec Sample

/-- The bytes a reader gives. -/
def Spec.dataOf : List ReadResult → List UInt8
  | [] => []
  | .data chunk :: reads => chunk ++ dataOf reads
  | .error :: reads => dataOf reads

/-- The number of errors a reader reports. -/
def Spec.errorsOf : List ReadResult → Nat
  | [] => 0
  | .data _ :: reads => errorsOf reads
  | .error :: reads => errorsOf reads + 1

/-- A read of zero bytes means the end, so a reader does not give one before. -/
def Spec.NoEmptyRead (reads : List ReadResult) : Prop := ∀ chunk, ReadResult.data chunk ∈ reads → chunk ≠ []

/-- The states in which the parser stops and asks for more, when a program reads on after every error. -/
inductive Stops (cfg : Cfg) : Codec → List ReadResult → Codec → Prop
  | here {c c' : Codec} {reads : List ReadResult} : c.run cfg = .pending c' → Stops cfg c reads c'
  | data {c c1 c' : Codec} {chunk : List UInt8} {reads : List ReadResult} : c.run cfg = .pending c1 →
      Stops cfg (c1.push chunk) reads c' → Stops cfg c (.data chunk :: reads) c'
  | error {c c1 c' : Codec} {reads : List ReadResult} : c.run cfg = .pending c1 →
      Stops cfg c1 reads c' → Stops cfg c (.error :: reads) c'

section
variable {cfg : Cfg} {D : Nat → List (Option AcTable) → Prop}

/-- The outcome of reading against that of the whole file; `x` are bytes of the file the reader does not
have. -/
def ReadSim (cfg : Cfg) (D : Nat → List (Option AcTable) → Prop) (x : List UInt8) (o : Out St Unit) :
    Returned × List ReadResult → Prop
  | (.image r d, rest) => d.codec.stage = .segments ∧ o = .ok () (app d.codec.st (dataOf rest ++ x)) ∧
      r = upsample cfg d.codec.st.dec ∧ (∀ p, r ≠ .error (.panic p)) ∧ (x = [] → d.ended = false)
  | (.io _, _) => False
  | (.failed f s, rest) => (x ≠ [] ∧ f = .eof ∧ rest = []) ∨ o = .fail f (app s (dataOf rest ++ x)) ∨
      (f = .err .outOfBits ∧ EobRuns s.dec ∧ s.dec.Has D) ∨
      (o = .ok () (app s (dataOf rest ++ x)) ∧ ∃ p, f = .panic p ∧ upsample cfg s.dec = .error f)

theorem run_sim {x : List UInt8} {o : Out St Unit} {c : Codec} (hst : ¬ c.stage.atRestart)
    (h : Ends cfg D c.stage (app c.st x) o) : PollSim cfg D x o (c.run cfg) :=
  codecRun_sim _ c.stage c.st hst h (by show c.st.bi.input.length + _ ≤ _; split <;> omega)

/-- A stop in front of a restart marker. -/
def RestartStop (cfg : Cfg) (D : Nat → List (Option AcTable) → Prop) (c : Codec) (reads : List ReadResult) : Prop :=
  ∃ c', Stops cfg c reads c' ∧ c'.stage.atRestart ∧ 0 < c'.st.dec.restartInterval ∧ c'.st.dec.Has D

theorem read_sim {x : List UInt8} {o : Out St Unit} : ∀ (reads : List ReadResult) (c : Codec) (n : Nat),
    ¬ c.stage.atRestart → NoEmptyRead reads → errorsOf reads ≤ n →
    Ends cfg D c.stage (app c.st (dataOf reads ++ x)) o →
    RestartStop cfg D c reads ∨ (∃ t, o = .fail .eof t) ∨
    ReadSim cfg D x o ((⟨c, false⟩ : ReadDecoder).retry cfg n reads) := by
  intro reads
  induction reads with
  | nil =>
    intro c n hst _ _ h
    have hr : ∀ n, (⟨c, false⟩ : ReadDecoder).retry cfg n [] = readLoop cfg c [] := by
      have hne : ∀ d', (readLoop cfg c []).1 ≠ .io d' := by
        intro d'
        rw [readLoop]
        cases c.run cfg with
        | pending c' =>
          simp only
          unfold readEnd
          cases c'.run cfg <;> simp
        | image r c' => simp
        | failed f s => simp
      intro n
      cases n with
      | zero => rfl
      | succ n =>
        rw [ReadDecoder.retry]
        have : (⟨c, false⟩ : ReadDecoder).decode cfg [] = readLoop cfg c [] := rfl
        rw [this]
        revert hne
        generalize readLoop cfg c [] = q
        intro hne
        obtain ⟨q, r⟩ := q
        cases q with
        | io d' => exact absurd rfl (hne d')
        | image _ _ => rfl
        | failed _ _ => rfl
    rw [hr n, readLoop]
    have h : Ends cfg D c.stage (app c.st x) o := h
    have hs := run_sim hst h
    cases hp : c.run cfg with
    | image r c' => rw [hp] at hs; exact .inr (.inr ⟨hs.1, hs.2.1, hs.2.2.1, hs.2.2.2, fun _ => rfl⟩)
    | failed f s => rw [hp] at hs; exact .inr (.inr (.inr hs))
    | pending c' =>
      rw [hp] at hs
      simp only
      rcases hs with h1 | h1 | ⟨h1, h2, h3⟩
      · exact .inl ⟨c', .here hp, h1⟩
      · exact .inr (.inl h1.1)
      · have hs' := run_sim h1 h3
        unfold readEnd
        cases hp' : c'.run cfg with
        | image r c2 =>
          rw [hp'] at hs'
          refine .inr (.inr ⟨hs'.1, hs'.2.1, hs'.2.2.1, hs'.2.2.2, fun hx => ?_⟩)
          obtain ⟨t, ht⟩ := h2 hx
          have := hs'.2.1
          rw [ht] at this
          cases this
        | failed f s => rw [hp'] at hs'; exact .inr (.inr (.inr hs'))
        | pending c2 =>
          by_cases hx : x = []
          · exact .inr (.inl (h2 hx))
          · exact .inr (.inr (.inl ⟨hx, rfl, rfl⟩))
  | cons r reads ih =>
    intro c n hst hne hn h
    have hs := run_sim hst h
    have hne' : NoEmptyRead reads := fun chunk hc => hne chunk (List.mem_cons_of_mem _ hc)
    have hdec : (⟨c, false⟩ : ReadDecoder).decode cfg (r :: reads) = readLoop cfg c (r :: reads) := rfl
    cases hp : c.run cfg with
    | image i c' =>
      rw [hp] at hs
      have : (⟨c, false⟩ : ReadDecoder).retry cfg n (r :: reads) = (.image i ⟨c', false⟩, r :: reads) := by
        cases n <;> rw [ReadDecoder.retry, hdec, readLoop, hp]
      rw [this]
      exact .inr (.inr ⟨hs.1, hs.2.1, hs.2.2.1, hs.2.2.2, fun _ => rfl⟩)
    | failed f s =>
      rw [hp] at hs
      have : (⟨c, false⟩ : ReadDecoder).retry cfg n (r :: reads) = (.failed f s, r :: reads) := by
        cases n <;> rw [ReadDecoder.retry, hdec, readLoop, hp]
      rw [this]
      exact .inr (.inr (.inr hs))
    | pending c' =>
      rw [hp] at hs
      rcases hs with h1 | h1 | ⟨h1, h2, h3⟩
      · exact .inl ⟨c', .here hp, h1⟩
      · exact .inr (.inl h1.1)
      cases r with
      | error =>
        obtain ⟨n, rfl⟩ : ∃ k, n = k + 1 := ⟨n - 1, by simp only [errorsOf] at hn; omega⟩
        have : (⟨c, false⟩ : ReadDecoder).retry cfg (n + 1) (.error :: reads) =
            (⟨c', false⟩ : ReadDecoder).retry cfg n reads := by
          rw [ReadDecoder.retry, hdec, readLoop, hp]
        rw [this]
        rcases ih c' n h1 hne' (by simp only [errorsOf] at hn; omega) h3 with ⟨c2, a1, a2⟩ | a | a
        · exact .inl ⟨c2, .error hp a1, a2⟩
        · exact .inr (.inl a)
        · exact .inr (.inr a)
      | data chunk =>
        obtain ⟨b, bs, rfl⟩ : ∃ b bs, chunk = b :: bs := by
          cases chunk with
          | nil => exact absurd rfl (hne [] (List.mem_cons_self ..))
          | cons b bs => exact ⟨b, bs, rfl⟩
        have : (⟨c, false⟩ : ReadDecoder).retry cfg n (.data (b :: bs) :: reads) =
            (⟨c'.push (b :: bs), false⟩ : ReadDecoder).retry cfg n reads := by
          have e : readLoop cfg c (.data (b :: bs) :: reads) = readLoop cfg (c'.push (b :: bs)) reads := by
            rw [readLoop, hp]
          cases n with
          | zero => exact e
          | succ n =>
            rw [ReadDecoder.retry, ReadDecoder.retry, hdec, e]
            rfl
        rw [this]
        have h3 : Ends cfg D c'.stage (app (c'.push (b :: bs)).st (dataOf reads ++ x)) o := by
          rw [push_app, ← List.append_assoc]
          exact h3
        rcases ih (c'.push (b :: bs)) n h1 hne' (by simpa only [errorsOf] using hn) h3 with ⟨c2, a1, a2⟩ | a | a
        · exact .inl ⟨c2, .data hp a1, a2⟩
        · exact .inr (.inl a)
        · exact .inr (.inr a)

end

/-- The decoder is left waiting for a restart marker, with a restart interval set by the file. -/
def ReadAtRestart (cfg : Cfg) (d : ReadDecoder) (file : List UInt8) (reads : List ReadResult) : Prop :=
  (∃ c', Stops cfg d.codec reads c' ∧ c'.stage.atRestart) ∧
  ∃ u, Between cfg (d.codec.start file) u ∧ 0 < u.restartInterval

/-- The decoder gives up inside an end of band run, with a table of the file that has such runs. -/
def ReadInEobRun (cfg : Cfg) (n : Nat) (d : ReadDecoder) (file : List UInt8) (reads : List ReadResult) : Prop :=
  (∃ s rest, d.retry cfg n reads = (.failed (.err .outOfBits) s, rest)) ∧
  ∃ u, Between cfg (d.codec.start file) u ∧ ∃ (i : Nat) (t : AcTable), u.acTables[i]? = some (some t) ∧
    HasEobRun t.table.values

/-- A `ReadDecoder` between two images whose reader has not ended. -/
structure ReadDecoder.Idle (d : ReadDecoder) : Prop where
  codec : d.codec.Idle
  open_ : d.ended = false

/-- A new `ReadDecoder` with the given decoder. -/
def ReadDecoder.ofDecoder (d : Decoder) : ReadDecoder := ⟨Codec.ofDecoder d, false⟩

theorem ReadDecoder.idle_ofDecoder {d : Decoder} (h : UsedDecoder d) : (ReadDecoder.ofDecoder d).Idle :=
  ⟨Codec.idle_ofDecoder h, rfl⟩

section
variable {cfg : Cfg}

/-- Everything about a `ReadDecoder`, what its reader has to give, and the file `… ++ x` that is the beginning
of. -/
theorem read_idle {d : ReadDecoder} (hd : d.Idle) (reads : List ReadResult) (x : List UInt8) (n : Nat)
    (hne : NoEmptyRead reads) (hn : errorsOf reads ≤ n) :
    let s0 := d.codec.start (d.codec.st.bi.input ++ (dataOf reads ++ x))
    let o := segmentLoop cfg (s0.bi.input.length + 1) s0
    ReadAtRestart cfg d s0.bi.input reads ∨ ReadInEobRun cfg n d s0.bi.input reads ∨
    (∃ t, o = .fail .eof t) ∨
    (∃ s, d.retry cfg n reads = (.failed .eof s, []) ∧ x ≠ []) ∨
    (∃ f s rest, d.retry cfg n reads = (.failed f s, rest) ∧ (o = .fail f (app s (dataOf rest ++ x)) ∨
      o = .ok () (app s (dataOf rest ++ x)) ∧ ∃ p, f = .panic p ∧ upsample cfg s.dec = .error f)) ∨
    ∃ r d' rest, d.retry cfg n reads = (.image r d', rest) ∧ d'.codec.stage = .segments ∧
      o = .ok () (app d'.codec.st (dataOf rest ++ x)) ∧ r = upsample cfg d'.codec.st.dec ∧
      (∀ p, r ≠ .error (.panic p)) ∧ (x = [] → d'.ended = false) := by
  intro s0 o
  obtain ⟨c, ended⟩ := d
  obtain ⟨hc, rfl⟩ : c.Idle ∧ ended = false := ⟨hd.codec, hd.open_⟩
  have hE := ends_run (cfg := cfg) s0
  have hs : app c.st (dataOf reads ++ x) = s0 := rfl
  rw [← hc.stage] at hE
  nth_rewrite 2 [← hs] at hE
  have hv : ∀ {d : Decoder}, d.Has (Seeing cfg s0) →
      ∃ u, Between cfg s0 u ∧ DecInv u ∧ u.restartInterval = d.restartInterval ∧
        u.acTables = d.acTables := by
    rintro d ⟨u, h1, h2, h3⟩
    exact ⟨u.dec, ⟨u, h1, rfl⟩, (h1.inv hc.inv hc.wf).1, h2, h3⟩
  rcases read_sim reads c n (by rw [hc.stage]; exact id) hne hn hE with h | h | h
  · obtain ⟨c', a1, a2, a3, a4⟩ := h
    obtain ⟨u, b1, -, b2, -⟩ := hv a4
    exact .inl ⟨⟨c', a1, a2⟩, u, b1, by rw [b2]; exact a3⟩
  · exact .inr (.inr (.inl h))
  · cases hq : (⟨c, false⟩ : ReadDecoder).retry cfg n reads with
    | mk q rest =>
    rw [hq] at h
    cases q with
    | io d' => exact h.elim
    | image r d' => exact .inr (.inr (.inr (.inr (.inr ⟨r, d', rest, rfl, h⟩))))
    | failed f s =>
      rcases h with ⟨h1, rfl, rfl⟩ | h2 | ⟨h2, ⟨i, t, h3, h4⟩, h5⟩ | h2
      · exact .inr (.inr (.inr (.inl ⟨s, rfl, h1⟩)))
      · exact .inr (.inr (.inr (.inr (.inl ⟨f, s, rest, rfl, .inl h2⟩))))
      · obtain ⟨u, b1, b2, -, b3⟩ := hv h5
        obtain ⟨L, counts, values, ht⟩ := b2.tables.ac i t (by rw [b3]; exact h3)
        exact .inr (.inl ⟨⟨s, rest, by rw [hq, h2]⟩, u, b1, i, t, by rw [b3]; exact h3, h4.values ht⟩)
      · exact .inr (.inr (.inr (.inr (.inl ⟨f, s, rest, rfl, .inr h2⟩))))

end

/-- **C70** (part). A reader that gives a file and what follows it, in pieces of any size and with errors of its
own in between, to a program that calls `decode` again after each of these errors: the image is the one
`decode` returns for the file, and nothing of what follows is lost; unless the parser has to wait in front of
a restart marker or inside an end of band run.

Missing: these two cases, where it is false: `C70_violated`. -/
theorem C70_image_partial (cfg : Cfg) (d : Decoder) (hd : UsedDecoder d) (file behind : List UInt8)
    (reads : List ReadResult) (hne : NoEmptyRead reads) (hdata : dataOf reads = file ++ behind)
    (image : List UInt8) (d' : Decoder) (h : d.decode cfg file = .ok image d') (n : Nat)
    (hn : errorsOf reads ≤ n) :
    (∃ r rest, (ReadDecoder.ofDecoder d).retry cfg n reads = (.image (.ok image) r, rest) ∧
      r.codec.st.dec = d' ∧ r.codec.st.bi.input ++ dataOf rest = behind) ∨
    ReadAtRestart cfg (ReadDecoder.ofDecoder d) (file ++ behind) reads ∨
    ReadInEobRun cfg n (ReadDecoder.ofDecoder d) (file ++ behind) reads := by
  obtain ⟨t, h1, h2, h3, h4⟩ := decode_ok_inv h
  have h5 : segmentLoop cfg ((file ++ behind).length + 1) ⟨d, Biterator.new (file ++ behind)⟩ =
    .ok () (app t behind) := segmentLoop_append (b := behind) h1
  have := read_idle (cfg := cfg) (ReadDecoder.idle_ofDecoder hd) reads [] n hne hn
  have e : (ReadDecoder.ofDecoder d).codec.start ((ReadDecoder.ofDecoder d).codec.st.bi.input ++ dataOf reads)
      = ⟨d, Biterator.new (file ++ behind)⟩ := by
    rw [hdata]
    rfl
  simp only [List.append_nil, e, show (Biterator.new (file ++ behind)).input = file ++ behind from rfl,
    h5] at this
  rcases this with h | h | ⟨t', h⟩ | ⟨s, h, h'⟩ | ⟨f, s, rest, h, h' | ⟨h', p, h6, h7⟩⟩ | ⟨r, r', rest, h, h6, h7, h8, -⟩
  · exact .inr (.inl h)
  · exact .inr (.inr h)
  · cases h
  · exact absurd rfl h'
  · cases h'
  · simp only [Out.ok.injEq, true_and] at h'
    have e3 : s.dec = t.dec := by
      have : (app t behind).dec = (app s (dataOf rest)).dec := by rw [h']
      exact this.symm
    rw [e3, h2, h4] at h7
    cases h7
  · simp only [Out.ok.injEq, true_and] at h7
    have e3 : r'.codec.st.dec = t.dec := by
      have : (app t behind).dec = (app r'.codec.st (dataOf rest)).dec := by rw [h7]
      exact this.symm
    have e4 : r'.codec.st.bi.input ++ dataOf rest = behind := by
      have : (app t behind).bi.input = (app r'.codec.st (dataOf rest)).bi.input := by rw [h7]
      have : t.bi.input ++ behind = r'.codec.st.bi.input ++ dataOf rest := this
      rw [← this, h3, List.nil_append]
    refine .inl ⟨r', rest, ?_, by rw [e3, h2], e4⟩
    rw [h, h8, e3, h2, h4]

/-- **C70** (part, the reader ends early). A reader that ends before the file does: the outcome is the error
that says so, unless the parser has to wait in front of a restart marker or inside an end of band run. -/
theorem C70_ends_early_partial (cfg : Cfg) (d : Decoder) (hd : UsedDecoder d) (missing : List UInt8)
    (reads : List ReadResult) (hne : NoEmptyRead reads) (hm : missing ≠ [])
    (image : List UInt8) (d' : Decoder) (h : d.decode cfg (dataOf reads ++ missing) = .ok image d') (n : Nat)
    (hn : errorsOf reads ≤ n) :
    (∃ s, (ReadDecoder.ofDecoder d).retry cfg n reads = (.failed .eof s, [])) ∨
    ReadAtRestart cfg (ReadDecoder.ofDecoder d) (dataOf reads ++ missing) reads ∨
    ReadInEobRun cfg n (ReadDecoder.ofDecoder d) (dataOf reads ++ missing) reads := by
  obtain ⟨t, h1, h2, h3, h4⟩ := decode_ok_inv h
  have := read_idle (cfg := cfg) (ReadDecoder.idle_ofDecoder hd) reads missing n hne hn
  have e : (ReadDecoder.ofDecoder d).codec.start
      ((ReadDecoder.ofDecoder d).codec.st.bi.input ++ (dataOf reads ++ missing))
      = ⟨d, Biterator.new (dataOf reads ++ missing)⟩ := rfl
  simp only [e, show (Biterator.new (dataOf reads ++ missing)).input = dataOf reads ++ missing from rfl, h1] at this
  have hno : ∀ (s : St) (rest : List ReadResult), t ≠ app s (dataOf rest ++ missing) := by
    rintro s rest rfl
    have : s.bi.input ++ (dataOf rest ++ missing) = [] := h3
    simp [hm] at this
  rcases this with h | h | ⟨t', h⟩ | ⟨s, h, h'⟩ | ⟨f, s, rest, h, h' | ⟨h', p, h6, h7⟩⟩ | ⟨r, r', rest, h, h6, h7, h8, -⟩
  · exact .inr (.inl h)
  · exact .inr (.inr h)
  · cases h
  · exact .inl ⟨s, h⟩
  · cases h'
  · simp only [Out.ok.injEq, true_and] at h'
    exact absurd h' (hno _ _)
  · simp only [Out.ok.injEq, true_and] at h7
    exact absurd h7 (hno _ _)

/-- **C70** (part). The sequential files of C43_baseline_partial, without restart intervals and end of band runs: a
reader that gives the file gets the image of `decode`, one that ends early gets an error, whatever the size of
the pieces and wherever the reader fails in between.

Missing: files with a restart interval, see `C70_violated`. -/
theorem C70_baseline_partial (cfg : Cfg) (f : BaselineFile) (H V : Nat) (codes : List (Code × Code))
    (hh : f.earlier = []) (h3 : f.comps.length = 3) (hct : f.transform none ≠ some 0)
    (hv : f.Valid (f.interval 0) H V codes) (hr : f.Renderable H V) (hp : PlainTables f.segments)
    (reads : List ReadResult) (hne : NoEmptyRead reads) (hf : dataOf reads <+: f.bytes) (n : Nat)
    (hn : errorsOf reads ≤ n) :
    (dataOf reads = f.bytes ∧ ∃ image r rest, decode cfg f.bytes = .ok image ∧
      ReadDecoder.new.retry cfg n reads = (.image (.ok image) r, rest) ∧
      r.codec.st.bi.input = [] ∧ dataOf rest = []) ∨
    (dataOf reads ≠ f.bytes ∧ ∃ s, ReadDecoder.new.retry cfg n reads = (.failed .eof s, [])) := by
  obtain ⟨missing, hf⟩ := hf
  obtain ⟨image, d', e, hl⟩ := C45_decodes cfg f H V codes Decoder.default .new (hh ▸ .nothing _) h3 hct hv hr
  have hb : ∀ u, Between cfg ⟨Decoder.default, Biterator.new (dataOf reads ++ missing)⟩ u → u.Plain := by
    rintro _ ⟨s, h, rfl⟩
    rw [hf] at h
    exact visits_file (UsedDecoder.new).inv (hh ▸ .nothing _ _) hv hp Decoder.plain_default h
  by_cases hm : missing = []
  · subst hm
    rw [List.append_nil] at hf hb
    refine .inl ⟨hf, image, ?_⟩
    rcases C70_image_partial cfg Decoder.default .new f.bytes [] reads hne (by rw [hf, List.append_nil]) image d' e n hn with
      ⟨r, rest, h1, h2, h3⟩ | ⟨-, u, h1, h2⟩ | ⟨-, u, h1, i, t, h2, h3⟩
    · rw [List.append_eq_nil_iff] at h3
      exact ⟨r, rest, by unfold decode; rw [e], h1, h3.1, h3.2⟩
    · rw [List.append_nil, ← hf] at h1
      exact absurd (hb u h1).interval (by omega)
    · rw [List.append_nil, ← hf] at h1
      exact absurd h3 ((hb u h1).tables i t h2)
  · refine .inr ⟨?_, ?_⟩
    · intro h
      rw [h] at hf
      exact hm (by simpa using hf)
    · rcases C70_ends_early_partial cfg Decoder.default .new missing reads hne hm image d' (by rw [hf]; exact e) n hn with
        h | ⟨-, u, h1, h2⟩ | ⟨-, u, h1, i, t, h2, h3⟩
      · exact h
      · exact absurd (hb u h1).interval (by omega)
      · exact absurd h3 ((hb u h1).tables i t h2)

/-! ## What a `ReadDecoder` in use keeps -/

/-- The `ReadDecoder`s a program can hold, with whatever reader and calling on after errors of the reader and
after the end. -/
inductive UsedReader : ReadDecoder → Prop
  | new : UsedReader ReadDecoder.new
  | image {d d' : ReadDecoder} (cfg : Cfg) (reads : List ReadResult) {r : Except Fail (List UInt8)}
      {rest : List ReadResult} : UsedReader d → d.decode cfg reads = (.image r d', rest) → UsedReader d'
  | io {d d' : ReadDecoder} (cfg : Cfg) (reads : List ReadResult) {rest : List ReadResult} :
      UsedReader d → d.decode cfg reads = (.io d', rest) → UsedReader d'

/-- The invariant of the outcome of a call. -/
def ReturnedInv (cfg : Cfg) : Returned → Prop
  | .image r d => StageInv d.codec.stage d.codec.st ∧ upsample cfg d.codec.st.dec = r ∧ d.codec.stage = .segments
  | .io d => StageInv d.codec.stage d.codec.st
  | .failed f s => ∀ p, f = .panic p → ∃ buf, StreamPanic cfg buf s.dec p

theorem run_inv {cfg : Cfg} {c : Codec} (h : StageInv c.stage c.st) :
    match c.run cfg with
    | .pending c => StageInv c.stage c.st
    | .image r c => StageInv c.stage c.st ∧ upsample cfg c.st.dec = r ∧ c.stage = .segments
    | .failed f s => ∀ p, f = .panic p → ∃ buf, StreamPanic cfg buf s.dec p := by
  have := codecRun_inv (cfg := cfg) (c.st.bi.input.length + 2) c.stage c.st h (List.suffix_refl _)
    (by cases c.stage <;> simp)
  have hi := codecRun_image (cfg := cfg) (c.st.bi.input.length + 2) c.stage c.st
  unfold Codec.run
  cases hr : codecRun cfg (c.st.bi.input.length + 2) c.stage c.st with
  | pending c' => rw [hr] at this; exact this
  | image r c' => rw [hr] at this; exact ⟨this, hi _ _ hr⟩
  | failed f s => rw [hr] at this; exact fun p hp => ⟨_, this p hp⟩

theorem readEnd_inv {cfg : Cfg} {c : Codec} (h : StageInv c.stage c.st) : ReturnedInv cfg (readEnd cfg c) := by
  have := run_inv (cfg := cfg) h
  unfold readEnd
  cases hr : c.run cfg with
  | pending c' => intro p hp; cases hp
  | image r c' => rw [hr] at this; exact this
  | failed f s => rw [hr] at this; exact this

theorem readLoop_inv {cfg : Cfg} : ∀ (reads : List ReadResult) (c : Codec), StageInv c.stage c.st →
    ReturnedInv cfg (readLoop cfg c reads).1 := by
  intro reads
  induction reads with
  | nil =>
    intro c h
    have := run_inv (cfg := cfg) h
    rw [readLoop]
    cases hr : c.run cfg with
    | pending c' => rw [hr] at this; exact readEnd_inv this
    | image r c' => rw [hr] at this; exact this
    | failed f s => rw [hr] at this; exact this
  | cons r reads ih =>
    intro c h
    have := run_inv (cfg := cfg) h
    rw [readLoop]
    cases hr : c.run cfg with
    | pending c' =>
      rw [hr] at this
      match r with
      | .error => exact this
      | .data [] => exact readEnd_inv this
      | .data (b :: bs) => exact ih (c'.push (b :: bs)) (this.setInput _)
    | image r c' => rw [hr] at this; exact this
    | failed f s => rw [hr] at this; exact this

theorem ReadDecoder.decode_inv {cfg : Cfg} {d : ReadDecoder} (h : StageInv d.codec.stage d.codec.st)
    (reads : List ReadResult) : ReturnedInv cfg (d.decode cfg reads).1 := by
  unfold ReadDecoder.decode
  split
  · exact readEnd_inv h
  · exact readLoop_inv reads d.codec h

theorem UsedReader.inv {d : ReadDecoder} (h : UsedReader d) : StageInv d.codec.stage d.codec.st := by
  induction h with
  | new => exact ⟨DecInv.default, new_wf []⟩
  | image cfg reads _ h ih => have := ReadDecoder.decode_inv (cfg := cfg) ih reads; rw [h] at this; exact this.1
  | io cfg reads _ h ih => have := ReadDecoder.decode_inv (cfg := cfg) ih reads; rw [h] at this; exact this

/-- **C58**. Nor does a call of a `ReadDecoder`, whatever its reader gives. -/
theorem C58_reader (cfg : Cfg) (d : ReadDecoder) (hd : UsedReader d) (reads rest : List ReadResult) (p : PanicSite)
    (s : St) (h : d.decode cfg reads = (.failed (.panic p) s, rest)) : ¬ p.Undefined := by
  have := ReadDecoder.decode_inv (cfg := cfg) hd.inv reads
  rw [h] at this
  obtain ⟨buf, this⟩ := this p rfl
  exact this.real.1

/-- **C50**. Every call of a `ReadDecoder` returns once its reader has: the bound of the model's loop over the
buffered bytes is never the reason for a failure. -/
theorem C50_reader (cfg : Cfg) (d : ReadDecoder) (hd : UsedReader d) (reads rest : List ReadResult) (s : St) :
    d.decode cfg reads ≠ (.failed (.panic .fuel) s, rest) := by
  intro h
  have := ReadDecoder.decode_inv (cfg := cfg) hd.inv reads
  rw [h] at this
  obtain ⟨buf, this⟩ := this .fuel rfl
  exact this.real.2 rfl

/-- **C41** (reading; the property fails as stated, this is what holds instead). Every panic of every call of a
`ReadDecoder` belongs to one of the listed classes. -/
theorem C41_reader_panics_listed_partial (cfg : Cfg) (d : ReadDecoder) (hd : UsedReader d)
    (reads rest : List ReadResult) (p : PanicSite) (s : St)
    (h : d.decode cfg reads = (.failed (.panic p) s, rest)) : ∃ buf, StreamPanic cfg buf s.dec p := by
  have := ReadDecoder.decode_inv (cfg := cfg) hd.inv reads
  rw [h] at this
  exact this p rfl

/-- **C35**. The images of a `ReadDecoder` have the size of the frame the decoder then holds. -/
theorem C35_reader (cfg : Cfg) (d d' : ReadDecoder) (hd : UsedReader d) (reads rest : List ReadResult)
    (image : List UInt8) (h : d.decode cfg reads = (.image (.ok image) d', rest)) :
    ∃ frame, d'.codec.st.dec.frame = some frame ∧
      image.length = frame.samplesPerLine * frame.lines * frame.components.length := by
  have := ReadDecoder.decode_inv (cfg := cfg) hd.inv reads
  rw [h] at this
  exact upsample_length this.2.1

/-! ## The end of the reader -/

theorem readLoop_end (cfg : Cfg) (more : List ReadResult) : ∀ (reads : List ReadResult) (c : Codec), NoEmptyRead reads →
    (readLoop cfg c (reads ++ .data [] :: more)).1 = (readLoop cfg c reads).1 ∧
    ∀ d', (readLoop cfg c reads).1 = .io d' →
      (readLoop cfg c (reads ++ .data [] :: more)).2 = (readLoop cfg c reads).2 ++ .data [] :: more ∧
      (readLoop cfg c reads).2 <:+ reads ∧ d'.ended = false := by
  intro reads
  induction reads with
  | nil =>
    intro c _
    rw [List.nil_append, readLoop, readLoop]
    cases c.run cfg with
    | pending c' =>
      refine ⟨rfl, fun d' h => ?_⟩
      simp only [readEnd] at h
      cases hr : c'.run cfg <;> rw [hr] at h <;> cases h
    | image r c' => exact ⟨rfl, fun d' h => by cases h⟩
    | failed f s => exact ⟨rfl, fun d' h => by cases h⟩
  | cons r reads ih =>
    intro c hne
    have hne' : NoEmptyRead reads := fun chunk hc => hne chunk (List.mem_cons_of_mem _ hc)
    rw [List.cons_append, readLoop, readLoop]
    cases c.run cfg with
    | pending c' =>
      match r with
      | .error => exact ⟨rfl, fun d' h => by cases h; exact ⟨rfl, List.suffix_cons _ _, rfl⟩⟩
      | .data [] => exact absurd rfl (hne [] (List.mem_cons_self ..))
      | .data (b :: bs) =>
        obtain ⟨h1, h2⟩ := ih (c'.push (b :: bs)) hne'
        exact ⟨h1, fun d' h => ⟨(h2 d' h).1, (h2 d' h).2.1.trans (List.suffix_cons _ _), (h2 d' h).2.2⟩⟩
    | image r c' => exact ⟨rfl, fun d' h => by cases h⟩
    | failed f s => exact ⟨rfl, fun d' h => by cases h⟩

/-- **C70** (the end is the end). A read of zero bytes ends the input: what the reader would give after it does not
matter. -/
theorem C70_end_is_final (cfg : Cfg) (d : ReadDecoder) (reads more : List ReadResult) (hne : NoEmptyRead reads)
    (n : Nat) : (d.retry cfg n (reads ++ .data [] :: more)).1 = (d.retry cfg n reads).1 := by
  have key : ∀ (d : ReadDecoder) (reads : List ReadResult), NoEmptyRead reads →
      (d.decode cfg (reads ++ .data [] :: more)).1 = (d.decode cfg reads).1 ∧
      ∀ d', (d.decode cfg reads).1 = .io d' →
        (d.decode cfg (reads ++ .data [] :: more)).2 = (d.decode cfg reads).2 ++ .data [] :: more ∧
        (d.decode cfg reads).2 <:+ reads := by
    intro d reads hne
    unfold ReadDecoder.decode
    split
    · refine ⟨rfl, fun d' h => ?_⟩
      simp only [readEnd] at h
      cases hr : d.codec.run cfg <;> rw [hr] at h <;> cases h
    · obtain ⟨h1, h2⟩ := readLoop_end cfg more reads d.codec hne
      exact ⟨h1, fun d' h => ⟨(h2 d' h).1, (h2 d' h).2.1⟩⟩
  induction n generalizing d reads with
  | zero => exact (key d reads hne).1
  | succ n ih =>
    obtain ⟨h1, h2⟩ := key d reads hne
    rw [ReadDecoder.retry, ReadDecoder.retry]
    cases hq : d.decode cfg reads with
    | mk q rest =>
      cases hq' : d.decode cfg (reads ++ .data [] :: more) with
      | mk q' rest' =>
        rw [hq, hq'] at h1 h2
        simp only at h1 h2
        subst h1
        cases q' with
        | io d' =>
          obtain ⟨rfl, h3⟩ := h2 d' rfl
          exact ih d' rest fun chunk hc => hne chunk (h3.subset hc)
        | image r d' => rfl
        | failed f s => rfl

/-! ## Violations -/

def Returned.failOf : Returned × List ReadResult → Option Fail
  | (.failed f _, _) => some f
  | _ => none

def Returned.imageOf : Returned × List ReadResult → Option (List UInt8)
  | (.image (.ok i) _, _) => some i
  | _ => none

/-- **C70** fails: a reader that gives the file up to a restart marker, fails once, and then gives the rest: in a
checked build the second call panics, in a release build the picture is another one. A reader that ends there
makes a checked build panic instead of reporting the end. A read in the middle of an end of band run is an
error. -/
theorem C70_violated :
    Returned.failOf (ReadDecoder.new.retry ⟨true, false⟩ 1
      [.data (exampleFile.bytes.take 202), .error, .data (exampleFile.bytes.drop 202)]) =
      some (.panic .restartUnderflow) ∧
    (decode ⟨true, false⟩ exampleFile.bytes).toOption.isSome ∧
    (Returned.imageOf (ReadDecoder.new.retry ⟨false, false⟩ 1
      [.data (exampleFile.bytes.take 202), .error, .data (exampleFile.bytes.drop 202)])).isSome ∧
    Returned.imageOf (ReadDecoder.new.retry ⟨false, false⟩ 1
      [.data (exampleFile.bytes.take 202), .error, .data (exampleFile.bytes.drop 202)]) ≠
      (decode ⟨false, false⟩ exampleFile.bytes).toOption ∧
    Returned.failOf (ReadDecoder.new.decode ⟨true, false⟩ [.data (exampleFile.bytes.take 202)]) =
      some (.panic .restartUnderflow) ∧
    Returned.failOf (ReadDecoder.new.decode dbg
      [.data (eobRun.take (eobRun.length - 3)), .data (eobRun.drop (eobRun.length - 3))]) =
      some (.err .outOfBits) ∧ (decode dbg eobRun).toOption.isSome := by
  refine ⟨?_, ?_, ?_, ?_, ?_, ?_, ?_⟩ <;> decide +kernel

/-! ## Cases -/

/-- A case of `C70_baseline_partial`: byte by byte, with an error of the reader in front of each byte. -/
example : ∃ image r rest, decode ⟨true, false⟩ examplePlain.bytes = .ok image ∧
    ReadDecoder.new.retry ⟨true, false⟩ (errorsOf (examplePlain.bytes.flatMap fun b => [.error, .data [b]]))
      (examplePlain.bytes.flatMap fun b => [.error, .data [b]]) = (.image (.ok image) r, rest) := by
  have hd : ∀ l : List UInt8, dataOf (l.flatMap fun b => [.error, .data [b]]) = l := by
    intro l
    induction l with
    | nil => rfl
    | cons b l ih => exact congrArg (b :: ·) ih
  rcases C70_baseline_partial ⟨true, false⟩ examplePlain 1 1 _
    rfl rfl (by decide) examplePlain_valid (by unfold BaselineFile.Renderable; decide) examplePlain_plain
    (examplePlain.bytes.flatMap fun b => [.error, .data [b]]) (by
      intro chunk hc
      simp only [List.mem_flatMap, List.mem_cons, List.not_mem_nil, or_false, reduceCtorEq, false_or] at hc
      obtain ⟨b, -, hc⟩ := hc
      cases hc
      simp) (by rw [hd]) _ (le_refl _) with ⟨-, image, r, rest, h1, h2, -⟩ | ⟨h, -⟩
  · exact ⟨image, r, rest, h1, h2⟩
  · exact absurd (hd _) h

/-- A case of `C70_ends_early_partial` and of `C70_image_partial`, run by the kernel: the grey file, with an error
in the middle; and without its last byte. -/
example : Returned.imageOf (ReadDecoder.new.retry dbg 1 [.data (grey.take 100), .error, .data (grey.drop 100 ++ [1, 2])]) =
      (decode dbg grey).toOption ∧ (decode dbg grey).toOption.isSome ∧
    Returned.failOf (ReadDecoder.new.retry dbg 1 [.data (grey.take 100), .error,
      .data ((grey.drop 100).take (grey.length - 101))]) = some .eof := by
  refine ⟨?_, ?_, ?_⟩ <;> decide +kernel

/-- A `ReadDecoder` in use whose reader has failed in the middle of the file. -/
example : ∃ d rest, UsedReader d ∧ d.codec.st.bi.input.length < 100 ∧
    ReadDecoder.new.decode dbg [.data (grey.take 100), .error] = (.io d, rest) := by
  have h : (match ReadDecoder.new.decode dbg [.data (grey.take 100), .error] with
      | (.io d, _) => decide (d.codec.st.bi.input.length < 100)
      | _ => false) = true := by decide +kernel
  cases hq : ReadDecoder.new.decode dbg [.data (grey.take 100), .error] with
  | mk q rest =>
    rw [hq] at h
    cases q with
    | io d => exact ⟨d, rest, .io dbg _ .new hq, of_decide_eq_true h, rfl⟩
    | image r d => cases h
    | failed f s => cases h

/-- A case of `C70_end_is_final`: the rest of the file behind a read of zero bytes comes too late. -/
example : Returned.failOf (ReadDecoder.new.decode dbg [.data (grey.take 100), .data [], .data (grey.drop 100)]) =
    some .eof := by decide +kernel

end Jpeg
