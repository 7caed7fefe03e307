import Verif.Proofs.StreamFile
import Verif.Props.EndToEnd
import Verif.Props.Images
/-!
# C43, C44: decoding from a stream
-/

namespace Jpeg
open HasInput HasLen Spec Sample

/-- A codec between two images: a new one, and, by `C44_next_image_partial`, one that has returned an image. -/
structure Codec.Idle (c : Codec) : Prop where
  stage : c.stage = .segments
  wf : c.st.bi.WF
  inv : DecInv c.st.dec

/-- The state in which a codec between two images starts on a file: with the bits left over from before. -/
def Codec.start (c : Codec) (file : List UInt8) : St := ⟨c.st.dec, { c.st.bi with input := file }⟩

/-- A new codec with the given decoder. -/
def Codec.ofDecoder (d : Decoder) : Codec := ⟨.segments, ⟨d, Biterator.new []⟩⟩

theorem Codec.idle_ofDecoder {d : Decoder} (h : UsedDecoder d) : (Codec.ofDecoder d).Idle :=
  ⟨rfl, wf_zero _, h.inv⟩

theorem Codec.start_ofDecoder (d : Decoder) (file : List UInt8) :
    (Codec.ofDecoder d).start file = ⟨d, Biterator.new file⟩ := rfl

/-- `u` is the decoder between two segments of the file, when the parser has the whole of it. -/
def Between (cfg : Cfg) (s : St) (u : Decoder) : Prop :=
  ∃ t, Visits cfg s t ∧ t.dec = u

/-- A split that leaves the codec waiting for a restart marker, with a restart interval set by the file. -/
def SplitAtRestart (cfg : Cfg) (c : Codec) (file : List UInt8) (chunks : List (List UInt8)) : Prop :=
  (∃ k c', c.feed cfg (chunks.take k) = (.pending c', []) ∧ c'.stage.atRestart) ∧
  ∃ u, Between cfg (c.start file) u ∧ 0 < u.restartInterval

/-- The codec gives up inside an end of band run, with a table of the file that has such runs. -/
def SplitInEobRun (cfg : Cfg) (c : Codec) (file : List UInt8) (chunks : List (List UInt8)) : Prop :=
  (∃ s rest, c.feed cfg chunks = (.failed (.err .outOfBits) s, rest)) ∧
  ∃ u, Between cfg (c.start file) u ∧ ∃ (i : Nat) (t : AcTable), u.acTables[i]? = some (some t) ∧
    HasEobRun t.table.values

section
variable {cfg : Cfg}

theorem Codec.app_start (c : Codec) (x : List UInt8) : app c.st x = c.start (c.st.bi.input ++ x) := rfl

/-- Everything about a codec and a file. -/
theorem feed_idle {c : Codec} (hc : c.Idle) (chunks : List (List UInt8)) (hne : chunks ≠ [])
    (hin : c.st.bi.input ++ chunks.flatten ≠ []) :
    let s0 := c.start (c.st.bi.input ++ chunks.flatten)
    let o := segmentLoop cfg (s0.bi.input.length + 1) s0
    SplitAtRestart cfg c s0.bi.input chunks ∨ SplitInEobRun cfg c s0.bi.input chunks ∨
    ((∃ t, o = .fail .eof t) ∧ ∃ c', c.feed cfg chunks = (.pending c', [])) ∨
    (∃ f s rest, c.feed cfg chunks = (.failed f s, rest) ∧ (o = .fail f (app s rest.flatten) ∨
      o = .ok () (app s rest.flatten) ∧ ∃ p, f = .panic p ∧ upsample cfg s.dec = .error f)) ∨
    ∃ r c' rest, c.feed cfg chunks = (.image r c', rest) ∧ c'.stage = .segments ∧
      o = .ok () (app c'.st rest.flatten) ∧ r = upsample cfg c'.st.dec ∧ ∀ p, r ≠ .error (.panic p) := by
  intro s0 o
  have hE := ends_run (cfg := cfg) s0
  have hs : app c.st chunks.flatten = s0 := rfl
  rw [← hc.stage] at hE
  nth_rewrite 2 [← hs] at hE
  have hv : ∀ {d : Decoder}, d.Has (Seeing cfg s0) →
      ∃ u, Between cfg s0 u ∧ DecInv u ∧ u.restartInterval = d.restartInterval ∧
        u.acTables = d.acTables := by
    rintro d ⟨u, h1, h2, h3⟩
    exact ⟨u.dec, ⟨u, h1, rfl⟩, (h1.inv hc.inv hc.wf).1, h2, h3⟩
  rcases feed_sim chunks c (by rw [hc.stage]; exact id)
    (fun h => h.elim (fun h => absurd h hne) fun h => absurd h hin) hE with h | h | ⟨p, rest, h1, h2⟩
  · obtain ⟨k, c', a1, a2, a3, a4⟩ := h
    obtain ⟨u, b1, -, b2, -⟩ := hv a4
    exact .inl ⟨⟨k, c', a1, a2⟩, u, b1, by rw [b2]; exact a3⟩
  · exact .inr (.inr (.inl h))
  · cases p with
    | pending c' => exact h2.elim
    | image r c' => exact .inr (.inr (.inr (.inr ⟨r, c', rest, h1, h2⟩)))
    | failed f s =>
      rcases h2 with h2 | ⟨h2, ⟨i, t, h3, h4⟩, h5⟩ | h2
      · exact .inr (.inr (.inr (.inl ⟨f, s, rest, h1, .inl h2⟩)))
      · obtain ⟨u, b1, b2, -, b3⟩ := hv h5
        obtain ⟨L, counts, values, ht⟩ := b2.tables.ac i t (by rw [b3]; exact h3)
        exact .inr (.inl ⟨⟨s, rest, by rw [h1, h2]⟩, u, b1, i, t, by rw [b3]; exact h3, h4.values ht⟩)
      · exact .inr (.inr (.inr (.inl ⟨f, s, rest, h1, .inr h2⟩)))

end

/-- What follows a complete image does not change its decoding. -/
theorem segmentLoop_append {cfg : Cfg} {d : Decoder} {a b : List UInt8} {bits count : Nat} {t : St}
    (h : segmentLoop cfg (a.length + 1) ⟨d, ⟨a, bits, count⟩⟩ = .ok () t) :
    segmentLoop cfg ((a ++ b).length + 1) ⟨d, ⟨a ++ b, bits, count⟩⟩ = .ok () (app t b) := by
  have hg := segmentLoop_grows cfg b (a.length + 1) ⟨d, ⟨a, bits, count⟩⟩
  rw [h] at hg
  have hg : segmentLoop cfg (a.length + 1) (⟨d, ⟨a ++ b, bits, count⟩⟩ : St) = .ok () (app t b) := hg
  -- a successful run does not need more fuel
  have mono : ∀ (n k : Nat) (s t : St), segmentLoop cfg n s = .ok () t → segmentLoop cfg (n + k) s = .ok () t := by
    intro n
    induction n with
    | zero => intro k s t h; cases h
    | succ n ih =>
      intro k s t h
      rw [show n + 1 + k = (n + k) + 1 by omega]
      rw [segmentLoop] at h ⊢
      cases hm : marker s.bi.input with
      | error f => rw [hm] at h; cases h
      | ok q =>
        obtain ⟨m, rest⟩ := q
        rw [hm] at h
        simp only at h ⊢
        split at h
        · next he => rw [if_pos he]; exact h
        · next he =>
          rw [if_neg he]
          cases hd : doSegment cfg m (s.setInput rest) with
          | fail f t' => rw [hd] at h; cases h
          | ok u t' => rw [hd, Out.bind_ok] at h; exact ih k t' t h
  have := mono (a.length + 1) b.length _ _ hg
  rw [List.length_append]
  rw [show a.length + b.length + 1 = a.length + 1 + b.length by omega]
  exact this

theorem decode_ok_inv {cfg : Cfg} {d d' : Decoder} {a image : List UInt8} (h : d.decode cfg a = .ok image d') :
    ∃ t, segmentLoop cfg (a.length + 1) ⟨d, Biterator.new a⟩ = .ok () t ∧ t.dec = d' ∧ t.bi.input = [] ∧
      upsample cfg d' = .ok image := by
  unfold Decoder.decode decodeParser at h
  have e : (⟨d, Biterator.new a⟩ : St).bi.input.length = a.length := rfl
  rw [e] at h
  cases hl : segmentLoop cfg (a.length + 1) ⟨d, Biterator.new a⟩ with
  | fail f t => rw [hl] at h; cases h
  | ok u t =>
    rw [hl, Out.bind_ok] at h
    cases hu : upsample cfg t.dec with
    | error f =>
      rw [hu] at h
      cases f with
      | panic p => cases h
      | unit | eof | err _ =>
        simp only at h
        split at h
        · cases h
        · cases h
    | ok r =>
      rw [hu] at h
      simp only at h
      split at h
      · cases h
      · next hi =>
        cases h
        exact ⟨t, rfl, rfl, by simpa using hi, hu⟩

/-- **C44** (part). What a codec between two images makes of the file that comes next, arriving in any
pieces and with more behind it: what the parser makes of the file alone when it starts with the bits the
codec has left over. The bytes behind the file are kept for the next image. The exceptions are splits that
leave the codec waiting for a restart marker or fall into an end of band run.

Missing: these two cases, where it is false, see `C43_violated_restart`, `C43_violated_eobRun`; and, for the
second image to be the one `decode` returns, an empty bit buffer, see `C44_violated`. -/
theorem C44_next_image_partial (cfg : Cfg) (c : Codec) (hc : c.Idle) (file behind : List UInt8)
    (chunks : List (List UInt8)) (hne : chunks ≠ []) (hfile : c.st.bi.input ++ chunks.flatten = file ++ behind)
    (image : List UInt8) (t : St) (h : decodeParser cfg (c.start file) = .ok (.ok image) t)
    (ht : t.bi.input = []) :
    (∃ c' rest, c.feed cfg chunks = (.image (.ok image) c', rest) ∧ c'.Idle ∧ c'.start [] = t ∧
      c'.st.bi.input ++ rest.flatten = behind) ∨
    SplitAtRestart cfg c (file ++ behind) chunks ∨ SplitInEobRun cfg c (file ++ behind) chunks := by
  obtain ⟨h1, h4⟩ : segmentLoop cfg (file.length + 1) (c.start file) = .ok () t ∧ upsample cfg t.dec = .ok image := by
    unfold decodeParser at h
    have e : (c.start file).bi.input.length = file.length := rfl
    rw [e] at h
    cases hl : segmentLoop cfg (file.length + 1) (c.start file) with
    | fail f t => rw [hl] at h; cases h
    | ok u t =>
      rw [hl, Out.bind_ok] at h
      cases hu : upsample cfg t.dec with
      | error f => rw [hu] at h; cases f <;> cases h
      | ok r => rw [hu] at h; cases h; exact ⟨rfl, hu⟩
  have h5 := segmentLoop_append (b := behind) h1
  have hf : file ≠ [] := by
    rintro rfl
    rw [segmentLoop] at h1
    cases h1
  have hsafe := segmentLoop_safe (cfg := cfg) file (file.length + 1) (c.start file) hc.inv hc.wf
    (Nat.lt_succ_self _) (List.suffix_refl _)
  rw [h1] at hsafe
  have hwf : t.bi.WF := hsafe.2.1
  have := feed_idle (cfg := cfg) hc chunks hne (by rw [hfile]; simp [hf])
  simp only [hfile] at this
  have e : (c.start (file ++ behind)).bi.input.length = (file ++ behind).length := rfl
  have e2 : (c.start (file ++ behind)).bi.input = file ++ behind := rfl
  have h5 : segmentLoop cfg ((file ++ behind).length + 1) (c.start (file ++ behind)) = .ok () (app t behind) := h5
  rw [e, h5, e2] at this
  rcases this with h | h | ⟨⟨t', h⟩, -⟩ | ⟨f, s, rest, h, h' | ⟨h', p, h6, h7⟩⟩ | ⟨r, c', rest, h, h6, h7, h8, -⟩
  · exact .inr (.inl h)
  · exact .inr (.inr h)
  · cases h
  · cases h'
  · simp only [Out.ok.injEq, true_and] at h'
    have e3 : s.dec = t.dec := by
      have : (app t behind).dec = (app s rest.flatten).dec := by rw [h']
      exact this.symm
    rw [e3, h4] at h7
    cases h7
  · simp only [Out.ok.injEq, true_and] at h7
    obtain ⟨td, ti, tb, tc⟩ := t
    obtain ⟨st, cd, ci, cb, cc⟩ := c'
    have h7 : (⟨td, ⟨ti ++ behind, tb, tc⟩⟩ : St) = ⟨cd, ⟨ci ++ rest.flatten, cb, cc⟩⟩ := h7
    have ht : ti = [] := ht
    subst ht
    simp only [St.mk.injEq, Biterator.mk.injEq, List.nil_append] at h7
    obtain ⟨rfl, rfl, rfl, rfl⟩ := h7
    refine .inl ⟨_, rest, ?_, ⟨h6, hwf, hsafe.1⟩, rfl, rfl⟩
    rw [h, h8]
    show (Poll.image (upsample cfg td) _, rest) = _
    rw [h4]

theorem decode_ok_parser {cfg : Cfg} {d d' : Decoder} {a image : List UInt8} (h : d.decode cfg a = .ok image d') :
    ∃ t, decodeParser cfg ⟨d, Biterator.new a⟩ = .ok (.ok image) t ∧ t.dec = d' ∧ t.bi.input = [] := by
  obtain ⟨t, h1, h2, h3, h4⟩ := decode_ok_inv h
  refine ⟨t, ?_, h2, h3⟩
  unfold decodeParser
  have e : (⟨d, Biterator.new a⟩ : St).bi.input.length = a.length := rfl
  rw [e, h1, Out.bind_ok, h2, h4]

/-- **C43** (part). A file arriving in any pieces, with more behind it: the codec returns the image `decode`
returns for the file, and keeps all the bytes that follow, unless a split leaves it waiting for a restart
marker or falls into an end of band run.

Missing: these two cases, where it is false: `C43_violated_restart`, `C43_violated_eobRun`. -/
theorem C43_chunks_partial (cfg : Cfg) (d : Decoder) (hd : UsedDecoder d) (file behind : List UInt8)
    (chunks : List (List UInt8)) (hne : chunks ≠ []) (hfile : chunks.flatten = file ++ behind)
    (image : List UInt8) (d' : Decoder) (h : d.decode cfg file = .ok image d') :
    (∃ c' rest, (Codec.ofDecoder d).feed cfg chunks = (.image (.ok image) c', rest) ∧ c'.Idle ∧
      c'.st.dec = d' ∧ c'.st.bi.input ++ rest.flatten = behind) ∨
    SplitAtRestart cfg (Codec.ofDecoder d) (file ++ behind) chunks ∨
    SplitInEobRun cfg (Codec.ofDecoder d) (file ++ behind) chunks := by
  obtain ⟨t, h1, h2, h3⟩ := decode_ok_parser h
  rcases C44_next_image_partial cfg (Codec.ofDecoder d) (Codec.idle_ofDecoder hd) file behind chunks hne hfile
    image t h1 h3 with ⟨c', rest, g1, g2, g3, g4⟩ | g | g
  · refine .inl ⟨c', rest, g1, g2, ?_, g4⟩
    rw [← h2, ← g3]
    rfl
  · exact .inr (.inl g)
  · exact .inr (.inr g)

/-- **C43** (part). With no restart interval set at any point of the file, and no end of band runs in its
tables, every way of cutting the file gives the image `decode` gives, and leaves nothing.

Missing: restart intervals and end of band runs, see `C43_chunks_partial`. -/
theorem C43_any_split_partial (cfg : Cfg) (d : Decoder) (hd : UsedDecoder d) (chunks : List (List UInt8))
    (image : List UInt8) (d' : Decoder) (h : d.decode cfg chunks.flatten = .ok image d')
    (hr : ∀ u, Between cfg ⟨d, Biterator.new chunks.flatten⟩ u → u.restartInterval = 0)
    (he : ∀ u, Between cfg ⟨d, Biterator.new chunks.flatten⟩ u → ∀ (i : Nat) (t : AcTable), u.acTables[i]? = some (some t) →
      ¬ HasEobRun t.table.values) :
    ∃ c' rest, (Codec.ofDecoder d).feed cfg chunks = (.image (.ok image) c', rest) ∧ c'.st.dec = d' ∧
      c'.st.bi.input = [] ∧ rest.flatten = [] := by
  have hne : chunks ≠ [] := by
    rintro rfl
    obtain ⟨t, h1, -⟩ := decode_ok_inv h
    rw [segmentLoop] at h1
    cases h1
  rcases C43_chunks_partial cfg d hd chunks.flatten [] chunks hne (by simp) image d' h with ⟨c', rest, h1, -, h2, h3⟩ | h1 | h1
  · rw [List.append_eq_nil_iff] at h3
    exact ⟨c', rest, h1, h2, h3.1, h3.2⟩
  · rw [List.append_nil] at h1
    obtain ⟨-, u, h2, h3⟩ := h1
    have := hr u h2
    omega
  · rw [List.append_nil] at h1
    obtain ⟨-, u, h2, i, t, h3, h4⟩ := h1
    exact absurd h4 (he u h2 i t h3)

/-- **C43** (part). Every sequential file laid out as the standard says, with three components in one scan,
not marked as RGB, with sampling factors this decoder can render, without restart intervals and end of band runs: whichever way
it is cut, the codec returns the image of `decode`.

Missing: files with a restart interval, see `C43_violated_restart`. -/
theorem C43_baseline_partial (cfg : Cfg) (f : BaselineFile) (H V : Nat) (codes : List (Code × Code))
    (hh : f.earlier = []) (h3 : f.comps.length = 3) (hct : f.transform none ≠ some 0)
    (hv : f.Valid (f.interval 0) H V codes) (hr : f.Renderable H V) (hp : PlainTables f.segments)
    (chunks : List (List UInt8)) (hf : chunks.flatten = f.bytes) :
    ∃ image c rest, decode cfg f.bytes = .ok image ∧ image.length = f.x * f.y * 3 ∧
      Codec.new.feed cfg chunks = (.image (.ok image) c, rest) ∧ c.st.bi.input = [] ∧ rest.flatten = [] := by
  obtain ⟨image, d', e, hl⟩ := C45_decodes cfg f H V codes Decoder.default .new (hh ▸ .nothing _) h3 hct hv hr
  have hb : ∀ u, Between cfg ⟨Decoder.default, Biterator.new chunks.flatten⟩ u → u.Plain := by
    rintro _ ⟨s, h, rfl⟩
    rw [hf] at h
    exact visits_file (UsedDecoder.new).inv (hh ▸ .nothing _ _) hv hp Decoder.plain_default h
  obtain ⟨c, rest, h1, -, h2, h3⟩ := C43_any_split_partial cfg Decoder.default .new chunks image d'
    (by rw [hf]; exact e) (fun u h => (hb u h).interval) (fun u h => (hb u h).tables)
  exact ⟨image, c, rest, by unfold decode; rw [e], hl, h1, h2, h3⟩

/-- **C43** (part, errors). An error or panic of `decode`, other than an unexpected end of the input and
bytes behind the image, is what the codec reports, however the file is cut, up to the same two
exceptions. -/
theorem C43_errors_partial (cfg : Cfg) (d : Decoder) (hd : UsedDecoder d) (chunks : List (List UInt8))
    (f : Fail) (d' : Decoder) (h : d.decode cfg chunks.flatten = .fail f d') (h1 : f ≠ .eof)
    (h2 : f ≠ .panic .trailing) :
    (∃ s rest, (Codec.ofDecoder d).feed cfg chunks = (.failed f s, rest) ∧ s.dec = d') ∨
    (∃ c rest, (Codec.ofDecoder d).feed cfg chunks = (.image (.error f) c, rest) ∧ c.st.dec = d') ∨
    SplitAtRestart cfg (Codec.ofDecoder d) chunks.flatten chunks ∨
    SplitInEobRun cfg (Codec.ofDecoder d) chunks.flatten chunks := by
  unfold Decoder.decode decodeParser at h
  have e : (⟨d, Biterator.new chunks.flatten⟩ : St).bi.input.length = chunks.flatten.length := rfl
  rw [e] at h
  by_cases hne : chunks.flatten = []
  · rw [hne, segmentLoop] at h
    cases h
    exact absurd rfl h1
  have hcs : chunks ≠ [] := by rintro rfl; exact hne rfl
  have := feed_idle (cfg := cfg) (Codec.idle_ofDecoder hd) chunks hcs (by
    simpa [Codec.ofDecoder, Biterator.new] using hne)
  have e1 : (Codec.ofDecoder d).st.bi.input ++ chunks.flatten = chunks.flatten := rfl
  have e2 : (Codec.ofDecoder d).st.dec = d := rfl
  have e3 : ((Codec.ofDecoder d).start chunks.flatten).bi.input = chunks.flatten := rfl
  simp only [e1, e2, e3] at this
  rw [Codec.start_ofDecoder] at this
  generalize segmentLoop cfg (chunks.flatten.length + 1) ⟨d, Biterator.new chunks.flatten⟩ = o at h this
  rcases this with g | g | ⟨⟨t', g⟩, -⟩ | ⟨f', s, rest, g, g' | ⟨g', p, g6, g7⟩⟩ | ⟨r, c', rest, g, g6, g7, g8, g9⟩
  · exact .inr (.inr (.inl g))
  · exact .inr (.inr (.inr g))
  · rw [g] at h
    cases h
    exact absurd rfl h1
  · rw [g'] at h
    cases h
    exact .inl ⟨s, rest, g, rfl⟩
  · rw [g', Out.bind_ok] at h
    have e4 : (app s rest.flatten).dec = s.dec := rfl
    rw [e4, g7, g6] at h
    cases h
    exact .inl ⟨s, rest, by rw [g, g6], rfl⟩
  · rw [g7, Out.bind_ok] at h
    have e4 : (app c'.st rest.flatten).dec = c'.st.dec := rfl
    rw [e4, ← g8] at h
    refine .inr (.inl ?_)
    cases r with
    | ok image =>
      simp only at h
      split at h
      · cases h; exact absurd rfl h2
      · cases h
    | error f' =>
      cases f' with
      | panic p => exact absurd rfl (g9 p)
      | unit | eof | err _ =>
        simp only at h
        split at h
        · cases h; exact absurd rfl h2
        · cases h; exact ⟨c', rest, g, rfl⟩

/-- **C44** (part). Two files one after the other: when the first leaves nothing in the bit buffer, the
codec returns for the second what its decoder returns for it alone (see C42 for what a used decoder
returns), up to the exceptions of C43.

Missing: bits left over by the first image, see `C44_violated`. -/
theorem C44_second_partial (cfg : Cfg) (d : Decoder) (hd : UsedDecoder d) (a b : List UInt8)
    (chunks : List (List UInt8)) (hfile : chunks.flatten = a ++ b) (image1 image2 : List UInt8)
    (d2 : Decoder) (t : St) (h1 : decodeParser cfg ⟨d, Biterator.new a⟩ = .ok (.ok image1) t)
    (ht : t.bi = Biterator.new []) (h2 : t.dec.decode cfg b = .ok image2 d2) :
    (∃ c rest, (Codec.ofDecoder d).feed cfg chunks = (.image (.ok image1) c, rest) ∧
      ((∃ c' rest', c.feed cfg ([] :: rest) = (.image (.ok image2) c', rest') ∧ c'.st.dec = d2 ∧
        c'.st.bi.input = [] ∧ rest'.flatten = []) ∨
      SplitAtRestart cfg c b ([] :: rest) ∨ SplitInEobRun cfg c b ([] :: rest))) ∨
    SplitAtRestart cfg (Codec.ofDecoder d) (a ++ b) chunks ∨
    SplitInEobRun cfg (Codec.ofDecoder d) (a ++ b) chunks := by
  have hne : chunks ≠ [] := by
    rintro rfl
    have : a = [] := by
      have : [] = a ++ b := hfile
      exact (List.append_eq_nil_iff.1 this.symm).1
    subst this
    unfold decodeParser at h1
    rw [segmentLoop] at h1
    cases h1
  rcases C44_next_image_partial cfg (Codec.ofDecoder d) (Codec.idle_ofDecoder hd) a b chunks hne hfile
    image1 t h1 (by rw [ht]; rfl) with ⟨c, rest, g1, g2, g3, g4⟩ | g | g
  · refine .inl ⟨c, rest, g1, ?_⟩
    obtain ⟨t2, e1, e2, e3⟩ := decode_ok_parser h2
    have hs : c.start b = ⟨t.dec, Biterator.new b⟩ := by
      have e4 : (c.start []).dec = t.dec := by rw [g3]
      have e5 : (c.start []).bi = Biterator.new [] := by rw [g3, ht]
      unfold Codec.start at e4 e5 ⊢
      simp only at e4 e5
      simp only [Biterator.new, Biterator.mk.injEq, true_and] at e5 ⊢
      rw [e4, e5.1, e5.2]
    rcases C44_next_image_partial cfg c g2 b [] ([] :: rest) (by simp)
      (by rw [List.flatten_cons, List.nil_append, List.append_nil, g4]) image2 t2 (by rw [hs]; exact e1) e3
      with ⟨c', rest', k1, -, k2, k3⟩ | k | k
    · rw [List.append_eq_nil_iff] at k3
      exact .inl ⟨c', rest', k1, by rw [← e2, ← k2]; rfl, k3.1, k3.2⟩
    · rw [List.append_nil] at k
      exact .inr (.inl k)
    · rw [List.append_nil] at k
      exact .inr (.inr k)
  · exact .inr (.inl g)
  · exact .inr (.inr g)

/-- **C41** (bytes behind the image). Whatever follows a complete image makes `decode` panic. -/
theorem C41_trailing (cfg : Cfg) (d : Decoder) (file behind : List UInt8) (image : List UInt8) (d' : Decoder)
    (h : d.decode cfg file = .ok image d') (hb : behind ≠ []) :
    d.decode cfg (file ++ behind) = .fail (.panic .trailing) d' := by
  obtain ⟨t, h1, h2, h3, h4⟩ := decode_ok_inv h
  have h5 : segmentLoop cfg ((file ++ behind).length + 1) ⟨d, Biterator.new (file ++ behind)⟩ =
      .ok () (app t behind) := segmentLoop_append (b := behind) h1
  unfold Decoder.decode decodeParser
  have e : (⟨d, Biterator.new (file ++ behind)⟩ : St).bi.input.length = (file ++ behind).length := rfl
  rw [e, h5, Out.bind_ok]
  have e4 : (app t behind).dec = d' := h2
  have e5 : (app t behind).bi.input = behind := by
    show t.bi.input ++ behind = behind
    rw [h3, List.nil_append]
  rw [e4, h4]
  simp only
  rw [e5, if_pos hb, e4]

/-! ## Refutations -/

/-- The image a codec returns. -/
def Poll.imageOf : Poll × List (List UInt8) → Option (List UInt8)
  | (Poll.image (.ok data) _, _) => some data
  | _ => none

/-- The failure a codec reports. -/
def Poll.failOf : Poll × List (List UInt8) → Option Fail
  | (Poll.failed f _, _) => some f
  | _ => none

/-- **C43** (refutation). The example file, two MCUs with a restart marker between them, cut in front of the
marker (behind the fill byte): the codec panics when overflow checks are on, and returns another image
when they are off. In one piece the file decodes. -/
theorem C43_violated_restart :
    Poll.failOf (Codec.new.feed ⟨true, false⟩ [exampleFile.bytes.take 202, exampleFile.bytes.drop 202]) =
      some (.panic .restartUnderflow) ∧
    (decode ⟨true, false⟩ exampleFile.bytes).toOption.isSome ∧
    (Poll.imageOf (Codec.new.feed ⟨false, false⟩ [exampleFile.bytes.take 202, exampleFile.bytes.drop 202])).isSome ∧
    Poll.imageOf (Codec.new.feed ⟨false, false⟩ [exampleFile.bytes.take 202, exampleFile.bytes.drop 202]) ≠
      (decode ⟨false, false⟩ exampleFile.bytes).toOption := by
  refine ⟨?_, ?_, ?_, ?_⟩ <;> decide +kernel

/-- A file of 24 by 8 pixels whose AC table has nothing but EOB1. -/
def Sample.eobRun : List UInt8 :=
  file [quant8, frame 0 24 8 ycc, markerSegment .DHT (0 :: exampleDc.counts ++ exampleDc.values),
    markerSegment .DHT (0x10 :: (List.replicate 15 0 ++ [1, 0x10])),
    scan all3 0 63 0, [0, 0, 0x20, 0, 0, 0x40, 0, 0, 0x87]]

/-- **C43** (refutation). A split inside an end of band run is an error. -/
theorem C43_violated_eobRun :
    Poll.failOf (Codec.new.feed dbg [eobRun.take (eobRun.length - 3), eobRun.drop (eobRun.length - 3)]) =
      some (.err .outOfBits) ∧ (decode dbg eobRun).toOption.isSome := by
  constructor <;> decide +kernel

/-- The first `n` images of a stream. -/
def Codec.images (cfg : Cfg) : Nat → Codec → List (List UInt8) → List (List UInt8)
  | 0, _, _ => []
  | n + 1, c, chunks =>
    match c.feed cfg chunks with
    | (Poll.image (.ok image) c, rest) => image :: Codec.images cfg n c ([] :: rest)
    | _ => []

/-- **C44** (refutation). The example file twice: the codec returns two images, and they differ, though a
decoder that has decoded the file decodes it to the same image again. -/
theorem C44_violated :
    (match Codec.new.images ⟨false, false⟩ 2 [exampleFile.bytes ++ exampleFile.bytes],
        Decoder.default.decode ⟨false, false⟩ exampleFile.bytes with
    | [first, second], .ok image d =>
      decide (first = image) && decide (second ≠ image) &&
        decide ((d.decode ⟨false, false⟩ exampleFile.bytes).result = .ok image)
    | _, _ => false) = true := by decide +kernel

/-! ## Cases -/

/-- One MCU, no restart interval. -/
def examplePlain : BaselineFile :=
  { exampleFile with
    x := 8
    after := [.fill 2,
      .dht [⟨false, 0, exampleDc.counts, exampleDc.values⟩, ⟨true, 2, exampleAc.counts, exampleAc.values⟩]]
    intervals := [[exampleMcu3]]
    data := stuff exampleData ++ markerBytes .EOI }

theorem examplePlain_valid : examplePlain.Valid 0 1 1 (List.replicate 3 (exampleDc, exampleAc)) := by
  have hi : IntervalData (List.replicate 3 (exampleDc, exampleAc)) [exampleMcu3] exampleData :=
    ⟨_, [false, false], _, .cons exampleMcu3_bits .nil, by decide +kernel⟩
  have hv := exampleFile_valid
  refine ⟨⟨?_, by decide, by decide, by decide, by decide, by decide, by decide, ⟨by decide, by decide⟩,
    ⟨by decide, by decide⟩, by decide, fun _ => ⟨rfl, rfl⟩, hv.quant, hv.huffman, by decide, ?_, ?_⟩, ⟨0, .last hi⟩⟩
  · intro s hs
    by_cases hf : s = .fill 2
    · rw [hf]; exact ⟨by decide, trivial⟩
    refine hv.tables s ?_
    simp only [examplePlain, exampleFile, BaselineFile.tables, BaselineFile.segments, List.cons_append, List.nil_append, List.mem_cons,
      List.not_mem_nil, or_false] at hs ⊢
    rcases hs with h | h | h | h | h | h
    · exact .inl h
    · exact .inr (.inl h)
    · exact .inr (.inr (.inl h))
    · exact .inr (.inr (.inr (.inl h)))
    · exact absurd h hf
    · exact .inr (.inr (.inr (.inr (.inl h))))
  · intro m hm
    have : m = exampleMcu3 := by simpa [examplePlain] using hm
    rw [this]; rfl
  · unfold IntervalsOk
    rw [if_pos rfl]
    rfl

theorem examplePlain_plain : PlainTables examplePlain.segments := by
  refine ⟨by decide, ?_⟩
  unfold HasEobRun
  decide +kernel

/-- A case of `C43_baseline_partial`: byte by byte. -/
example : ∃ image c rest, decode ⟨true, false⟩ examplePlain.bytes = .ok image ∧ image.length = 192 ∧
    Codec.new.feed ⟨true, false⟩ (examplePlain.bytes.map fun b => [b]) = (.image (.ok image) c, rest) := by
  obtain ⟨image, c, rest, h1, h2, h3, -⟩ := C43_baseline_partial ⟨true, false⟩ examplePlain 1 1 _
    rfl rfl (by decide) examplePlain_valid (by unfold BaselineFile.Renderable; decide) examplePlain_plain
    (examplePlain.bytes.map fun b => [b]) (by rw [← List.flatMap_def, List.flatMap_singleton'])
  exact ⟨image, c, rest, h1, h2, h3⟩

/-- A case of `C43_errors_partial`: a Huffman table with too many codes of length 1 (its error is reported). -/
example : (match Decoder.default.decode dbg
      (file [markerSegment .DHT (0 :: [3] ++ List.replicate 15 0 ++ [0, 1, 2])]) with
    | .fail f _ => decide (f ≠ .eof ∧ f ≠ .panic .trailing)
    | .ok _ _ => false) = true := by decide +kernel

/-- A file whose last code ends with the bit buffer: 16 by 8 pixels, codes of lengths 4 and 16. -/
def Sample.exact : List UInt8 :=
  file [quant8, frame 0 16 8 ycc, markerSegment .DHT (0 :: [0, 0, 0, 1] ++ List.replicate 12 0 ++ [0]),
    markerSegment .DHT (0x10 :: List.replicate 15 0 ++ [1, 0]), scan all3 0 63 0, List.replicate 15 0]

/-- A case of `C44_second_partial`. -/
example : (match decodeParser dbg ⟨Decoder.default, Biterator.new exact⟩ with
    | .ok (.ok image) t => decide (t.bi = Biterator.new []) && decide (image.length = 384) &&
        (match t.dec.decode dbg grey with | .ok _ _ => true | .fail _ _ => false)
    | _ => false) = true := by decide +kernel

/-- A case of `C41_trailing`. -/
example : panicOf (decode dbg (grey ++ [0])) = some .trailing := by decide +kernel

end Jpeg
