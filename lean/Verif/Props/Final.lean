import Verif.Props.Truncated
import Verif.Props.Errors
/-!
# C97: what follows a fault does not matter

Once `decode` has found a fault in the beginning of a file, no continuation of the file can mend it: the same
fault is reported. With C65 and C41, a file that decodes is the only one of its beginnings and continuations that
does.
-/

namespace Jpeg
open Spec HasInput Sample

/-- The loop over the segments on a longer file, with the bound that goes with it. -/
theorem segmentLoop_longer {cfg : Cfg} {d : Decoder} (hd : UsedDecoder d) (part x : List UInt8) :
    segmentLoop cfg (part.length + 1) ⟨d, Biterator.new part⟩ =
      segmentLoop cfg ((part ++ x).length + 1) ⟨d, Biterator.new part⟩ :=
  segmentLoop_fuel _ _ _ hd.inv (wf_zero _) (by show part.length < _; omega)
    (by show part.length < _; rw [List.length_append]; omega)

/-- **C97**. A fault, an error or a panic other than missing data, is reported for every file that begins like
this one, and leaves the decoder in the same state. The only fault of which the report changes is one found after
the end of the image, that the components cannot be put together: with bytes behind the image it becomes the panic
about these. -/
theorem C97_fault (cfg : Cfg) (d : Decoder) (hd : UsedDecoder d) (part x : List UInt8) (f : Fail) (d' : Decoder)
    (h : d.decode cfg part = .fail f d') (h1 : f ≠ .eof) (h2 : f ≠ .err .outOfBits) :
    d.decode cfg (part ++ x) = .fail f d' ∨
    (d.decode cfg (part ++ x) = .fail (.panic .trailing) d' ∧ (∃ pre, part = pre ++ markerBytes .EOI) ∧
      ∃ e, f = .err e ∧ RenderError d' e) := by
  have happ : (⟨d, Biterator.new (part ++ x)⟩ : St) = app (⟨d, Biterator.new part⟩ : St) x := rfl
  have h0 := h
  unfold Decoder.decode decodeParser at h ⊢
  rw [show (⟨d, Biterator.new part⟩ : St).bi.input.length = part.length from rfl, segmentLoop_longer hd part x] at h
  rw [show (⟨d, Biterator.new (part ++ x)⟩ : St).bi.input.length = (part ++ x).length from rfl]
  cases e1 : segmentLoop cfg ((part ++ x).length + 1) ⟨d, Biterator.new part⟩ with
  | fail g s =>
    rw [e1] at h
    simp only [Out.bind_fail, Out.fail.injEq] at h
    obtain ⟨rfl, rfl⟩ := h
    rcases segmentLoop_cut cfg x _ _ _ _ e1 with hc | ⟨hc, -⟩ | hc
    · exact absurd hc h1
    · exact absurd hc h2
    · rw [happ, hc]
      exact .inl rfl
  | ok u s =>
    have hg := (segmentLoop_grows cfg x ((part ++ x).length + 1) ⟨d, Biterator.new part⟩).of_ok e1
    rw [happ, hg]
    rw [e1] at h
    rw [Out.bind_ok] at h ⊢
    have hdec : (app s x).dec = s.dec := rfl
    have hin : (app s x).bi.input = s.bi.input ++ x := rfl
    rw [hdec]
    cases e2 : upsample cfg s.dec with
    | ok image =>
      rw [e2] at h
      simp only [hdec, hin] at h ⊢
      split at h
      · next hne =>
        rw [if_pos (by simp at hne ⊢; exact fun hh => absurd hh hne)]
        exact .inl h
      · cases h
    | error g =>
      rw [e2] at h
      cases g with
      | panic p => exact .inl h
      | _ =>
        simp only [hdec, hin] at h ⊢
        by_cases hne : s.bi.input = []
        · rw [if_neg (by simpa using hne)] at h
          simp only [Out.fail.injEq] at h
          obtain ⟨rfl, rfl⟩ := h
          by_cases hx : x = []
          · rw [if_neg (by simp [hne, hx])]; exact .inl rfl
          · rw [if_pos (by simp [hx])]
            refine .inr ⟨rfl, ?_⟩
            rcases upsample_renders cfg s.dec _ e2 with hr | hr | ⟨p, hr⟩
            case inr.inr => cases hr
            all_goals
              have hs := segmentLoop_safe (cfg := cfg) part ((part ++ x).length + 1) ⟨d, Biterator.new part⟩ hd.inv
                (new_wf part) (by simp [Biterator.new]; omega) (List.suffix_refl _)
              rw [e1] at hs
              obtain ⟨pre, hpre⟩ := segmentLoop_eoi _ _ _ hd.inv (new_wf part) e1
              rw [hne] at hpre
              refine ⟨⟨pre, by simpa [Biterator.new] using hpre⟩, _, hr, upsample_err hs.1 (by rw [← hr]; exact e2)⟩
        · rw [if_pos (by simpa using hne)] at h
          rw [if_pos (by simp [hne])]
          exact .inl h

/-- **C97** (no image). A file whose beginning has a fault does not decode, whatever follows. -/
theorem C97_no_image (cfg : Cfg) (d : Decoder) (hd : UsedDecoder d) (part x image : List UInt8) (f : Fail)
    (d' d'' : Decoder) (h : d.decode cfg part = .fail f d') (h1 : f ≠ .eof) (h2 : f ≠ .err .outOfBits) :
    d.decode cfg (part ++ x) ≠ .ok image d'' := by
  rcases C97_fault cfg d hd part x f d' h h1 h2 with e | ⟨e, -⟩ <;> rw [e] <;> simp

/-- **C97** (files that decode are free of prefixes). Of two files one of which begins with the other at most one
decodes. -/
theorem C97_prefix_free (cfg : Cfg) (d : Decoder) (a b image image' : List UInt8) (d' d'' : Decoder)
    (h : a <+: b) (ha : d.decode cfg a = .ok image d') (hb : d.decode cfg b = .ok image' d'') : a = b := by
  obtain ⟨x, rfl⟩ := h
  by_cases hx : x = []
  · rw [hx, List.append_nil]
  · rw [C41_trailing cfg d a x image d' ha hx] at hb
    cases hb

/-- **C97** (streaming). A fault reported by a streaming decoder in the middle of a file is the one `decode` reports
for every file that begins with the bytes fed so far, unless the pieces were split at a restart marker (C43). So
nothing is lost by closing the stream at once. -/
theorem C97_streaming (cfg : Cfg) (d : Decoder) (hd : UsedDecoder d) (chunks rest : List (List UInt8)) (f : Fail) (s : St)
    (h : (Codec.ofDecoder d).feed cfg chunks = (.failed f s, rest)) (h2 : f ≠ .err .outOfBits) (x : List UInt8) :
    d.decode cfg (chunks.flatten ++ x) = .fail f s.dec ∨
    SplitAtRestart cfg (Codec.ofDecoder d) chunks.flatten chunks := by
  have h1 : f ≠ .eof := Codec.feed_failed _ _ _ _ _ h
  have hcs : chunks ≠ [] := by rintro rfl; cases h
  have hne : chunks.flatten ≠ [] := by
    intro hn
    have key : ∀ (chunks : List (List UInt8)) (c : Codec), chunks.flatten = [] → c.st.bi.input = [] →
        ∀ rest, c.feed cfg chunks ≠ (.failed f s, rest) := by
      intro chunks
      induction chunks with
      | nil => intro c _ _ rest h; cases h
      | cons a chunks ih =>
        intro c ha hc rest h
        rw [List.flatten_cons, List.append_eq_nil_iff] at ha
        have hp : (c.push a).poll cfg = .pending (c.push a) := by
          unfold Codec.poll
          rw [if_pos]
          show c.st.bi.input ++ a = []
          rw [hc, ha.1, List.append_nil]
        rw [Codec.feed, hp] at h
        exact ih (c.push a) ha.2 (by show c.st.bi.input ++ a = []; rw [hc, ha.1, List.append_nil]) rest h
    exact key chunks _ hn rfl rest h
  have := feed_idle (cfg := cfg) (Codec.idle_ofDecoder hd) chunks hcs (by
    simpa [Codec.ofDecoder, Biterator.new] using hne)
  have e1 : (Codec.ofDecoder d).st.bi.input ++ chunks.flatten = chunks.flatten := rfl
  have e3 : ((Codec.ofDecoder d).start chunks.flatten).bi.input = chunks.flatten := rfl
  simp only [e1, e3] at this
  rw [Codec.start_ofDecoder] at this
  have whole : d.decode cfg chunks.flatten = .fail f s.dec →
      d.decode cfg (chunks.flatten ++ x) = .fail f s.dec ∨ ∃ e, f = .err e ∧ RenderError s.dec e := by
    intro hw
    rcases C97_fault cfg d hd chunks.flatten x f s.dec hw h1 h2 with g | ⟨-, -, g⟩
    · exact .inl g
    · exact .inr g
  have hdec : d.decode cfg chunks.flatten =
      match (segmentLoop cfg (chunks.flatten.length + 1) ⟨d, Biterator.new chunks.flatten⟩).bind fun _ s =>
        match upsample cfg s.dec with
        | .error (.panic p) => .fail (.panic p) s
        | r => .ok r s with
      | .fail f s => .fail f s.dec
      | .ok r s =>
        if s.bi.input ≠ [] then .fail (.panic .trailing) s.dec
        else match r with
          | .ok image => .ok image s.dec
          | .error f => .fail f s.dec := rfl
  rcases this with g | ⟨⟨t, r, g⟩, -⟩ | ⟨-, c', g⟩ | ⟨f', s', rest', g, g' | ⟨g', p, g6, g7⟩⟩ | ⟨r, c', rest', g, -⟩
  · exact .inr g
  · rw [h] at g
    cases g
    exact absurd rfl h2
  · rw [h] at g; cases g
  · rw [h] at g
    cases g
    left
    unfold Decoder.decode decodeParser
    rw [show (⟨d, Biterator.new (chunks.flatten ++ x)⟩ : St).bi.input.length = (chunks.flatten ++ x).length from rfl]
    rw [segmentLoop_longer hd chunks.flatten x] at g'
    rcases segmentLoop_cut cfg x _ _ _ _ g' with hc | ⟨hc, -⟩ | hc
    · exact absurd hc h1
    · exact absurd hc h2
    · rw [show (⟨d, Biterator.new (chunks.flatten ++ x)⟩ : St) = app (⟨d, Biterator.new chunks.flatten⟩ : St) x from rfl,
        hc]
      rfl
  · rw [h] at g
    cases g
    left
    have hw : d.decode cfg chunks.flatten = .fail f s.dec := by
      rw [hdec, g', Out.bind_ok, show (app s rest.flatten).dec = s.dec from rfl, g7, g6]
      rfl
    rcases whole hw with hh | ⟨e, he, -⟩
    · exact hh
    · rw [g6] at he; cases he
  · rw [h] at g; cases g

/-! ## Cases -/

/-- A fault of the beginning, with a whole picture behind it; a fault of the image, with and without a byte behind
it; "out of bits" is missing data, the whole file decodes. -/
example : errorOf (decode dbg (file [scan all3 0 63 0])) = some .sosBeforeSof ∧
    errorOf (decode dbg (file [scan all3 0 63 0] ++ grey)) = some .sosBeforeSof ∧
    errorOf (decode dbg (file [frame 0 8 0 (ycc ++ [⟨4, 1, 1, 0⟩])])) = some .fourComponents ∧
    panicOf (decode dbg (file [frame 0 8 0 (ycc ++ [⟨4, 1, 1, 0⟩])] ++ [0])) = some .trailing ∧
    errorOf (decode dbg (eobRun.take (eobRun.length - 3))) = some .outOfBits ∧
    (decode dbg eobRun).toOption.isSome := by
  refine ⟨?_, ?_, ?_, ?_, ?_, ?_⟩ <;> decide +kernel

end Jpeg
