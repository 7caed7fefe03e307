import Verif.Proofs.Truncated
import Verif.Props.Stream
/-!
# C65: cut off files

A file that decodes is not an image any more when bytes are missing at its end, however few: `decode` says
so, and a streaming decoder waits for the rest.
-/

namespace Jpeg
open Spec HasInput Sample

/-- Some table the file sets up has symbols for end of band runs. -/
def FileHasEobRuns (cfg : Cfg) (d : Decoder) (file : List UInt8) : Prop :=
  ∃ u, Between cfg ⟨d, Biterator.new file⟩ u ∧ ∃ (i : Nat) (t : AcTable), u.acTables[i]? = some (some t) ∧
    HasEobRun t.table.values

/-- **C65**. A file that decodes, cut off anywhere, gives an error: the end of the input, or, with a table for
end of band runs, "out of bits". No image and no panic. -/
theorem C65_truncated (cfg : Cfg) (d : Decoder) (hd : UsedDecoder d) (part missing image : List UInt8) (d' : Decoder)
    (h : d.decode cfg (part ++ missing) = .ok image d') (hm : missing ≠ []) :
    ∃ f d'', d.decode cfg part = .fail f d'' ∧
      (f = .eof ∨ f = .err .outOfBits ∧ FileHasEobRuns cfg d (part ++ missing)) := by
  obtain ⟨t, h1, -, h3, -⟩ := decode_ok_inv h
  have hfuel : segmentLoop cfg (part.length + 1) ⟨d, Biterator.new part⟩ =
      segmentLoop cfg ((part ++ missing).length + 1) ⟨d, Biterator.new part⟩ :=
    segmentLoop_fuel _ _ _ hd.inv (wf_zero _) (by show part.length < _; omega)
      (by show part.length < _; rw [List.length_append]; omega)
  have happ : app (⟨d, Biterator.new part⟩ : St) missing = ⟨d, Biterator.new (part ++ missing)⟩ := rfl
  unfold Decoder.decode decodeParser
  have e : (⟨d, Biterator.new part⟩ : St).bi.input.length = part.length := rfl
  rw [e, hfuel]
  cases ho : segmentLoop cfg ((part ++ missing).length + 1) ⟨d, Biterator.new part⟩ with
  | ok u s =>
    have hg := (segmentLoop_grows cfg missing ((part ++ missing).length + 1) ⟨d, Biterator.new part⟩).of_ok ho
    rw [happ, h1] at hg
    cases hg
    have : s.bi.input ++ missing = [] := h3
    rw [List.append_eq_nil_iff] at this
    exact absurd this.2 hm
  | fail f s =>
    refine ⟨f, s.dec, rfl, ?_⟩
    rcases segmentLoop_cut cfg missing _ _ _ _ ho with h | ⟨h, u, hv, i, tb, ht, hr⟩ | h
    · exact .inl h
    · refine .inr ⟨h, u.dec, ⟨app u missing, hv.app missing, rfl⟩, i, tb, ht, ?_⟩
      have hi := (hv.inv hd.inv (wf_zero _)).1
      obtain ⟨L, counts, values, hok⟩ := hi.tables.ac i tb ht
      exact hr.values hok
    · rw [happ, h1] at h
      cases h

/-- **C65** (baseline files). Every proper beginning of every three-component file laid out as the standard
says is reported as an error by `decode`; when no table has end of band runs, as the end of the input. -/
theorem C65_baseline (cfg : Cfg) (f : BaselineFile) (H V : Nat) (codes : List (Code × Code))
    (hh : f.earlier = []) (h3 : f.comps.length = 3) (hct : f.transform none ≠ some 0)
    (hv : f.Valid (f.interval 0) H V codes) (hr : f.Renderable H V) (part : List UInt8)
    (hp : part <+: f.bytes) (hne : part ≠ f.bytes) :
    ∃ e, decode cfg part = .error e ∧ (e = .eof ∨ e = .err .outOfBits ∧ ¬ PlainTables f.segments) := by
  obtain ⟨missing, hp⟩ := hp
  obtain ⟨image, d', h, -⟩ := C45_decodes cfg f H V codes Decoder.default .new (hh ▸ .nothing _) h3 hct hv hr
  have hm : missing ≠ [] := by
    rintro rfl
    rw [List.append_nil] at hp
    exact hne hp
  obtain ⟨e, d'', h1, h2⟩ := C65_truncated cfg Decoder.default .new part missing image d' (by rw [hp]; exact h) hm
  refine ⟨e, by unfold decode; rw [h1], ?_⟩
  rcases h2 with h2 | ⟨h2, _, ⟨s, h3, rfl⟩, i, t, h4, h5⟩
  · exact .inl h2
  · refine .inr ⟨h2, fun hpl => ?_⟩
    rw [hp] at h3
    exact (visits_file (UsedDecoder.new).inv (hh ▸ .nothing _ _) hv hpl Decoder.plain_default h3).tables i t h4 h5

/-! ## Streaming -/

theorem Codec.feed_append (cfg : Cfg) : ∀ (a b : List (List UInt8)) (c : Codec),
    (∃ c', c.feed cfg a = (.pending c', []) ∧ c.feed cfg (a ++ b) = c'.feed cfg b) ∨
    ((∀ c', (c.feed cfg a).1 ≠ .pending c') ∧ c.feed cfg (a ++ b) = ((c.feed cfg a).1, (c.feed cfg a).2 ++ b)) := by
  intro a
  induction a with
  | nil => intro b c; exact .inl ⟨c, rfl, rfl⟩
  | cons chunk a ih =>
    intro b c
    rw [List.cons_append, Codec.feed, Codec.feed]
    cases hp : (c.push chunk).poll cfg with
    | pending c' => exact ih b c'
    | image r c1 => exact .inr ⟨by simp, rfl⟩
    | failed f s => exact .inr ⟨by simp, rfl⟩

/-- **C65** (streaming). A streaming decoder that has all of a file but its end, in whatever pieces, waits for
more. The exceptions are those of C43: it waited for a restart marker, or gave up in an end of band run. -/
theorem C65_pending (cfg : Cfg) (d : Decoder) (hd : UsedDecoder d) (chunks : List (List UInt8))
    (missing image : List UInt8) (d' : Decoder) (h : d.decode cfg (chunks.flatten ++ missing) = .ok image d')
    (hm : missing ≠ []) :
    (∃ c, (Codec.ofDecoder d).feed cfg chunks = (.pending c, [])) ∨
    SplitAtRestart cfg (Codec.ofDecoder d) (chunks.flatten ++ missing) chunks ∨
    SplitInEobRun cfg (Codec.ofDecoder d) (chunks.flatten ++ missing) chunks := by
  rcases Codec.feed_append cfg chunks [missing] (Codec.ofDecoder d) with ⟨c', h1, -⟩ | ⟨h1, h2⟩
  · exact .inl ⟨c', h1⟩
  right
  rcases C43_chunks_partial cfg d hd (chunks.flatten ++ missing) [] (chunks ++ [missing]) (by simp) (by simp)
    image d' h with ⟨c', rest, g1, -, -, g2⟩ | ⟨⟨k, c', g1, g2⟩, g3⟩ | ⟨⟨s, rest, g1⟩, g3⟩
  · rw [h2] at g1
    obtain ⟨-, rfl⟩ := Prod.mk.inj g1
    rw [List.append_eq_nil_iff] at g2
    have : ((((Codec.ofDecoder d).feed cfg chunks).2 ++ [missing]).flatten) = [] := g2.2
    rw [List.flatten_append, List.append_eq_nil_iff] at this
    exact absurd (by simpa using this.2) hm
  · left
    rw [List.append_nil] at g3
    by_cases hk : k ≤ chunks.length
    · rw [List.take_append_of_le_length hk] at g1
      exact ⟨⟨k, c', g1, g2⟩, g3⟩
    · rw [List.take_of_length_le (by simp; omega), h2] at g1
      exact absurd (Prod.mk.inj g1).1 (h1 c')
  · right
    rw [List.append_nil] at g3
    refine ⟨⟨s, ((Codec.ofDecoder d).feed cfg chunks).2, ?_⟩, g3⟩
    rw [h2] at g1
    exact Prod.ext (Prod.mk.inj g1).1 rfl

/-- **C65** (streaming, baseline files). Without restart intervals and end of band runs: any beginning of the
file, in any pieces, leaves the streaming decoder waiting. -/
theorem C65_baseline_pending (cfg : Cfg) (f : BaselineFile) (H V : Nat) (codes : List (Code × Code))
    (hh : f.earlier = []) (h3 : f.comps.length = 3) (hct : f.transform none ≠ some 0)
    (hv : f.Valid (f.interval 0) H V codes) (hr : f.Renderable H V) (hp : PlainTables f.segments)
    (chunks : List (List UInt8)) (hf : chunks.flatten <+: f.bytes) (hne : chunks.flatten ≠ f.bytes) :
    ∃ c, Codec.new.feed cfg chunks = (.pending c, []) := by
  obtain ⟨missing, hf⟩ := hf
  obtain ⟨image, d', h, -⟩ := C45_decodes cfg f H V codes Decoder.default .new (hh ▸ .nothing _) h3 hct hv hr
  have hm : missing ≠ [] := by
    rintro rfl
    rw [List.append_nil] at hf
    exact hne hf
  have hb : ∀ u, Between cfg ⟨Decoder.default, Biterator.new (chunks.flatten ++ missing)⟩ u → u.Plain := by
    rintro _ ⟨s, h, rfl⟩
    rw [hf] at h
    exact visits_file (UsedDecoder.new).inv (hh ▸ .nothing _ _) hv hp Decoder.plain_default h
  rcases C65_pending cfg Decoder.default .new chunks missing image d' (by rw [hf]; exact h) hm with
    h | ⟨-, u, h1, h2⟩ | ⟨-, u, h1, i, t, h2, h3⟩
  · exact h
  · exact absurd (hb u h1).interval (by omega)
  · exact absurd h3 ((hb u h1).tables i t h2)

/-! ## Cases -/

/-- Every proper beginning of the grey file, checked by running the decoder: what `C65_truncated` says. -/
example : (decode dbg grey).toOption.isSome ∧
    (List.range grey.length).all (fun n => match decode dbg (grey.take n) with
      | .error .eof => true
      | _ => false) = true := by
  constructor <;> decide +kernel

/-- The other error of `C65_truncated`: a file with end of band runs, cut off inside one. -/
example : (decode dbg eobRun).toOption.isSome ∧
    (match decode dbg (eobRun.take (eobRun.length - 3)) with
    | .error (.err .outOfBits) => true
    | _ => false) = true := by
  constructor <;> decide +kernel

/-- A case of `C65_baseline` and `C65_baseline_pending`: the plain file without its last byte. -/
example : (∃ e, decode ⟨true, false⟩ examplePlain.bytes.dropLast = .error e) ∧
    ∃ c, Codec.new.feed ⟨true, false⟩ [examplePlain.bytes.dropLast] = (.pending c, []) := by
  have hne : examplePlain.bytes.dropLast ≠ examplePlain.bytes := by
    intro h
    have := congrArg List.length h
    rw [List.length_dropLast] at this
    have : 0 < examplePlain.bytes.length := by decide +kernel
    omega
  constructor
  · obtain ⟨e, h, -⟩ := C65_baseline ⟨true, false⟩ examplePlain 1 1 _ rfl rfl (by decide) examplePlain_valid
      (by unfold BaselineFile.Renderable; decide) _ (List.dropLast_prefix _) hne
    exact ⟨e, h⟩
  · exact C65_baseline_pending ⟨true, false⟩ examplePlain 1 1 _ rfl rfl (by decide) examplePlain_valid
      (by unfold BaselineFile.Renderable; decide) examplePlain_plain [examplePlain.bytes.dropLast]
      (by simpa using List.dropLast_prefix _) (by simpa using hne)

end Jpeg
