import Verif.Props.Read
import Verif.Props.Framed
/-!
# C70: any number of files from one reader
-/

namespace Jpeg
open HasInput HasLen Spec Sample

theorem readLoop_suffix (cfg : Cfg) : ∀ (reads : List ReadResult) (c : Codec), (readLoop cfg c reads).2 <:+ reads := by
  intro reads
  induction reads with
  | nil => intro c; rw [readLoop]; cases c.run cfg <;> exact List.suffix_refl _
  | cons r reads ih =>
    intro c
    rw [readLoop]
    cases c.run cfg with
    | pending c' =>
      match r with
      | .error => exact List.suffix_cons _ _
      | .data [] => exact List.suffix_cons _ _
      | .data (b :: bs) => exact (ih _).trans (List.suffix_cons _ _)
    | image r c' => exact List.suffix_refl _
    | failed f s => exact List.suffix_refl _

theorem decode_suffix (cfg : Cfg) (d : ReadDecoder) (reads : List ReadResult) : (d.decode cfg reads).2 <:+ reads := by
  unfold ReadDecoder.decode
  split
  · exact List.suffix_refl _
  · exact readLoop_suffix cfg reads d.codec

theorem retry_suffix (cfg : Cfg) : ∀ (n : Nat) (d : ReadDecoder) (reads : List ReadResult),
    (d.retry cfg n reads).2 <:+ reads := by
  intro n
  induction n with
  | zero => intro d reads; exact decode_suffix cfg d reads
  | succ n ih =>
    intro d reads
    have h := decode_suffix cfg d reads
    rw [ReadDecoder.retry]
    cases hq : d.decode cfg reads with
    | mk q rest =>
      rw [hq] at h
      cases q with
      | io d' => exact (ih d' rest).trans h
      | image r d' => exact h
      | failed f s => exact h

theorem errorsOf_append : ∀ a b : List ReadResult, errorsOf (a ++ b) = errorsOf a + errorsOf b
  | [], b => by simp [errorsOf]
  | .data _ :: a, b => errorsOf_append a b
  | .error :: a, b => by
    show errorsOf (a ++ b) + 1 = errorsOf a + 1 + errorsOf b
    rw [errorsOf_append a b]; omega

theorem errorsOf_suffix {a b : List ReadResult} (h : a <:+ b) : errorsOf a ≤ errorsOf b := by
  obtain ⟨p, rfl⟩ := h
  rw [errorsOf_append]
  omega

/-- **C70** (part, the next file). A `ReadDecoder` that has returned an image and still holds bytes of what follows:
the next call returns what the parser makes of the next file when it starts with the bits left over, and keeps what
follows that, up to the two exceptions of `C70_image_partial`.

Missing: these two cases, `C70_violated`; and that the image is the one of the file, `C70_twice_violated`. -/
theorem C70_next_image_partial (cfg : Cfg) (d : ReadDecoder) (hd : d.Idle) (file behind : List UInt8)
    (reads : List ReadResult) (hne : NoEmptyRead reads)
    (hfile : d.codec.st.bi.input ++ dataOf reads = file ++ behind)
    (image : List UInt8) (t : St) (h : decodeParser cfg (d.codec.start file) = .ok (.ok image) t)
    (ht : t.bi.input = []) (n : Nat) (hn : errorsOf reads ≤ n) :
    (∃ d' rest, d.retry cfg n reads = (.image (.ok image) d', rest) ∧ d'.Idle ∧ d'.codec.start [] = t ∧
      d'.codec.st.bi.input ++ dataOf rest = behind) ∨
    ReadAtRestart cfg d (file ++ behind) reads ∨ ReadInEobRun cfg n d (file ++ behind) reads := by
  have hc := hd.codec
  obtain ⟨h1, h4⟩ : segmentLoop cfg (file.length + 1) (d.codec.start file) = .ok () t ∧
      upsample cfg t.dec = .ok image := by
    unfold decodeParser at h
    have e : (d.codec.start file).bi.input.length = file.length := rfl
    rw [e] at h
    cases hl : segmentLoop cfg (file.length + 1) (d.codec.start file) with
    | fail f t => rw [hl] at h; cases h
    | ok u t =>
      rw [hl, Out.bind_ok] at h
      cases hu : upsample cfg t.dec with
      | error f => rw [hu] at h; cases f <;> cases h
      | ok r => rw [hu] at h; cases h; exact ⟨rfl, hu⟩
  have h5 := segmentLoop_append (b := behind) h1
  have hsafe := segmentLoop_safe (cfg := cfg) file (file.length + 1) (d.codec.start file) hc.inv hc.wf
    (Nat.lt_succ_self _) (List.suffix_refl _)
  rw [h1] at hsafe
  have hwf : t.bi.WF := hsafe.2.1
  have := read_idle (cfg := cfg) hd reads [] n hne hn
  simp only [List.append_nil, hfile] at this
  have e : (d.codec.start (file ++ behind)).bi.input = file ++ behind := rfl
  have h5 : segmentLoop cfg ((file ++ behind).length + 1) (d.codec.start (file ++ behind)) =
    .ok () (app t behind) := h5
  rw [e, h5] at this
  rcases this with h | h | ⟨t', h⟩ | ⟨s, h, h'⟩ | ⟨f, s, rest, h, h' | ⟨h', p, h6, h7⟩⟩ |
    ⟨r, d', rest, h, h6, h7, h8, -, h9⟩
  · exact .inr (.inl h)
  · exact .inr (.inr h)
  · cases h
  · exact absurd rfl h'
  · cases h'
  · simp only [Out.ok.injEq, true_and] at h'
    have e3 : s.dec = t.dec := by
      have : (app t behind).dec = (app s (dataOf rest)).dec := by rw [h']
      exact this.symm
    rw [e3, h4] at h7
    cases h7
  · simp only [Out.ok.injEq, true_and] at h7
    obtain ⟨td, ti, tb, tc⟩ := t
    obtain ⟨⟨st, cd, ci, cb, cc⟩, ended⟩ := d'
    have h7 : (⟨td, ⟨ti ++ behind, tb, tc⟩⟩ : St) = ⟨cd, ⟨ci ++ dataOf rest, cb, cc⟩⟩ := h7
    have ht : ti = [] := ht
    subst ht
    simp only [St.mk.injEq, Biterator.mk.injEq, List.nil_append] at h7
    obtain ⟨rfl, rfl, rfl, rfl⟩ := h7
    refine .inl ⟨_, rest, ?_, ⟨⟨h6, hwf, hsafe.1⟩, h9 trivial⟩, rfl, rfl⟩
    rw [h, h8]
    show (Returned.image (upsample cfg td) _, rest) = _
    rw [h4]

/-- A program that calls `decode` for one image after the other, and again after each error of the reader: the images
up to the first failure, and that failure. It takes at most `k` images. -/
def ReadDecoder.images (cfg : Cfg) (n : Nat) : Nat → ReadDecoder → List ReadResult → List (List UInt8) × Option Fail
  | 0, _, _ => ([], none)
  | k + 1, d, reads =>
    match d.retry cfg n reads with
    | (.image (.ok image) d', rest) => (image :: (d'.images cfg n k rest).1, (d'.images cfg n k rest).2)
    | (.image (.error f) _, _) => ([], some f)
    | (.failed f _, _) => ([], some f)
    | (.io _, _) => ([], none)

/-- One of the calls ends in one of the two exceptions. -/
inductive ReadDisturbed (cfg : Cfg) (n : Nat) : ReadDecoder → List (List UInt8) → List ReadResult → Prop
  | here {d files reads} : ReadAtRestart cfg d files.flatten reads ∨ ReadInEobRun cfg n d files.flatten reads →
      ReadDisturbed cfg n d files reads
  | later {d file files reads image d' rest} : d.retry cfg n reads = (.image (.ok image) d', rest) →
      ReadDisturbed cfg n d' files rest → ReadDisturbed cfg n d (file :: files) reads

/-- Nothing left: the next call reports the end. -/
theorem retry_nothing {cfg : Cfg} : ∀ (reads : List ReadResult) (d : ReadDecoder) (n : Nat), d.Idle →
    d.codec.st.bi.input = [] → NoEmptyRead reads → dataOf reads = [] → errorsOf reads ≤ n →
    ∃ s, d.retry cfg n reads = (.failed .eof s, []) := by
  intro reads
  induction reads with
  | nil =>
    rintro ⟨⟨stage, dec, i, b, c⟩, ended⟩ n ⟨⟨h1, -, -⟩, h2⟩ h3 - - -
    have h1 : stage = .segments := h1
    have h2 : ended = false := h2
    have h3 : i = [] := h3
    subst h1 h2 h3
    cases n <;> exact ⟨_, rfl⟩
  | cons r reads ih =>
    intro d n hd h3 hne hdata hn
    have hne' : NoEmptyRead reads := fun chunk hc => hne chunk (List.mem_cons_of_mem _ hc)
    cases r with
    | data chunk =>
      have : chunk = [] := (List.append_eq_nil_iff.1 hdata).1
      exact absurd this (hne chunk (List.mem_cons_self ..))
    | error =>
      obtain ⟨n, rfl⟩ : ∃ k, n = k + 1 := ⟨n - 1, by simp only [errorsOf] at hn; omega⟩
      obtain ⟨s, hs⟩ := ih d n hd h3 hne' hdata (by simp only [errorsOf] at hn; omega)
      refine ⟨s, ?_⟩
      rw [← hs]
      obtain ⟨⟨stage, dec, i, b, c⟩, ended⟩ := d
      have h1 : stage = .segments := hd.codec.stage
      have h2 : ended = false := hd.open_
      have h3 : i = [] := h3
      subst h1 h2 h3
      rfl

theorem images_read {cfg : Cfg} {n : Nat} : ∀ (files images : List (List UInt8)) (d : ReadDecoder)
    (reads : List ReadResult), d.Idle → NoEmptyRead reads → errorsOf reads ≤ n →
    d.codec.st.bi.input ++ dataOf reads = files.flatten → Pictures cfg (d.codec.start []) files images →
    ∀ k, d.images cfg n (files.length + 1 + k) reads = (images, some .eof) ∨ ReadDisturbed cfg n d files reads := by
  intro files
  induction files with
  | nil =>
    intro images d reads hd hne hn hf h k
    cases h
    rw [List.flatten_nil, List.append_eq_nil_iff] at hf
    obtain ⟨s, hs⟩ := retry_nothing (cfg := cfg) reads d n hd hf.1 hne hf.2 hn
    left
    rw [show [].length + 1 + k = k + 1 by simp [Nat.add_comm], ReadDecoder.images, hs]
  | cons file files ih =>
    intro images d reads hd hne hn hf h k
    cases h with
    | @cons _ t _ _ image images h1 h2 h3 =>
    rw [List.flatten_cons] at hf
    rcases C70_next_image_partial cfg d hd file files.flatten reads hne hf image t h1 h2 n hn with
      ⟨d', rest, e1, e2, e3, e4⟩ | e | e
    · have hsuf : rest <:+ reads := by
        have := retry_suffix cfg n d reads
        rw [e1] at this
        exact this
      rcases ih images d' rest e2 (fun chunk hc => hne chunk (hsuf.subset hc))
        ((errorsOf_suffix hsuf).trans hn) e4 (by rw [e3]; exact h3) k with a | a
      · left
        rw [List.length_cons, show files.length + 1 + 1 + k = files.length + 1 + k + 1 by omega, ReadDecoder.images, e1]
        simp only [a]
      · exact .inr (.later e1 a)
    · exact .inr (.here (.inl e))
    · exact .inr (.here (.inr e))

/-- **C70** (part, any number of files). A reader that gives one file after the other, in pieces of any size and with
errors of its own in between, to a program that goes on calling `decode`: the images are those the parser returns when
it is run over one file after the other, and then the end is reported, up to the two exceptions of `C70_image_partial`.

Missing: these two cases, `C70_violated`; and that each image is the one of its file, `C70_twice_violated`. -/
theorem C70_images_partial (cfg : Cfg) (d : Decoder) (hd : UsedDecoder d) (files images : List (List UInt8))
    (reads : List ReadResult) (hne : NoEmptyRead reads) (hfile : dataOf reads = files.flatten)
    (h : Pictures cfg ⟨d, Biterator.new []⟩ files images) (n : Nat) (hn : errorsOf reads ≤ n) (k : Nat)
    (hk : files.length < k) :
    (ReadDecoder.ofDecoder d).images cfg n k reads = (images, some .eof) ∨
      ReadDisturbed cfg n (ReadDecoder.ofDecoder d) files reads := by
  obtain ⟨k, rfl⟩ : ∃ j, k = files.length + 1 + j := ⟨k - files.length - 1, by omega⟩
  exact images_read files images (ReadDecoder.ofDecoder d) reads (ReadDecoder.idle_ofDecoder hd) hne hn hfile h k

/-- **C70** (violated: the same file twice). Two images, and they differ. -/
theorem C70_twice_violated :
    (match ReadDecoder.new.images ⟨false, false⟩ 0 3 [.data (exampleFile.bytes ++ exampleFile.bytes)],
        decode ⟨false, false⟩ exampleFile.bytes with
    | ([first, second], some .eof), .ok image => decide (first = image) && decide (second ≠ image)
    | _, _ => false) = true := by decide +kernel

/-- A case of `C70_images_partial`: three files, in two reads with an error in between. -/
example : ∃ images, images.length = 3 ∧
    Pictures ⟨false, false⟩ ⟨Decoder.default, Biterator.new []⟩ [exampleFile.bytes, exampleFile.bytes, grey] images ∧
    ((ReadDecoder.ofDecoder Decoder.default).images ⟨false, false⟩ 1 4
        [.data (exampleFile.bytes ++ exampleFile.bytes), .error, .data grey] = (images, some .eof) ∨
      ReadDisturbed ⟨false, false⟩ 1 (ReadDecoder.ofDecoder Decoder.default)
        [exampleFile.bytes, exampleFile.bytes, grey]
        [.data (exampleFile.bytes ++ exampleFile.bytes), .error, .data grey]) := by
  have h : ((picturesOf ⟨false, false⟩ ⟨Decoder.default, Biterator.new []⟩
      [exampleFile.bytes, exampleFile.bytes, grey]).map List.length) = some 3 := by decide +kernel
  cases hp : picturesOf ⟨false, false⟩ ⟨Decoder.default, Biterator.new []⟩
      [exampleFile.bytes, exampleFile.bytes, grey] with
  | none => rw [hp] at h; cases h
  | some is =>
    rw [hp] at h
    refine ⟨is, Option.some.inj h, picturesOf_sound _ _ _ hp, ?_⟩
    refine C70_images_partial ⟨false, false⟩ _ .new _ is _ ?_ ?_ (picturesOf_sound _ _ _ hp) 1 (by decide) 4 (by decide)
    · intro chunk hc
      simp only [List.mem_cons, ReadResult.data.injEq, reduceCtorEq, false_or, List.not_mem_nil, or_false] at hc
      rcases hc with rfl | rfl
      · intro h0
        have : (exampleFile.bytes ++ exampleFile.bytes).length = 0 := by rw [h0]; rfl
        revert this
        decide +kernel
      · decide +kernel
    · simp [dataOf]

end Jpeg
