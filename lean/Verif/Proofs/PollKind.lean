import Verif.Model.Stream
/-!
# A streaming decoder does not fail for want of input
-/

namespace Jpeg

/-- All failures of `e` are panics. -/
def OnlyPanics {α : Type} (e : Except Fail α) : Prop := ∀ f, e = .error f → ∃ p, f = .panic p

theorem OnlyPanics.ok {α : Type} (a : α) : OnlyPanics (.ok a : Except Fail α) := by intro f h; cases h

theorem OnlyPanics.panic {α : Type} (p : PanicSite) : OnlyPanics (.error (.panic p) : Except Fail α) := by
  intro f h; cases h; exact ⟨p, rfl⟩

theorem OnlyPanics.error {α β : Type} {e : Except Fail α} (h : OnlyPanics e) {f : Fail} (hf : e = .error f) :
    OnlyPanics (.error f : Except Fail β) := by
  intro g hg; cases hg; exact h f hf

theorem writeRows_panics (stride : Nat) : ∀ rows out, OnlyPanics (writeRows stride rows out) := by
  intro rows
  induction rows with
  | nil => intro out; exact .ok _
  | cons row rows ih =>
    intro out
    rw [writeRows]
    split
    · exact .ok _
    split
    · exact .panic _
    split
    · next h => exact (ih _).error h
    · exact .ok _

theorem assumeInit_panics : ∀ l, OnlyPanics (assumeInit l) := by
  intro l
  induction l with
  | nil => exact .ok _
  | cons a l ih =>
    cases a with
    | none => exact .panic _
    | some x =>
      rw [assumeInit]
      split
      · next h => exact ih.error h
      · exact .ok _

theorem dequantizeAndIdct_panics (cfg : Cfg) (c : List Int) (q : List Nat) (stride : Nat) (out : List (Option UInt8)) :
    OnlyPanics (dequantizeAndIdct cfg c q stride out) := by
  unfold dequantizeAndIdct
  split
  · exact .panic _
  split
  · exact .panic _
  split
  · next h =>
    refine OnlyPanics.error (e := idct8x8 c q) ?_ h
    unfold idct8x8
    split
    · next h => exact (assumeInit_panics _).error h
    · exact .ok _
  · exact writeRows_panics _ _ _

theorem dequantCols_panics (cfg : Cfg) (c : Component) (q : List Nat) (start : Nat) : ∀ xs chunks plane,
    OnlyPanics (dequantCols cfg c q start xs chunks plane) := by
  intro xs
  induction xs with
  | nil => intro chunks plane; exact .ok _
  | cons x xs ih =>
    intro chunks plane
    cases chunks with
    | nil => exact .panic _
    | cons b chunks =>
    rw [dequantCols]
    split
    · exact .panic _
    split
    · next h => exact (dequantizeAndIdct_panics _ _ _ _ _).error h
    · exact ih _ _

theorem skipChunks_panics : ∀ n chunks, OnlyPanics (skipChunks n chunks) := by
  intro n
  induction n with
  | zero => intro chunks; exact .ok _
  | succ n ih =>
    intro chunks
    cases chunks with
    | nil => exact .panic _
    | cons a l => exact ih l

theorem dequantRows_panics (cfg : Cfg) (c : Component) (q : List Nat) (o : Nat) : ∀ ys chunks plane,
    OnlyPanics (dequantRows cfg c q o ys chunks plane) := by
  intro ys
  induction ys with
  | nil => intro chunks plane; exact .ok _
  | cons y ys ih =>
    intro chunks plane
    rw [dequantRows]
    split
    · split
      · next h => exact (dequantCols_panics _ _ _ _ _ _ _).error h
      · exact ih _ _
    · split
      · next h => exact (skipChunks_panics _ _).error h
      · exact ih _ _

theorem dequantComponents_panics (cfg : Cfg) (qts : List (Option (List Nat))) (x y : Nat) : ∀ cs planes chunks,
    OnlyPanics (dequantComponents cfg qts x y cs planes chunks) := by
  intro cs
  induction cs with
  | nil => intro planes chunks; rw [dequantComponents]; exact .ok _; simp
  | cons c cs ih =>
    intro planes chunks
    cases planes with
    | nil => rw [dequantComponents]; exact .ok _; simp
    | cons p ps =>
      rw [dequantComponents]
      split
      · exact .panic _
      · exact .panic _
      · simp only
        split
        · next h =>
          refine OnlyPanics.error ?_ h
          split
          · exact dequantRows_panics _ _ _ _ _ _ _
          · split
            · next h => exact (skipChunks_panics _ _).error h
            · exact .ok _
        · split
          · next h => exact (ih _ _).error h
          · exact .ok _

theorem dequantize_panics {cfg : Cfg} {x y : Nat} {d d' : Decoder} {f : Fail} (h : dequantize cfg x y d = .fail f d') :
    ∃ p, f = .panic p := by
  unfold dequantize at h
  split at h
  · cases h; exact ⟨_, rfl⟩
  · split at h
    · next e =>
      cases h
      unfold Frame.codingProcess at e
      repeat (split at e; · cases e)
      cases e
      exact ⟨_, rfl⟩
    · cases h; exact ⟨_, rfl⟩
    · split at h
      · next e => cases h; exact dequantComponents_panics _ _ _ _ _ _ _ _ e
      · cases h

theorem scanEnd_panics {s t : St} {f : Fail} (h : scanEnd s = .fail f t) : ∃ p, f = .panic p := by
  have hi : ∀ l, OnlyPanics (initPlane l) := by
    intro l
    induction l with
    | nil => exact .ok _
    | cons a l ih =>
      cases a with
      | none => exact .panic _
      | some b =>
        rw [initPlane]
        split
        · next h => exact ih.error h
        · exact .ok _
  have ht : ∀ hs results, OnlyPanics (takeResults hs results) := by
    intro hs
    induction hs with
    | nil => intro results; exact .ok _
    | cons a l ih =>
      intro results
      rw [takeResults]
      split
      · exact .panic _
      · split
        · next h => exact (hi _).error h
        · split
          · next h => exact (ih _).error h
          · exact .ok _
  unfold scanEnd at h
  split at h
  · cases h; exact ⟨_, rfl⟩
  · split at h
    · next e => cases h; exact ht _ _ _ e
    · cases h

theorem mcuResume_failed {cfg : Cfg} {pd : Bool} : ∀ (todo : List (Nat × Nat)) (phase : Phase) (s : St) (f : Fail) (t : St),
    mcuResume cfg pd phase todo s = .failed f t → f ≠ .eof := by
  intro todo
  induction todo with
  | nil => intro phase s f t h; rw [mcuResume] at h; cases h
  | cons yx rest ih =>
    intro phase s f t h
    rw [mcuResume] at h
    split at h
    · split at h
      · cases h
      · next hn => cases h; exact hn
    · split at h
      · split at h
        · cases h
        · next hn => cases h; exact hn
      · split at h
        · split at h
          · next e =>
            cases h
            obtain ⟨p, rfl⟩ := dequantize_panics e
            simp
          · exact ih _ _ _ _ h
        · exact ih _ _ _ _ h

theorem scanStep_failed {cfg : Cfg} {pd : Bool} {phase : Phase} {todo : List (Nat × Nat)} {s t : St} {f : Fail}
    (h : scanStep cfg pd phase todo s = .failed f t) : f ≠ .eof := by
  unfold scanStep at h
  split at h
  · cases h
  · next e => cases h; exact mcuResume_failed _ _ _ _ _ e
  · split at h
    · next e =>
      cases h
      obtain ⟨p, rfl⟩ := scanEnd_panics e
      simp
    · cases h

theorem stageStep_failed {cfg : Cfg} {stage : Stage} {s t : St} {f : Fail}
    (h : stageStep cfg stage s = .failed f t) : f ≠ .eof := by
  cases stage with
  | scan pd phase todo => exact scanStep_failed h
  | segments =>
    have h : segmentStep cfg s = .failed f t := h
    unfold segmentStep at h
    split at h
    · split at h
      · cases h
      · next hn => cases h; exact hn
    · split at h
      · cases h
      · split at h
        · split at h
          · split at h
            · cases h
            · next hn => cases h; exact hn
          · split at h
            · cases h; simp
            · exact scanStep_failed h
        · split at h
          · split at h
            · cases h
            · next hn => cases h; exact hn
          · cases h

theorem codecRun_failed {cfg : Cfg} : ∀ (fuel : Nat) (stage : Stage) (s : St) (f : Fail) (t : St),
    codecRun cfg fuel stage s = .failed f t → f ≠ .eof := by
  intro fuel
  induction fuel with
  | zero => intro stage s f t h; rw [codecRun] at h; cases h; simp
  | succ fuel ih =>
    intro stage s f t h
    rw [codecRun] at h
    split at h
    · exact ih _ _ _ _ h
    · cases h
    · next e => cases h; exact stageStep_failed e
    · split at h
      · cases h; simp
      · cases h

/-- A streaming decoder does not report an end of the input. -/
theorem Codec.feed_failed {cfg : Cfg} : ∀ (chunks : List (List UInt8)) (c : Codec) (f : Fail) (t : St)
    (rest : List (List UInt8)), c.feed cfg chunks = (.failed f t, rest) → f ≠ .eof := by
  intro chunks
  induction chunks with
  | nil => intro c f t rest h; rw [Codec.feed] at h; cases h
  | cons chunk chunks ih =>
    intro c f t rest h
    rw [Codec.feed] at h
    split at h
    · exact ih _ _ _ _ h
    · next hn =>
      have e : (c.push chunk).poll cfg = .failed f t := congrArg Prod.fst h
      unfold Codec.poll at e
      split at e
      · cases e
      · exact codecRun_failed _ _ _ _ _ e

end Jpeg
