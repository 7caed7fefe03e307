import Verif.Proofs.StreamRun
/-!
# A streaming decoder that waits for a restart marker
-/

namespace Jpeg
variable {cfg : Cfg}

/-- Waiting for a restart marker, as `restart_parser` leaves it: the restart counter is already down. -/
def Codec.AtRestart (c : Codec) : Prop :=
  (∃ pd y x rest, c.stage = .scan pd .restart ((y, x) :: rest)) ∧ (∃ frame, c.st.dec.frame = some frame) ∧
  0 < c.st.dec.restartInterval ∧ c.st.dec.scanState.mcusLeftUntilRestart = 0

theorem restartParser_wait {x y : Nat} {s t : St} (h : restartParser cfg x y s = .fail .eof t) :
    (∃ frame, t.dec.frame = some frame) ∧ 0 < t.dec.restartInterval ∧
      t.dec.scanState.mcusLeftUntilRestart = 0 := by
  unfold restartParser at h
  split at h
  · next hr =>
    cases hf : s.dec.frame with
    | none => rw [hf] at h; cases h
    | some frame =>
      rw [hf] at h
      simp only at h
      split at h
      · cases h
      · split at h
        · next hl =>
          split at h
          · cases h
            exact ⟨⟨frame, hf⟩, hr, hl.1⟩
          · unfold handleRestart at h
            split at h
            · simp only at h
              split at h <;> cases h
            · cases h
        · cases h
  · cases h

theorem mcuResume_wait {pd : Bool} : ∀ (todo : List (Nat × Nat)) (phase : Phase) (s : St) (todo' : List (Nat × Nat))
    (t : St), mcuResume cfg pd phase todo s = .wait .restart todo' t →
    (∃ y x rest, todo' = (y, x) :: rest) ∧ (∃ frame, t.dec.frame = some frame) ∧ 0 < t.dec.restartInterval ∧
      t.dec.scanState.mcusLeftUntilRestart = 0 := by
  intro todo
  induction todo with
  | nil => intro phase s todo' t h; cases h
  | cons p rest ih =>
    obtain ⟨y, x⟩ := p
    intro phase s todo' t h
    rw [mcuResume] at h
    split at h
    · split at h <;> cases h
    · next s1 _ =>
      cases hr : restartParser cfg x y s1 with
      | fail f s2 =>
        rw [hr] at h
        simp only at h
        split at h
        · next hf =>
          cases h
          subst hf
          exact ⟨⟨y, x, rest, rfl⟩, restartParser_wait hr⟩
        · cases h
      | ok u s2 =>
        rw [hr] at h
        simp only at h
        split at h
        · split at h
          · cases h
          · exact ih _ _ _ _ h
        · exact ih _ _ _ _ h

theorem scanStep_wait {pd : Bool} {phase : Phase} {todo : List (Nat × Nat)} {s t : St} {stage : Stage}
    (h : scanStep cfg pd phase todo s = .wait stage t) (ha : stage.atRestart) : (⟨stage, t⟩ : Codec).AtRestart := by
  unfold scanStep at h
  cases hm : mcuResume cfg pd phase todo s with
  | wait phase' todo' s' =>
    rw [hm] at h
    cases h
    cases phase' with
    | row => exact absurd ha (by simp [Stage.atRestart])
    | restart =>
      obtain ⟨⟨y, x, rest, h1⟩, h2⟩ := mcuResume_wait _ _ _ _ _ hm
      exact ⟨⟨pd, y, x, rest, by rw [h1]⟩, h2⟩
  | failed f s' => rw [hm] at h; cases h
  | done s' =>
    rw [hm] at h
    simp only at h
    split at h <;> cases h

theorem stageStep_wait {stage stage' : Stage} {s t : St} (h : stageStep cfg stage s = .wait stage' t)
    (ha : stage'.atRestart) : (⟨stage', t⟩ : Codec).AtRestart := by
  cases stage with
  | scan pd phase todo => exact scanStep_wait h ha
  | segments =>
    have hn : ∀ s', Step.wait .segments s' = .wait stage' t → False := by
      intro s' h; cases h; exact ha
    rw [stageStep, segmentStep] at h
    split at h
    · split at h
      · exact (hn _ h).elim
      · cases h
    · split at h
      · cases h
      · split at h
        · split at h
          · split at h
            · exact (hn _ h).elim
            · cases h
          · split at h
            · cases h
            · exact scanStep_wait h ha
        · split at h
          · split at h
            · exact (hn _ h).elim
            · cases h
          · cases h

theorem codecRun_wait : ∀ (fuel : Nat) (stage : Stage) (s : St) (c : Codec),
    codecRun cfg fuel stage s = .pending c → c.stage.atRestart → c.AtRestart := by
  intro fuel
  induction fuel with
  | zero => intro stage s c h; cases h
  | succ fuel ih =>
    intro stage s c h ha
    rw [codecRun] at h
    cases e : stageStep cfg stage s with
    | next t => rw [e] at h; exact ih _ _ _ h ha
    | wait stage' t => rw [e] at h; cases h; exact stageStep_wait e ha
    | failed f t => rw [e] at h; cases h
    | eoi t =>
      rw [e] at h
      simp only at h
      split at h <;> cases h

theorem poll_wait {c c' : Codec} (h : c.poll cfg = .pending c') (ha : c'.stage.atRestart) :
    c'.AtRestart ∨ c' = c := by
  unfold Codec.poll at h
  split at h
  · cases h; exact .inr rfl
  · exact .inl (codecRun_wait _ _ _ _ h ha)

theorem feed_wait : ∀ (chunks : List (List UInt8)) (c c' : Codec) (rest : List (List UInt8)),
    ¬ c.stage.atRestart ∨ c.AtRestart → c.feed cfg chunks = (.pending c', rest) → c'.stage.atRestart →
    c'.AtRestart := by
  intro chunks
  induction chunks with
  | nil =>
    intro c c' rest hc h ha
    cases h
    exact hc.resolve_left (fun h => h ha)
  | cons chunk chunks ih =>
    intro c c' rest hc h ha
    rw [Codec.feed] at h
    have hp : ¬ (c.push chunk).stage.atRestart ∨ (c.push chunk).AtRestart := hc
    cases hq : (c.push chunk).poll cfg with
    | pending c1 =>
      rw [hq] at h
      refine ih c1 c' rest ?_ h ha
      by_cases h1 : c1.stage.atRestart
      · rcases poll_wait hq h1 with h2 | rfl
        · exact .inr h2
        · exact hp
      · exact .inl h1
    | image r c1 => rw [hq] at h; cases h
    | failed f s => rw [hq] at h; cases h

/-- With overflow checks, a decoder that waits for a restart marker panics as soon as it is called with a byte. -/
theorem poll_atRestart {c : Codec} (hd : cfg.debug = true) (h : c.AtRestart) (hi : c.st.bi.input ≠ []) :
    c.poll cfg = .failed (.panic .restartUnderflow) c.st := by
  obtain ⟨⟨pd, y, x, rest, h1⟩, ⟨frame, h2⟩, h3, h4⟩ := h
  have hr : restartParser cfg x y c.st = .fail (.panic .restartUnderflow) c.st := by
    unfold restartParser
    rw [if_pos h3, h2]
    simp only
    rw [if_pos ⟨h4, hd⟩]
  unfold Codec.poll
  rw [if_neg hi, show c.st.bi.input.length + 2 = (c.st.bi.input.length + 1) + 1 from rfl, codecRun, h1]
  have hm : mcuResume cfg pd .restart ((y, x) :: rest) c.st = .failed (.panic .restartUnderflow) c.st := by
    rw [mcuResume]
    simp [hr]
  have hs : stageStep cfg (.scan pd .restart ((y, x) :: rest)) c.st = .failed (.panic .restartUnderflow) c.st := by
    show scanStep cfg pd .restart ((y, x) :: rest) c.st = _
    unfold scanStep
    rw [hm]
  rw [hs]

theorem feed_atRestart (hd : cfg.debug = true) : ∀ (chunks : List (List UInt8)) (c : Codec), c.AtRestart →
    (∃ c', c.feed cfg chunks = (.pending c', [])) ∨
      ∃ s rest, c.feed cfg chunks = (.failed (.panic .restartUnderflow) s, rest) := by
  intro chunks
  induction chunks with
  | nil => intro c h; exact .inl ⟨c, rfl⟩
  | cons chunk chunks ih =>
    intro c h
    have hp : (c.push chunk).AtRestart := h
    rw [Codec.feed]
    by_cases hi : (c.push chunk).st.bi.input = []
    · have : (c.push chunk).poll cfg = .pending (c.push chunk) := by
        unfold Codec.poll
        rw [if_pos hi]
      rw [this]
      exact ih _ hp
    · rw [poll_atRestart hd hp hi]
      exact .inr ⟨_, _, rfl⟩

theorem feed_append : ∀ (a b : List (List UInt8)) (c c' : Codec), c.feed cfg a = (.pending c', []) →
    c.feed cfg (a ++ b) = c'.feed cfg b := by
  intro a
  induction a with
  | nil => intro b c c' h; cases h; rfl
  | cons chunk a ih =>
    intro b c c' h
    rw [List.cons_append, Codec.feed]
    rw [Codec.feed] at h
    cases hq : (c.push chunk).poll cfg with
    | pending c1 => rw [hq] at h; exact ih b c1 c' h
    | image r c1 => rw [hq] at h; cases h
    | failed f s => rw [hq] at h; cases h

end Jpeg
