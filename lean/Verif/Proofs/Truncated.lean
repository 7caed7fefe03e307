import Verif.Proofs.StreamRun
import Verif.Proofs.StreamTables
/-!
# Cut off input

What can be said about a run that fails when more input follows: it fails in the same way, or it failed
because the input ended.
-/

namespace Jpeg
open HasInput

/-- `o` failed because the input ended, or `o'`, where `x` follows the input, fails in the same way. -/
def Cut {α : Type} (d : Decoder) (x : List UInt8) (o o' : Out St α) : Prop :=
  ∀ f t, o = .fail f t → f = .eof ∨ (f = .err .outOfBits ∧ EobRuns d) ∨ o' = .fail f (app t x)

theorem Cut.of_follows {α : Type} {d : Decoder} {x : List UInt8} {o o' : Out St α} (h : Follows x o o') :
    Cut d x o o' := by
  rintro f t rfl
  exact .inr (.inr h)

/-- `o` grows and its failures are `DecBlame`. -/
theorem Cut.of_grows {α : Type} {d : Decoder} {x : List UInt8} {o o' : Out St α} (h : Grows x o o')
    (hb : Fails (DecBlame d) o) : Cut d x o o' := by
  intro f t hf
  obtain ⟨h1, h2⟩ := hb f t hf
  by_cases he : f = .eof
  · exact .inl he
  · by_cases ho : f = .err .outOfBits
    · exact .inr (.inl ⟨ho, h2 ho⟩)
    · exact .inr (.inr (h.of_fail hf ⟨h1, he, ho⟩))

theorem Cut.bind {α β : Type} {d : Decoder} {x : List UInt8} {o o' : Out St α} {k k' : α → St → Out St β}
    (h : Cut d x o o') (hg : Grows x o o') (hk : ∀ a s, o = .ok a s → Cut d x (k a s) (k' a (app s x))) :
    Cut d x (o.bind k) (o'.bind k') := by
  intro f t hf
  cases ho : o with
  | fail g s =>
    rw [ho] at hf
    cases hf
    rcases h f t ho with h | h | h
    · exact .inl h
    · exact .inr (.inl h)
    · exact .inr (.inr (by rw [h]; rfl))
  | ok a s =>
    rw [hg.of_ok ho]
    rw [ho] at hf
    exact hk a s ho f t hf

theorem Cut.only {α : Type} {d d' : Decoder} {x : List UInt8} {o o' : Out St α} (ho : OnlyScan d d')
    (h : Cut d' x o o') : Cut d x o o' := by
  intro f t hf
  rcases h f t hf with h | ⟨h, i, q, h1, h2⟩ | h
  · exact .inl h
  · exact .inr (.inl ⟨h, i, q, by rw [← OnlyScan.acTables ho]; exact h1, h2⟩)
  · exact .inr (.inr h)

theorem mcuStep_cut (cfg : Cfg) (pd : Bool) (y x : Nat) (s : St) (q : List UInt8) :
    Cut s.dec q (mcuStep cfg pd y x s) (mcuStep cfg pd y x (app s q)) := by
  unfold mcuStep
  refine Cut.bind (Cut.of_grows (decodeRow_grows s q) (decodeRow_blame s)) (decodeRow_grows s q) ?_
  intro _ s1 h1
  have ho1 := decodeRow_only s
  rw [h1] at ho1
  refine Cut.only ho1 ?_
  refine Cut.bind (Cut.of_grows (restartParser_grows cfg x y s1 q) ?_) (restartParser_grows cfg x y s1 q) ?_
  · intro f t hf
    obtain ⟨a, b⟩ := restartParser_notBits hf
    exact ⟨a, fun h => absurd h b⟩
  intro _ s2 h2
  cases pd with
  | false => intro f t hf; cases hf
  | true =>
    simp only [if_true]
    have e : (app s2 q).dec = s2.dec := rfl
    rw [e]
    cases dequantize cfg x y s2.dec with
    | ok u d => intro f t hf; cases hf
    | fail g d => exact Cut.of_follows rfl

theorem mcuLoop_cut (cfg : Cfg) (pd : Bool) (q : List UInt8) : ∀ (l : List (Nat × Nat)) (s : St),
    Cut s.dec q (mcuLoop cfg pd l s) (mcuLoop cfg pd l (app s q)) := by
  intro l
  induction l with
  | nil => intro s f t hf; cases hf
  | cons p l ih =>
    intro s
    obtain ⟨y, x⟩ := p
    rw [mcuLoop, mcuLoop]
    refine Cut.bind (mcuStep_cut cfg pd y x s q) (mcuStep_grows cfg pd y x s q) ?_
    intro _ s1 h1
    have ho := mcuStep_only cfg pd y x s
    rw [h1] at ho
    exact Cut.only ho (ih s1)

theorem sosBody_cut (cfg : Cfg) (pd : Bool) (s : St) (q : List UInt8) :
    Cut s.dec q (sosBody cfg pd s) (sosBody cfg pd (app s q)) := by
  unfold sosBody
  have e : (app s q).dec = s.dec := rfl
  rw [e]
  cases s.dec.frame with
  | none => exact Cut.of_follows rfl
  | some frame =>
    cases s.dec.scan with
    | none => exact Cut.of_follows rfl
    | some scan =>
      simp only
      refine Cut.bind (mcuLoop_cut cfg pd q _ s) (mcuLoop_grows cfg pd q _ s) ?_
      intro _ s1 _
      have e : (app s1 q).dec = s1.dec := rfl
      simp only [e]
      cases takeResults scan.headers s1.dec.scanState.results with
      | error f => exact Cut.of_follows rfl
      | ok planes => exact Cut.of_follows rfl

/-- A segment on cut off input. -/
theorem doSegment_cut (cfg : Cfg) (m : Marker) (s : St) (q : List UInt8) :
    Cut s.dec q (doSegment cfg m s) (doSegment cfg m (app s q)) := by
  by_cases hm : m = .SOS
  · subst hm
    show Cut s.dec q (sos cfg s) (sos cfg (app s q))
    rw [sos_eq, sos_eq]
    cases hs : segmentBytes cfg s.bi.input with
    | error g =>
      rw [sosStart_short hs]
      rcases segmentBytes_error hs with h | ⟨h, -⟩
      · intro f t hf
        cases hf
        exact .inl h
      · rw [sosStart_short (s := app s q) (segmentBytes_grows_err hs (by rw [h]; exact ⟨by simp, by simp, by simp⟩) q)]
        exact Cut.of_follows rfl
    | ok r =>
      have hfo := sosStart_follows hs q
      cases ho : sosStart cfg s with
      | fail g t =>
        rw [ho] at hfo
        rw [show sosStart cfg (app s q) = _ from hfo]
        exact Cut.of_follows rfl
      | ok pd t =>
        rw [ho] at hfo
        rw [show sosStart cfg (app s q) = _ from hfo, Out.bind_ok, Out.bind_ok]
        obtain ⟨-, -, -, -, -, -, -, ha⟩ := sosStart_facts ho
        intro f t' hf
        rcases sosBody_cut cfg pd t q f t' hf with h | ⟨h, i, z, h1, h2⟩ | h
        · exact .inl h
        · exact .inr (.inl ⟨h, i, z, by rw [← ha]; exact h1, h2⟩)
        · exact .inr (.inr h)
  · rcases doSegment_cases (cfg := cfg) hm s q with h | h
    · exact Cut.of_follows h
    · intro f t hf
      rw [h] at hf
      cases hf
      exact .inl rfl

/-- The states seen between segments are still seen when more input follows. -/
theorem Visits.app {cfg : Cfg} {s u : St} (h : Visits cfg s u) (q : List UInt8) :
    Visits cfg (app s q) (app u q) := by
  induction h with
  | refl s => exact .refl _
  | @step s t u m rest hm hne hd _ ih =>
    refine .step (m := m) (rest := rest ++ q) (t := HasInput.app t q) (marker_grows hm q) hne ?_ ih
    have := doSegment_grows cfg m (s.setInput rest) q
    exact this.of_ok hd

/-- The whole file, cut off. -/
theorem segmentLoop_cut (cfg : Cfg) (q : List UInt8) : ∀ (fuel : Nat) (s t : St) (f : Fail),
    segmentLoop cfg fuel s = .fail f t →
    f = .eof ∨ (f = .err .outOfBits ∧ ∃ u, Visits cfg s u ∧ EobRuns u.dec) ∨
      segmentLoop cfg fuel (app s q) = .fail f (app t q) := by
  intro fuel
  induction fuel with
  | zero => intro s t f h; rw [segmentLoop] at h; cases h; exact .inr (.inr rfl)
  | succ fuel ih =>
    intro s t f h
    rw [segmentLoop] at h ⊢
    cases hm : marker s.bi.input with
    | error g =>
      rw [hm] at h
      cases h
      rcases marker_error_cases hm with h | h
      · exact .inl h
      · right; right
        have hm' : marker (app s q).bi.input = .error f := marker_grows_err hm (by rw [h]; exact ⟨by simp, by simp, by simp⟩) q
        rw [hm']
    | ok r =>
      obtain ⟨m, rest⟩ := r
      rw [hm] at h
      have hm' : marker (app s q).bi.input = .ok (m, rest ++ q) := marker_grows hm q
      rw [hm']
      simp only at h ⊢
      by_cases he : m = .EOI
      · rw [if_pos he] at h; cases h
      · rw [if_neg he] at h ⊢
        rw [setInput_app]
        cases ho : doSegment cfg m (s.setInput rest) with
        | fail g t' =>
          rw [ho] at h
          cases h
          rcases doSegment_cut cfg m (s.setInput rest) q f t ho with h | ⟨h1, h2⟩ | h
          · exact .inl h
          · exact .inr (.inl ⟨h1, s, .refl s, h2⟩)
          · exact .inr (.inr (by rw [h]; rfl))
        | ok u t' =>
          rw [ho, Out.bind_ok] at h
          rw [(doSegment_grows cfg m (s.setInput rest) q).of_ok ho, Out.bind_ok]
          rcases ih t' t f h with h | ⟨h, u, h1, h2⟩ | h
          · exact .inl h
          · exact .inr (.inl ⟨h, u, .step hm he ho h1, h2⟩)
          · exact .inr (.inr h)

end Jpeg
