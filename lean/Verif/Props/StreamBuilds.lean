import Verif.Proofs.Release
import Verif.Props.StreamSafe
/-!
# Streaming decoders in builds with and without overflow checks (C53)
-/

namespace Jpeg
open Spec

section
variable {r : Bool}

/-- Equal, unless the first fails a check. -/
def AgreeRun (a b : Run) : Prop :=
  (∃ (p : PanicSite) (s : St), p.Checked ∧ a = .failed (.panic p) s) ∨ a = b

/-- Equal, unless the first fails a check. -/
def AgreeStep (a b : Step) : Prop :=
  (∃ (p : PanicSite) (s : St), p.Checked ∧ a = .failed (.panic p) s) ∨ a = b

/-- Equal, unless the first fails a check. -/
def AgreePoll (a b : Poll) : Prop :=
  (∃ (p : PanicSite) (s : St), p.Checked ∧ a = .failed (.panic p) s) ∨ a = b

theorem mcuResume_agree (pd : Bool) : ∀ (l : List (Nat × Nat)) (ph : Phase) (s : St),
    AgreeRun (mcuResume ⟨true, r⟩ pd ph l s) (mcuResume ⟨false, r⟩ pd ph l s) := by
  intro l
  induction l with
  | nil => intro ph s; exact .inr (by rw [mcuResume, mcuResume])
  | cons q l ih =>
    intro ph s
    obtain ⟨y, x⟩ := q
    rw [mcuResume, mcuResume]
    cases (if ph = .row then decodeRow s else Out.ok () s) with
    | fail f s => exact .inr rfl
    | ok u s =>
      simp only
      rcases restartParser_agree (r := r) x y s with ⟨⟨p, hp⟩, s', e⟩ | e
      · exact .inl ⟨p, s', hp, by rw [e]; simp⟩
      rw [e]
      cases restartParser ⟨false, r⟩ x y s with
      | fail f s => exact .inr rfl
      | ok u s =>
        simp only
        cases pd with
        | false => exact ih .row s
        | true =>
          simp only [if_true]
          rcases dequantize_agree (r := r) x y s.dec with ⟨⟨p, hp⟩, d, e⟩ | e
          · exact .inl ⟨p, _, hp, by rw [e]⟩
          rw [e]
          cases dequantize ⟨false, r⟩ x y s.dec with
          | fail f d => exact .inr rfl
          | ok u d => exact ih .row _

theorem scanStep_agree (pd : Bool) (ph : Phase) (todo : List (Nat × Nat)) (s : St) :
    AgreeStep (scanStep ⟨true, r⟩ pd ph todo s) (scanStep ⟨false, r⟩ pd ph todo s) := by
  unfold scanStep
  rcases mcuResume_agree (r := r) pd todo ph s with ⟨p, s', hp, e⟩ | e
  · exact .inl ⟨p, s', hp, by rw [e]⟩
  · exact .inr (by rw [e])

theorem sosStart_agree (s : St) : AgreeO (sosStart ⟨true, r⟩ s) (sosStart ⟨false, r⟩ s) := by
  unfold sosStart
  rcases segmentBytes_agree (r := r) s.bi.input with ⟨p, e⟩ | e
  · exact .inl ⟨p, s, by rw [e]⟩
  rw [e]
  cases segmentBytes ⟨false, r⟩ s.bi.input with
  | error f => exact .refl _
  | ok q =>
    simp only
    generalize s.setInput q.2 = s
    cases sosSegment s.dec.frame q.1 with
    | error f => exact .refl _
    | ok sc =>
      simp only
      cases s.dec.frame with
      | none => exact .refl _
      | some frame =>
        simp only
        cases frame.codingProcess with
        | error f => exact .refl _
        | ok c =>
          cases c <;> simp only
          case progressive => exact .refl _
          all_goals
            by_cases hl : sc.1.al = 0
            · rw [if_pos hl, if_pos hl]
              rcases setFinishedAll_agree (r := r) (inclusiveRange sc.1.ss sc.1.se)
                (sc.1.headers.map (·.componentIndex)) s.dec.coefficientsFinished with ⟨p, e⟩ | e
              · exact .inl ⟨p, _, by rw [e]⟩
              · rw [e]
                exact .refl _
            · rw [if_neg hl, if_neg hl]
              exact .refl _

theorem checked_ne_eof {p : PanicSite} : Fail.panic p ≠ .eof := by intro h; cases h

theorem segmentStep_agree (s : St) : AgreeStep (segmentStep ⟨true, r⟩ s) (segmentStep ⟨false, r⟩ s) := by
  unfold segmentStep
  cases marker s.bi.input with
  | error f => exact .inr rfl
  | ok q =>
    obtain ⟨m, rest⟩ := q
    simp only
    by_cases h1 : m = .EOI
    · rw [if_pos h1, if_pos h1]; exact .inr rfl
    rw [if_neg h1, if_neg h1]
    by_cases h2 : m = .SOS
    · rw [if_pos h2, if_pos h2]
      rcases sosStart_agree (r := r) (s.setInput rest) with ⟨⟨p, hp⟩, s', e⟩ | e
      · exact .inl ⟨p, s', hp, by rw [e]; exact if_neg checked_ne_eof⟩
      rw [e]
      cases sosStart ⟨false, r⟩ (s.setInput rest) with
      | fail f s => exact .inr rfl
      | ok pd s' =>
        simp only
        cases s'.dec.frame with
        | none => exact .inr rfl
        | some frame => exact scanStep_agree _ _ _ _
    · rw [if_neg h2, if_neg h2]
      rcases doSegment_agree (r := r) m (s.setInput rest) with ⟨⟨p, hp⟩, s', e⟩ | e
      · exact .inl ⟨p, s', hp, by rw [e]; exact if_neg checked_ne_eof⟩
      · exact .inr (by rw [e])

theorem codecRun_agree : ∀ (fuel : Nat) (st : Stage) (s : St),
    AgreePoll (codecRun ⟨true, r⟩ fuel st s) (codecRun ⟨false, r⟩ fuel st s) := by
  intro fuel
  induction fuel with
  | zero => intro st s; exact .inr rfl
  | succ fuel ih =>
    intro st s
    rw [codecRun, codecRun]
    have hs : AgreeStep (stageStep ⟨true, r⟩ st s) (stageStep ⟨false, r⟩ st s) := by
      cases st with
      | segments => exact segmentStep_agree s
      | scan pd ph todo => exact scanStep_agree pd ph todo s
    rcases hs with ⟨p, s', hp, e⟩ | e
    · exact .inl ⟨p, s', hp, by rw [e]⟩
    rw [e]
    cases stageStep ⟨false, r⟩ st s with
    | next t => exact ih _ _
    | wait st' t => exact .inr rfl
    | failed f t => exact .inr rfl
    | eoi t =>
      simp only
      rcases upsample_agree (r := r) t.dec with ⟨⟨p, hp⟩, e⟩ | e
      · exact .inl ⟨p, t, hp, by rw [e]⟩
      · exact .inr (by rw [e])

end

/-- **C53**. The same for every call of a streaming decoder, in any state, whatever bytes have arrived: the
checked build stops in one of its checks or returns what the release build returns, and the two codecs are in
the same state afterwards. -/
theorem C53_streaming_call (rayon : Bool) (c : Codec) :
    (∃ (p : PanicSite) (s : St), p.Checked ∧ c.poll ⟨true, rayon⟩ = .failed (.panic p) s) ∨
    c.poll ⟨true, rayon⟩ = c.poll ⟨false, rayon⟩ := by
  unfold Codec.poll
  by_cases h : c.st.bi.input = []
  · rw [if_pos h, if_pos h]; exact .inr rfl
  · rw [if_neg h, if_neg h]; exact codecRun_agree _ _ _

/-- **C53**. So also for a stream arriving in any pieces: same image, same error, or still waiting in both
builds, with the same pieces unread. -/
theorem C53_streaming (rayon : Bool) (chunks : List (List UInt8)) : ∀ c : Codec,
    (∃ (p : PanicSite) (s : St) (rest : List (List UInt8)), p.Checked ∧
      c.feed ⟨true, rayon⟩ chunks = (.failed (.panic p) s, rest)) ∨
    c.feed ⟨true, rayon⟩ chunks = c.feed ⟨false, rayon⟩ chunks := by
  induction chunks with
  | nil => intro c; exact .inr rfl
  | cons chunk chunks ih =>
    intro c
    rw [Codec.feed, Codec.feed]
    rcases C53_streaming_call rayon (c.push chunk) with ⟨p, s, hp, e⟩ | e
    · exact .inl ⟨p, s, chunks, hp, by rw [e]⟩
    rw [e]
    cases (c.push chunk).poll ⟨false, rayon⟩ with
    | pending c' => exact ih c'
    | image a b => exact .inr rfl
    | failed a b => exact .inr rfl

/-- The two cases: split at byte 200 the example file gives its image in a checked build, split at byte 202 (in
front of a restart marker) the checked build stops. -/
example : (match (Codec.new.feed ⟨true, false⟩ [exampleFile.bytes.take 200, exampleFile.bytes.drop 200]).1 with
    | .image (.ok image) _ => decide (image.length = 384)
    | _ => false) = true := by decide +kernel
example : (match (Codec.new.feed ⟨true, false⟩ [exampleFile.bytes.take 202, exampleFile.bytes.drop 202]).1 with
    | .failed f _ => decide (f = .panic .restartUnderflow)
    | _ => false) = true := by decide +kernel

end Jpeg
