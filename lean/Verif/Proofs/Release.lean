import Verif.Model.Stream
import Verif.Spec.Panics
/-!
# Builds with and without overflow checks
-/

namespace Jpeg

/-- Equal, unless the first fails a check. -/
def AgreeE {α : Type} (a b : Except Fail α) : Prop :=
  (∃ p : {p : PanicSite // p.Checked}, a = .error (.panic p)) ∨ a = b

/-- Equal, unless the first fails a check. -/
def AgreeO {σ α : Type} (a b : Out σ α) : Prop :=
  (∃ (p : {p : PanicSite // p.Checked}) (s : σ), a = .fail (.panic p) s) ∨ a = b

theorem AgreeE.refl {α : Type} (a : Except Fail α) : AgreeE a a := .inr rfl
theorem AgreeO.refl {σ α : Type} (a : Out σ α) : AgreeO a a := .inr rfl

theorem AgreeE.bind {α β : Type} {a b : Except Fail α} {f g : α → Except Fail β} (h : AgreeE a b)
    (hf : ∀ x, AgreeE (f x) (g x)) : AgreeE (a >>= f) (b >>= g) := by
  rcases h with ⟨p, rfl⟩ | rfl
  · exact .inl ⟨p, rfl⟩
  · cases a with
    | error e => exact .inr rfl
    | ok x => exact hf x

theorem AgreeO.bind {σ α β : Type} {a b : Out σ α} {f g : α → σ → Out σ β} (h : AgreeO a b)
    (hf : ∀ x s, AgreeO (f x s) (g x s)) : AgreeO (a.bind f) (b.bind g) := by
  rcases h with ⟨p, s, rfl⟩ | rfl
  · exact .inl ⟨p, s, rfl⟩
  · cases a with
    | fail e s => exact .inr rfl
    | ok x s => exact hf x s

section
variable {r : Bool}

/-! ## Tables and headers -/

theorem segmentBytes_agree (l : List UInt8) : AgreeE (segmentBytes ⟨true, r⟩ l) (segmentBytes ⟨false, r⟩ l) := by
  unfold segmentBytes
  cases beU16 l with
  | error f => exact .refl _
  | ok q =>
    simp only
    split
    · exact .inl ⟨⟨_, .segmentLen⟩, rfl⟩
    · exact .refl _

theorem BaseTable.new_agree (bits values : List UInt8) :
    AgreeE (BaseTable.new ⟨true, r⟩ bits values) (BaseTable.new ⟨false, r⟩ bits values) := by
  unfold BaseTable.new
  by_cases h : 256 < values.length
  · exact .inl ⟨⟨_, .tooManyValues⟩, by simp [h]⟩
  · refine .inr ?_
    simp only [h, and_false, if_false]

theorem AcTable.new_agree (bits values : List UInt8) :
    AgreeE (AcTable.new ⟨true, r⟩ bits values) (AcTable.new ⟨false, r⟩ bits values) := by
  unfold AcTable.new
  rcases BaseTable.new_agree (r := r) bits values with ⟨p, h⟩ | h
  · exact .inl ⟨p, by rw [h]⟩
  · exact .inr (by rw [h])

theorem defineHuffman_agree (t : DHT) (d : Decoder) :
    AgreeO (defineHuffman ⟨true, r⟩ t d) (defineHuffman ⟨false, r⟩ t d) := by
  unfold defineHuffman
  cases t.cls with
  | ac =>
    simp only
    rcases AcTable.new_agree (r := r) t.codeLengths t.values with ⟨p, h⟩ | h
    · exact .inl ⟨p, d, by rw [h]⟩
    · exact .inr (by rw [h])
  | dc =>
    simp only
    rcases BaseTable.new_agree (r := r) t.codeLengths t.values with ⟨p, h⟩ | h
    · exact .inl ⟨p, d, by rw [h]⟩
    · exact .inr (by rw [h])

theorem dhtGo_agree : ∀ (fuel : Nat) (l : List UInt8) (d : Decoder),
    AgreeO (dhtGo ⟨true, r⟩ fuel l d) (dhtGo ⟨false, r⟩ fuel l d) := by
  intro fuel
  induction fuel with
  | zero => intro l d; exact .refl _
  | succ fuel ih =>
    intro l d
    unfold dhtGo
    split
    · exact .refl _
    · cases huffmanTable l with
      | error f => exact .refl _
      | ok q =>
        simp only
        rcases defineHuffman_agree (r := r) q.1 d with ⟨p, s, h⟩ | h
        · exact .inl ⟨p, s, by rw [h]⟩
        · rw [h]
          cases defineHuffman ⟨false, r⟩ q.1 d with
          | fail f s => exact .refl _
          | ok u d => exact ih _ d

theorem mulU16_agree (a b : Nat) : AgreeE (mulU16 ⟨true, r⟩ a b) (mulU16 ⟨false, r⟩ a b) := by
  unfold mulU16
  split
  · exact .refl _
  · exact .inl ⟨⟨_, .overflow⟩, rfl⟩

theorem fillComponent_agree (hMax vMax spl ls : F32) (mcu : Dim) (c : Component) :
    AgreeE (fillComponent ⟨true, r⟩ hMax vMax spl ls mcu c) (fillComponent ⟨false, r⟩ hMax vMax spl ls mcu c) :=
  (mulU16_agree _ _).bind fun _ => (mulU16_agree _ _).bind fun _ => .refl _

theorem fillComponents_agree (hMax vMax spl ls : F32) (mcu : Dim) : ∀ cs : List Component,
    AgreeE (fillComponents ⟨true, r⟩ hMax vMax spl ls mcu cs) (fillComponents ⟨false, r⟩ hMax vMax spl ls mcu cs) := by
  intro cs
  induction cs with
  | nil => exact .refl _
  | cons c cs ih => exact (fillComponent_agree _ _ _ _ _ c).bind fun _ => ih.bind fun _ => .refl _

theorem sof_agree (i : Nat) (l : List UInt8) : AgreeE (sof ⟨true, r⟩ i l) (sof ⟨false, r⟩ i l) := by
  refine (AgreeE.refl _).bind fun _ => (AgreeE.refl _).bind fun _ => (AgreeE.refl _).bind fun _ =>
    (AgreeE.refl _).bind fun _ => (AgreeE.refl _).bind fun q => AgreeE.bind ?_ fun _ => .refl _
  unfold buildFrame
  split
  · exact (fillComponents_agree _ _ _ _ _ _).bind fun _ => .refl _
  · exact .refl _

theorem segment_agree {body body' : List UInt8 → Decoder → Out Decoder Unit}
    (h : ∀ l d, AgreeO (body l d) (body' l d)) (s : St) :
    AgreeO (segment ⟨true, r⟩ body s) (segment ⟨false, r⟩ body' s) := by
  unfold segment
  rcases segmentBytes_agree (r := r) s.bi.input with ⟨p, e⟩ | e
  · exact .inl ⟨p, s, by rw [e]⟩
  · rw [e]
    cases segmentBytes ⟨false, r⟩ s.bi.input with
    | error f => exact .refl _
    | ok q =>
      simp only
      rcases h q.1 s.dec with ⟨p, d, e⟩ | e
      · exact .inl ⟨p, _, by rw [e]⟩
      · rw [e]; exact .refl _

/-! ## Scans -/

theorem dequantizeAndIdct_agree (c : List Int) (q : List Nat) (stride : Nat) (out : List (Option UInt8)) :
    AgreeE (dequantizeAndIdct ⟨true, r⟩ c q stride out) (dequantizeAndIdct ⟨false, r⟩ c q stride out) := by
  unfold dequantizeAndIdct
  split
  · exact .refl _
  · by_cases h : (out.length + stride - 1) / stride < 8
    · exact .inl ⟨⟨_, .idctRows⟩, by simp [h]⟩
    · refine .inr ?_
      simp only [h, and_false, if_false]

theorem dequantCols_agree (c : Component) (q : List Nat) (start : Nat) : ∀ (xs : List Nat) (chunks : List (List Int))
    (plane : List (Option UInt8)),
    AgreeE (dequantCols ⟨true, r⟩ c q start xs chunks plane) (dequantCols ⟨false, r⟩ c q start xs chunks plane) := by
  intro xs
  induction xs with
  | nil => intro chunks plane; exact .refl _
  | cons x xs ih =>
    intro chunks plane
    cases chunks with
    | nil => exact .refl _
    | cons b chunks =>
      unfold dequantCols
      simp only
      by_cases hl : plane.length < start + x
      · rw [if_pos hl, if_pos hl]; exact .refl _
      · rw [if_neg hl, if_neg hl]
        rcases dequantizeAndIdct_agree (r := r) b q c.lineStride (plane.drop (start + x)) with ⟨p, e⟩ | e
        · exact .inl ⟨p, by rw [e]⟩
        · rw [e]
          cases dequantizeAndIdct ⟨false, r⟩ b q c.lineStride (plane.drop (start + x)) with
          | error f => exact .refl _
          | ok out => exact ih _ _

theorem dequantRows_agree (c : Component) (q : List Nat) (off : Nat) : ∀ (ys : List Nat) (chunks : List (List Int))
    (plane : List (Option UInt8)),
    AgreeE (dequantRows ⟨true, r⟩ c q off ys chunks plane) (dequantRows ⟨false, r⟩ c q off ys chunks plane) := by
  intro ys
  induction ys with
  | nil => intro chunks plane; exact .refl _
  | cons y ys ih =>
    intro chunks plane
    unfold dequantRows
    split
    · rcases dequantCols_agree (r := r) c q (off + y) (stepRange c.h DCT_SIZE) chunks plane with ⟨p, e⟩ | e
      · exact .inl ⟨p, by rw [e]⟩
      · rw [e]
        cases dequantCols ⟨false, r⟩ c q (off + y) (stepRange c.h DCT_SIZE) chunks plane with
        | error f => exact .refl _
        | ok out => exact ih _ _
    · cases skipChunks c.h chunks with
      | error f => exact .refl _
      | ok chunks => exact ih _ _

theorem dequantComponents_agree (qts : List (Option (List Nat))) (x y : Nat) : ∀ (cs : List Component)
    (planes : List (List (Option UInt8))) (chunks : List (List Int)),
    AgreeE (dequantComponents ⟨true, r⟩ qts x y cs planes chunks)
      (dequantComponents ⟨false, r⟩ qts x y cs planes chunks) := by
  intro cs
  induction cs with
  | nil => intro planes chunks; exact .refl _
  | cons c cs ih =>
    intro planes chunks
    cases planes with
    | nil => exact .refl _
    | cons plane planes =>
      unfold dequantComponents
      cases qts[c.tq]? with
      | none => exact .refl _
      | some o =>
        cases o with
        | none => exact .refl _
        | some q =>
          simp only
          have key : ∀ (out : List (List Int) × List (Option UInt8)),
              AgreeE (match dequantComponents ⟨true, r⟩ qts x y cs planes out.1 with
                | .error f => .error f
                | .ok planes => .ok (out.2 :: planes))
              (match dequantComponents ⟨false, r⟩ qts x y cs planes out.1 with
                | .error f => .error f
                | .ok planes => .ok (out.2 :: planes)) := by
            intro out
            rcases ih planes out.1 with ⟨p, e⟩ | e
            · exact .inl ⟨p, by rw [e]⟩
            · exact .inr (by rw [e])
          by_cases hl : y * c.bytesPerMcuLine + x * c.mcuSampleSize.width ≤ plane.length
          · rw [if_pos hl, if_pos hl]
            rcases dequantRows_agree (r := r) c q (y * c.bytesPerMcuLine + x * c.mcuSampleSize.width)
              (stepRange c.v (c.lineStride * DCT_SIZE)) chunks plane with ⟨p, e⟩ | e
            · exact .inl ⟨p, by rw [e]⟩
            · rw [e]
              cases dequantRows ⟨false, r⟩ c q (y * c.bytesPerMcuLine + x * c.mcuSampleSize.width)
                (stepRange c.v (c.lineStride * DCT_SIZE)) chunks plane with
              | error f => exact .refl _
              | ok out => exact key out
          · rw [if_neg hl, if_neg hl]
            cases skipChunks (c.v * c.h) chunks with
            | error f => exact .refl _
            | ok chunks => exact key (chunks, plane)

theorem dequantize_agree (x y : Nat) (d : Decoder) :
    AgreeO (dequantize ⟨true, r⟩ x y d) (dequantize ⟨false, r⟩ x y d) := by
  unfold dequantize
  cases d.frame with
  | none => exact .refl _
  | some frame =>
    simp only
    cases frame.codingProcess with
    | error f => exact .refl _
    | ok c =>
      cases c <;> simp only
      case progressive => exact .refl _
      all_goals
        rcases dequantComponents_agree (r := r) d.quantTables x y frame.components d.scanState.results
          d.scanState.mcuRowCoefficients with ⟨p, e⟩ | e
        · exact .inl ⟨p, d, by rw [e]⟩
        · exact .inr (by rw [e])

theorem restartParser_agree (x y : Nat) (s : St) :
    AgreeO (restartParser ⟨true, r⟩ x y s) (restartParser ⟨false, r⟩ x y s) := by
  unfold restartParser
  by_cases h : s.dec.restartInterval > 0
  · rw [if_pos h, if_pos h]
    cases s.dec.frame with
    | none => exact .refl _
    | some frame =>
      simp only
      by_cases h0 : s.dec.scanState.mcusLeftUntilRestart = 0
      · exact .inl ⟨⟨_, .restartUnderflow⟩, s, if_pos ⟨h0, trivial⟩⟩
      · refine .inr ?_
        simp only [h0, false_and, if_false]
  · rw [if_neg h, if_neg h]
    exact .refl _

theorem mcuStep_agree (pd : Bool) (y x : Nat) (s : St) :
    AgreeO (mcuStep ⟨true, r⟩ pd y x s) (mcuStep ⟨false, r⟩ pd y x s) := by
  refine (AgreeO.refl _).bind fun _ s => (restartParser_agree x y s).bind fun _ s => ?_
  split
  · rcases dequantize_agree (r := r) x y s.dec with ⟨p, d, e⟩ | e
    · exact .inl ⟨p, _, by rw [e]⟩
    · exact .inr (by rw [e])
  · exact .refl _

theorem mcuLoop_agree (pd : Bool) : ∀ (l : List (Nat × Nat)) (s : St),
    AgreeO (mcuLoop ⟨true, r⟩ pd l s) (mcuLoop ⟨false, r⟩ pd l s) := by
  intro l
  induction l with
  | nil => intro s; exact .refl _
  | cons q l ih => intro s; exact (mcuStep_agree pd q.1 q.2 s).bind fun _ s => ih s

theorem decodeScan_agree (pd : Bool) (s : St) : AgreeO (decodeScan ⟨true, r⟩ pd s) (decodeScan ⟨false, r⟩ pd s) := by
  refine (AgreeO.refl _).bind fun _ s => ?_
  cases s.dec.frame with
  | none => exact .refl _
  | some frame =>
    cases s.dec.scan with
    | none => exact .refl _
    | some scan => exact (mcuLoop_agree _ _ _).bind fun _ s => .refl _

theorem setFinished_agree (i : Nat) : ∀ (js fin : List Nat),
    AgreeE (setFinished ⟨true, r⟩ i js fin) (setFinished ⟨false, r⟩ i js fin) := by
  intro js
  induction js with
  | nil => intro fin; exact .refl _
  | cons j js ih =>
    intro fin
    unfold setFinished
    cases fin[i]? with
    | none => exact .refl _
    | some w =>
      simp only
      by_cases h : 64 ≤ j
      · exact .inl ⟨⟨_, .shiftOverflow⟩, by rw [if_pos ⟨h, trivial⟩]⟩
      · rw [if_neg (fun k => h k.1), if_neg (fun k => h k.1)]
        exact ih _

theorem setFinishedAll_agree (js : List Nat) : ∀ (is fin : List Nat),
    AgreeE (setFinishedAll ⟨true, r⟩ js is fin) (setFinishedAll ⟨false, r⟩ js is fin) := by
  intro is
  induction is with
  | nil => intro fin; exact .refl _
  | cons i is ih =>
    intro fin
    unfold setFinishedAll
    rcases setFinished_agree (r := r) i js fin with ⟨p, e⟩ | e
    · exact .inl ⟨p, by rw [e]⟩
    · rw [e]
      cases setFinished ⟨false, r⟩ i js fin with
      | error f => exact .refl _
      | ok fin => exact ih fin

theorem sos_agree (s : St) : AgreeO (sos ⟨true, r⟩ s) (sos ⟨false, r⟩ s) := by
  unfold sos
  rcases segmentBytes_agree (r := r) s.bi.input with ⟨p, e⟩ | e
  · exact .inl ⟨p, s, by rw [e]⟩
  rw [e]
  cases segmentBytes ⟨false, r⟩ s.bi.input with
  | error f => exact .refl _
  | ok q =>
    simp only
    generalize s.setInput q.2 = s
    cases sosSegment s.dec.frame q.1 with
    | error f => exact .refl _
    | ok sc =>
      simp only
      cases s.dec.frame with
      | none => exact .refl _
      | some frame =>
        simp only
        cases frame.codingProcess with
        | error f => exact .refl _
        | ok c =>
          cases c <;> simp only
          case progressive => exact .refl _
          all_goals
            by_cases hl : sc.1.al = 0
            · rw [if_pos hl, if_pos hl]
              rcases setFinishedAll_agree (r := r) (inclusiveRange sc.1.ss sc.1.se)
                (sc.1.headers.map (·.componentIndex)) s.dec.coefficientsFinished with ⟨p, e⟩ | e
              · exact .inl ⟨p, _, by rw [e]⟩
              · rw [e]
                cases setFinishedAll ⟨false, r⟩ (inclusiveRange sc.1.ss sc.1.se)
                  (sc.1.headers.map (·.componentIndex)) s.dec.coefficientsFinished with
                | error f => exact .refl _
                | ok fin =>
                  simp only
                  cases allFinished fin (sc.1.headers.map (·.componentIndex)) with
                  | error f => exact .refl _
                  | ok b => exact decodeScan_agree _ _
            · rw [if_neg hl, if_neg hl]
              simp only
              cases allFinished s.dec.coefficientsFinished (sc.1.headers.map (·.componentIndex)) with
              | error f => exact .refl _
              | ok b => exact decodeScan_agree _ _

theorem doSegment_agree (m : Marker) (s : St) : AgreeO (doSegment ⟨true, r⟩ m s) (doSegment ⟨false, r⟩ m s) := by
  cases m with
  | SOF i =>
    refine segment_agree (fun l d => ?_) s
    unfold sofBody
    rcases sof_agree (r := r) i l with ⟨p, e⟩ | e
    · exact .inl ⟨p, d, by rw [e]⟩
    · exact .inr (by rw [e])
  | DHT => exact segment_agree (fun l d => dhtGo_agree _ l d) s
  | DQT => exact segment_agree (fun l d => .refl _) s
  | DRI => exact segment_agree (fun l d => .refl _) s
  | SOS => exact sos_agree s
  | APP n =>
    unfold doSegment
    simp only
    split
    · exact segment_agree (fun l d => .refl _) s
    · exact segment_agree (fun l d => .refl _) s
  | _ => exact .refl _

theorem segmentLoop_agree : ∀ (fuel : Nat) (s : St),
    AgreeO (segmentLoop ⟨true, r⟩ fuel s) (segmentLoop ⟨false, r⟩ fuel s) := by
  intro fuel
  induction fuel with
  | zero => intro s; exact .refl _
  | succ fuel ih =>
    intro s
    unfold segmentLoop
    cases marker s.bi.input with
    | error f => exact .refl _
    | ok q =>
      simp only
      split
      · exact .refl _
      · exact (doSegment_agree q.1 _).bind fun _ s => ih s

/-! ## Rendering -/

theorem upsampleAndInterleaveRow_agree (us : List UpsamplerComponent) (planes bufs : List (List UInt8)) (row w : Nat) :
    AgreeE (upsampleAndInterleaveRow ⟨true, r⟩ us planes bufs row w)
      (upsampleAndInterleaveRow ⟨false, r⟩ us planes bufs row w) := by
  unfold upsampleAndInterleaveRow
  by_cases h : planes.length ≠ us.length
  · exact .inl ⟨⟨_, .componentMismatch⟩, if_pos ⟨rfl, h⟩⟩
  · refine .inr ?_
    simp only [h, and_false, if_false]

theorem upsampleGroups_agree (f : ColorConvertFunc) (us : List UpsamplerComponent) (planes : List (List UInt8))
    (w v : Nat) : ∀ (fuel row group : Nat) (bufs lines : List (List UInt8)),
    AgreeE (upsampleGroups ⟨true, r⟩ f us planes w v fuel row group bufs lines)
      (upsampleGroups ⟨false, r⟩ f us planes w v fuel row group bufs lines) := by
  intro fuel
  induction fuel with
  | zero => intro row group bufs lines; exact .refl _
  | succ fuel ih =>
    intro row group bufs lines
    unfold upsampleGroups
    split
    · exact .refl _
    · simp only
      generalize (if r = true then group else row) = k
      rcases upsampleAndInterleaveRow_agree (r := r) us planes bufs k w with ⟨p, e⟩ | e
      · exact .inl ⟨p, by rw [e]⟩
      · rw [e]
        cases upsampleAndInterleaveRow ⟨false, r⟩ us planes bufs k w with
        | error e => exact .refl _
        | ok q =>
          simp only
          cases convertLines f q.1 (lines.take (max v 1)) with
          | error e => exact .refl _
          | ok done =>
            simp only
            rcases ih (row + max v 1) (group + 1) q.2 (lines.drop (max v 1)) with ⟨p, e⟩ | e
            · exact .inl ⟨p, by rw [e]⟩
            · exact .inr (by rw [e])

theorem upsample_agree (d : Decoder) : AgreeE (upsample ⟨true, r⟩ d) (upsample ⟨false, r⟩ d) := by
  unfold upsample
  cases d.frame with
  | none => exact .refl _
  | some frame =>
    simp only
    cases chooseColorConvert frame.components.length d.colorTransform with
    | error e => exact .refl _
    | ok f =>
      simp only
      cases upsamplerNew frame.components ⟨frame.samplesPerLine, frame.lines⟩ with
      | error e => exact .refl _
      | ok us =>
        simp only
        cases frame.maxV with
        | error e => exact .refl _
        | ok v =>
          simp only
          split
          · exact .refl _
          · rcases upsampleGroups_agree (r := r) f us d.planes frame.samplesPerLine v (frame.lines + 1) 0 0
              (List.replicate 4 []) (List.replicate frame.lines
                (List.replicate (frame.samplesPerLine * frame.components.length) 0)) with ⟨p, e⟩ | e
            · exact .inl ⟨p, by rw [e]⟩
            · exact .inr (by rw [e])

theorem decodeParser_agree (s : St) : AgreeO (decodeParser ⟨true, r⟩ s) (decodeParser ⟨false, r⟩ s) := by
  refine (segmentLoop_agree _ s).bind fun _ s => ?_
  rcases upsample_agree (r := r) s.dec with ⟨p, e⟩ | e
  · exact .inl ⟨p, s, by rw [e]⟩
  · exact .inr (by rw [e])

theorem decode_agree (d : Decoder) (file : List UInt8) :
    AgreeO (d.decode ⟨true, r⟩ file) (d.decode ⟨false, r⟩ file) := by
  unfold Decoder.decode
  rcases decodeParser_agree (r := r) ⟨d, Biterator.new file⟩ with ⟨p, s, e⟩ | e
  · exact .inl ⟨p, s.dec, by rw [e]⟩
  · exact .inr (by rw [e])

end

end Jpeg
