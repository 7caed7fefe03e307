import Verif.Proofs.Loop
import Verif.Proofs.StreamRun
import Verif.Proofs.Release
/-!
# The planes after a run are those of the components of the last scan
-/

namespace Jpeg

theorem takeResults_length : ∀ (hs : List ScanHeader) (results : List (List (Option UInt8)))
    (planes : List (List UInt8)), takeResults hs results = .ok planes → planes.length = hs.length := by
  intro hs
  induction hs with
  | nil => intro results planes h; simp only [takeResults, Except.ok.injEq] at h; subst h; rfl
  | cons a hs ih =>
    intro results planes h
    rw [takeResults] at h
    split at h
    · cases h
    · split at h
      · cases h
      · split at h
        · cases h
        · rename_i ps hps
          cases h
          simp [ih _ _ hps]

/-- As many planes as the last scan header lists components. -/
def PlanesOfScan (d : Decoder) : Prop := ∀ scan, d.scan = some scan → d.planes.length = scan.headers.length

theorem sos_planes {cfg : Cfg} {s s' : St} (h : sos cfg s = .ok () s') : PlanesOfScan s'.dec := by
  rw [sos_eq] at h
  cases h0 : sosStart cfg s with
  | fail f s1 => rw [h0] at h; cases h
  | ok pd s1 =>
    rw [h0, Out.bind_ok] at h
    unfold sosBody at h
    cases hf : s1.dec.frame with
    | none => rw [hf] at h; cases h
    | some frame =>
      cases hs : s1.dec.scan with
      | none => rw [hf, hs] at h; cases h
      | some scan =>
        rw [hf, hs] at h
        simp only at h
        have ho := mcuLoop_only cfg pd (mcuList frame.mcuSize) s1
        cases h1 : mcuLoop cfg pd (mcuList frame.mcuSize) s1 with
        | fail f s2 => rw [h1] at h; cases h
        | ok u s2 =>
          rw [h1] at h ho
          rw [Out.bind_ok] at h
          cases h2 : takeResults scan.headers s2.dec.scanState.results with
          | error f => rw [h2] at h; cases h
          | ok planes =>
            rw [h2] at h
            simp only [Out.ok.injEq, true_and] at h
            subst h
            intro scan' hs'
            have e : s2.dec.scan = s1.dec.scan := by
              have := ho
              simp only [OnlyScan, Out.state] at this
              rw [this]
            simp only at hs'
            rw [e, hs] at hs'
            cases hs'
            exact takeResults_length _ _ _ h2

/-- The scan header and the planes stay. -/
def SameScan (d d' : Decoder) : Prop := d'.scan = d.scan ∧ d'.planes = d.planes

theorem SameScan.refl (d : Decoder) : SameScan d d := ⟨rfl, rfl⟩

theorem SameScan.trans {a b c : Decoder} (h : SameScan a b) (h' : SameScan b c) : SameScan a c :=
  ⟨h'.1.trans h.1, h'.2.trans h.2⟩

theorem defineHuffman_same (cfg : Cfg) (t : DHT) (d : Decoder) :
    SameScan d (defineHuffman cfg t d).state := by
  unfold defineHuffman
  split
  · split <;> exact ⟨rfl, rfl⟩
  · split <;> exact ⟨rfl, rfl⟩

theorem dhtGo_same (cfg : Cfg) : ∀ (fuel : Nat) (l : List UInt8) (d : Decoder),
    SameScan d (dhtGo cfg fuel l d).state := by
  intro fuel
  induction fuel with
  | zero => intro l d; exact .refl _
  | succ fuel ih =>
    intro l d
    rw [dhtGo]
    split
    · exact .refl _
    · split
      · exact .refl _
      · rename_i t l' _
        have hs := defineHuffman_same cfg t d
        cases h : defineHuffman cfg t d with
        | fail f d1 => rw [h] at hs; exact hs
        | ok u d1 => rw [h] at hs; exact hs.trans (ih l' d1)

theorem dqtGo_same : ∀ (fuel : Nat) (l : List UInt8) (d : Decoder), SameScan d (dqtGo fuel l d).state := by
  intro fuel
  induction fuel with
  | zero => intro l d; exact .refl _
  | succ fuel ih =>
    intro l d
    rw [dqtGo]
    split
    · exact .refl _
    · split
      · exact .refl _
      · split
        · exact .refl _
        · exact SameScan.trans ⟨rfl, rfl⟩ (ih _ _)

theorem doSegment_same {cfg : Cfg} {m : Marker} (hm : m ≠ .SOS) (s : St) :
    SameScan s.dec (doSegment cfg m s).state.dec := by
  have hseg : ∀ body : List UInt8 → Decoder → Out Decoder Unit, (∀ l d, SameScan d (body l d).state) →
      SameScan s.dec (segment cfg body s).state.dec := by
    intro body hb
    unfold segment
    split
    · exact .refl _
    · rename_i p rest _
      have := hb p s.dec
      cases h : body p s.dec with
      | ok u d => rw [h] at this; exact this
      | fail f d => rw [h] at this; exact this
  unfold doSegment
  cases m with
  | SOI | RST _ | COM | EOI => exact .refl _
  | SOF i => exact hseg _ fun l d => by unfold sofBody; split <;> exact ⟨rfl, rfl⟩
  | DHT => exact hseg _ fun l d => dhtGo_same cfg _ l d
  | DQT => exact hseg _ fun l d => dqtGo_same _ l d
  | DRI => exact hseg _ fun l d => by unfold driBody; split <;> exact ⟨rfl, rfl⟩
  | SOS => exact absurd rfl hm
  | APP n =>
    simp only
    split
    · exact hseg _ fun l d => by unfold adobeBody; split <;> exact ⟨rfl, rfl⟩
    · exact hseg _ fun l d => .refl _

theorem segmentLoop_planes {cfg : Cfg} : ∀ (fuel : Nat) (s s' : St), PlanesOfScan s.dec →
    segmentLoop cfg fuel s = .ok () s' → PlanesOfScan s'.dec := by
  intro fuel
  induction fuel with
  | zero => intro s s' _ h; cases h
  | succ fuel ih =>
    intro s s' hp h
    rw [segmentLoop] at h
    split at h
    · cases h
    · rename_i m rest _
      split at h
      · cases h; exact hp
      · cases h1 : doSegment cfg m (s.setInput rest) with
        | fail f s1 => rw [h1] at h; cases h
        | ok u s1 =>
          rw [h1, Out.bind_ok] at h
          refine ih s1 s' ?_ h
          by_cases hm : m = .SOS
          · subst hm
            exact sos_planes h1
          · have hs := doSegment_same (cfg := cfg) hm (s.setInput rest)
            rw [h1] at hs
            intro scan hscan
            have h2 : s1.dec.planes = s.dec.planes := hs.2
            rw [h2]
            exact hp scan (hs.1.symm.trans hscan)

/-! ## The number of lines that reach the colour conversion -/

theorem upsampleRowGo_length {row outW : Nat} : ∀ (us : List UpsamplerComponent) (ps bs ls bs' : List (List UInt8)),
    upsampleRowGo row outW us ps bs = .ok (ls, bs') →
    ls.length = min us.length (min ps.length bs.length) := by
  intro us
  induction us with
  | nil => intro ps bs ls bs' h; simp only [upsampleRowGo] at h; cases h; simp
  | cons u us ih =>
    intro ps bs ls bs' h
    cases ps with
    | nil => simp only [upsampleRowGo] at h; cases h; simp
    | cons p ps =>
      cases bs with
      | nil => simp only [upsampleRowGo] at h; cases h; simp
      | cons b bs =>
        simp only [upsampleRowGo, bind, Except.bind] at h
        split at h
        · cases h
        · split at h
          · cases h
          · rename_i q hq
            cases h
            obtain ⟨ls, bs'⟩ := q
            have := ih _ _ _ _ hq
            simp only [List.length_cons, this]
            omega

theorem upsamplerComponents_length {mx : Nat × Nat} {out : Dim} : ∀ (cs : List Component)
    (us : List UpsamplerComponent), upsamplerComponents mx out cs = .ok us → us.length = cs.length := by
  intro cs
  induction cs with
  | nil => intro us h; cases h; rfl
  | cons c cs ih =>
    intro us h
    simp only [upsamplerComponents, bind, Except.bind] at h
    split at h
    · cases h
    · split at h
      · cases h
      · rename_i rest hr
        cases h
        simp [ih _ hr]

theorem upsamplerNew_length {cs : List Component} {out : Dim} {us : List UpsamplerComponent}
    (h : upsamplerNew cs out = .ok us) : us.length = cs.length := by
  unfold upsamplerNew at h
  split at h
  · simp only [bind, Except.bind] at h
    split at h
    · cases h
    · rename_i us' h'
      split at h
      · cases h
      · cases h
        exact upsamplerComponents_length _ _ h'
  · cases h

/-- When the first group of lines goes through, its conversion was given the lines of all components that
have a plane. -/
theorem upsampleGroups_first {cfg : Cfg} {f : ColorConvertFunc} {us : List UpsamplerComponent}
    {planes bufs : List (List UInt8)} {width vMax fuel row group : Nat} {line : List UInt8}
    {lines out : List (List UInt8)}
    (h : upsampleGroups cfg f us planes width vMax fuel row group bufs (line :: lines) = .ok out) :
    ∃ colors l, colors.length = min us.length (min planes.length bufs.length) ∧
      f.convert line colors = .ok l ∧ (cfg.debug = true → planes.length = us.length) := by
  cases fuel with
  | zero => rw [upsampleGroups] at h; simp at h
  | succ fuel =>
    rw [upsampleGroups] at h
    simp only [List.cons_ne_nil, if_false] at h
    split at h
    · cases h
    · rename_i colors bufs' hu
      unfold upsampleAndInterleaveRow at hu
      split at hu
      · cases hu
      · rename_i hdbg
        have hl := upsampleRowGo_length _ _ _ _ _ hu
        obtain ⟨k, hk⟩ : ∃ k, max vMax 1 = k + 1 := ⟨max vMax 1 - 1, by omega⟩
        rw [hk, List.take_succ_cons, convertLines] at h
        cases hc : f.convert line colors with
        | error e => rw [hc] at h; cases h
        | ok l =>
          refine ⟨colors, l, hl, hc, fun hd => ?_⟩
          by_contra hne
          exact hdbg ⟨hd, hne⟩

/-- What an image needs: the conversion accepts as many lines as there are planes. -/
theorem upsample_planes {cfg : Cfg} {d : Decoder} {image : List UInt8} {frame : Frame}
    (h : upsample cfg d = .ok image) (hf : d.frame = some frame) (hl : frame.lines ≠ 0) :
    ∃ f colors line l, chooseColorConvert frame.components.length d.colorTransform = .ok f ∧
      colors.length = min frame.components.length (min d.planes.length 4) ∧
      ColorConvertFunc.convert f line colors = .ok l ∧
      (cfg.debug = true → d.planes.length = frame.components.length) := by
  unfold upsample at h
  rw [hf] at h
  simp only at h
  split at h
  · cases h
  · rename_i f hc
    split at h
    · cases h
    · rename_i us hus
      split at h
      · cases h
      · split at h
        · cases h
        · split at h
          · cases h
          · rename_i lines hg
            obtain ⟨k, hk⟩ : ∃ k, frame.lines = k + 1 := ⟨frame.lines - 1, by omega⟩
            rw [hk, List.replicate_succ] at hg
            obtain ⟨colors, l, h1, h2, h3⟩ := upsampleGroups_first hg
            rw [upsamplerNew_length hus] at h1 h3
            exact ⟨f, colors, _, l, hc, h1, h2, h3⟩

end Jpeg
