import Verif.Spec.Band
import Verif.Proofs.Reading
/-!
# Decoding of bands
-/

namespace Jpeg
open Spec Biterator

variable {t : List UInt8}

/-- One round on an end-of-band symbol. -/
theorem acRound_run {c : Code} {ac : AcTable}
    (hac : AcTableOk (codeSizes c.counts) c.counts c.values ac) (scan : Scan) {s : BlockSt}
    {b w : List Bool} {r : Nat} (hr : r < 15) (hb : c.For (16 * r) b) (hw : r ≤ w.length)
    (h : Rep A s.bi (b ++ w) t) (last index : Nat) :
    ∃ bi, Rep A bi (w.drop r) t ∧ acRound scan ac last index s =
      .ok none { s with bi, eobRun := 2 ^ r + natOfBits (w.take r) - 1 } := by
  obtain ⟨sy, s1, hsy, h1, hf⟩ := Rep.fastAc hac hb h
  obtain ⟨e4, e15⟩ := sym_split (r := r) (m := 0) (by omega)
  rw [Nat.add_zero] at e4 e15
  have hp : 0 < 2 ^ r := by positivity
  rcases hf with ⟨x, s2', hm, e, ef⟩ | ef
  · omega
  · by_cases h0 : r = 0
    · subst h0
      refine ⟨s1, by simpa using h1, ?_⟩
      unfold acRound liftBi
      rw [ef]
      simp [Out.mapErr_ok, Out.bind_ok, hsy, natOfBits]
    · obtain ⟨s2, e2, h2⟩ := h1.next (n := r) (by omega) hw (by omega)
      refine ⟨s2, h2, ?_⟩
      unfold acRound liftBi
      rw [ef]
      simp only [Out.mapErr_ok, Out.bind_ok, hsy, e4, e15, if_true]
      rw [if_neg (by omega), if_pos (by omega), e2]
      simp only [Out.mapErr_ok, Out.bind_ok, Nat.one_shiftLeft]
      rw [show 2 ^ r - 1 + natOfBits (w.take r) = 2 ^ r + natOfBits (w.take r) - 1 by omega]

theorem shlI16_eq (v : Int) (n : Nat) : shlI16 v n = wrap16 (v * 2 ^ n) := by
  unfold shlI16; rw [wrapI16_eq_wrap16]

theorem wrap16_zero : wrap16 0 = 0 := by decide

/-- What decoding the band `index..=last` leaves behind. -/
structure BandDone (A : Prop) (al : Nat) (l : List Int) (run index last : Nat) (s s' : BlockSt) (w : List Bool) (t : List UInt8) :
    Prop where
  rep : Rep A s'.bi w t
  eob : s'.eobRun = run
  pred : s'.dcPred = s.dcPred
  len : s'.coeffs.length = 64
  llen : l.length = last + 1 - index
  outside : ∀ i, i < 64 → i < index ∨ last < i → s'.coeffs[zigzag i]? = s.coeffs[zigzag i]?
  inside : ∀ i, index ≤ i → i ≤ last → s'.coeffs[zigzag i]? = (l[i - index]?).map fun v => wrap16 (v * 2 ^ al)

theorem zeros_get {n i al : Nat} (h : i < n) :
    ((List.replicate n (0 : Int))[i]?).map (fun v => wrap16 (v * 2 ^ al)) = some 0 := by
  rw [List.getElem?_replicate, if_pos h]
  simp [wrap16_zero]

theorem decodeAcGo_band {c : Code} {ac : AcTable}
    (hac : AcTableOk (codeSizes c.counts) c.counts c.values ac) {scan : Scan} {last : Nat} (hlast : last < 64)
    (n : Nat) : ∀ (index fuel : Nat) (s : BlockSt) (bits rest : List Bool) (l : List Int) (run : Nat),
    index + n = last + 1 → 1 ≤ n →
    n ≤ fuel → Rep A s.bi bits t → s.coeffs.length = 64 → s.eobRun = 0 →
    (∀ i, index ≤ i → i ≤ last → s.coeffs[zigzag i]? = some 0) →
    readBand c n bits = .value (l, run) rest →
    ∃ s', decodeAcGo scan ac last fuel index s = .ok () s' ∧ BandDone A scan.al l run index last s s' rest t := by
  induction n using Nat.strongRecOn with
  | ind n ih =>
  intro index fuel s bits rest l run hlen h1 hf hr hc he h0 h
  obtain ⟨fuel, rfl⟩ : ∃ f, fuel = f + 1 := ⟨fuel - 1, by omega⟩
  obtain ⟨n, rfl⟩ : ∃ k, n = k + 1 := ⟨n - 1, by omega⟩
  have hzero : ∀ i, index ≤ i → i ≤ last →
      s.coeffs[zigzag i]? = ((List.replicate (n + 1) (0 : Int))[i - index]?).map fun v => wrap16 (v * 2 ^ scan.al) := by
    intro i hi hl
    rw [h0 i hi hl, zeros_get (by omega)]
  rw [readBand] at h
  replace h := Reading.bind_value.1 h
  obtain ⟨rs, m, h2, h⟩ := h
  obtain ⟨b, hb, rfl⟩ := read_value h2
  have hrs : rs < 256 := by
    obtain ⟨k, v, -, -, rfl, -⟩ := hb
    exact v.toNat_lt
  split at h
  · rename_i hs
    split at h
    · rename_i h15
      obtain ⟨bi, hrb, e, -⟩ := acRound_plain (r := 15) hac scan
        (by rwa [show rs = 16 * 15 by omega] at hb) hr last index
      split at h
      · simp only [Reading.value.injEq, Prod.mk.injEq] at h
        obtain ⟨⟨rfl, rfl⟩, rfl⟩ := h
        refine ⟨{ s with bi }, ?_, hrb, he, rfl, hc, by simp; omega, fun _ _ _ => rfl, hzero⟩
        unfold decodeAcGo
        rw [e rfl, if_neg (by omega)]; rfl
      · obtain ⟨⟨l', run'⟩, m', h3, h4⟩ := Reading.bind_value.1 h
        simp only [Reading.value.injEq, Prod.mk.injEq] at h4
        obtain ⟨⟨rfl, rfl⟩, rfl⟩ := h4
        obtain ⟨s', e', hd⟩ := ih (n + 1 - 16) (by omega) (index + 16) fuel { s with bi } m m' l' run' (by omega)
          (by omega) (by omega) hrb hc he (fun i hi hl => h0 i (by omega) hl) h3
        have hll := hd.llen
        refine ⟨s', ?_, hd.rep, hd.eob, hd.pred, hd.len, by simp [hll]; omega,
          fun i hi ho => hd.outside i hi (by omega), ?_⟩
        · unfold decodeAcGo
          rw [e rfl, if_pos (by omega)]
          exact e'
        · intro i hi hl
          by_cases h16 : i < index + 16
          · rw [hd.outside i (by omega) (.inl h16), List.getElem?_append_left (by simp; omega), zeros_get (by omega)]
            exact h0 i hi hl
          · rw [hd.inside i (by omega) hl, List.getElem?_append_right (by simp; omega),
              List.length_replicate, show i - (index + 16) = i - index - 16 by omega]
    · split at h
      · simp at h
      · simp only [Reading.value.injEq, Prod.mk.injEq] at h
        obtain ⟨⟨rfl, rfl⟩, rfl⟩ := h
        obtain ⟨bi, hrb, e⟩ := acRound_run (r := rs / 16) hac scan (by omega)
          (by rwa [show 16 * (rs / 16) = rs by omega]) (by omega) hr last index
        refine ⟨{ s with bi, eobRun := 2 ^ (rs / 16) + natOfBits (m.take (rs / 16)) - 1 }, ?_, hrb, rfl, rfl, hc,
          by simp; omega, fun _ _ _ => rfl, hzero⟩
        unfold decodeAcGo
        rw [e]; rfl
  · obtain ⟨v, m', h3, h4⟩ := Reading.bind_value.1 h
    obtain ⟨a1, a2, rfl⟩ := receiveExtend_value (by omega) h3
    have hb' : c.For (16 * (rs / 16) + category v) b := by
      rw [a2, Nat.div_add_mod]; exact hb
    obtain ⟨bi, hrb, e⟩ := acRound_coef hac scan a1 (by omega) hb' hr last index
    generalize rs / 16 = r at *
    split at h4
    · simp only [Reading.value.injEq, Prod.mk.injEq] at h4
      obtain ⟨⟨rfl, rfl⟩, rfl⟩ := h4
      refine ⟨{ s with bi }, ?_, hrb, he, rfl, hc, by simp; omega, fun _ _ _ => rfl, hzero⟩
      unfold decodeAcGo
      rw [e, acPut, if_neg (by omega)]; rfl
    · obtain ⟨⟨l', run'⟩, m2, h5, h6⟩ := Reading.bind_value.1 h4
      simp only [Reading.value.injEq, Prod.mk.injEq] at h6
      obtain ⟨⟨rfl, rfl⟩, rfl⟩ := h6
      have hput : acPut scan last index r v { s with bi } =
          .ok (if index + r + 1 ≤ last then some (index + r + 1) else none)
            { s with bi, coeffs := s.coeffs.set (zigzag (index + r)) (wrap16 (v * 2 ^ scan.al)) } := by
        unfold acPut
        rw [if_pos (by omega), shlI16_eq, unzigzag_ok _ _ _ (by omega) hc]
      have hzl : zigzag (index + r) < s.coeffs.length := by
        rw [hc]; exact zigzag_lt _ (by omega)
      have hset : ∀ i, i < 64 → i ≠ index + r →
          (s.coeffs.set (zigzag (index + r)) (wrap16 (v * 2 ^ scan.al)))[zigzag i]? = s.coeffs[zigzag i]? := by
        intro i hi hne
        rw [List.getElem?_set_ne]
        intro h
        exact hne (zigzag_inj (by omega) hi h).symm
      have hin : ∀ (s' : BlockSt), (∀ i, i < index + r + 1 → s'.coeffs[zigzag i]? =
            (s.coeffs.set (zigzag (index + r)) (wrap16 (v * 2 ^ scan.al)))[zigzag i]?) →
          (∀ i, index + r + 1 ≤ i → i ≤ last →
            s'.coeffs[zigzag i]? = (l'[i - (index + r + 1)]?).map fun v => wrap16 (v * 2 ^ scan.al)) →
          ∀ i, index ≤ i → i ≤ last → s'.coeffs[zigzag i]? =
            ((List.replicate r 0 ++ v :: l')[i - index]?).map fun v => wrap16 (v * 2 ^ scan.al) := by
        intro s' hb ha i hi hl
        by_cases h1 : i < index + r
        · rw [hb i (by omega), hset i (by omega) (by omega), h0 i hi hl,
            List.getElem?_append_left (by simp; omega), zeros_get (by omega)]
        · rw [List.getElem?_append_right (by simp; omega), List.length_replicate]
          by_cases h2 : i = index + r
          · subst h2
            rw [hb _ (by omega), List.getElem?_set_self hzl, show index + r - index - r = 0 by omega]
            rfl
          · rw [ha i (by omega) hl, show i - index - r = (i - (index + r + 1)) + 1 by omega]
            rfl
      by_cases hn : n - r = 0
      · rw [hn, readBand] at h5
        simp only [Reading.value.injEq, Prod.mk.injEq] at h5
        obtain ⟨⟨rfl, rfl⟩, rfl⟩ := h5
        refine ⟨{ s with bi, coeffs := s.coeffs.set (zigzag (index + r)) (wrap16 (v * 2 ^ scan.al)) }, ?_, hrb, he, rfl,
          by simpa using hc, by simp; omega, fun i hi ho => hset i hi (by omega),
          hin _ (fun _ _ => rfl) (by intro i h1 h2; omega)⟩
        unfold decodeAcGo
        rw [e, hput, if_neg (by omega)]; rfl
      · obtain ⟨s', e', hd⟩ := ih (n - r) (by omega) (index + r + 1) fuel
          { s with bi, coeffs := s.coeffs.set (zigzag (index + r)) (wrap16 (v * 2 ^ scan.al)) } m' m2 l' run'
          (by omega) (by omega) (by omega) hrb (by simpa using hc) he
          (fun i hi hl => by
            show (s.coeffs.set (zigzag (index + r)) (wrap16 (v * 2 ^ scan.al)))[zigzag i]? = some 0
            rw [hset i (by omega) (by omega)]; exact h0 i (by omega) hl) h5
        have hll := hd.llen
        refine ⟨s', ?_, hd.rep, hd.eob, hd.pred, hd.len, by simp [hll]; omega, ?_, hin s' ?_ hd.inside⟩
        · unfold decodeAcGo
          rw [e, hput, if_pos (by omega)]
          exact e'
        · intro i hi ho
          rw [hd.outside i hi (by omega)]
          exact hset i hi (by omega)
        · intro i hi
          exact hd.outside i (by omega) (.inl hi)

theorem decodeDc_band {cd : Code} {dc : BaseTable}
    (hdc : TableOk (codeSizes cd.counts) cd.counts cd.values dc) {scan : Scan} (hss : scan.ss = 0) {diff : Int}
    {bits rest : List Bool} (h : readDc cd bits = .value diff rest) {bi : Biterator} (hr : Rep A bi bits t) (run : Nat)
    (pred : Int) (coeffs : List Int) :
    ∃ bi1, decodeDc scan dc ⟨bi, run, pred, coeffs⟩ = .ok () ⟨bi1, run, wrap16 (pred + diff),
      coeffs.set 0 (wrap16 (wrap16 (pred + diff) * 2 ^ scan.al))⟩ ∧ Rep A bi1 rest t := by
  obtain ⟨b₁, ⟨h11, b, hfor, rfl⟩, rfl⟩ := readDc_value h
  rw [List.append_assoc] at hr
  obtain ⟨k, v, hk, hv, hvs, rfl⟩ := hfor
  obtain ⟨v', s1, hv', e, h1⟩ := Rep.decode hdc hk hr
  rw [hv] at hv'; injection hv' with hv'; subst hv'
  unfold decodeDc liftBi
  rw [if_pos hss, e]
  simp only [Out.mapErr_ok, Out.bind_ok, hvs]
  by_cases hd0 : diff = 0
  · subst hd0
    have hc0 : category 0 = 0 := by decide
    have ha0 : additional 0 = [] := by decide
    rw [ha0, List.nil_append] at h1
    have hv0 : v = 0 := UInt8.toNat_inj.1 (by rw [hvs, hc0]; rfl)
    rw [if_pos hv0]
    simp only [Out.bind_ok]
    rw [shlI16_eq, wrapI16_eq_wrap16]
    exact ⟨s1, rfl, h1⟩
  · have hpos := category_pos hd0
    have hv0 : v ≠ 0 := by
      rintro rfl
      have : (0 : UInt8).toNat = 0 := rfl
      omega
    obtain ⟨s2, e2, h2⟩ := Rep.receiveExtend hd0 (by omega) h1
    rw [if_neg hv0, if_neg (by omega), e2]
    simp only [Out.mapErr_ok, Out.bind_ok]
    rw [shlI16_eq, wrapI16_eq_wrap16]
    exact ⟨s2, rfl, h2⟩

theorem zigzag_pos {k : Nat} (h1 : 1 ≤ k) (h : k < 64) : zigzag k ≠ 0 := by
  intro e
  have := zigzag_inj (j := 0) (k := k) (by omega) h (by rw [e]; rfl)
  omega

theorem decodeBlock_band {cd ca : Code} {dc : BaseTable} {ac : AcTable}
    (hdc : TableOk (codeSizes cd.counts) cd.counts cd.values dc)
    (hac : AcTableOk (codeSizes ca.counts) ca.counts ca.values ac) {scan : Scan}
    (hse : scan.se < 64) (hone : bandLength scan.ss scan.se ≠ 1) {p : Int} {run run' : Nat} {b : BlockData}
    {bits rest : List Bool} (h : readBandBlock cd ca scan.ss scan.se p run bits = .value (b, run') rest)
    {bi : Biterator} (hr : Rep A bi bits t) :
    ∃ bi' coeffs, decodeBlock scan dc ac ⟨bi, run, p, zeroBlock⟩ = .ok () ⟨bi', run', b.dc, coeffs⟩ ∧
      Rep A bi' rest t ∧ BandIs scan.ss scan.se scan.al b coeffs := by
  have hz : zeroBlock.length = 64 := by unfold zeroBlock; simp
  unfold readBandBlock at h
  replace h := Reading.bind_value.1 h
  obtain ⟨dcv, m, h1, h⟩ := h
  -- the DC part
  obtain ⟨bi1, cs, e1, hr1, hlen1, hcs0, hcs⟩ : ∃ bi1 cs, decodeDc scan dc ⟨bi, run, p, zeroBlock⟩ =
      .ok () ⟨bi1, run, dcv, cs⟩ ∧ Rep A bi1 m t ∧ cs.length = 64 ∧
      cs[0]? = some (if scan.ss = 0 then wrap16 (dcv * 2 ^ scan.al) else 0) ∧
      ∀ k, 1 ≤ k → k < 64 → cs[zigzag k]? = some 0 := by
    split at h1
    · rename_i hss
      obtain ⟨diff, m', h2, h3⟩ := Reading.bind_value.1 h1
      simp only [Reading.value.injEq] at h3
      obtain ⟨rfl, rfl⟩ := h3
      obtain ⟨bi1, e, hr1⟩ := decodeDc_band hdc hss h2 hr run p zeroBlock
      refine ⟨bi1, _, e, hr1, by simpa using hz, ?_, ?_⟩
      · rw [if_pos hss, List.getElem?_set_self (by omega)]
      · intro k hk h64
        rw [List.getElem?_set_ne (zigzag_pos hk h64).symm, zeroBlock_get _ (zigzag_lt k h64)]
    · rename_i hss
      simp only [Reading.value.injEq] at h1
      obtain ⟨rfl, rfl⟩ := h1
      refine ⟨bi, zeroBlock, by unfold decodeDc; rw [if_neg hss], hr, hz, ?_, ?_⟩
      · rw [if_neg hss, zeroBlock_get _ (by omega)]
      · intro k hk h64
        rw [zeroBlock_get _ (zigzag_lt k h64)]
  unfold decodeBlock
  rw [e1]
  simp only [Out.bind_ok]
  rw [show min scan.se 63 = scan.se by omega]
  unfold bandLength bandStart at h hone
  split at h
  · rename_i h0
    simp only [Reading.value.injEq, Prod.mk.injEq] at h
    obtain ⟨⟨rfl, rfl⟩, rfl⟩ := h
    refine ⟨bi1, cs, ?_, hr1, hlen1, hcs0, ?_⟩
    · rw [if_neg (by omega), if_neg (by omega)]
    · intro k hk h64
      rw [if_neg (by omega), hcs k hk h64]
  · rename_i h0
    have hle : max scan.ss 1 < scan.se := by omega
    split at h
    · rename_i hrun
      simp only [Reading.value.injEq, Prod.mk.injEq] at h
      obtain ⟨⟨rfl, rfl⟩, rfl⟩ := h
      refine ⟨bi1, cs, ?_, hr1, hlen1, hcs0, ?_⟩
      · rw [if_pos (by omega)]
      · intro k hk h64
        rw [hcs k hk h64]
        split
        · unfold bandStart
          rw [zeros_get (by omega)]
        · rfl
    · rename_i hrun
      obtain ⟨⟨l, run2⟩, m2, h3, h4⟩ := Reading.bind_value.1 h
      simp only [Reading.value.injEq, Prod.mk.injEq] at h4
      obtain ⟨⟨rfl, rfl⟩, rfl⟩ := h4
      obtain ⟨s', e2, hd⟩ := decodeAcGo_band hac (scan := scan) hse _ (max scan.ss 1) 64 ⟨bi1, run, dcv, cs⟩ m m2 l run2
        (by omega) (by omega) (by omega) hr1 hlen1 (by show run = 0; omega) (fun i hi hl => hcs i (by omega) (by omega)) h3
      obtain ⟨bi', eob', pred', coeffs⟩ := s'
      have h1 := hd.eob
      have h2 := hd.pred
      simp only at h1 h2
      subst h1; subst h2
      refine ⟨bi', coeffs, ?_, hd.rep, hd.len, ?_, ?_⟩
      · rw [if_neg (by omega), if_pos hle]
        exact e2
      · have := hd.outside 0 (by omega) (by omega)
        simp only [zigzag_zero] at this
        rw [this, hcs0]
      · intro k hk h64
        split
        · unfold bandStart
          exact hd.inside k (by omega) (by omega)
        · rw [hd.outside k h64 (by omega)]
          exact hcs k hk h64

/-! ## What cannot be read is refused -/

theorem decodeAcGo_band_invalid {c : Code} {ac : AcTable} (hac : AcTableOk (codeSizes c.counts) c.counts c.values ac)
    {scan : Scan} (big : Prop) {last : Nat} (n : Nat) : ∀ (index fuel : Nat) (s : BlockSt) (bits : List Bool),
    index + n = last + 1 → 1 ≤ n → Rep A s.bi bits t → readBand c n bits = .invalid →
    Refuses (Undecodable big) (decodeAcGo scan ac last fuel index s) := by
  induction n using Nat.strongRecOn with
  | ind n ih =>
    intro index fuel s bits hlen h1 hr h
    cases fuel with
    | zero => exact ⟨_, _, .panic _ _, rfl⟩
    | succ fuel =>
    obtain ⟨n, rfl⟩ : ∃ k, n = k + 1 := ⟨n - 1, by omega⟩
    rw [readBand] at h
    unfold decodeAcGo
    replace h := Reading.bind_invalid.1 h
    rcases h with h | ⟨rs, m, hrd, h⟩
    · unfold acRound
      exact (((fastAc_invalid hac hr h).lift.toEof _).bind _).bind _
    · obtain ⟨b, hb, rfl⟩ := read_value hrd
      have hrs : rs < 256 := by
        obtain ⟨k, v, -, -, rfl, -⟩ := hb
        exact v.toNat_lt
      split at h
      · rename_i hs
        split at h
        · rename_i h15
          split at h
          · simp at h
          · rename_i h16
            obtain ⟨bi, hrb, e, -⟩ := acRound_plain (r := 15) hac scan
              (by rwa [show rs = 16 * 15 by omega] at hb) hr last index
            rw [e rfl, if_pos (by omega)]
            simp only [Out.bind_ok]
            replace h := Reading.bind_invalid.1 h
            rcases h with h | ⟨l, m', h3, h4⟩
            · exact ih (n + 1 - 16) (by omega) (index + 16) fuel { s with bi } m (by omega) (by omega) hrb h
            · simp at h4
        · split at h <;> simp at h
      · replace h := Reading.bind_invalid.1 h
        rcases h with h | ⟨v, m', h3, h4⟩
        · unfold Spec.receiveExtend at h
          split at h <;> simp at h
        · obtain ⟨a1, a2, rfl⟩ := receiveExtend_value (by omega) h3
          have hb' : c.For (16 * (rs / 16) + category v) b := by
            rw [a2, Nat.div_add_mod]; exact hb
          obtain ⟨bi, hrb, e⟩ := acRound_coef hac scan a1 (by omega) hb' hr last index
          split at h4
          · simp at h4
          · rename_i hle
            replace h4 := Reading.bind_invalid.1 h4
            rcases h4 with h4 | ⟨l, m2, h5, h6⟩
            · have hpos : 1 ≤ n - rs / 16 := by
                by_contra hc
                rw [show n - rs / 16 = 0 by omega, readBand] at h4
                simp at h4
              rw [e]
              unfold acPut
              rw [if_pos (by omega)]
              cases hz : unzigzag s.coeffs (index + rs / 16) (shlI16 v scan.al) with
              | error f =>
                obtain ⟨p, rfl⟩ := unzigzag_panics hz
                exact ⟨_, _, .panic _ _, rfl⟩
              | ok coeffs =>
                simp only
                rw [if_pos (by omega)]
                exact ih (n - rs / 16) (by omega) (index + rs / 16 + 1) fuel { s with bi, coeffs } m'
                  (by omega) hpos hrb h4
            · simp at h6

theorem decodeBlock_band_invalid {cd ca : Code} {dc : BaseTable} {ac : AcTable}
    (hdc : TableOk (codeSizes cd.counts) cd.counts cd.values dc)
    (hac : AcTableOk (codeSizes ca.counts) ca.counts ca.values ac) {scan : Scan}
    (hse : scan.se < 64) (hone : bandLength scan.ss scan.se ≠ 1) {p : Int} {run : Nat}
    {bits : List Bool} (h : readBandBlock cd ca scan.ss scan.se p run bits = .invalid)
    {bi : Biterator} (hr : Rep A bi bits t) (cs : List Int) :
    Refuses (Undecodable cd.Big) (decodeBlock scan dc ac ⟨bi, run, p, cs⟩) := by
  unfold readBandBlock at h
  replace h := Reading.bind_invalid.1 h
  unfold decodeBlock
  rcases h with h | ⟨dcv, m, h1, h⟩
  · split at h
    · rename_i hss
      replace h := Reading.bind_invalid.1 h
      rcases h with h | ⟨_, _, _, h⟩
      · exact (decodeDc_invalid hdc hss hr h).bind _
      · simp at h
    · simp at h
  · obtain ⟨bi1, cs1, e1, hr1⟩ : ∃ bi1 cs1, decodeDc scan dc ⟨bi, run, p, cs⟩ =
        .ok () ⟨bi1, run, dcv, cs1⟩ ∧ Rep A bi1 m t := by
      split at h1
      · rename_i hss
        obtain ⟨diff, m', h2, h3⟩ := Reading.bind_value.1 h1
        simp only [Reading.value.injEq] at h3
        obtain ⟨rfl, rfl⟩ := h3
        obtain ⟨bi1, e, hr1⟩ := decodeDc_band hdc hss h2 hr run p cs
        exact ⟨bi1, _, e, hr1⟩
      · rename_i hss
        simp only [Reading.value.injEq] at h1
        obtain ⟨rfl, rfl⟩ := h1
        exact ⟨bi, cs, by unfold decodeDc; rw [if_neg hss], hr⟩
    rw [e1]
    simp only [Out.bind_ok]
    rw [show min scan.se 63 = scan.se by omega]
    unfold bandLength bandStart at h hone
    split at h
    · simp at h
    · split at h
      · simp at h
      · rename_i h0 hrun
        rw [if_neg (by omega), if_pos (by omega)]
        replace h := Reading.bind_invalid.1 h
        rcases h with h | ⟨_, _, _, h⟩
        · exact decodeAcGo_band_invalid hac _ _ _ _ _ _ (by omega) (by omega) hr1 h
        · simp at h

end Jpeg
