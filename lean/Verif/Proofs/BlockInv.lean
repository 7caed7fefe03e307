import Verif.Proofs.Block
/-!
# Block decoding inverts every admissible encoding
-/

namespace Jpeg
open Spec Biterator

theorem Spec.AcBits.nil_inv {c : Code} {bs : List Bool} (h : AcBits c [] bs) : bs = [] := by
  generalize hl : ([] : List Int) = l at h
  cases h with
  | done => rfl
  | eob h => exact absurd hl.symm h
  | zrl => simp at hl
  | coef => simp at hl
  | over h => exact absurd hl.symm h
  | overZrl h => exact absurd hl.symm h

theorem wrapI16_eq_wrap16 (x : Int) : wrapI16 x = wrap16 x := by
  unfold wrapI16 wrap16
  rw [Int.bmod_def]
  norm_num
  split <;> omega

theorem wrapI16_id {x : Int} (h : -2 ^ 15 ≤ x ∧ x < 2 ^ 15) : wrapI16 x = x := by
  rw [wrapI16_eq_wrap16]; unfold wrap16; omega

theorem shlI16_zero {x : Int} (h : -2 ^ 15 ≤ x ∧ x < 2 ^ 15) : shlI16 x 0 = x := by
  unfold shlI16; rw [pow_zero, mul_one, wrapI16_id h]

theorem category_small {v : Int} (hv : v ≠ 0) (h : category v ≤ 15) : -2 ^ 15 ≤ v ∧ v < 2 ^ 15 := by
  have := (category_bounds hv).2
  have hp : 2 ^ category v ≤ 2 ^ 15 := Nat.pow_le_pow_right (by omega) h
  have hp : (2 : Nat) ^ 15 = 32768 := by norm_num
  norm_num at *
  omega

/-- Decoding one AC symbol. -/
theorem Rep.fastAc {c : Code} {ac : AcTable}
    (hac : AcTableOk (codeSizes c.counts) c.counts c.values ac) {s : Biterator} {b w : List Bool}
    {t : List UInt8} {sym : Nat} (hb : c.For sym b) (h : Rep A s (b ++ w) t) :
    ∃ (v : UInt8) (s1 : Biterator), v.toNat = sym ∧ Rep A s1 w t ∧
      ((∃ x s2, 1 ≤ sym &&& 0x0f ∧ s1.receiveExtend (sym &&& 0x0f) = .ok x s2 ∧
          ac.decodeFastAc s = .ok (.fast x (sym >>> 4)) s2) ∨
        ac.decodeFastAc s = .ok (.normal v) s1) := by
  obtain ⟨k, v, hk, hv, rfl, rfl⟩ := hb
  obtain ⟨v', s1, hv', e, h1⟩ := Rep.decode hac.table hk h
  rw [hv] at hv'
  injection hv' with hv'
  subst hv'
  refine ⟨v, s1, rfl, h1, ?_⟩
  rcases decodeFastAc_eq hac h.wf with ⟨b, s1', x, s2, e1, hm, e2, e3⟩ | e3
  · rw [e] at e1
    injection e1 with e1 e1'
    subst e1; subst e1'
    exact Or.inl ⟨x, s2, hm, e2, e3⟩
  · rw [e] at e3
    exact Or.inr e3

theorem sym_split {r m : Nat} (hm : m ≤ 15) :
    (16 * r + m) >>> 4 = r ∧ (16 * r + m) &&& 0x0f = m := by
  constructor
  · rw [Nat.shiftRight_eq_div_pow]; omega
  · rw [show (0x0f : Nat) = 2 ^ 4 - 1 from rfl, Nat.and_two_pow_sub_one_eq_mod]; omega

/-- One round on a coefficient symbol. -/
theorem acRound_coef {c : Code} {ac : AcTable}
    (hac : AcTableOk (codeSizes c.counts) c.counts c.values ac) (scan : Scan) {s : BlockSt}
    {b w : List Bool} {t : List UInt8} {r : Nat} {v : Int} (hv : v ≠ 0)
    (hc : category v ≤ 15) (hb : c.For (16 * r + category v) b)
    (h : Rep A s.bi (b ++ (additional v ++ w)) t) (last index : Nat) :
    ∃ bi, Rep A bi w t ∧ acRound scan ac last index s = acPut scan last index r v { s with bi } := by
  obtain ⟨sy, s1, hsy, h1, hf⟩ := Rep.fastAc hac hb h
  obtain ⟨s2, e2, h2⟩ := Rep.receiveExtend hv hc h1
  obtain ⟨e4, e15⟩ := sym_split (r := r) hc
  refine ⟨s2, h2, ?_⟩
  have hpos := category_pos hv
  rcases hf with ⟨x, s2', hm, e, ef⟩ | ef
  · rw [e15, e2] at e
    injection e with ex es
    subst ex; subst es
    unfold acRound liftBi
    rw [ef, e4]
    simp only [Out.mapErr_ok, Out.bind_ok]
  · unfold acRound liftBi
    rw [ef]
    simp only [Out.mapErr_ok, Out.bind_ok, hsy, e4, e15]
    rw [if_neg (by omega), e2]
    simp only [Out.mapErr_ok, Out.bind_ok]

/-- One round on a symbol without additional bits. -/
theorem acRound_plain {c : Code} {ac : AcTable}
    (hac : AcTableOk (codeSizes c.counts) c.counts c.values ac) (scan : Scan) {s : BlockSt}
    {b w : List Bool} {t : List UInt8} {r : Nat} (hb : c.For (16 * r) b)
    (h : Rep A s.bi (b ++ w) t) (last index : Nat) :
    ∃ bi, Rep A bi w t ∧
      (r = 15 → acRound scan ac last index s =
        .ok (if index + 16 ≤ last then some (index + 16) else none) { s with bi }) ∧
      (r = 0 → acRound scan ac last index s = .ok none { s with bi, eobRun := 0 }) := by
  obtain ⟨sy, s1, hsy, h1, hf⟩ := Rep.fastAc hac hb h
  obtain ⟨e4, e15⟩ := sym_split (r := r) (m := 0) (by omega)
  rw [Nat.add_zero] at e4 e15
  refine ⟨s1, h1, ?_⟩
  rcases hf with ⟨x, s2', hm, e, ef⟩ | ef
  · omega
  · constructor
    · rintro rfl
      unfold acRound liftBi
      rw [ef]
      simp only [Out.mapErr_ok, Out.bind_ok, hsy, e4, e15, if_true]
    · rintro rfl
      unfold acRound liftBi
      rw [ef]
      simp [Out.mapErr_ok, Out.bind_ok, hsy]

/-- What AC decoding of `l` from `index` on leaves behind. -/
structure AcDone (A : Prop) (l : List Int) (index : Nat) (s s' : BlockSt) (w : List Bool) (t : List UInt8) :
    Prop where
  rep : Rep A s'.bi w t
  eob : s'.eobRun = 0
  pred : s'.dcPred = s.dcPred
  len : s'.coeffs.length = 64
  before : ∀ i, i < index → s'.coeffs[zigzag i]? = s.coeffs[zigzag i]?
  after : ∀ i, index ≤ i → i < 64 → s'.coeffs[zigzag i]? = l[i - index]?

theorem decodeAcGo_inv {c : Code} {ac : AcTable}
    (hac : AcTableOk (codeSizes c.counts) c.counts c.values ac) {scan : Scan} (hal : scan.al = 0)
    {t : List UInt8} {l : List Int} {bs : List Bool} (hl : AcBits c l bs) :
    ∀ (index fuel : Nat) (s : BlockSt) (w : List Bool), index + l.length = 64 → 1 ≤ l.length →
    l.length ≤ fuel → Rep A s.bi (bs ++ w) t → s.coeffs.length = 64 → s.eobRun = 0 →
    (∀ i, index ≤ i → i < 64 → s.coeffs[zigzag i]? = some 0) →
    ∃ s', decodeAcGo scan ac 63 fuel index s = .ok () s' ∧ AcDone A l index s s' w t := by
  induction hl with
  | done => intro _ _ _ _ _ h; simp at h
  | @eob l b hne hz hb =>
    intro index fuel s w hlen h1 hf hr hc he h0
    obtain ⟨fuel, rfl⟩ : ∃ f, fuel = f + 1 := ⟨fuel - 1, by omega⟩
    obtain ⟨bi, hrb, -, e⟩ := acRound_plain (r := 0) hac scan (by simpa using hb) hr 63 index
    refine ⟨{ s with bi, eobRun := 0 }, ?_, hrb, rfl, rfl, hc, fun _ _ => rfl, ?_⟩
    · unfold decodeAcGo; rw [e rfl]; rfl
    · intro i hi h64
      rw [h0 i hi h64]
      have hlt : i - index < l.length := by omega
      rw [List.getElem?_eq_getElem hlt, hz _ (List.getElem_mem hlt)]
  | @zrl l b bs hne hb hl ih =>
    intro index fuel s w hlen h1 hf hr hc he h0
    obtain ⟨fuel, rfl⟩ : ∃ f, fuel = f + 1 := ⟨fuel - 1, by omega⟩
    have hll : 1 ≤ l.length := List.length_pos_iff.2 hne
    rw [List.length_append, List.length_replicate] at hlen hf
    rw [List.append_assoc] at hr
    obtain ⟨bi, hrb, e, -⟩ := acRound_plain (r := 15) hac scan (by simpa using hb) hr 63 index
    obtain ⟨s', e', hd⟩ := ih (index + 16) fuel { s with bi } w (by omega) hll (by omega) hrb hc he
      (fun i hi h64 => h0 i (by omega) h64)
    refine ⟨s', ?_, hd.rep, hd.eob, hd.pred, hd.len, fun i hi => hd.before i (by omega), ?_⟩
    · unfold decodeAcGo
      rw [e rfl, if_pos (by omega)]
      exact e'
    · intro i hi h64
      by_cases h16 : i < index + 16
      · rw [hd.before i h16]
        have := h0 i hi h64
        rw [List.getElem?_append_left (by simp; omega), List.getElem?_replicate, if_pos (by omega)]
        exact this
      · rw [hd.after i (by omega) h64, List.getElem?_append_right (by simp; omega),
          List.length_replicate]
        congr 1
  | @coef r v l b bs hr15 hv hcat hb hl ih =>
    intro index fuel s w hlen h1 hf hr hc he h0
    obtain ⟨fuel, rfl⟩ : ∃ f, fuel = f + 1 := ⟨fuel - 1, by omega⟩
    rw [List.length_append, List.length_replicate, List.length_cons] at hlen hf
    rw [List.append_assoc, List.append_assoc] at hr
    obtain ⟨bi, hrb, e⟩ := acRound_coef hac scan hv hcat hb hr 63 index
    have hput : acPut scan 63 index r v { s with bi } =
        .ok (if index + r + 1 ≤ 63 then some (index + r + 1) else none)
          { s with bi, coeffs := s.coeffs.set (zigzag (index + r)) v } := by
      unfold acPut
      rw [if_pos (by omega), hal, shlI16_zero (category_small hv hcat),
        unzigzag_ok _ _ _ (by omega) hc]
    have hzl : zigzag (index + r) < s.coeffs.length := by
      rw [hc]; exact zigzag_lt _ (by omega)
    have hset : ∀ i, i < 64 → i ≠ index + r →
        (s.coeffs.set (zigzag (index + r)) v)[zigzag i]? = s.coeffs[zigzag i]? := by
      intro i hi hne
      rw [List.getElem?_set_ne]
      intro h
      exact hne (zigzag_inj (by omega) hi h).symm
    have hafter : ∀ (s' : BlockSt), (∀ i, i < index + r + 1 → s'.coeffs[zigzag i]? =
          (s.coeffs.set (zigzag (index + r)) v)[zigzag i]?) →
        (∀ i, index + r + 1 ≤ i → i < 64 → s'.coeffs[zigzag i]? = l[i - (index + r + 1)]?) →
        ∀ i, index ≤ i → i < 64 →
          s'.coeffs[zigzag i]? = (List.replicate r 0 ++ v :: l)[i - index]? := by
      intro s' hb ha i hi h64
      by_cases h1 : i < index + r
      · rw [hb i (by omega), hset i h64 (by omega), h0 i hi h64,
          List.getElem?_append_left (by simp; omega), List.getElem?_replicate, if_pos (by omega)]
      · rw [List.getElem?_append_right (by simp; omega), List.length_replicate]
        by_cases h2 : i = index + r
        · subst h2
          rw [hb _ (by omega), List.getElem?_set_self hzl, show index + r - index - r = 0 by omega]
          rfl
        · rw [ha i (by omega) h64, show i - index - r = (i - (index + r + 1)) + 1 by omega]
          rfl
    cases l with
    | nil =>
      have := hl.nil_inv
      subst this
      rw [List.length_nil] at hlen
      refine ⟨{ s with bi, coeffs := s.coeffs.set (zigzag (index + r)) v }, ?_, ?_, he, rfl,
        by simpa using hc, ?_, ?_⟩
      · unfold decodeAcGo
        rw [e, hput, if_neg (by omega)]; rfl
      · simpa using hrb
      · intro i hi; exact hset i (by omega) (by omega)
      · exact hafter _ (fun _ _ => rfl) (by intro i h1 h2; omega)
    | cons x l =>
      obtain ⟨s', e', hd⟩ := ih (index + r + 1) fuel
        { s with bi, coeffs := s.coeffs.set (zigzag (index + r)) v } w
        (by rw [← hlen]; omega) (by simp) (by omega) hrb (by simpa using hc) he
        (fun i hi h64 => by
          show (s.coeffs.set (zigzag (index + r)) v)[zigzag i]? = some 0
          rw [hset i h64 (by omega)]; exact h0 i (by omega) h64)
      refine ⟨s', ?_, hd.rep, hd.eob, hd.pred, hd.len, ?_, hafter s' hd.before hd.after⟩
      · unfold decodeAcGo
        rw [List.length_cons] at hlen
        rw [e, hput, if_pos (by omega)]
        exact e'
      · intro i hi
        rw [hd.before i (by omega)]
        exact hset i (by omega) (by omega)

  | @over r v l b hne hz hlr hr15 hv hcat hb =>
    intro index fuel s w hlen h1 hf hr hc he h0
    obtain ⟨fuel, rfl⟩ : ∃ f, fuel = f + 1 := ⟨fuel - 1, by omega⟩
    rw [List.append_assoc] at hr
    obtain ⟨bi, hrb, e⟩ := acRound_coef hac scan hv hcat hb hr 63 index
    refine ⟨{ s with bi }, ?_, hrb, he, rfl, hc, fun _ _ => rfl, ?_⟩
    · unfold decodeAcGo
      rw [e, acPut, if_neg (by omega)]; rfl
    · intro i hi h64
      rw [h0 i hi h64]
      have hlt : i - index < l.length := by omega
      rw [List.getElem?_eq_getElem hlt, hz _ (List.getElem_mem hlt)]
  | @overZrl l b hne hz hl16 hb =>
    intro index fuel s w hlen h1 hf hr hc he h0
    obtain ⟨fuel, rfl⟩ : ∃ f, fuel = f + 1 := ⟨fuel - 1, by omega⟩
    obtain ⟨bi, hrb, e, -⟩ := acRound_plain (r := 15) hac scan (by simpa using hb) hr 63 index
    refine ⟨{ s with bi }, ?_, hrb, he, rfl, hc, fun _ _ => rfl, ?_⟩
    · unfold decodeAcGo
      rw [e rfl, if_neg (by omega)]; rfl
    · intro i hi h64
      rw [h0 i hi h64]
      have hlt : i - index < l.length := by omega
      rw [List.getElem?_eq_getElem hlt, hz _ (List.getElem_mem hlt)]

theorem zeroBlock_get (p : Nat) (h : p < 64) : zeroBlock[p]? = some 0 := by
  unfold zeroBlock; rw [List.getElem?_replicate, if_pos h]

theorem decodeDc_inv {cd : Code} {dc : BaseTable}
    (hdc : TableOk (codeSizes cd.counts) cd.counts cd.values dc) {scan : Scan}
    (hss : scan.ss = 0) (hal : scan.al = 0) {diff : Int} {b₁ w : List Bool} {t : List UInt8}
    (hb : DcBits cd diff b₁) {bi : Biterator} (hr : Rep A bi (b₁ ++ w) t) (pred : Int) (coeffs : List Int) :
    ∃ bi1, decodeDc scan dc ⟨bi, 0, pred, coeffs⟩ =
      .ok () ⟨bi1, 0, wrap16 (pred + diff), coeffs.set 0 (wrap16 (pred + diff))⟩ ∧ Rep A bi1 w t := by
  obtain ⟨h11, b, hfor, rfl⟩ := hb
  rw [List.append_assoc] at hr
  obtain ⟨k, v, hk, hv, hvs, rfl⟩ := hfor
  obtain ⟨v', s1, hv', e, h1⟩ := Rep.decode hdc hk hr
  rw [hv] at hv'; injection hv' with hv'; subst hv'
  unfold decodeDc liftBi
  rw [if_pos hss, e]
  simp only [Out.mapErr_ok, Out.bind_ok, hvs]
  by_cases hd0 : diff = 0
  · subst hd0
    have hc0 : category 0 = 0 := by decide
    have ha0 : additional 0 = [] := by decide
    rw [ha0, List.nil_append] at h1
    have hv0 : v = 0 := UInt8.toNat_inj.1 (by rw [hvs, hc0]; rfl)
    rw [if_pos hv0]
    simp only [Out.bind_ok, hal]
    rw [shlI16_zero (wrapI16_range _), wrapI16_eq_wrap16]
    exact ⟨s1, rfl, h1⟩
  · have hpos := category_pos hd0
    have hv0 : v ≠ 0 := by
      rintro rfl
      have : (0 : UInt8).toNat = 0 := rfl
      omega
    obtain ⟨s2, e2, h2⟩ := Rep.receiveExtend hd0 (by omega) h1
    rw [if_neg hv0, if_neg (by omega), e2]
    simp only [Out.mapErr_ok, Out.bind_ok, hal]
    rw [shlI16_zero (wrapI16_range _), wrapI16_eq_wrap16]
    exact ⟨s2, rfl, h2⟩

theorem decodeBlock_inv {cd ca : Code} {dc : BaseTable} {ac : AcTable}
    (hdc : TableOk (codeSizes cd.counts) cd.counts cd.values dc)
    (hac : AcTableOk (codeSizes ca.counts) ca.counts ca.values ac) {scan : Scan}
    (hss : scan.ss = 0) (hse : scan.se = 63) (hal : scan.al = 0) {diff : Int} {zz : List Int}
    {bits w : List Bool} {t : List UInt8} (hb : BlockBits cd ca diff zz bits) {bi : Biterator}
    (hr : Rep A bi (bits ++ w) t) (pred : Int) :
    ∃ bi' coeffs, decodeBlock scan dc ac ⟨bi, 0, pred, zeroBlock⟩ =
        .ok () ⟨bi', 0, wrap16 (pred + diff), coeffs⟩ ∧ Rep A bi' w t ∧
      BlockIs (wrap16 (pred + diff)) zz coeffs := by
  obtain ⟨hlen, b₁, b₂, hdcb, hacb, rfl⟩ := hb
  have hz : zeroBlock.length = 64 := by unfold zeroBlock; simp
  rw [List.append_assoc] at hr
  have hdcok := decodeDc_inv hdc hss hal hdcb hr pred zeroBlock
  obtain ⟨bi1, e1, hr1⟩ := hdcok
  obtain ⟨s', e2, hd⟩ := decodeAcGo_inv hac hal hacb 1 64
    ⟨bi1, 0, wrap16 (pred + diff), zeroBlock.set 0 (wrap16 (pred + diff))⟩ w (by omega) (by omega)
    (by omega) hr1 (by simpa using hz) rfl (by
      intro i hi h64
      rw [List.getElem?_set_ne, zeroBlock_get _ (zigzag_lt i h64)]
      intro h
      have := zigzag_inj (j := 0) (k := i) (by omega) h64 (by simpa using h)
      omega)
  obtain ⟨bi', eob', pred', coeffs⟩ := s'
  have h1 := hd.eob
  have h2 := hd.pred
  simp only at h1 h2
  subst h1; subst h2
  refine ⟨bi', coeffs, ?_, hd.rep, hd.len, ?_, ?_⟩
  · unfold decodeBlock
    rw [e1]
    simp only [Out.bind_ok, hss, hse]
    rw [if_neg (by omega), if_pos (by decide)]
    exact e2
  · have := hd.before 0 (by omega)
    simp only [zigzag_zero] at this
    rw [this, List.getElem?_set_self (by omega)]
  · intro k hk
    exact hd.after (k + 1) (by omega) (by omega)

/-! ## The standard encoder -/

theorem Spec.Code.find_for {c : Code} {sym : Nat} {b : List Bool} (h : c.find sym = some b) :
    c.For sym b := by
  unfold Code.find at h
  split at h
  · rename_i k hk
    rw [List.findIdx?_eq_some_iff_getElem] at hk
    obtain ⟨hkl, hv, -⟩ := hk
    split at h
    · rename_i hlt
      injection h with h
      exact ⟨k, c.values[k], hlt, List.getElem?_eq_getElem hkl, by simpa using hv, h.symm⟩
    · simp at h
  · simp at h

theorem Spec.AcBits.zrls {c : Code} {z : List Bool} (hz : c.For 0xF0 z) {l : List Int} {bs : List Bool}
    (hne : l ≠ []) (h : AcBits c l bs) : ∀ n,
    AcBits c (List.replicate (16 * n) 0 ++ l) ((List.replicate n z).flatten ++ bs)
  | 0 => by simpa using h
  | n + 1 => by
    have := AcBits.zrl (l := List.replicate (16 * n) 0 ++ l) (by simp [hne]) hz
      (AcBits.zrls hz hne h n)
    rw [← List.append_assoc, List.replicate_append_replicate] at this
    rw [List.replicate_succ, List.flatten_cons, List.append_assoc,
      show 16 * (n + 1) = 16 + 16 * n by ring]
    exact this

theorem encodeAc_bits {c : Code} (l : List Int) : ∀ (run : Nat) (bs : List Bool),
    encodeAc c run l = some bs → AcBits c (List.replicate run 0 ++ l) bs := by
  induction l with
  | nil =>
    intro run bs h
    unfold encodeAc at h
    split at h
    · rename_i h0
      injection h with h
      subst h0; subst h
      exact .done
    · rename_i h0
      rw [List.append_nil]
      exact .eob (by simp [h0]) (fun x hx => List.eq_of_mem_replicate hx) (Code.find_for h)
  | cons v l ih =>
    intro run bs h
    unfold encodeAc at h
    split at h
    · rename_i h0
      have := ih (run + 1) bs h
      rw [List.replicate_succ', List.append_assoc] at this
      rw [h0]
      exact this
    · rename_i h0
      split at h
      · rename_i hcat
        rw [Option.bind_eq_some_iff] at h
        obtain ⟨z, hz, h⟩ := h
        rw [Option.bind_eq_some_iff] at h
        obtain ⟨b, hb, h⟩ := h
        rw [Option.bind_eq_some_iff] at h
        obtain ⟨bs', hbs, h⟩ := h
        injection h with h
        subst h
        have hrest : AcBits c l bs' := by simpa using ih 0 bs' hbs
        have hc := AcBits.coef (r := run % 16) (by omega) h0 hcat (Code.find_for hb) hrest
        by_cases h16 : run < 16
        · rw [Nat.mod_eq_of_lt h16] at hc
          rw [Nat.div_eq_of_lt h16]
          simpa using hc
        · rw [if_neg h16] at hz
          have := AcBits.zrls (Code.find_for hz) (by simp) hc (run / 16)
          rw [← List.append_assoc, List.replicate_append_replicate, Nat.div_add_mod] at this
          simpa [List.append_assoc] using this
      · simp at h

theorem encodeBlock_bits {dc ac : Code} {diff : Int} {zz : List Int} {bits : List Bool}
    (hlen : zz.length = 63) (h : encodeBlock dc ac diff zz = some bits) :
    BlockBits dc ac diff zz bits := by
  unfold encodeBlock at h
  rw [Option.bind_eq_some_iff] at h
  obtain ⟨b1, h1, h⟩ := h
  rw [Option.bind_eq_some_iff] at h
  obtain ⟨b2, h2, h⟩ := h
  injection h with h
  unfold encodeDc at h1
  split at h1
  · rename_i hc
    rw [Option.map_eq_some_iff] at h1
    obtain ⟨b, hb, rfl⟩ := h1
    exact ⟨hlen, _, b2, ⟨hc, b, Code.find_for hb, rfl⟩, by simpa using encodeAc_bits zz 0 b2 h2,
      h.symm⟩
  · simp at h1

end Jpeg
