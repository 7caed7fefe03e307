import Verif.Proofs.Huffman
import Verif.Proofs.Extend
/-!
# Huffman decoding
-/

namespace Jpeg
open Spec Biterator

/-- The outcome of decoding one symbol when the next 16 bits have the value `w`. -/
def Hit (L : List Nat) (values : List UInt8) (s : Biterator) (w : Nat) (r : Out Biterator UInt8) :
    Prop :=
  (∃ k v, ∃ h : k < L.length, values[k]? = some v ∧ kraft (L.take k) ≤ w ∧
    w < kraft (L.take (k + 1)) ∧ r = (s.consumeBits L[k]).bind fun _ s => .ok v s) ∨
  (kraft L ≤ w ∧ r = .fail .unit s)

theorem kraft_slot (L : List Nat) (w : Nat) (h : w < kraft L) :
    ∃ k, k < L.length ∧ kraft (L.take k) ≤ w ∧ w < kraft (L.take (k + 1)) := by
  have hex : ∃ n, w < kraft (L.take n) := ⟨L.length, by rwa [List.take_length]⟩
  classical
  have hspec := Nat.find_spec hex
  have hmin := fun m hm => Nat.find_min hex (m := m) hm
  generalize Nat.find hex = n at *
  cases n with
  | zero => simp at hspec
  | succ k =>
    refine ⟨k, ?_, by have := hmin k (by omega); omega, hspec⟩
    by_contra hk
    have := hmin k (by omega)
    rw [List.take_of_length_le (by omega)] at this
    omega

theorem slot_unique {L : List Nat} {w j k : Nat} (h1 : kraft (L.take j) ≤ w)
    (h2 : w < kraft (L.take (j + 1))) (h3 : kraft (L.take k) ≤ w)
    (h4 : w < kraft (L.take (k + 1))) : j = k := by
  rcases lt_trichotomy j k with h | h | h
  · have := kraft_take_mono L (show j + 1 ≤ k by omega); omega
  · exact h
  · have := kraft_take_mono L (show k + 1 ≤ j by omega); omega

theorem Hit.unique {L : List Nat} {values : List UInt8} {s : Biterator} {w : Nat}
    {r₁ r₂ : Out Biterator UInt8} (h₁ : Hit L values s w r₁) (h₂ : Hit L values s w r₂) : r₁ = r₂ := by
  rcases h₁ with ⟨j, v, hj, hv, h1, h2, rfl⟩ | ⟨h1, rfl⟩ <;>
  rcases h₂ with ⟨k, u, hk, hu, h3, h4, rfl⟩ | ⟨h3, rfl⟩
  · have := slot_unique h1 h2 h3 h4
    subst this
    rw [hv] at hu; injection hu with hu; subst hu; rfl
  · have := kraft_take_le L (j + 1); omega
  · have := kraft_take_le L (k + 1); omega
  · rfl

/-- The search over the code lengths, started anywhere. -/
theorem searchGo_hit {L : List Nat} {counts values : List UInt8} {t : BaseTable}
    (ht : TableOk L counts values t) (s : Biterator) (w : Nat) (rest : List UInt8) :
    ∀ (done : List UInt8), counts = done ++ rest → kraft (sizesFrom 0 done) ≤ w →
    Hit L values s w (searchGo t w rest.length done.length s) := by
  induction rest with
  | nil =>
    intro done hd hw
    right
    simp only [List.append_nil] at hd
    subst hd
    exact ⟨by rw [ht.sizes]; exact hw, rfl⟩
  | cons n rest ih =>
    intro done hd hw
    have hd' : counts = (done ++ [n]) ++ rest := by rw [hd]; simp
    have hP' : sizesFrom 0 (done ++ [n]) =
        sizesFrom 0 done ++ List.replicate n.toNat (done.length + 1) := by
      rw [sizesFrom_append]; simp [sizesFrom]
    have hlen16 : done.length + 1 + rest.length = 16 := by
      rw [← ht.len, hd]; simp; omega
    set P := sizesFrom 0 done with hPdef
    set l := done.length with hl
    have hL : L = P ++ (List.replicate n.toNat (l + 1) ++ sizesFrom (l + 1) rest) := by
      rw [ht.sizes, codeSizes, hd, sizesFrom_append]
      simp [sizesFrom, ← hPdef, ← hl]
    -- the entries of the two tables
    have hoffs : (offsOf [] 0 counts)[l]? = some
        (if n.toNat = 0 then (0, -1)
          else ((P.length : Int) - ((kraft P / 2 ^ (15 - l) : Nat) : Int),
          (((kraft P + (n.toNat - 1) * 2 ^ (15 - l)) / 2 ^ (15 - l) : Nat) : Int))) := by
      rw [hd, offsOf_append, List.getElem?_append_right (by rw [offsOf_length])]
      simp only [offsOf_length, ← hl, Nat.sub_self, Nat.zero_add, List.nil_append, ← hPdef, offsOf,
        List.getElem?_cons_zero]
    have hP_le : ∀ x ∈ P, x ≤ l + 1 := by
      intro x hx
      have := sizesFrom_mem hx
      omega
    have hdvd : 2 ^ (15 - l) ∣ kraft P := by
      have := kraft_dvd (m := l + 1) (by omega) hP_le
      rwa [show 16 - (l + 1) = 15 - l by omega] at this
    have hpos : 0 < 2 ^ (15 - l) := by positivity
    have hfuel : (n :: rest).length = rest.length + 1 := by simp
    rw [hfuel]
    simp only [searchGo, ht.maxC, ht.offs, List.getElem?_map, hoffs, Option.map_some]
    have hcode : w >>> (15 - l) = w / 2 ^ (15 - l) := Nat.shiftRight_eq_div_pow _ _
    by_cases hn : n.toNat = 0
    · simp only [hn, if_true]
      rw [if_neg (by generalize w >>> (15 - l) = q; omega)]
      have := ih (done ++ [n]) hd' (by rw [hP', hn]; simpa using hw)
      simpa using this
    · simp only [hn, if_false]
      obtain ⟨c, hc⟩ := hdvd
      have hq : kraft P / 2 ^ (15 - l) = c := by rw [hc, Nat.mul_div_cancel_left _ hpos]
      have hmax : (kraft P + (n.toNat - 1) * 2 ^ (15 - l)) / 2 ^ (15 - l) = c + (n.toNat - 1) := by
        rw [Nat.add_mul_div_right _ _ hpos, hq]
      rw [hmax, hq, hcode]
      have hkP' : kraft (sizesFrom 0 (done ++ [n])) = (c + n.toNat) * 2 ^ (15 - l) := by
        rw [hP', kraft_append, kraft_replicate, hc, show 16 - (l + 1) = 15 - l by omega]; ring
      have hcw : c ≤ w / 2 ^ (15 - l) := by
        rw [Nat.le_div_iff_mul_le hpos, Nat.mul_comm, ← hc]; exact hw
      by_cases hle : w / 2 ^ (15 - l) ≤ c + (n.toNat - 1)
      · rw [if_pos (by exact_mod_cast hle)]
        left
        set j := w / 2 ^ (15 - l) - c with hj
        have hjn : j < n.toNat := by omega
        have hk : P.length + j < L.length := by rw [hL]; simp; omega
        have hLk : L[P.length + j] = l + 1 := by
          simp only [hL]
          rw [List.getElem_append_right (by omega), List.getElem_append_left (by simp; omega)]
          simp
        have htake : ∀ i, i ≤ n.toNat → kraft (L.take (P.length + i)) = (c + i) * 2 ^ (15 - l) := by
          intro i hi
          rw [hL, List.take_length_add_append, List.take_append_of_le_length (by simp; omega),
            List.take_replicate, kraft_append, kraft_replicate, hc, min_eq_left hi,
            show 16 - (l + 1) = 15 - l by omega]
          ring
        have hdm := Nat.div_add_mod w (2 ^ (15 - l))
        have hmod := Nat.mod_lt w hpos
        have hw_eq : w / 2 ^ (15 - l) = c + j := by omega
        rw [hw_eq] at hdm
        have hval : t.values[P.length + j]? = values[P.length + j]? := ht.vals _ hk
        have hlenV := ht.lenV
        refine ⟨P.length + j, values[P.length + j]'(by omega), hk,
          List.getElem?_eq_getElem (by omega), ?_, ?_, ?_⟩
        · rw [htake j (by omega)]
          have : (c + j) * 2 ^ (15 - l) = 2 ^ (15 - l) * (c + j) := by ring
          omega
        · rw [show P.length + j + 1 = P.length + (j + 1) by omega, htake (j + 1) (by omega)]
          have : (c + (j + 1)) * 2 ^ (15 - l) = 2 ^ (15 - l) * (c + j) + 2 ^ (15 - l) := by ring
          omega
        · have hidx : ((w / 2 ^ (15 - l) : Nat) : Int) + ((P.length : Int) - (c : Nat)) =
              ((P.length + j : Nat) : Int) := by
            rw [hw_eq]; push_cast; ring
          rw [hLk]
          congr 1
          funext _ s'
          simp only [hidx]
          rw [if_neg (by omega), Int.toNat_natCast, hval, List.getElem?_eq_getElem (by omega)]
      · rw [if_neg (by exact_mod_cast hle)]
        have hge : c + n.toNat ≤ w / 2 ^ (15 - l) := by omega
        have := ih (done ++ [n]) hd' (by
          rw [hkP']; exact (Nat.le_div_iff_mul_le hpos).1 hge)
        simpa using this

theorem mem_take_succ {L : List Nat} {k x : Nat} (h : x ∈ L.take k) : x ∈ L.take (k + 1) := by
  have : L.take k = (L.take (k + 1)).take k := by rw [List.take_take]; congr 1; omega
  rw [this] at h
  exact List.mem_of_mem_take h

theorem sizes_take_le {L : List Nat} (hs : L.Pairwise (· ≤ ·)) {k : Nat} (hk : k < L.length) :
    ∀ x ∈ L.take (k + 1), x ≤ L[k] := by
  intro x hx
  rw [List.take_succ_eq_append_getElem hk, List.mem_append] at hx
  rcases hx with hx | hx
  · have h2 : (L.take k ++ L.drop k).Pairwise (· ≤ ·) := by rwa [List.take_append_drop]
    refine (List.pairwise_append.1 h2).2.2 x hx _ ?_
    rw [List.drop_eq_getElem_cons hk]; exact List.mem_cons_self
  · simp at hx; omega

theorem TableOk.sorted {L : List Nat} {counts values : List UInt8} {t : BaseTable}
    (ht : TableOk L counts values t) : L.Pairwise (· ≤ ·) := by
  rw [ht.sizes]; exact sizesFrom_sorted 0 counts

theorem TableOk.range {L : List Nat} {counts values : List UInt8} {t : BaseTable}
    (ht : TableOk L counts values t) : ∀ l ∈ L, 1 ≤ l ∧ l ≤ 16 := by
  rw [ht.sizes]; exact codeSizes_range ht.len

theorem TableOk.getRange {L : List Nat} {counts values : List UInt8} {t : BaseTable}
    (ht : TableOk L counts values t) {k : Nat} (hk : k < L.length) : 1 ≤ L[k] ∧ L[k] ≤ 16 :=
  ht.range _ (List.getElem_mem hk)

theorem dvd256_le {a w : Nat} (h : 256 ∣ a) : a ≤ w ↔ a ≤ w / 256 * 256 := by omega
theorem dvd256_lt {a w : Nat} (h : 256 ∣ a) : w < a ↔ w / 256 * 256 < a := by omega

theorem kraft_dvd256 {L : List Nat} (hs : L.Pairwise (· ≤ ·)) {k : Nat} (hk : k < L.length)
    (h8 : L[k] ≤ 8) : 256 ∣ kraft (L.take k) ∧ 256 ∣ kraft (L.take (k + 1)) := by
  have h := sizes_take_le hs hk
  have h1 : 2 ^ (16 - 8) ∣ kraft (L.take (k + 1)) :=
    kraft_dvd (by omega) (fun x hx => le_trans (h x hx) h8)
  have h2 : 2 ^ (16 - 8) ∣ kraft (L.take k) := by
    refine kraft_dvd (by omega) (fun x hx => le_trans (h x ?_) h8)
    exact mem_take_succ hx
  exact ⟨h2, h1⟩

/-- What the lookup table says about a window. -/
theorem lut_cases {L : List Nat} {counts values : List UInt8} {t : BaseTable}
    (ht : TableOk L counts values t) (w : Nat) (hw : w < 2 ^ 16) :
    (∃ k v, ∃ h : k < L.length, L[k] ≤ 8 ∧ values[k]? = some v ∧ kraft (L.take k) ≤ w ∧
      w < kraft (L.take (k + 1)) ∧ t.lut[w / 256]? = some (v, L[k])) ∨
    (kraft (sizesFrom 0 (counts.take 8)) ≤ w ∧ t.lut[w / 256]? = some (0, 0)) := by
  rcases ht.lut.2 (w / 256) (by norm_num at hw ⊢; omega) with ⟨k, v, hk, h1, h2, h3, h4, h5⟩ | ⟨h1, h2⟩
  · left
    obtain ⟨d1, d2⟩ := kraft_dvd256 ht.sorted hk h1
    exact ⟨k, v, hk, h1, h2, (dvd256_le d1).2 h3, (dvd256_lt d2).2 h4, h5⟩
  · right
    refine ⟨?_, h2⟩
    by_contra hlt
    have hlt : w < kraft (sizesFrom 0 (counts.take 8)) := by omega
    obtain ⟨k, hk, h3, h4⟩ := kraft_slot _ w hlt
    have hL : L = sizesFrom 0 (counts.take 8) ++ sizesFrom (0 + (counts.take 8).length)
        (counts.drop 8) := by
      rw [← sizesFrom_append, List.take_append_drop]; exact ht.sizes
    have hkL : k < L.length := by rw [hL]; simp; omega
    have e1 : L.take k = (sizesFrom 0 (counts.take 8)).take k := by
      rw [hL, List.take_append_of_le_length (by omega)]
    have e2 : L.take (k + 1) = (sizesFrom 0 (counts.take 8)).take (k + 1) := by
      rw [hL, List.take_append_of_le_length (by omega)]
    have e3 : L[k] ≤ 8 := by
      have : L[k] = (sizesFrom 0 (counts.take 8))[k] := by
        simp only [hL]; rw [List.getElem_append_left hk]
      rw [this]
      have := sizesFrom_mem (List.getElem_mem hk)
      simp at this; omega
    obtain ⟨d1, d2⟩ := kraft_dvd256 ht.sorted hkL e3
    rw [← e1] at h3; rw [← e2] at h4
    exact h1 k hkL e3 ⟨(dvd256_le d1).1 h3, (dvd256_lt d2).1 h4⟩

theorem peek_window {s : Biterator} (h : 16 ≤ s.count) :
    natOfBits (s.buf.take 8) = natOfBits (s.buf.take 16) / 256 ∧ natOfBits (s.buf.take 16) < 2 ^ 16 := by
  have hl : (s.buf.take 16).length = 16 := by simp [buf_length]; omega
  refine ⟨?_, by have := natOfBits_lt (s.buf.take 16); rwa [hl] at this⟩
  have e : s.buf.take 16 = s.buf.take 8 ++ (s.buf.drop 8).take 8 := by
    rw [← List.take_add]
  rw [e, natOfBits_append]
  have h8 : ((s.buf.drop 8).take 8).length = 8 := by simp [buf_length]; omega
  have := natOfBits_lt ((s.buf.drop 8).take 8)
  rw [h8] at this ⊢
  norm_num at this ⊢
  omega

/-- Decoding one symbol with at least 16 bits in the buffer. -/
theorem decodeInner_hit {L : List Nat} {counts values : List UInt8} {t : BaseTable}
    (ht : TableOk L counts values t) {s : Biterator} (hwf : s.WF) (h16 : 16 ≤ s.count) :
    Hit L values s (natOfBits (s.buf.take 16)) (t.decodeInner s (natOfBits (s.buf.take 8))) := by
  obtain ⟨e8, hw⟩ := peek_window h16
  rw [e8]
  set w := natOfBits (s.buf.take 16) with hwdef
  unfold BaseTable.decodeInner
  rcases lut_cases ht w hw with ⟨k, v, hk, h1, h2, h3, h4, h5⟩ | ⟨h1, h2⟩
  · rw [h5]
    have := (ht.getRange hk).1
    simp only [if_pos (show L[k] > 0 by omega)]
    exact Or.inl ⟨k, v, hk, h2, h3, h4, rfl⟩
  · rw [h2]
    simp only [Nat.lt_irrefl, if_false]
    rw [peekBits_ok hwf (by omega) h16 (by omega)]
    simp only [Out.ofExcept_ok, Out.bind_ok, ← hwdef, LUT_BITS]
    have := searchGo_hit ht s w (counts.drop 8) (counts.take 8) (by simp) h1
    have hl := ht.len
    simpa [hl] using this

/-- `decode_inner` with the lookup table disabled: the search from length one. -/
theorem search_from_one {L : List Nat} {counts values : List UInt8} {t : BaseTable}
    (ht : TableOk L counts values t) (s : Biterator) (w : Nat) :
    Hit L values s w (searchGo t w 16 0 s) := by
  have := searchGo_hit ht s w counts [] rfl (by simp [sizesFrom])
  rwa [ht.len] at this

/-! ## In terms of code words -/

theorem codeWord_length {L : List Nat} {k : Nat} (hk : k < L.length) (h16 : L[k] ≤ 16) :
    (codeWord L k).length = L[k] := by
  simp [codeWord, List.getElem?_eq_getElem hk]; omega

/-- The window starts with code word `k` iff its value lies in slot `k`. -/
theorem codeWord_prefix_iff {L : List Nat} (hs : L.Pairwise (· ≤ ·)) (hr : ∀ l ∈ L, 1 ≤ l ∧ l ≤ 16)
    (hK : kraft L ≤ 2 ^ 16) {k : Nat} (hk : k < L.length) (b : List Bool) (hb : b.length = 16) :
    codeWord L k <+: b ↔
      kraft (L.take k) ≤ natOfBits b ∧ natOfBits b < kraft (L.take (k + 1)) := by
  have hl := hr _ (List.getElem_mem hk)
  set l := L[k] with hldef
  have hlen := codeWord_length hk hl.2
  rw [← hldef] at hlen
  have hdvd : 2 ^ (16 - l) ∣ kraft (L.take k) := by
    refine kraft_dvd hl.2 (fun x hx => sizes_take_le hs hk x ?_)
    exact mem_take_succ hx
  obtain ⟨c, hc⟩ := hdvd
  have hsucc := kraft_take_succ L k hk
  rw [← hldef] at hsucc
  have hpos : 0 < 2 ^ (16 - l) := by positivity
  have hlt16 : kraft (L.take k) < 2 ^ 16 := by
    have := kraft_take_le L (k + 1); omega
  -- the value of the code word
  have hcw : natOfBits (codeWord L k) = c := by
    have e : bitsN 16 (kraft (L.take k)) = bitsN l c ++ zeros (16 - l) := by
      conv_lhs => rw [show 16 = l + (16 - l) by omega, bitsN_add]
      congr 1
      · rw [Nat.shiftRight_eq_div_pow, hc, Nat.mul_div_cancel_left _ hpos]
      · rw [← bitsN_mod (16 - l) (16 - l) _ (le_refl _), hc, Nat.mul_mod_right, bitsN_zero]
    rw [codeWord, List.getElem?_eq_getElem hk, Option.getD_some, ← hldef, e,
      List.take_left' (by simp), natOfBits_bitsN, Nat.mod_eq_of_lt]
    have h16 : (2 : Nat) ^ 16 = 2 ^ (16 - l) * 2 ^ l := by rw [← pow_add]; congr 1; omega
    rw [hc, h16] at hlt16
    exact Nat.lt_of_mul_lt_mul_left hlt16
  have hbsplit : natOfBits b = natOfBits (b.take l) * 2 ^ (16 - l) + natOfBits (b.drop l) := by
    conv_lhs => rw [← List.take_append_drop l b]
    rw [natOfBits_append]; simp [hb]
  have hdlt : natOfBits (b.drop l) < 2 ^ (16 - l) := by
    have := natOfBits_lt (b.drop l); simpa [hb] using this
  have htl : (b.take l).length = l := by simp [hb]; omega
  rw [List.prefix_iff_eq_take, hlen, hsucc, hc]
  constructor
  · intro h
    rw [← h, hcw] at hbsplit
    have : c * 2 ^ (16 - l) = 2 ^ (16 - l) * c := by ring
    omega
  · rintro ⟨h1, h2⟩
    apply natOfBits_inj (by rw [hlen, htl])
    rw [hcw]
    have h3 : 2 ^ (16 - l) * c < 2 ^ (16 - l) * (natOfBits (b.take l) + 1) := by
      have : 2 ^ (16 - l) * (natOfBits (b.take l) + 1) =
        natOfBits (b.take l) * 2 ^ (16 - l) + 2 ^ (16 - l) := by ring
      omega
    have h4 : 2 ^ (16 - l) * natOfBits (b.take l) < 2 ^ (16 - l) * (c + 1) := by
      have e1 : 2 ^ (16 - l) * (c + 1) = 2 ^ (16 - l) * c + 2 ^ (16 - l) := by ring
      have e2 : 2 ^ (16 - l) * natOfBits (b.take l) = natOfBits (b.take l) * 2 ^ (16 - l) := by ring
      omega
    have h5 := Nat.lt_of_mul_lt_mul_left h3
    have h6 := Nat.lt_of_mul_lt_mul_left h4
    omega

/-- Decoding when the stream starts with code word `k`. -/
theorem Rep.ensure16 {s : Biterator} {v : List Bool} {t : List UInt8} (h : Rep A s v t) :
    ∃ s', s.ensure16 = .ok () s' ∧ Rep A s' v t ∧ 16 ≤ s'.count := by
  unfold Biterator.ensure16
  by_cases hc : s.count < 16
  · rw [if_pos hc]
    obtain ⟨s', e, hr, h57⟩ := h.fill
    exact ⟨s', e, hr, by omega⟩
  · rw [if_neg hc]; exact ⟨s, rfl, h, by omega⟩

theorem Hit.of_prefix {L : List Nat} {counts values : List UInt8} {t : BaseTable}
    (ht : TableOk L counts values t) {s : Biterator} (h16 : 16 ≤ s.count)
    {r : Out Biterator UInt8} (hr : Hit L values s (natOfBits (s.buf.take 16)) r) {k : Nat}
    (hk : k < L.length) (hp : codeWord L k <+: s.buf) :
    ∃ v, values[k]? = some v ∧ r = (s.consumeBits L[k]).bind fun _ s => .ok v s := by
  have hlen := codeWord_length hk (ht.getRange hk).2
  have hp16 : codeWord L k <+: s.buf.take 16 := by
    rw [List.prefix_take_iff]
    exact ⟨hp, by have := (ht.getRange hk).2; omega⟩
  have hb : (s.buf.take 16).length = 16 := by simp [buf_length]; omega
  obtain ⟨h1, h2⟩ := (codeWord_prefix_iff ht.sorted ht.range ht.kraft hk _ hb).1 hp16
  rcases hr with ⟨j, v, hj, hv, h3, h4, rfl⟩ | ⟨h3, _⟩
  · have := slot_unique h3 h4 h1 h2
    subst this
    exact ⟨v, hv, rfl⟩
  · have := kraft_take_le L (k + 1); omega

/-- Decoding a symbol from a stream that starts with its code word. -/
theorem Rep.decode {L : List Nat} {counts values : List UInt8} {tb : BaseTable}
    (ht : TableOk L counts values tb) {s : Biterator} {w : List Bool} {t : List UInt8} {k : Nat}
    (hk : k < L.length) (h : Rep A s (codeWord L k ++ w) t) :
    ∃ v s', values[k]? = some v ∧ tb.decode s = .ok v s' ∧ Rep A s' w t := by
  obtain ⟨s1, e1, h1, h16⟩ := h.ensure16
  have hlen := codeWord_length hk (ht.getRange hk).2
  have hle := (ht.getRange hk).2
  have hp : codeWord L k <+: s1.buf := by
    have := h1.take_buf (n := L[k]) (by simp [hlen]) (by omega)
    rw [List.take_left' hlen] at this
    rw [← this]; exact List.take_prefix _ _
  obtain ⟨v, hv, hd⟩ := (decodeInner_hit ht h1.wf h16).of_prefix ht h16 hk hp
  refine ⟨v, { s1 with count := s1.count - L[k] }, hv, ?_, ?_⟩
  · unfold BaseTable.decode
    rw [e1, Out.bind_ok, show LUT_BITS = 8 from rfl, peekBits_ok h1.wf (by omega) (by omega) (by omega)]
    simp only [Out.ofExcept_ok, Out.bind_ok]
    rw [hd, consumeBits_ok (by omega), Out.bind_ok]
  · have := h1.consume (n := L[k]) (by simp [hlen]) (by omega)
    rwa [List.drop_left' hlen] at this

/-! ## Safety -/

theorem Hit.safe {L : List Nat} {counts values : List UInt8} {t : BaseTable}
    (ht : TableOk L counts values t) {s : Biterator} (hwf : s.WF) (h16 : 16 ≤ s.count) {w : Nat}
    {r : Out Biterator UInt8} (hr : Hit L values s w r) : Safe s r := by
  rcases hr with ⟨k, v, hk, _, _, _, rfl⟩ | ⟨_, rfl⟩
  · have := (ht.getRange hk).2
    exact (consumeBits_safe hwf (by omega)).bind fun _ s' _ hwf' => Safe.ok hwf' _
  · exact Safe.unit hwf

theorem ensure16_safe {s : Biterator} (hwf : s.WF) :
    Safe s s.ensure16 ∧ ∀ s', s.ensure16 = .ok () s' → 16 ≤ s'.count := by
  unfold Biterator.ensure16
  by_cases hc : s.count < 16
  · rw [if_pos hc]
    exact ⟨(fillBits_safe hwf).1, fun s' e => by have := (fillBits_safe hwf).2.2 s' e; omega⟩
  · rw [if_neg hc]
    refine ⟨Safe.ok hwf _, fun s' e => ?_⟩
    injection e with _ e; subst e; omega

theorem BaseTable.decode_safe {L : List Nat} {counts values : List UInt8} {t : BaseTable}
    (ht : TableOk L counts values t) {s : Biterator} (hwf : s.WF) : Safe s (t.decode s) := by
  unfold BaseTable.decode
  refine (ensure16_safe hwf).1.bind fun _ s1 e1 hwf1 => ?_
  have h16 := (ensure16_safe hwf).2 s1 e1
  rw [show LUT_BITS = 8 from rfl, peekBits_ok hwf1 (by omega) (by omega) (by omega)]
  simp only [Out.ofExcept_ok, Out.bind_ok]
  exact (decodeInner_hit ht hwf1 h16).safe ht hwf1 h16

end Jpeg
