import Verif.Proofs.Reader
import Verif.Model.Huffman
import Verif.Spec.Huffman
import Mathlib.Tactic.NormNum
/-!
# Construction of Huffman tables
-/

namespace Jpeg
open Spec

/-! ## Kraft sums -/

@[simp] theorem kraft_nil : kraft [] = 0 := rfl
@[simp] theorem kraft_append (a b : List Nat) : kraft (a ++ b) = kraft a + kraft b := by
  simp [kraft]
@[simp] theorem kraft_cons (l : Nat) (b : List Nat) : kraft (l :: b) = 2 ^ (16 - l) + kraft b := by
  simp [kraft]
@[simp] theorem kraft_replicate (n l : Nat) : kraft (List.replicate n l) = n * 2 ^ (16 - l) := by
  simp [kraft]

theorem kraft_dvd {P : List Nat} {m : Nat} (hm : m ≤ 16) (h : ∀ l ∈ P, l ≤ m) :
    2 ^ (16 - m) ∣ kraft P := by
  induction P with
  | nil => simp
  | cons l P ih =>
    rw [kraft_cons]
    have := h l (by simp)
    exact Nat.dvd_add (pow_dvd_pow 2 (by omega)) (ih fun x hx => h x (by simp [hx]))

theorem kraft_pos {P : List Nat} (h : P ≠ []) : 0 < kraft P := by
  cases P with
  | nil => simp at h
  | cons l P => rw [kraft_cons]; positivity

theorem kraft_take_le (L : List Nat) (k : Nat) : kraft (L.take k) ≤ kraft L := by
  conv_rhs => rw [← List.take_append_drop k L]
  rw [kraft_append]; omega

theorem kraft_take_mono (L : List Nat) {j k : Nat} (h : j ≤ k) :
    kraft (L.take j) ≤ kraft (L.take k) := by
  have : L.take j = (L.take k).take j := by rw [List.take_take]; congr 1; omega
  rw [this]; exact kraft_take_le _ _

theorem kraft_take_succ (L : List Nat) (k : Nat) (h : k < L.length) :
    kraft (L.take (k + 1)) = kraft (L.take k) + 2 ^ (16 - L[k]) := by
  rw [List.take_succ_eq_append_getElem h, kraft_append]; simp

/-- Multiples of `d`: adding `d` does not cross the next multiple. -/
theorem dvd_lt_add_le {a b d : Nat} (ha : d ∣ a) (hb : d ∣ b) (h : a < b) : a + d ≤ b := by
  obtain ⟨x, rfl⟩ := ha
  obtain ⟨y, rfl⟩ := hb
  have : x < y := Nat.lt_of_mul_lt_mul_left h
  calc d * x + d = d * (x + 1) := by ring
    _ ≤ d * y := Nat.mul_le_mul_left _ this

/-! ## `huffsize` -/

theorem sizesFrom_length (l : Nat) (bits : List UInt8) :
    (sizesFrom l bits).length = (bits.map UInt8.toNat).sum := by
  induction bits generalizing l with
  | nil => rfl
  | cons n rest ih => simp [sizesFrom, ih]

theorem sizesFrom_mem {l : Nat} {bits : List UInt8} {x : Nat} (h : x ∈ sizesFrom l bits) :
    l + 1 ≤ x ∧ x ≤ l + bits.length := by
  induction bits generalizing l with
  | nil => simp [sizesFrom] at h
  | cons n rest ih =>
    simp only [sizesFrom, List.mem_append, List.mem_replicate] at h
    rcases h with ⟨_, rfl⟩ | h
    · simp
    · have := ih h; simp; omega

theorem sizesFrom_append (l : Nat) (a b : List UInt8) :
    sizesFrom l (a ++ b) = sizesFrom l a ++ sizesFrom (l + a.length) b := by
  induction a generalizing l with
  | nil => simp [sizesFrom]
  | cons n rest ih =>
    simp only [List.cons_append, sizesFrom, ih, List.length_cons, List.append_assoc]
    congr 3; omega

theorem sizesFrom_sorted (l : Nat) (bits : List UInt8) : (sizesFrom l bits).Pairwise (· ≤ ·) := by
  induction bits generalizing l with
  | nil => simp [sizesFrom]
  | cons n rest ih =>
    rw [sizesFrom, List.pairwise_append]
    refine ⟨?_, ih _, ?_⟩
    · rw [List.pairwise_replicate]; simp
    · intro a ha b hb
      rw [List.mem_replicate] at ha
      have := sizesFrom_mem hb
      omega

theorem huffsizeGo_eq (l : Nat) (bits : List UInt8) (acc : List Nat) (hacc : acc.length ≤ 256) :
    huffsizeGo l bits acc =
      if acc.length + (bits.map UInt8.toNat).sum ≤ 256 then .ok (acc ++ sizesFrom l bits)
      else .error (.err .badHuffsize) := by
  induction bits generalizing l acc with
  | nil => simp [huffsizeGo, sizesFrom, hacc]
  | cons n rest ih =>
    simp only [huffsizeGo, List.map_cons, List.sum_cons]
    by_cases h : acc.length + n.toNat > 256
    · rw [if_pos h, if_neg (by omega)]
    · rw [if_neg h, ih _ _ (by simp; omega)]
      simp only [List.length_append, List.length_replicate, sizesFrom, List.append_assoc]
      rw [Nat.add_assoc]

theorem huffsize_eq (bits : List UInt8) :
    huffsize bits = if (codeSizes bits).length ≤ 256 then .ok (codeSizes bits)
      else .error (.err .badHuffsize) := by
  rw [huffsize, huffsizeGo_eq _ _ _ (by simp)]
  simp [codeSizes, sizesFrom_length]

/-! ## Code assignment -/

/-- The codes as numbers, `P` being the lengths already handled. -/
def codesOf : List Nat → List Nat → List Nat
  | _, [] => []
  | P, l :: r => kraft P / 2 ^ (16 - l) :: codesOf (P ++ [l]) r

theorem codesOf_length (P L : List Nat) : (codesOf P L).length = L.length := by
  induction L generalizing P with
  | nil => rfl
  | cons l r ih => simp [codesOf, ih]

theorem codesOf_getElem? (P L : List Nat) (k : Nat) (h : k < L.length) :
    (codesOf P L)[k]? = some (kraft (P ++ L.take k) / 2 ^ (16 - L[k])) := by
  induction L generalizing P k with
  | nil => simp at h
  | cons l r ih =>
    cases k with
    | zero => simp [codesOf]
    | succ k =>
      simp only [codesOf, List.getElem?_cons_succ, List.take_succ_cons, List.getElem_cons_succ]
      rw [ih (P ++ [l]) k (by simpa using h)]
      simp

theorem huffcodeGo_eq (L : List Nat) : ∀ (P : List Nat) (code cs : Nat),
    code * 2 ^ (16 - cs) = kraft P → cs ≤ 16 → (∀ l ∈ P, l ≤ cs) → (∀ l ∈ L, cs ≤ l ∧ l ≤ 16) →
    L.Pairwise (· ≤ ·) → kraft P ≤ 2 ^ 16 →
    huffcodeGo L code cs =
      if kraft (P ++ L) ≤ 2 ^ 16 then .ok (codesOf P L) else .error (.err .badHuffCode) := by
  induction L with
  | nil =>
    intro P code cs _ _ _ _ _ h
    simp only [huffcodeGo, codesOf, List.append_nil, if_pos h]
  | cons l r ih =>
    intro P code cs hcode hcs hP hL hs hk
    obtain ⟨hl1, hl2⟩ := hL l (by simp)
    have hpow : (2 : Nat) ^ (16 - cs) = 2 ^ (l - cs) * 2 ^ (16 - l) := by
      rw [← pow_add]; congr 1; omega
    have hc2 : code * 2 ^ (l - cs) * 2 ^ (16 - l) = kraft P := by
      rw [← hcode, hpow]; ring
    have hle : code * 2 ^ (l - cs) ≤ 2 ^ 16 := by
      calc code * 2 ^ (l - cs) ≤ code * 2 ^ (l - cs) * 2 ^ (16 - l) :=
            Nat.le_mul_of_pos_right _ (by positivity)
        _ ≤ 2 ^ 16 := by rw [hc2]; exact hk
    have hmod : (code <<< (l - cs)) % 2 ^ 32 = code * 2 ^ (l - cs) := by
      rw [Nat.shiftLeft_eq, Nat.mod_eq_of_lt]; norm_num at hle ⊢; omega
    have hmax : max cs l = l := by omega
    simp only [huffcodeGo, hmod, hmax, Nat.one_shiftLeft]
    have h16 : (2 : Nat) ^ 16 = 2 ^ l * 2 ^ (16 - l) := by rw [← pow_add]; congr 1; omega
    have hiff : code * 2 ^ (l - cs) ≥ 2 ^ l ↔ 2 ^ 16 ≤ kraft P := by
      rw [h16, ← hc2]
      exact ⟨fun h => Nat.mul_le_mul_right _ h, fun h => Nat.le_of_mul_le_mul_right h (by positivity)⟩
    have hd : 2 ^ (16 - l) ∣ kraft P := ⟨code * 2 ^ (l - cs), by rw [← hc2]; ring⟩
    by_cases hfull : 2 ^ 16 ≤ kraft P
    · rw [if_pos (hiff.2 hfull), if_neg]
      rw [kraft_append, kraft_cons]
      have : 0 < 2 ^ (16 - l) := by positivity
      omega
    · rw [if_neg (fun h => hfull (hiff.1 h))]
      have hd16 : 2 ^ (16 - l) ∣ 2 ^ 16 := pow_dvd_pow 2 (by omega)
      have hk' : kraft (P ++ [l]) ≤ 2 ^ 16 := by
        have := dvd_lt_add_le hd hd16 (by omega)
        simpa using this
      have hrec := ih (P ++ [l]) (code * 2 ^ (l - cs) + 1) l
        (by rw [Nat.add_mul, hc2]; simp) hl2
        (by intro x hx; simp only [List.mem_append, List.mem_singleton] at hx
            rcases hx with hx | rfl
            · have := hP x hx; omega
            · exact le_refl _)
        (by intro x hx
            exact ⟨List.rel_of_pairwise_cons hs hx, (hL x (by simp [hx])).2⟩)
        hs.of_cons hk'
      rw [hrec]
      have hcode' : code * 2 ^ (l - cs) % 2 ^ 16 = kraft P / 2 ^ (16 - l) := by
        have hlt : code * 2 ^ (l - cs) < 2 ^ l := by
          by_contra h; exact hfull (hiff.1 (by omega))
        rw [Nat.mod_eq_of_lt (lt_of_lt_of_le hlt (Nat.pow_le_pow_right (by omega) hl2)), ← hc2,
          Nat.mul_div_cancel _ (by positivity)]
      simp only [List.append_assoc, List.cons_append, List.nil_append, codesOf, hcode']
      split <;> rename_i h <;> split at h <;> simp_all

/-! ## Offsets -/

/-- `(val_offset, max_code)` for the lengths `l + 1 ..`, `P` being the shorter lengths. -/
def offsOf : List Nat → Nat → List UInt8 → List (Int × Int)
  | _, _, [] => []
  | P, l, n :: r =>
    (if n.toNat = 0 then (0, -1)
      else ((P.length : Int) - (kraft P / 2 ^ (15 - l) : Nat),
        ((kraft P + (n.toNat - 1) * 2 ^ (15 - l)) / 2 ^ (15 - l) : Nat))) ::
      offsOf (P ++ List.replicate n.toNat (l + 1)) (l + 1) r

theorem offsetsGo_eq (codes : List Nat) (pad : List Nat) (bits : List UInt8) :
    ∀ (P : List Nat) (l : Nat), codes = codesOf [] (P ++ sizesFrom l bits) →
    offsetsGo (codes ++ pad) bits P.length = .ok (offsOf P l bits) := by
  induction bits with
  | nil => intro P l _; rfl
  | cons n r ih =>
    intro P l hc
    have hc' : codes = codesOf [] ((P ++ List.replicate n.toNat (l + 1)) ++ sizesFrom (l + 1) r) := by
      rw [hc, sizesFrom, List.append_assoc]
    have hrec := ih _ _ hc'
    simp only [List.length_append, List.length_replicate] at hrec
    simp only [offsetsGo, offsOf]
    by_cases hn : n.toNat = 0
    · simp only [hn, ne_eq, not_true_eq_false, if_false, if_true]
      rw [hn] at hrec
      simp only [Nat.add_zero] at hrec
      rw [hrec]
    · have hlen : P.length + n.toNat ≤ codes.length := by
        rw [hc', codesOf_length]; simp
      have get : ∀ j, j < n.toNat → (codes ++ pad)[P.length + j]? =
          some ((kraft P + j * 2 ^ (15 - l)) / 2 ^ (15 - l)) := by
        intro j hj
        rw [List.getElem?_append_left (by omega), hc', codesOf_getElem?]
        · have e1 : (P ++ List.replicate n.toNat (l + 1) ++ sizesFrom (l + 1) r).take (P.length + j) =
              P ++ List.replicate j (l + 1) := by
            rw [List.append_assoc, List.take_length_add_append, List.take_append_of_le_length
              (by simp; omega), List.take_replicate]
            congr 2; omega
          have e2 : (P ++ List.replicate n.toNat (l + 1) ++ sizesFrom (l + 1) r)[P.length + j]'(by
              simp; omega) = l + 1 := by
            rw [List.getElem_append_left (by simp; omega), List.getElem_append_right (by omega)]
            simp
          rw [e1, e2]
          simp only [List.nil_append, kraft_append, kraft_replicate,
            show 16 - (l + 1) = 15 - l by omega]
        · simp; omega
      have g0 := get 0 (by omega)
      have g1 := get (n.toNat - 1) (by omega)
      simp only [Nat.add_zero, Nat.zero_mul] at g0
      rw [show P.length + (n.toNat - 1) = P.length + n.toNat - 1 by omega] at g1
      rw [if_pos hn, if_neg hn, g0, g1, hrec]

theorem offsOf_append (P : List Nat) (l : Nat) (a b : List UInt8) :
    offsOf P l (a ++ b) = offsOf P l a ++ offsOf (P ++ sizesFrom l a) (l + a.length) b := by
  induction a generalizing P l with
  | nil => simp [offsOf, sizesFrom]
  | cons n r ih =>
    simp only [List.cons_append, offsOf, ih, sizesFrom, List.length_cons, List.append_assoc]
    congr 3; omega

theorem offsOf_length (P : List Nat) (l : Nat) (a : List UInt8) :
    (offsOf P l a).length = a.length := by
  induction a generalizing P l with
  | nil => rfl
  | cons n r ih => simp [offsOf, ih]

/-! ## Lookup table -/

theorem fillSlots_getElem? {α : Type} {lut lut' : List α} {start len : Nat} {v : α}
    (h : fillSlots lut start len v = .ok lut') :
    lut'.length = lut.length ∧ ∀ i, lut'[i]? = if start ≤ i ∧ i < start + len then some v else lut[i]? := by
  unfold fillSlots at h
  split at h
  · simp at h
  · rename_i hlen
    injection h with h
    subst h
    refine ⟨by simp; omega, fun i => ?_⟩
    by_cases h1 : i < start
    · rw [if_neg (by omega), List.append_assoc, List.getElem?_append_left (by simp; omega),
        List.getElem?_take_of_lt h1]
    · by_cases h2 : i < start + len
      · rw [if_pos (by omega), List.getElem?_append_left (by simp; omega),
          List.getElem?_append_right (by simp; omega), List.getElem?_replicate_of_lt]
        simp; omega
      · rw [if_neg (by omega), List.getElem?_append_right (by simp; omega), List.getElem?_drop]
        congr 1; simp; omega

/-- State of the lookup table after the symbols `P`. -/
def LutOk (values : List UInt8) (P : List Nat) (lut : List (UInt8 × Nat)) : Prop :=
  lut.length = 256 ∧ ∀ i, i < 256 →
    (∃ k v, ∃ h : k < P.length, P[k] ≤ 8 ∧ values[k]? = some v ∧ kraft (P.take k) ≤ i * 256 ∧
      i * 256 < kraft (P.take (k + 1)) ∧ lut[i]? = some (v, P[k])) ∨
    ((∀ k (h : k < P.length), P[k] ≤ 8 → ¬ (kraft (P.take k) ≤ i * 256 ∧
      i * 256 < kraft (P.take (k + 1)))) ∧ lut[i]? = some (0, 0))

theorem lutGo_ok (values : List UInt8) (L : List Nat) (pad : List Nat) (R : List Nat) :
    ∀ (P : List Nat) (lut : List (UInt8 × Nat)), L = P ++ R → (∀ l ∈ L, 1 ≤ l ∧ l ≤ 16) →
    L.Pairwise (· ≤ ·) → kraft L ≤ 2 ^ 16 → L.length ≤ values.length → LutOk values P lut →
    ∃ lut', lutGo (codesOf [] L ++ pad) values P.length R lut = .ok lut' ∧ LutOk values L lut' := by
  induction R with
  | nil => intro P lut hL _ _ _ _ h; simp at hL; subst hL; exact ⟨lut, rfl, h⟩
  | cons l R ih =>
    intro P lut hL hr hs hk hv h
    have hL' : L = (P ++ [l]) ++ R := by rw [hL]; simp
    have hPl : P.length < L.length := by rw [hL]; simp
    have hLP : L[P.length] = l := by simp [hL]
    obtain ⟨hl1, hl16⟩ := hr l (by rw [hL]; simp)
    have hlenP : (P ++ [l]).length = P.length + 1 := by simp
    -- how the invariant moves on
    have mono : ∀ k (hk : k < P.length), ((P ++ [l]).take k = P.take k) ∧
        (P ++ [l]).take (k + 1) = P.take (k + 1) ∧ (P ++ [l])[k]'(by simp; omega) = P[k] := by
      intro k hk
      refine ⟨?_, ?_, ?_⟩
      · rw [List.take_append_of_le_length (by omega)]
      · rw [List.take_append_of_le_length (by omega)]
      · rw [List.getElem_append_left hk]
    by_cases hl : l ≤ 8
    · have hLut : LUT_BITS = 8 := rfl
      have hcode : (codesOf [] L ++ pad)[P.length]? = some (kraft P / 2 ^ (16 - l)) := by
        rw [List.getElem?_append_left (by rw [codesOf_length]; omega), codesOf_getElem? _ _ _ hPl]
        simp only [List.nil_append, hLP]
        rw [hL, List.take_left' rfl]
      have hval : values[P.length]? = some (values[P.length]'(by omega)) :=
        List.getElem?_eq_getElem (by omega)
      have hPle : ∀ x ∈ P, x ≤ l := by
        intro x hx
        rw [hL] at hs
        exact (List.pairwise_append.1 hs).2.2 x hx l (by simp)
      have hd : 2 ^ (16 - l) ∣ kraft P := kraft_dvd hl16 hPle
      obtain ⟨c, hc⟩ := hd
      have hcdiv : kraft P / 2 ^ (16 - l) = c := by
        rw [hc, Nat.mul_div_cancel_left _ (by positivity)]
      have hpow : (2 : Nat) ^ (16 - l) = 2 ^ (8 - l) * 256 := by
        rw [show (256 : Nat) = 2 ^ 8 from rfl, ← pow_add]; congr 1; omega
      have hk16 : kraft P + 2 ^ (16 - l) ≤ 2 ^ 16 := by
        have : kraft (P ++ [l]) ≤ kraft L := by rw [hL']; rw [kraft_append (P ++ [l])]; omega
        simp at this; omega
      have hstart : (c + 1) * 2 ^ (8 - l) ≤ 256 := by
        have : (c + 1) * 2 ^ (8 - l) * 256 ≤ 256 * 256 := by
          calc (c + 1) * 2 ^ (8 - l) * 256 = 2 ^ (16 - l) * c + 2 ^ (16 - l) := by rw [hpow]; ring
            _ ≤ 2 ^ 16 := by rw [← hc]; exact hk16
            _ = 256 * 256 := by norm_num
        omega
      have hmod : (c <<< (8 - l)) % 2 ^ 16 = c * 2 ^ (8 - l) := by
        rw [Nat.shiftLeft_eq, Nat.mod_eq_of_lt]
        rw [Nat.add_mul] at hstart; norm_num; omega
      have hfill : ∃ lut', fillSlots lut (c * 2 ^ (8 - l)) (1 <<< (8 - l))
          (values[P.length]'(by omega), l) = .ok lut' := by
        unfold fillSlots
        rw [if_neg (by rw [h.1, Nat.one_shiftLeft]; rw [Nat.add_mul] at hstart; omega)]
        exact ⟨_, rfl⟩
      obtain ⟨lut', hlut'⟩ := hfill
      have hspec := fillSlots_getElem? hlut'
      rw [Nat.one_shiftLeft] at hspec
      have hinv : LutOk values (P ++ [l]) lut' := by
        refine ⟨by rw [hspec.1, h.1], fun i hi => ?_⟩
        have hrange : (kraft P ≤ i * 256 ∧ i * 256 < kraft P + 2 ^ (16 - l)) ↔
            (c * 2 ^ (8 - l) ≤ i ∧ i < c * 2 ^ (8 - l) + 2 ^ (8 - l)) := by
          rw [hc, hpow]
          have e : 2 ^ (8 - l) * 256 * c = c * 2 ^ (8 - l) * 256 := by ring
          rw [e]; omega
        have hget := hspec.2 i
        by_cases hin : c * 2 ^ (8 - l) ≤ i ∧ i < c * 2 ^ (8 - l) + 2 ^ (8 - l)
        · left
          rw [if_pos hin] at hget
          have := hrange.2 hin
          refine ⟨P.length, values[P.length]'(by omega), by simp, by simpa using hl, hval, ?_, ?_, ?_⟩
          · rw [List.take_left' rfl]; exact this.1
          · rw [List.take_of_length_le (by simp)]; simpa using this.2
          · rw [hget]; simp
        · rw [if_neg hin] at hget
          rcases h.2 i hi with ⟨k, v, hk, h1, h2, h3, h4, h5⟩ | ⟨h1, h2⟩
          · left
            obtain ⟨m1, m2, m3⟩ := mono k hk
            exact ⟨k, v, by simp; omega, by rw [m3]; exact h1, h2, by rw [m1]; exact h3,
              by rw [m2]; exact h4, by rw [hget, h5, m3]⟩
          · right
            refine ⟨fun k hk hk8 => ?_, by rw [hget, h2]⟩
            by_cases hkP : k < P.length
            · obtain ⟨m1, m2, m3⟩ := mono k hkP
              rw [m1, m2]; rw [m3] at hk8
              exact h1 k hkP hk8
            · have : k = P.length := by simp at hk; omega
              subst this
              rw [List.take_left' rfl, List.take_of_length_le (by simp)]
              intro hh
              apply hin; apply hrange.1; simpa using hh
      obtain ⟨lut2, e2, h2⟩ := ih (P ++ [l]) lut' hL' hr hs hk hv hinv
      refine ⟨lut2, ?_, h2⟩
      rw [lutGo, if_pos (by rw [hLut]; exact hl), hcode, hval]
      simp only [hcdiv, hLut, hmod, hlut']
      rw [← hlenP]; exact e2
    · have hinv : LutOk values (P ++ [l]) lut := by
        refine ⟨h.1, fun i hi => ?_⟩
        rcases h.2 i hi with ⟨k, v, hk, h1, h2, h3, h4, h5⟩ | ⟨h1, h2⟩
        · left
          obtain ⟨m1, m2, m3⟩ := mono k hk
          exact ⟨k, v, by simp; omega, by rw [m3]; exact h1, h2, by rw [m1]; exact h3,
            by rw [m2]; exact h4, by rw [h5, m3]⟩
        · right
          refine ⟨fun k hk hk8 => ?_, h2⟩
          by_cases hkP : k < P.length
          · obtain ⟨m1, m2, m3⟩ := mono k hkP
            rw [m1, m2]; rw [m3] at hk8
            exact h1 k hkP hk8
          · have : k = P.length := by simp at hk; omega
            subst this
            simp at hk8; omega
      obtain ⟨lut2, e2, h2⟩ := ih (P ++ [l]) lut hL' hr hs hk hv hinv
      refine ⟨lut2, ?_, h2⟩
      rw [lutGo, if_neg (by simpa [LUT_BITS] using hl), ← hlenP]; exact e2

/-! ## The accepted tables -/

/-- What an accepted table looks like. -/
structure TableOk (L : List Nat) (counts : List UInt8) (values : List UInt8) (t : BaseTable) :
    Prop where
  sizes : L = codeSizes counts
  len : counts.length = 16
  ne : L ≠ []
  le256 : L.length ≤ 256
  kraft : kraft L ≤ 2 ^ 16
  lenV : L.length ≤ values.length
  vals : ∀ k, k < L.length → t.values[k]? = values[k]?
  offs : t.valOffset = (offsOf [] 0 counts).map Prod.fst
  maxC : t.maxCode = (offsOf [] 0 counts).map Prod.snd
  lut : LutOk values L t.lut

theorem codeSizes_range {counts : List UInt8} (h : counts.length = 16) :
    ∀ l ∈ codeSizes counts, 1 ≤ l ∧ l ≤ 16 := by
  intro l hl
  have := sizesFrom_mem hl
  omega

/-- `BaseTable::new`, completely: the four outcomes. -/
theorem BaseTable.new_cases (cfg : Cfg) (counts values : List UInt8) (hlen : counts.length = 16)
    (hv : (codeSizes counts).length ≤ values.length) (hv256 : values.length ≤ 256) :
    ((codeSizes counts) = [] → BaseTable.new cfg counts values = .error (.panic .emptyHuffman)) ∧
    (codeSizes counts ≠ [] → kraft (codeSizes counts) > 2 ^ 16 →
      BaseTable.new cfg counts values = .error (.err .badHuffCode)) ∧
    (codeSizes counts ≠ [] → kraft (codeSizes counts) ≤ 2 ^ 16 →
      ∃ t, BaseTable.new cfg counts values = .ok t ∧
        TableOk (codeSizes counts) counts values t) := by
  have hrange := codeSizes_range hlen
  have hsorted : (codeSizes counts).Pairwise (· ≤ ·) := sizesFrom_sorted 0 counts
  have hsz := huffsize_eq counts
  rw [if_pos (by omega)] at hsz
  unfold BaseTable.new
  rw [if_neg (by omega), hsz]
  generalize hL : codeSizes counts = L at *
  refine ⟨?_, ?_, ?_⟩
  · rintro rfl; rfl
  · intro hne hk
    match L, hne with
    | l0 :: r, _ =>
      have h0 := hrange l0 (by simp)
      have := huffcodeGo_eq (l0 :: r) [] 0 l0 (by simp) h0.2 (by simp)
        (by intro l hl
            refine ⟨?_, (hrange l hl).2⟩
            rcases List.mem_cons.1 hl with rfl | hl
            · exact le_refl _
            · exact List.rel_of_pairwise_cons hsorted hl) hsorted (by simp)
      rw [if_neg (by simpa using hk)] at this
      simp only [this]
  · intro hne hk
    match L, hne with
    | l0 :: r, hne =>
      have h0 := hrange l0 (by simp)
      have hcode := huffcodeGo_eq (l0 :: r) [] 0 l0 (by simp) h0.2 (by simp)
        (by intro l hl
            refine ⟨?_, (hrange l hl).2⟩
            rcases List.mem_cons.1 hl with rfl | hl
            · exact le_refl _
            · exact List.rel_of_pairwise_cons hsorted hl) hsorted (by simp)
      rw [if_pos (by simpa using hk)] at hcode
      have hoff := offsetsGo_eq (codesOf [] (l0 :: r))
        (List.replicate (256 - (codesOf [] (l0 :: r)).length) 0) counts [] 0
        (by rw [List.nil_append, ← hL]; rfl)
      have hlut0 : LutOk values [] (List.replicate (2 ^ LUT_BITS) (0, 0)) :=
        ⟨List.length_replicate, fun i hi => Or.inr ⟨by simp, by
          rw [List.getElem?_replicate_of_lt]; exact hi⟩⟩
      obtain ⟨lut, elut, hlut⟩ := lutGo_ok values (l0 :: r)
        (List.replicate (256 - (codesOf [] (l0 :: r)).length) 0) (l0 :: r) [] _ rfl
        hrange hsorted hk hv hlut0
      simp only [List.length_nil] at hoff elut
      refine ⟨_, by simp only [hcode, if_neg (show ¬ 256 < values.length by omega), hoff, elut]; rfl,
        ?_⟩
      exact ⟨hL.symm, hlen, hne, by omega, hk, hv,
        fun k hk => List.getElem?_append_left (by omega), rfl, rfl, hlut⟩

end Jpeg
