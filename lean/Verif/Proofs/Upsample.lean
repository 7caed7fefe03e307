import Verif.Model.Upsample
import Verif.Spec.Upsample
import Mathlib.Tactic.Linarith
import Mathlib.Tactic.Ring
/-!
# The upsamplers, column by column
-/

namespace Jpeg
open Spec

/-- Sample of a plane as a number. -/
def sampleOf (plane : List UInt8) (stride : Nat) (r x : Nat) : Nat := (plane.getD (r * stride + x) 0).toNat

theorem sampleOf_lt (plane : List UInt8) (stride r x : Nat) : sampleOf plane stride r x < 256 :=
  UInt8.toNat_lt _

theorem shiftRight2 (n : Nat) : n >>> 2 = n / 4 := by rw [Nat.shiftRight_eq_div_pow]
theorem shiftRight4 (n : Nat) : n >>> 4 = n / 16 := by rw [Nat.shiftRight_eq_div_pow]

theorem resize_length (l : List UInt8) (n : Nat) : (resize l n).length = n := by
  unfold resize; simp; omega

theorem slice_ok {l : List UInt8} {a b : Nat} (h1 : a ≤ b) (h2 : b ≤ l.length) :
    slice l a b = .ok ((l.take b).drop a) := by
  unfold slice; rw [if_neg (by omega)]

theorem getD_slice (l : List UInt8) (a b x : Nat) (hx : a + x < b) :
    ((l.take b).drop a).getD x 0 = l.getD (a + x) 0 := by
  simp only [List.getD_eq_getElem?_getD, List.getElem?_drop, List.getElem?_take, if_pos hx]

theorem getD_drop (l : List UInt8) (a x : Nat) : (l.drop a).getD x 0 = l.getD (a + x) 0 := by
  simp only [List.getD_eq_getElem?_getD, List.getElem?_drop]

theorem idx_ok {l : List UInt8} {i : Nat} (h : i < l.length) : idx l i = .ok (l.getD i 0).toNat := by
  unfold idx
  rw [List.getElem?_eq_getElem h, List.getD_eq_getElem?_getD, List.getElem?_eq_getElem h]
  rfl

theorem getD_set (l : List UInt8) (i x : Nat) (v : UInt8) (h : i < l.length) :
    (l.set i v).getD x 0 = if x = i then v else l.getD x 0 := by
  simp only [List.getD_eq_getElem?_getD, List.getElem?_set]
  by_cases hx : i = x
  · subst hx; simp [h]
  · rw [if_neg hx, if_neg (fun h => hx h.symm)]

theorem setIdx_ok {l : List UInt8} {i v : Nat} (h : i < l.length) :
    setIdx l i v = .ok (l.set i (UInt8.ofNat v)) := by
  unfold setIdx; rw [if_pos h]

theorem setIdx_err {l : List UInt8} {i v : Nat} (h : l.length ≤ i) :
    setIdx l i v = .error (.panic .index) := by
  unfold setIdx; rw [if_neg (by omega)]

theorem ofNat_toNat {n : Nat} (h : n < 256) : (UInt8.ofNat n).toNat = n := by
  rw [UInt8.toNat_ofNat']; exact Nat.mod_eq_of_lt h

theorem tri_lt {a b : Nat} (ha : a < 256) (hb : b < 256) : tri a b < 256 := by unfold tri; omega

/-! ## 1x1 -/

theorem upH1V1_ok {input : List UInt8} {stride row outW : Nat}
    (h : row * stride + outW ≤ input.length) :
    ∃ line, upH1V1 input stride row outW = .ok line ∧ line.length = outW ∧
      ∀ x, x < outW → (line.getD x 0).toNat = sampleOf input stride row x := by
  refine ⟨_, slice_ok (by omega) h, by simp; omega, ?_⟩
  intro x hx
  rw [getD_slice _ _ _ _ (by omega)]
  rfl

/-! ## 2x1 -/

theorem h2v1Go_get : ∀ (out input : List UInt8),
    (h2v1Go out input).length = out.length ∧
    ∀ x, (h2v1Go out input).getD x 0 =
      if x / 2 < out.length / 2 ∧ x / 2 + 2 < input.length then
        UInt8.ofNat (tri (input.getD (x / 2 + 1) 0).toNat (input.getD (if x % 2 = 0 then x / 2 else x / 2 + 2) 0).toNat)
      else out.getD x 0 := by
  intro out input
  induction out, input using h2v1Go.induct with
  | case1 o1 o2 out a b c rest ih =>
    obtain ⟨ih1, ih2⟩ := ih
    rw [h2v1Go]
    refine ⟨by simp [ih1], ?_⟩
    intro x
    rcases x with _ | _ | x
    · simp only [List.getD_cons_zero, List.length_cons, List.getD_cons_succ]
      rw [if_pos (by omega), shiftRight2]
      unfold tri
      simp
      congr 2
      omega
    · simp only [List.getD_cons_zero, List.length_cons, List.getD_cons_succ]
      rw [if_pos (by omega), shiftRight2]
      unfold tri
      simp
      congr 2
      omega
    · simp only [List.getD_cons_succ, List.length_cons] at ih2 ⊢
      rw [ih2]
      have h1 : (x + 1 + 1) / 2 = x / 2 + 1 := by omega
      have h2 : (x + 1 + 1) % 2 = x % 2 := by omega
      rw [h1, h2]
      by_cases hc : x / 2 < out.length / 2 ∧ x / 2 + 2 < rest.length + 1 + 1
      · have hc' : x / 2 + 1 < (out.length + 1 + 1) / 2 ∧ x / 2 + 1 + 2 < rest.length + 1 + 1 + 1 := by omega
        rw [if_pos hc, if_pos hc']
        congr 2
        · by_cases hp : x % 2 = 0
          · rw [if_pos hp, if_pos hp, List.getD_cons_succ]
          · rw [if_neg hp, if_neg hp]; rfl
      · have hc' : ¬ (x / 2 + 1 < (out.length + 1 + 1) / 2 ∧ x / 2 + 1 + 2 < rest.length + 1 + 1 + 1) := by omega
        rw [if_neg hc, if_neg hc']
  | case2 out input hn =>
    have e : h2v1Go out input = out := by
      unfold h2v1Go
      split
      · exact absurd rfl (hn _ _ _ _ _ _ _ rfl)
      · rfl
    rw [e]
    refine ⟨rfl, ?_⟩
    intro x
    rw [if_neg]
    rintro ⟨h1, h2⟩
    match out, input, hn with
    | [], _, _ => simp at h1
    | [_], _, _ => simp at h1
    | _ :: _ :: _, [], _ => simp at h2
    | _ :: _ :: _, [_], _ => simp at h2
    | _ :: _ :: _, [_, _], _ => simp at h2
    | o1 :: o2 :: out, a :: b :: c :: rest, hn => exact hn o1 o2 out a b c rest rfl rfl

theorem upH2V1_ok {input buf : List UInt8} {size : Dim} {stride row : Nat} (hw : 1 ≤ size.width)
    (h : row * stride + 2 * size.width ≤ input.length) :
    ∃ line, upH2V1 input size stride row (2 * size.width) buf = .ok line ∧
      line.length = 2 * size.width ∧
      ∀ x, x < 2 * size.width →
        (line.getD x 0).toNat = doubleLine size.width (sampleOf input stride row) x := by
  obtain ⟨w, hh⟩ := size
  simp only at hw h ⊢
  have hout := resize_length buf (2 * w)
  set out := resize buf (2 * w) with ho
  have hsl := slice_ok (l := input) (a := row * stride) (b := row * stride + 2 * w) (by omega) h
  set inp := (input.take (row * stride + 2 * w)).drop (row * stride) with hinp
  have hlen : inp.length = 2 * w := by rw [hinp]; simp; omega
  have hget : ∀ x, x < 2 * w → (inp.getD x 0).toNat = sampleOf input stride row x := by
    intro x hx
    rw [hinp, getD_slice _ _ _ _ (by omega)]
    rfl
  have hlt : ∀ x, sampleOf input stride row x < 256 := sampleOf_lt input stride row
  generalize sampleOf input stride row = f at hget hlt
  unfold upH2V1
  simp only [hsl, bind, Except.bind, ← ho]
  by_cases h1 : w = 1
  · subst h1
    rw [if_pos rfl, idx_ok (by omega)]
    simp only
    rw [setIdx_ok (by omega)]
    simp only
    rw [setIdx_ok (by rw [List.length_set]; omega)]
    refine ⟨_, rfl, by simp [hout], ?_⟩
    intro x hx
    rw [getD_set _ _ _ _ (by rw [List.length_set]; omega), getD_set _ _ _ _ (by omega), hget 0 (by omega)]
    have : x = 0 ∨ x = 1 := by omega
    rcases this with rfl | rfl
    · rw [if_neg (by omega), if_pos rfl, ofNat_toNat (hlt 0)]
      simp [doubleLine]
    · rw [if_pos rfl, ofNat_toNat (hlt 0)]
      simp [doubleLine]
  · rw [if_neg h1, idx_ok (by omega)]
    simp only
    rw [setIdx_ok (by omega)]
    simp only
    rw [idx_ok (by omega)]
    simp only
    rw [setIdx_ok (by rw [List.length_set]; omega)]
    simp only
    rw [if_neg (by omega), idx_ok (by omega)]
    simp only
    rw [idx_ok (by omega)]
    simp only
    set out1 := (out.set 0 (UInt8.ofNat (inp.getD 0 0).toNat)).set 1
      (UInt8.ofNat (((inp.getD 0 0).toNat * 3 + (inp.getD 1 0).toNat + 2) >>> 2)) with hout1
    have hl1 : out1.length = 2 * w := by rw [hout1]; simp [hout]
    obtain ⟨g1, g2⟩ := h2v1Go_get (out1.drop 2) inp
    have hl2 : (out1.take 2 ++ h2v1Go (out1.drop 2) inp).length = 2 * w := by
      simp [g1, hl1]; omega
    rw [setIdx_ok (by omega)]
    simp only
    rw [setIdx_ok (by rw [List.length_set]; omega)]
    refine ⟨_, rfl, by simp only [List.length_set]; exact hl2, ?_⟩
    intro x hx
    rw [getD_set _ _ _ _ (by rw [List.length_set]; omega), getD_set _ _ _ _ (by omega)]
    unfold doubleLine
    by_cases hx1 : x = (w - 1) * 2 + 1
    · rw [if_pos hx1, if_neg (by omega), if_pos (by omega), hget _ (by omega), ofNat_toNat (hlt _)]
    · rw [if_neg hx1]
      by_cases hx2 : x = (w - 1) * 2
      · rw [if_pos hx2, if_neg (by omega), if_neg (by omega), if_pos (by omega), shiftRight2,
          hget _ (by omega), hget _ (by omega), show x / 2 = w - 1 by omega, show w - 1 - 1 = w - 2 by omega]
        have e : f (w - 1) * 3 + f (w - 2) + 2 = 3 * f (w - 1) + f (w - 2) + 2 := by ring
        rw [e]
        exact ofNat_toNat (tri_lt (hlt _) (hlt _))
      · rw [if_neg hx2]
        by_cases hx3 : x < 2
        · have e : (out1.take 2 ++ h2v1Go (out1.drop 2) inp).getD x 0 = out1.getD x 0 := by
            simp only [List.getD_eq_getElem?_getD]
            rw [List.getElem?_append_left (by simp; omega), List.getElem?_take, if_pos hx3]
          rw [e, hout1, getD_set _ _ _ _ (by rw [List.length_set]; omega), getD_set _ _ _ _ (by omega),
            hget 0 (by omega), hget 1 (by omega)]
          have : x = 0 ∨ x = 1 := by omega
          rcases this with rfl | rfl
          · rw [if_neg (by omega), if_pos rfl, if_pos rfl, ofNat_toNat (hlt _)]
          · rw [if_pos rfl, if_neg (by omega), if_neg (by omega), if_neg (by omega), shiftRight2,
              show f 0 * 3 + f 1 + 2 = 3 * f 0 + f 1 + 2 by ring]
            exact ofNat_toNat (tri_lt (hlt _) (hlt _))
        · have e : (out1.take 2 ++ h2v1Go (out1.drop 2) inp).getD x 0 =
              (h2v1Go (out1.drop 2) inp).getD (x - 2) 0 := by
            simp only [List.getD_eq_getElem?_getD]
            rw [List.getElem?_append_right (by simp; omega)]
            congr 2
            simp; omega
          rw [e, g2, if_pos (by simp; omega), if_neg (show ¬ x = 0 by omega),
            if_neg (show ¬ x = 2 * w - 1 by omega),
            show (x - 2) / 2 + 1 = x / 2 by omega, show (x - 2) % 2 = x % 2 by omega,
            hget _ (by omega)]
          by_cases hx4 : x % 2 = 0
          · rw [if_pos hx4, if_pos hx4, hget _ (by omega), show (x - 2) / 2 = x / 2 - 1 by omega]
            exact ofNat_toNat (tri_lt (hlt _) (hlt _))
          · rw [if_neg hx4, if_neg hx4, hget _ (by omega), show (x - 2) / 2 + 2 = x / 2 + 1 by omega]
            exact ofNat_toNat (tri_lt (hlt _) (hlt _))

/-- An odd output width panics. -/
theorem upH2V1_odd {input buf : List UInt8} {size : Dim} {stride row outW : Nat}
    (hw : outW + 1 = 2 * size.width) (h : row * stride + outW ≤ input.length) (h2 : 1 ≤ outW) :
    upH2V1 input size stride row outW buf = .error (.panic .index) := by
  obtain ⟨w, hh⟩ := size
  simp only at hw ⊢
  have hout := resize_length buf outW
  set out := resize buf outW with ho
  have hsl := slice_ok (l := input) (a := row * stride) (b := row * stride + outW) (by omega) h
  set inp := (input.take (row * stride + outW)).drop (row * stride) with hinp
  have hlen : inp.length = outW := by rw [hinp]; simp; omega
  unfold upH2V1
  simp only [hsl, bind, Except.bind, ← ho]
  by_cases h1 : w = 1
  · rw [if_pos h1, idx_ok (by omega)]
    simp only
    rw [setIdx_ok (by omega)]
    simp only
    rw [setIdx_err (by rw [List.length_set]; omega)]
  · rw [if_neg h1, idx_ok (by omega)]
    simp only
    rw [setIdx_ok (by omega)]
    simp only
    rw [idx_ok (by omega)]
    simp only
    rw [setIdx_ok (by rw [List.length_set]; omega)]
    simp only
    rw [if_neg (by omega), idx_ok (by omega)]
    simp only
    rw [idx_ok (by omega)]
    simp only
    rw [setIdx_ok (by simp [(h2v1Go_get _ _).1, hout]; omega)]
    simp only
    rw [setIdx_err (by simp [(h2v1Go_get _ _).1, hout]; omega)]

/-- A row whose slice leaves the plane panics. -/
theorem upH2V1_short {input buf : List UInt8} {size : Dim} {stride row outW : Nat}
    (h : input.length < row * stride + outW) :
    upH2V1 input size stride row outW buf = .error (.panic .index) := by
  unfold upH2V1 slice
  simp only [bind, Except.bind]
  rw [if_pos (Or.inr h)]

/-! ## 1x2 -/

theorem nearFar_eq {row height : Nat} (hh : 1 ≤ height) (hr : row / 2 ≤ height - 1) :
    nearFar row height = .ok (row / 2, farRow height row) := by
  unfold nearFar farRow
  rw [if_neg (by omega)]
  simp only
  have key : ∀ z : Int, -1 ≤ z → (z.tdiv 4).toNat = (z / 4).toNat := by
    intro z hz
    by_cases h0 : 0 ≤ z
    · rw [Int.tdiv_eq_ediv_of_nonneg h0]
    · obtain rfl : z = -1 := by omega
      decide
  rw [key _ (by omega), key _ (by omega)]
  have e1 : (2 * (row : Int) / 4).toNat = row / 2 := by omega
  rw [e1]
  congr 2
  by_cases h : row % 2 = 0
  · rw [if_pos h]; omega
  · rw [if_neg h]; omega

theorem farRow_le {h row : Nat} (hr : row / 2 ≤ h - 1) : farRow h row ≤ h - 1 := by
  unfold farRow; split <;> omega

theorem h1v2Go_get : ∀ (out ns fs : List UInt8), out.length ≤ ns.length → out.length ≤ fs.length →
    (h1v2Go out ns fs).length = out.length ∧ ∀ x, x < out.length →
      (h1v2Go out ns fs).getD x 0 = UInt8.ofNat (tri (ns.getD x 0).toNat (fs.getD x 0).toNat) := by
  intro out
  induction out with
  | nil => intro ns fs _ _; unfold h1v2Go; simp
  | cons o out ih =>
    intro ns fs h1 h2
    match ns, fs, h1, h2 with
    | n :: ns, f :: fs, h1, h2 =>
      obtain ⟨i1, i2⟩ := ih ns fs (by simpa using h1) (by simpa using h2)
      rw [h1v2Go]
      refine ⟨by simp [i1], ?_⟩
      intro x hx
      cases x with
      | zero => simp [shiftRight2, tri]
      | succ x => simpa using i2 x (by simpa using hx)

theorem sliceFrom_ok {l : List UInt8} {a : Nat} (h : a ≤ l.length) : sliceFrom l a = .ok (l.drop a) := by
  unfold sliceFrom; rw [if_neg (by omega)]

theorem upH1V2_ok {input buf : List UInt8} {size : Dim} {stride row outW : Nat} (hh : 1 ≤ size.height)
    (hr : row / 2 ≤ size.height - 1) (h : (size.height - 1) * stride + outW ≤ input.length) :
    ∃ line, upH1V2 input size stride row outW buf = .ok line ∧ line.length = outW ∧
      ∀ x, x < outW →
        (line.getD x 0).toNat = doubleRows size.height (sampleOf input stride) row x := by
  have hfar := Nat.mul_le_mul_right stride (farRow_le hr)
  have hnear := Nat.mul_le_mul_right stride hr
  unfold upH1V2
  simp only [nearFar_eq hh hr, bind, Except.bind]
  rw [sliceFrom_ok (by omega)]
  simp only
  rw [sliceFrom_ok (by omega)]
  have hout := resize_length buf outW
  obtain ⟨g1, g2⟩ := h1v2Go_get (resize buf outW) (input.drop (row / 2 * stride))
    (input.drop (farRow size.height row * stride)) (by rw [hout, List.length_drop]; omega)
    (by rw [hout, List.length_drop]; omega)
  refine ⟨_, rfl, by rw [g1, hout], ?_⟩
  intro x hx
  rw [g2 x (by omega), getD_drop, getD_drop]
  exact ofNat_toNat (tri_lt (UInt8.toNat_lt _) (UInt8.toNat_lt _))

/-! ## 2x2 -/

theorem h2v2Go_get (T : Nat → Nat) : ∀ (n : Nat) (out ns fs : List UInt8) (k : Nat),
    out.length = 2 * n + 1 → n ≤ ns.length → n ≤ fs.length →
    (∀ j, j < n → T (k + j + 1) = 3 * (ns.getD j 0).toNat + (fs.getD j 0).toNat) →
    (h2v2Go out ns fs (T k)).2 = T (k + n) ∧ (h2v2Go out ns fs (T k)).1.length = out.length ∧
    ∀ x, x < 2 * n → (h2v2Go out ns fs (T k)).1.getD x 0 =
      UInt8.ofNat (if x % 2 = 0 then (3 * T (k + x / 2) + T (k + x / 2 + 1) + 8) / 16
        else (3 * T (k + x / 2 + 1) + T (k + x / 2) + 8) / 16) := by
  intro n
  induction n with
  | zero =>
    intro out ns fs k ho _ _ _
    match out, ho with
    | [o], _ => unfold h2v2Go; simp
  | succ n ih =>
    intro out ns fs k ho hn hf hT
    match out, ns, fs, ho, hn, hf with
    | o1 :: o2 :: out, m :: ns, f :: fs, ho, hn, hf =>
      have ht : 3 * m.toNat + f.toNat = T (k + 1) := by
        have := hT 0 (by omega)
        simpa using this.symm
      obtain ⟨i1, i2, i3⟩ := ih out ns fs (k + 1) (by simp at ho; omega) (by simpa using hn)
        (by simpa using hf) (by
          intro j hj
          have := hT (j + 1) (by omega)
          rw [show k + 1 + j + 1 = k + (j + 1) + 1 by omega, this]
          simp)
      rw [h2v2Go]
      simp only [ht]
      refine ⟨by rw [i1]; congr 1; omega, by simp [i2], ?_⟩
      intro x hx
      rcases x with _ | _ | x
      · simp [shiftRight4]
      · simp [shiftRight4]
      · simp only [List.getD_cons_succ]
        rw [i3 x (by omega), show (x + 1 + 1) % 2 = x % 2 by omega,
          show (x + 1 + 1) / 2 = x / 2 + 1 by omega,
          show k + 1 + x / 2 = k + (x / 2 + 1) by omega]

theorem upH2V2_ok {input buf : List UInt8} {size : Dim} {stride row : Nat} (hw : 1 ≤ size.width)
    (hh : 1 ≤ size.height) (hr : row / 2 ≤ size.height - 1)
    (h : (size.height - 1) * stride + size.width ≤ input.length) :
    ∃ line, upH2V2 input size stride row buf = .ok line ∧ line.length = 2 * size.width ∧
      ∀ x, x < 2 * size.width →
        (line.getD x 0).toNat = doubleBoth size.width size.height (sampleOf input stride) row x := by
  have hfar := Nat.mul_le_mul_right stride (farRow_le hr)
  have hnear := Nat.mul_le_mul_right stride hr
  obtain ⟨w, ht⟩ := size
  simp only at hw hh hr h hfar hnear ⊢
  unfold upH2V2
  simp only [nearFar_eq hh hr, bind, Except.bind]
  rw [sliceFrom_ok (by omega)]
  simp only
  rw [sliceFrom_ok (by omega)]
  simp only
  have hout := resize_length buf (w * 2)
  set out := resize buf (w * 2) with ho
  set N := input.drop (row / 2 * stride) with hN
  set F := input.drop (farRow ht row * stride) with hF
  have hNl : w ≤ N.length := by rw [hN, List.length_drop]; omega
  have hFl : w ≤ F.length := by rw [hF, List.length_drop]; omega
  have hNg : ∀ x, (N.getD x 0).toNat = sampleOf input stride (row / 2) x := by
    intro x; rw [hN, getD_drop]; rfl
  have hFg : ∀ x, (F.getD x 0).toNat = sampleOf input stride (farRow ht row) x := by
    intro x; rw [hF, getD_drop]; rfl
  have hN255 : ∀ x, sampleOf input stride (row / 2) x < 256 := fun _ => sampleOf_lt _ _ _ _
  have hF255 : ∀ x, sampleOf input stride (farRow ht row) x < 256 := fun _ => sampleOf_lt _ _ _ _
  unfold doubleBoth
  simp only
  set T : Nat → Nat := fun i => 3 * sampleOf input stride (row / 2) i + sampleOf input stride (farRow ht row) i
    with hTd
  have hT : ∀ i, T i ≤ 1020 := by
    intro i
    have := hN255 i
    have := hF255 i
    simp only [hTd]; omega
  have hTv : ∀ i, 3 * (N.getD i 0).toNat + (F.getD i 0).toNat = T i := by
    intro i; rw [hNg, hFg]
  by_cases h1 : w = 1
  · subst h1
    rw [if_pos rfl, idx_ok (by omega)]
    simp only
    rw [idx_ok (by omega)]
    simp only
    rw [setIdx_ok (by omega)]
    simp only
    rw [setIdx_ok (by rw [List.length_set]; omega)]
    refine ⟨_, rfl, by simp [hout], ?_⟩
    intro x hx
    rw [getD_set _ _ _ _ (by rw [List.length_set]; omega), getD_set _ _ _ _ (by omega), hTv, shiftRight2]
    have := hT 0
    have hx : x = 0 ∨ x = 1 := by omega
    rcases hx with rfl | rfl
    · rw [if_neg (by omega), if_pos rfl, if_pos rfl, ofNat_toNat (by omega)]
    · rw [if_pos rfl, if_neg (by omega), if_pos (by omega), ofNat_toNat (by omega)]
  · rw [if_neg h1, idx_ok (by omega)]
    simp only
    rw [idx_ok (by omega)]
    simp only
    rw [setIdx_ok (by omega)]
    simp only
    rw [sliceFrom_ok (by rw [List.length_set]; omega)]
    simp only
    rw [sliceFrom_ok (by omega)]
    simp only
    rw [sliceFrom_ok (by omega)]
    simp only
    rw [if_neg (by omega), hTv]
    set out1 := out.set 0 (UInt8.ofNat ((T 0 + 2) >>> 2)) with hout1
    have hl1 : out1.length = w * 2 := by rw [hout1, List.length_set, hout]
    obtain ⟨g1, g2, g3⟩ := h2v2Go_get T (w - 1) (out1.drop 1) (N.drop 1) (F.drop 1) 0
      (by rw [List.length_drop]; omega) (by rw [List.length_drop]; omega)
      (by rw [List.length_drop]; omega) (by
        intro j hj
        rw [getD_drop N, getD_drop F, ← hTv, Nat.add_comm 1 j, Nat.zero_add])
    have hl2 : (out1.take 1 ++ (h2v2Go (out1.drop 1) (N.drop 1) (F.drop 1) (T 0)).1).length = w * 2 := by
      rw [List.length_append, g2, List.length_take, List.length_drop]; omega
    rw [setIdx_ok (by omega)]
    refine ⟨_, rfl, by rw [List.length_set, hl2]; omega, ?_⟩
    intro x hx
    rw [getD_set _ _ _ _ (by omega), g1, Nat.zero_add]
    by_cases hx1 : x = w * 2 - 1
    · rw [if_pos hx1, if_neg (by omega), if_pos (by omega), shiftRight2]
      have := hT (w - 1)
      exact ofNat_toNat (by omega)
    · rw [if_neg hx1]
      by_cases hx0 : x = 0
      · subst hx0
        rw [if_pos rfl]
        have e : (out1.take 1 ++ (h2v2Go (out1.drop 1) (N.drop 1) (F.drop 1) (T 0)).1).getD 0 0 =
            out1.getD 0 0 := by
          simp only [List.getD_eq_getElem?_getD]
          rw [List.getElem?_append_left (by simp; omega), List.getElem?_take, if_pos (by omega)]
        rw [e, hout1, getD_set _ _ _ _ (by omega), if_pos rfl, shiftRight2]
        have := hT 0
        exact ofNat_toNat (by omega)
      · have e : (out1.take 1 ++ (h2v2Go (out1.drop 1) (N.drop 1) (F.drop 1) (T 0)).1).getD x 0 =
            (h2v2Go (out1.drop 1) (N.drop 1) (F.drop 1) (T 0)).1.getD (x - 1) 0 := by
          simp only [List.getD_eq_getElem?_getD]
          rw [List.getElem?_append_right (by simp; omega)]
          congr 2
          rw [List.length_take]; omega
        rw [e, g3 (x - 1) (by omega), if_neg hx0, if_neg (show ¬ x = 2 * w - 1 by omega)]
        simp only [Nat.zero_add]
        by_cases hp : x % 2 = 0
        · rw [if_neg (by omega), if_pos hp, show (x - 1) / 2 + 1 = x / 2 by omega,
            show (x - 1) / 2 = x / 2 - 1 by omega]
          have := hT (x / 2)
          have := hT (x / 2 - 1)
          exact ofNat_toNat (by omega)
        · rw [if_pos (by omega), if_neg hp, show (x - 1) / 2 = x / 2 by omega]
          have := hT (x / 2)
          have := hT (x / 2 + 1)
          exact ofNat_toNat (by omega)

/-! ## Nearest neighbour -/

theorem genericGo_get {hs : Nat} (h0 : 0 < hs) : ∀ (input out : List UInt8),
    (genericGo hs out input).length = out.length ∧
    ∀ x, (genericGo hs out input).getD x 0 =
      if x / hs < out.length / hs ∧ x / hs < input.length then input.getD (x / hs) 0 else out.getD x 0 := by
  intro input
  induction input with
  | nil => intro out; unfold genericGo; simp
  | cons v vs ih =>
    intro out
    rw [genericGo]
    by_cases h : out.length < hs
    · rw [if_pos h]
      refine ⟨rfl, ?_⟩
      intro x
      rw [if_neg]
      rw [Nat.div_eq_of_lt h]
      exact fun h => Nat.not_lt_zero _ h.1
    · rw [if_neg h]
      obtain ⟨i1, i2⟩ := ih (out.drop hs)
      refine ⟨by simp [i1]; omega, ?_⟩
      intro x
      have hd : out.length / hs = (out.drop hs).length / hs + 1 := by
        rw [List.length_drop, ← Nat.add_div_right _ h0, show out.length - hs + hs = out.length by omega]
      by_cases hx : x < hs
      · rw [Nat.div_eq_of_lt hx, if_pos ⟨by rw [hd]; exact Nat.succ_pos _, by simp⟩]
        simp only [List.getD_eq_getElem?_getD]
        rw [List.getElem?_append_left (by simpa using hx), List.getElem?_replicate, if_pos hx]
        simp
      · have hdx : x / hs = (x - hs) / hs + 1 := by
          rw [← Nat.add_div_right _ h0, show x - hs + hs = x by omega]
        have e : (List.replicate hs v ++ genericGo hs (out.drop hs) vs).getD x 0 =
            (genericGo hs (out.drop hs) vs).getD (x - hs) 0 := by
          simp only [List.getD_eq_getElem?_getD]
          rw [List.getElem?_append_right (by simp; omega)]
          simp
        rw [e, i2, hd, hdx]
        simp only [List.length_cons, Nat.add_lt_add_iff_right, List.getD_cons_succ]
        split
        · rfl
        · simp only [List.getD_eq_getElem?_getD, List.getElem?_drop]
          congr 2; omega

theorem getD_resize (l : List UInt8) (n x : Nat) (hx : x < n) : (resize l n).getD x 0 = l.getD x 0 := by
  unfold resize
  simp only [List.getD_eq_getElem?_getD]
  by_cases h : x < l.length
  · rw [List.getElem?_append_left (by simp; omega), List.getElem?_take, if_pos hx]
  · rw [List.getElem?_append_right (by simp; omega), List.getElem?_eq_none (by omega : l.length ≤ x)]
    rw [List.getElem?_replicate]
    split <;> rfl

theorem upGeneric_ok {input buf : List UInt8} {size : Dim} {hs vs stride row outW : Nat} (hs0 : 0 < hs)
    (hw : outW / hs ≤ size.width) (h : row / vs * stride + size.width ≤ input.length) :
    ∃ line, upGeneric hs vs input size stride row outW buf = .ok line ∧ line.length = outW ∧
      (∀ x, x < outW / hs * hs →
        (line.getD x 0).toNat = nearest hs vs (sampleOf input stride) row x) ∧
      ∀ x, outW / hs * hs ≤ x → x < outW → line.getD x 0 = buf.getD x 0 := by
  unfold upGeneric
  simp only [slice_ok (Nat.le_add_right _ _) h, bind, Except.bind]
  rw [if_neg (by omega)]
  have hout := resize_length buf outW
  set inp := (input.take (row / vs * stride + size.width)).drop (row / vs * stride) with hinp
  have hlen : inp.length = size.width := by rw [hinp]; simp; omega
  obtain ⟨g1, g2⟩ := genericGo_get hs0 inp (resize buf outW)
  refine ⟨_, rfl, by rw [g1, hout], ?_, ?_⟩
  · intro x hx
    have hlt : x / hs < outW / hs := by rwa [Nat.div_lt_iff_lt_mul hs0]
    rw [g2, if_pos ⟨by rw [hout]; exact hlt, by rw [hlen]; omega⟩, hinp, getD_slice _ _ _ _ (by omega)]
    rfl
  · intro x h1 h2
    rw [g2, if_neg, getD_resize _ _ _ h2]
    rintro ⟨h3, _⟩
    rw [hout, Nat.div_lt_iff_lt_mul hs0] at h3
    omega

end Jpeg
