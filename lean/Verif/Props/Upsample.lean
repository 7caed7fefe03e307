import Verif.Proofs.UpsampleImage
/-!
# C29 to C34: upsampling
-/

namespace Jpeg
open Spec

/-- **C29** (part). Take any component of an accepted frame, its complete plane, any row, any old
contents of the line buffer. If the chosen upsampler returns a line, then column `x` of the line is
the sample of the upsampled component.

Missing: with the nearest neighbour upsampler the columns of an incomplete last group, see
`C29_trailing_columns_violated`. -/
theorem C29_filters_partial (W Ht H V : Nat) (c : Component) (g : ComponentGeometry W Ht H V c)
    (hH : c.h ≤ H) (hV : c.v ≤ V) (hW : 1 ≤ W) (row : Nat) (hrow : row < Ht) (u : Upsample)
    (hu : chooseUpsampler (c.h, c.v) (H, V) ⟨W, Ht⟩ = .ok u) (plane buf line buf' : List UInt8)
    (hlen : plane.length = c.lineStride * (8 * c.blockSize.height))
    (e : u.upsampleRow plane c.size (c.blockSize.width * 8) row W buf = .ok (line, buf'))
    (x : Nat) (hx : x < W) (hgen : ∀ hs vs, u = .generic hs vs → x < W / hs * hs) :
    ∃ b, line[x]? = some b ∧ b.toNat = upsampled W Ht H V c.h c.v c.size.width c.size.height
      (fun r x => (plane.getD (r * c.lineStride + x) 0).toNat) row x := by
  rw [← planeSize_eq g] at hlen
  have hcov : Covered u W x := by
    unfold Covered
    split
    · exact hgen _ _ rfl
    · exact hx
  by_cases hfit : RowFits u W c row
  · obtain ⟨line', b', e', hl, hv, -⟩ := componentRow_ok' (buf := buf) g hH hV hW hrow hu hlen hfit
    rw [e] at e'
    simp only [Except.ok.injEq, Prod.mk.injEq] at e'
    obtain ⟨rfl, rfl⟩ := e'
    refine ⟨line.getD x 0, ?_, ?_⟩
    · rw [List.getD_eq_getElem?_getD, List.getElem?_eq_getElem (by omega)]; rfl
    · have hlt : rowValue u W c plane row x < 256 ∧
          rowValue u W c plane row x = upsampled W Ht H V c.h c.v c.size.width c.size.height
            (sampleOf plane c.lineStride) row x := by
        refine ⟨?_, rowValue_spec hu hcov⟩
        unfold rowValue
        have hs : ∀ r x, sampleOf plane c.lineStride r x < 256 := sampleOf_lt _ _
        have ht : ∀ a b, a < 256 → b < 256 → tri a b < 256 := fun a b => tri_lt
        split
        · exact hs _ _
        · unfold doubleLine
          split
          · exact hs _ _
          · split
            · exact hs _ _
            · split <;> exact ht _ _ (hs _ _) (hs _ _)
        · exact ht _ _ (hs _ _) (hs _ _)
        · unfold doubleBoth
          simp only
          have key : ∀ i, 3 * sampleOf plane c.lineStride (row / 2) i +
              sampleOf plane c.lineStride (farRow c.size.height row) i ≤ 1020 := by
            intro i
            have := hs (row / 2) i
            have := hs (farRow c.size.height row) i
            omega
          split
          · have := key 0; omega
          · split
            · have := key (c.size.width - 1); omega
            · split
              · have := key (x / 2); have := key (x / 2 - 1); omega
              · have := key (x / 2); have := key (x / 2 + 1); omega
        · split
          · exact hs _ _
          · omega
      rw [hv x hcov, ofNat_toNat hlt.1, hlt.2]
      rfl
  · rw [componentRow_panics g hH hV hW hrow hu hlen hfit] at e
    simp at e

/-- **C29** (violated). With the nearest neighbour upsampler every column of an incomplete last group
is 0 in every row, whatever the samples are: the line buffer starts empty, these columns are never
written, and no row changes that. -/
theorem C29_trailing_columns_violated (W Ht H V : Nat) (c : Component) (g : ComponentGeometry W Ht H V c)
    (hH : c.h ≤ H) (hV : c.v ≤ V) (hW : 1 ≤ W) (row : Nat) (hrow : row < Ht) (hs vs : Nat)
    (hu : chooseUpsampler (c.h, c.v) (H, V) ⟨W, Ht⟩ = .ok (.generic hs vs)) (plane buf : List UInt8)
    (hlen : plane.length = c.lineStride * (8 * c.blockSize.height))
    (hbuf : ∀ x, W / hs * hs ≤ x → x < buf.length → buf[x]? = some 0) :
    ∃ line, (Upsample.generic hs vs).upsampleRow plane c.size (c.blockSize.width * 8) row W buf =
        .ok (line, line) ∧ line.length = W ∧
      ∀ x, W / hs * hs ≤ x → x < W → line[x]? = some 0 := by
  rw [← planeSize_eq g] at hlen
  have hb : BufOk (.generic hs vs) W buf := by
    intro x hx
    rw [List.getD_eq_getElem?_getD]
    by_cases h : x < buf.length
    · rw [hbuf x hx h]; rfl
    · rw [List.getElem?_eq_none (by omega)]; rfl
  obtain ⟨line, b', e, h1, h2, h3⟩ := componentRow_ok g hH hV hW hrow hu hlen (fun h => by simp at h) hb
  have e' := e
  simp only [Upsample.upsampleRow, bind, Except.bind, pure, Except.pure] at e'
  cases hl : upGeneric hs vs plane c.size (c.blockSize.width * 8) row W buf with
  | error f => rw [hl] at e'; simp at e'
  | ok l =>
    rw [hl] at e'
    simp only [Except.ok.injEq, Prod.mk.injEq] at e'
    obtain ⟨rfl, rfl⟩ := e'
    have hlen : l.length = W := by
      unfold upGeneric at hl
      simp only [bind, Except.bind] at hl
      split at hl
      · simp at hl
      · split at hl
        · simp at hl
        · injection hl with hl
          rw [← hl, (genericGo_get (by omega) _ _).1, resize_length]
    refine ⟨l, e, hlen, ?_⟩
    intro x hx hxW
    have := h3 x hxW
    unfold rowValue at this
    simp only at this
    rw [if_neg (by omega), List.getD_eq_getElem?_getD, List.getElem?_eq_getElem (by omega)] at this
    rw [List.getElem?_eq_getElem (by omega)]
    exact congrArg some this

/-- A component of 4 by 1 samples under 10 by 1 pixels (ratio 3), in one block. -/
def exampleThird : Component := ⟨1, 1, 1, 0, 1, 8, ⟨8, 8⟩, 64, ⟨1, 1⟩, ⟨4, 1⟩⟩

theorem exampleThird_geometry : ComponentGeometry 10 1 3 1 exampleThird :=
  ⟨by decide, by decide, by decide, by decide, by decide, by decide, by decide⟩

/-- A case of C29: the tenth column of the fully white component comes out black. -/
example : chooseUpsampler (1, 1) (3, 1) ⟨10, 1⟩ = .ok (.generic 3 1) ∧
    (Upsample.generic 3 1).upsampleRow (List.replicate 64 255) exampleThird.size 8 0 10 [] =
      .ok ([255, 255, 255, 255, 255, 255, 255, 255, 255, 0], [255, 255, 255, 255, 255, 255, 255, 255, 255, 0]) := by
  decide

/-- A case of C29: a line of four samples doubled. -/
example : upH2V1 [10, 20, 40, 80, 0, 0, 0, 0, 0, 0, 0, 0, 0, 0, 0, 0] ⟨4, 2⟩ 8 0 8 [] =
    .ok [10, 13, 18, 25, 35, 50, 70, 80] := by decide

/-! ## C30 -/

/-- The upsampler of an integer ratio. -/
def ratioUpsampler : Nat → Nat → Upsample
  | 1, 1 => .h1v1
  | 2, 1 => .h2v1
  | 1, 2 => .h1v2
  | 2, 2 => .h2v2
  | a, b => .generic a b

/-- **C30** (integer ratios). A component whose sampling factors divide the largest ones is accepted
and, in an image of at least two pixels in both directions, gets the upsampler of its ratio. -/
theorem C30_integer_ratio (h v a b W Ht : Nat) (hh : 1 ≤ h) (hv : 1 ≤ v) (ha : 1 ≤ a) (hb : 1 ≤ b) :
    (∃ u, chooseUpsampler (h, v) (h * a, v * b) ⟨W, Ht⟩ = .ok u) ∧
    (W ≠ 1 → Ht ≠ 1 →
      chooseUpsampler (h, v) (h * a, v * b) ⟨W, Ht⟩ = .ok (ratioUpsampler a b)) := by
  have e1 : ∀ k : Nat, 1 ≤ k → ∀ m n, k * m = k * n ↔ m = n := fun k hk m n =>
    Nat.mul_right_inj (by omega)
  have hh1 : h = h * a ↔ a = 1 := by
    have := e1 h hh 1 a
    rw [Nat.mul_one] at this
    rw [this]; exact eq_comm
  have hv1 : v = v * b ↔ b = 1 := by
    have := e1 v hv 1 b
    rw [Nat.mul_one] at this
    rw [this]; exact eq_comm
  have hh2 : h * 2 = h * a ↔ a = 2 := by rw [e1 h hh]; exact eq_comm
  have hv2 : v * 2 = v * b ↔ b = 2 := by rw [e1 v hv]; exact eq_comm
  have hmod : ¬ (h * a % h ≠ 0 ∨ v * b % v ≠ 0) := by simp
  unfold chooseUpsampler
  simp only
  rw [if_neg hmod, Nat.mul_div_cancel_left _ (by omega), Nat.mul_div_cancel_left _ (by omega)]
  simp only [hh1, hv1, hh2, hv2]
  constructor
  · repeat' split
    all_goals exact ⟨_, rfl⟩
  · intro hw ht
    simp only [hw, ht, or_false]
    match a, b, ha, hb with
    | 1, 1, _, _ => rfl
    | 1, 2, _, _ => rfl
    | 2, 1, _, _ => rfl
    | 2, 2, _, _ => rfl
    | 1, b + 3, _, _ => simp [ratioUpsampler]
    | 2, b + 3, _, _ => simp [ratioUpsampler]
    | a + 3, 1, _, _ => simp [ratioUpsampler]
    | a + 3, 2, _, _ => simp [ratioUpsampler]
    | a + 3, b + 3, _, _ => simp [ratioUpsampler]

/-- **C30** (the whole decision). -/
theorem C30_selection (h v H V W Ht : Nat) :
    let h1 := h = H ∨ W = 1
    let v1 := v = V ∨ Ht = 1
    let h2 := 2 * h = H
    let v2 := 2 * v = V
    (chooseUpsampler (h, v) (H, V) ⟨W, Ht⟩ = .ok .h1v1 ↔ h1 ∧ v1) ∧
    (chooseUpsampler (h, v) (H, V) ⟨W, Ht⟩ = .ok .h2v1 ↔ ¬ h1 ∧ h2 ∧ v1) ∧
    (chooseUpsampler (h, v) (H, V) ⟨W, Ht⟩ = .ok .h1v2 ↔ h1 ∧ ¬ v1 ∧ v2 ∧ ¬ (h2 ∧ v1)) ∧
    (chooseUpsampler (h, v) (H, V) ⟨W, Ht⟩ = .ok .h2v2 ↔ ¬ h1 ∧ ¬ v1 ∧ h2 ∧ v2) ∧
    (∀ p, chooseUpsampler (h, v) (H, V) ⟨W, Ht⟩ ≠ .error (.panic p)) ∧
    (chooseUpsampler (h, v) (H, V) ⟨W, Ht⟩ = .error (.err .nonIntegerSubsampling) ↔
      ¬ ((h1 ∨ h2) ∧ (v1 ∨ v2)) ∧ (H % h ≠ 0 ∨ V % v ≠ 0)) := by
  intro h1 v1 h2 v2
  have hh2 : h * 2 = H ↔ h2 := by rw [Nat.mul_comm]
  have hv2 : v * 2 = V ↔ v2 := by rw [Nat.mul_comm]
  unfold chooseUpsampler
  simp only [hh2, hv2]
  by_cases a : h = H ∨ W = 1 <;> by_cases b : v = V ∨ Ht = 1 <;> by_cases c : h2 <;> by_cases d : v2 <;>
    by_cases e : H % h ≠ 0 ∨ V % v ≠ 0 <;> simp [h1, v1, a, b, c, d, e]

/-- **C30** (frames). For an accepted frame of at most four components: every component gets an
upsampler, or the frame is rejected as unsupported because one component has none; no panic. -/
theorem C30_frame (frame : Frame) (h4 : frame.components.length ≤ 4)
    (H V : Nat) (hH : Largest (·.h) frame.components H) (hV : Largest (·.v) frame.components V) (out : Dim) :
    (upsamplerNew frame.components out = .error (.err .nonIntegerSubsampling) ∧
      ∃ c ∈ frame.components, chooseUpsampler (c.h, c.v) (H, V) out = .error (.err .nonIntegerSubsampling)) ∨
    ∃ us, upsamplerNew frame.components out = .ok us ∧ us.length = frame.components.length ∧
      ∀ (i : Nat) c, frame.components[i]? = some c → ∃ u, chooseUpsampler (c.h, c.v) (H, V) out = .ok u ∧
        us[i]? = some ⟨u, c.size, c.blockSize.width * 8⟩ := by
  have hne : frame.components ≠ [] := by
    obtain ⟨c, hc, _⟩ := hH.2
    exact List.ne_nil_of_mem hc
  obtain ⟨H', e1⟩ := listMax?_some (l := frame.components.map (·.h)) (by simpa using hne)
  obtain ⟨V', e2⟩ := listMax?_some (l := frame.components.map (·.v)) (by simpa using hne)
  obtain rfl := hH.unique (listMax?_largest _ _ _ e1)
  obtain rfl := hV.unique (listMax?_largest _ _ _ e2)
  have key : ∀ cs : List Component,
      (upsamplerComponents (H, V) out cs = .error (.err .nonIntegerSubsampling) ∧
        ∃ c ∈ cs, chooseUpsampler (c.h, c.v) (H, V) out = .error (.err .nonIntegerSubsampling)) ∨
      ∃ us, upsamplerComponents (H, V) out cs = .ok us ∧ us.length = cs.length ∧
        ∀ (i : Nat) c, cs[i]? = some c → ∃ u, chooseUpsampler (c.h, c.v) (H, V) out = .ok u ∧
          us[i]? = some ⟨u, c.size, c.blockSize.width * 8⟩ := by
    intro cs
    induction cs with
    | nil => right; exact ⟨[], rfl, rfl, by simp⟩
    | cons c cs ih =>
      simp only [upsamplerComponents, bind, Except.bind, pure, Except.pure]
      have hc : chooseUpsampler (c.h, c.v) (H, V) out = .error (.err .nonIntegerSubsampling) ∨
          ∃ u, chooseUpsampler (c.h, c.v) (H, V) out = .ok u := by
        unfold chooseUpsampler
        simp only
        repeat' split
        all_goals first | exact Or.inl rfl | exact Or.inr ⟨_, rfl⟩
      rcases hc with hc | ⟨u, hc⟩
      · left
        rw [hc]
        exact ⟨rfl, c, by simp, hc⟩
      · rw [hc]
        simp only
        rcases ih with ⟨e, c', hc', he⟩ | ⟨us, e, hl, hi⟩
        · left
          rw [e]
          exact ⟨rfl, c', by simp [hc'], he⟩
        · right
          rw [e]
          refine ⟨_, rfl, by simp [hl], ?_⟩
          intro i c' h
          cases i with
          | zero =>
            simp only [List.getElem?_cons_zero, Option.some.injEq] at h
            subst h
            exact ⟨u, hc, rfl⟩
          | succ i => exact hi i c' h
  unfold upsamplerNew
  rw [e1, e2]
  simp only [bind, Except.bind, pure, Except.pure]
  rcases key frame.components with ⟨e, c, hc, he⟩ | ⟨us, e, hl, hi⟩
  · left
    rw [e]
    exact ⟨rfl, c, hc, he⟩
  · right
    rw [e]
    simp only
    rw [if_neg (by unfold MAX_COMPONENTS; omega)]
    exact ⟨us, rfl, hl, hi⟩

example : chooseUpsampler (2, 1) (3, 1) ⟨10, 10⟩ = .error (.err .nonIntegerSubsampling) ∧
    chooseUpsampler (2, 1) (3, 1) ⟨1, 10⟩ = .ok .h1v1 ∧
    chooseUpsampler (1, 1) (4, 2) ⟨10, 10⟩ = .ok (.generic 4 2) := by decide

/-! ## C31 -/

theorem tri_between {a b lo hi : Nat} (ha : lo ≤ a ∧ a ≤ hi) (hb : lo ≤ b ∧ b ≤ hi) :
    lo ≤ tri a b ∧ tri a b ≤ hi := by unfold tri; omega

theorem upsampled_between {W Ht H V : Nat} {c : Component} (g : ComponentGeometry W Ht H V c)
    (hH : c.h ≤ H) (hV : c.v ≤ V) (hW : 1 ≤ W) {row : Nat} (hrow : row < Ht) {u : Upsample}
    (hu : chooseUpsampler (c.h, c.v) (H, V) ⟨W, Ht⟩ = .ok u) {x : Nat} (hx : x < W)
    (f : Nat → Nat → Nat) {lo hi : Nat}
    (hf : ∀ r i, r < c.size.height → i < c.size.width →
      r ≤ row / (V / c.v) + 1 → row / (V / c.v) ≤ r + 1 →
      i ≤ x / (H / c.h) + 1 → x / (H / c.h) ≤ i + 1 → lo ≤ f r i ∧ f r i ≤ hi) :
    lo ≤ upsampled W Ht H V c.h c.v c.size.width c.size.height f row x ∧
      upsampled W Ht H V c.h c.v c.size.width c.size.height f row x ≤ hi := by
  have F := Facts.of g hH hV hW (by omega)
  obtain ⟨f1, f2, f3, f4⟩ := g.factors
  have hw1 : 1 ≤ c.size.width := by
    rw [g.size]; exact ceilDiv_pos (Nat.mul_pos (by omega) (by omega)) (by omega)
  have hh1 : 1 ≤ c.size.height := by
    rw [g.size]; exact ceilDiv_pos (Nat.mul_pos (by omega) (by omega)) (by omega)
  have dself : ∀ a, 1 ≤ a → a / a = 1 := fun a h => Nat.div_self h
  -- a column, resp. row, at ratio one
  have col1 : (c.h = H ∨ W = 1) → x < c.size.width ∧ x / (H / c.h) ≤ x ∧ x ≤ x / (H / c.h) := by
    rintro (h | h)
    · rw [← h, dself _ f1, Nat.div_one, F.fullW h]; omega
    · obtain rfl : x = 0 := by omega
      rw [Nat.zero_div]; omega
  have row1 : (c.v = V ∨ Ht = 1) → row < c.size.height ∧ row / (V / c.v) ≤ row ∧ row ≤ row / (V / c.v) := by
    rintro (h | h)
    · rw [← h, dself _ f3, Nat.div_one, F.fullH h]; omega
    · obtain rfl : row = 0 := by omega
      rw [Nat.zero_div]; omega
  have col2 : 2 * c.h = H → H / c.h = 2 ∧ c.size.width = (W + 1) / 2 := fun h =>
    ⟨by rw [← h, Nat.mul_div_cancel _ (by omega)], F.halfW h⟩
  have row2 : 2 * c.v = V → V / c.v = 2 ∧ c.size.height = (Ht + 1) / 2 := fun h =>
    ⟨by rw [← h, Nat.mul_div_cancel _ (by omega)], F.halfH h⟩
  have far : 2 * c.v = V → farRow c.size.height row < c.size.height ∧
      farRow c.size.height row ≤ row / 2 + 1 ∧ row / 2 ≤ farRow c.size.height row + 1 := by
    intro h
    have := (row2 h).2
    unfold farRow
    split <;> omega
  unfold upsampled
  split
  · rename_i h
    obtain ⟨a1, a2, a3⟩ := col1 h.1
    obtain ⟨b1, b2, b3⟩ := row1 h.2
    exact hf _ _ b1 a1 (by omega) (by omega) (by omega) (by omega)
  · split
    · rename_i h
      obtain ⟨e, hw⟩ := col2 h.1
      obtain ⟨b1, b2, b3⟩ := row1 h.2
      rw [e] at hf
      have hfr : ∀ i, i < c.size.width → i ≤ x / 2 + 1 → x / 2 ≤ i + 1 → lo ≤ f row i ∧ f row i ≤ hi :=
        fun i h1 h2 h3 => hf row i b1 h1 (by omega) (by omega) h2 h3
      unfold doubleLine
      split
      · exact hfr _ (by omega) (by omega) (by omega)
      · split
        · exact hfr _ (by omega) (by omega) (by omega)
        · split
          · exact tri_between (hfr _ (by omega) (by omega) (by omega)) (hfr _ (by omega) (by omega) (by omega))
          · exact tri_between (hfr _ (by omega) (by omega) (by omega)) (hfr _ (by omega) (by omega) (by omega))
    · split
      · rename_i h
        obtain ⟨a1, a2, a3⟩ := col1 h.1
        obtain ⟨e, hh⟩ := row2 h.2
        obtain ⟨c1, c2, c3⟩ := far h.2
        rw [e] at hf
        exact tri_between (hf _ _ (by omega) a1 (by omega) (by omega) (by omega) (by omega))
          (hf _ _ c1 a1 (by omega) (by omega) (by omega) (by omega))
      · split
        · rename_i h
          obtain ⟨e, hw⟩ := col2 h.1
          obtain ⟨e', hh⟩ := row2 h.2
          obtain ⟨c1, c2, c3⟩ := far h.2
          rw [e, e'] at hf
          have ht : ∀ i, i < c.size.width → i ≤ x / 2 + 1 → x / 2 ≤ i + 1 →
              4 * lo ≤ 3 * f (row / 2) i + f (farRow c.size.height row) i ∧
              3 * f (row / 2) i + f (farRow c.size.height row) i ≤ 4 * hi := by
            intro i h1 h2 h3
            have := hf (row / 2) i (by omega) h1 (by omega) (by omega) h2 h3
            have := hf (farRow c.size.height row) i c1 h1 (by omega) (by omega) h2 h3
            omega
          unfold doubleBoth
          simp only
          split
          · have := ht 0 (by omega) (by omega) (by omega); omega
          · split
            · have := ht (c.size.width - 1) (by omega) (by omega) (by omega); omega
            · split
              · have := ht (x / 2) (by omega) (by omega) (by omega)
                have := ht (x / 2 - 1) (by omega) (by omega) (by omega)
                omega
              · have := ht (x / 2) (by omega) (by omega) (by omega)
                have := ht (x / 2 + 1) (by omega) (by omega) (by omega)
                omega
        · rename_i n1 n2 n3 n4
          have hgen : H % c.h = 0 ∧ V % c.v = 0 := by
            rcases chooseUpsampler_cases hu with ⟨_, h⟩ | ⟨_, _, h⟩ | ⟨_, _, _, h⟩ | ⟨_, _, _, _, h⟩ |
              ⟨_, _, _, _, _, h⟩ <;> omega
          have hs0 : 0 < H / c.h := Nat.div_pos hH (by omega)
          have vs0 : 0 < V / c.v := Nat.div_pos hV (by omega)
          have hxw : x / (H / c.h) < c.size.width := by
            rw [F.divW hgen.1, Nat.div_lt_iff_lt_mul hs0]
            have := ceilDiv_le_mul (a := W) (b := H / c.h) hs0
            omega
          have hrv : row / (V / c.v) < c.size.height := by
            rw [F.divH hgen.2, Nat.div_lt_iff_lt_mul vs0]
            have := ceilDiv_le_mul (a := Ht) (b := V / c.v) vs0
            omega
          exact hf _ _ hrv hxw (Nat.le_succ _) (Nat.le_succ _) (Nat.le_succ _) (Nat.le_succ _)

/-- **C31.** Whatever bounds hold for the samples of the component at most one row and one column away
from the (scaled down) position hold for the interpolated sample. Together with the absence of
truncation in C29 (`b.toNat` is the exact weighted mean): the sample lies between the smallest and the
largest of its neighbours. -/
theorem C31_between_neighbours (W Ht H V : Nat) (c : Component) (g : ComponentGeometry W Ht H V c)
    (hH : c.h ≤ H) (hV : c.v ≤ V) (hW : 1 ≤ W) (row : Nat) (hrow : row < Ht) (u : Upsample)
    (hu : chooseUpsampler (c.h, c.v) (H, V) ⟨W, Ht⟩ = .ok u) (plane buf line buf' : List UInt8)
    (hlen : plane.length = c.lineStride * (8 * c.blockSize.height))
    (e : u.upsampleRow plane c.size (c.blockSize.width * 8) row W buf = .ok (line, buf'))
    (x : Nat) (hx : x < W) (hgen : ∀ hs vs, u ≠ .generic hs vs) (lo hi : Nat)
    (hf : ∀ r i, r < c.size.height → i < c.size.width →
      r ≤ row / (V / c.v) + 1 → row / (V / c.v) ≤ r + 1 →
      i ≤ x / (H / c.h) + 1 → x / (H / c.h) ≤ i + 1 →
      lo ≤ (plane.getD (r * c.lineStride + i) 0).toNat ∧ (plane.getD (r * c.lineStride + i) 0).toNat ≤ hi) :
    ∃ b, line[x]? = some b ∧ lo ≤ b.toNat ∧ b.toNat ≤ hi := by
  obtain ⟨b, h1, h2⟩ := C29_filters_partial W Ht H V c g hH hV hW row hrow u hu plane buf line buf' hlen e
    x hx (fun hs vs h => absurd h (hgen hs vs))
  exact ⟨b, h1, by rw [h2]; exact upsampled_between g hH hV hW hrow hu hx _ hf⟩

/-- A case of C31 at the extremes: 255 next to 0. -/
example : upH2V1 [255, 0, 255, 255, 0, 0, 0, 0, 0, 0, 0, 0, 0, 0, 0, 0] ⟨4, 2⟩ 8 0 8 [] =
    .ok [255, 191, 64, 64, 191, 255, 255, 255] := by decide

/-! ## C32 -/

/-- **C32** (part). Upsampling and colour conversion of a decoded frame succeed, in both builds, if no
component runs into the defects of the 2x1 upsampler: no component with half the horizontal and the full
vertical resolution in an image that is odd in width, or has a multiple of 8 lines, vertical factors 1,
and more than `8 h` columns.

Missing: exactly these frames, see `C32_violated`. (YCCK frames panic in the colour conversion, see
C28.) -/
theorem C32_no_panic_partial (cfg : Cfg) (d : Decoder) (frame : Frame) (h : Decoded d frame)
    (hW : 1 ≤ frame.samplesPerLine) (f : ColorConvertFunc)
    (hf : chooseColorConvert frame.components.length d.colorTransform = .ok f) (hk : f ≠ .ycck)
    (ucs : List UpsamplerComponent)
    (hu : upsamplerNew frame.components ⟨frame.samplesPerLine, frame.lines⟩ = .ok ucs)
    (H V : Nat) (hH : Largest (·.h) frame.components H) (hV : Largest (·.v) frame.components V)
    (hgood : ∀ c ∈ frame.components, 2 * c.h = H → (c.v = V ∨ frame.lines = 1) → frame.samplesPerLine ≠ 1 →
      frame.samplesPerLine % 2 = 0 ∧
      (V = 1 → frame.lines % 8 = 0 → frame.samplesPerLine ≤ 8 * c.h)) :
    ∃ image, upsample cfg d = .ok image ∧
      image.length = frame.samplesPerLine * frame.lines * frame.components.length := by
  obtain ⟨H', V', us, hH', hV', hv, hV1, rfl, hc, h4⟩ := h.comps hu
  obtain rfl := hH.unique hH'
  obtain rfl := hV.unique hV'
  refine ⟨_, upsample_eq h hf hk hv hV1 hu hc h4 hW ?_, ?_⟩
  · intro y hy i u c h1 h2
    obtain ⟨plane, _, hci⟩ := hc.get i u c h1 h2
    exact rowFits_of hci hW (hgood c (List.mem_of_getElem? h2)) hy
  · rw [List.length_flatMap]
    simp only [convLine_length f _ _ _ _ hf hk]
    simp
    ring

/-- **C32** (violated). In the remaining frames (with at least one line) upsampling panics. -/
theorem C32_violated (cfg : Cfg) (d : Decoder) (frame : Frame) (h : Decoded d frame)
    (hW : 1 ≤ frame.samplesPerLine) (hL : 1 ≤ frame.lines) (f : ColorConvertFunc)
    (hf : chooseColorConvert frame.components.length d.colorTransform = .ok f)
    (ucs : List UpsamplerComponent)
    (hu : upsamplerNew frame.components ⟨frame.samplesPerLine, frame.lines⟩ = .ok ucs)
    (H V : Nat) (hH : Largest (·.h) frame.components H) (hV : Largest (·.v) frame.components V)
    (hbad : ∃ c ∈ frame.components, 2 * c.h = H ∧ (c.v = V ∨ frame.lines = 1) ∧ frame.samplesPerLine ≠ 1 ∧
      (frame.samplesPerLine % 2 = 1 ∨
        (V = 1 ∧ frame.lines % 8 = 0 ∧ 8 * c.h < frame.samplesPerLine))) :
    ∃ p, upsample cfg d = .error (.panic p) := by
  obtain ⟨H', V', us, hH', hV', hv, hV1, rfl, hc, h4⟩ := h.comps hu
  obtain rfl := hH.unique hH'
  obtain rfl := hV.unique hV'
  obtain ⟨c, hcm, hbad⟩ := hbad
  obtain ⟨i, hi, rfl⟩ := List.getElem_of_mem hcm
  have h2 := List.getElem?_eq_getElem hi
  have h1 := List.getElem?_eq_getElem (l := us) (i := i) (by rw [hc.length.1]; exact hi)
  obtain ⟨plane, _, hci⟩ := hc.get i _ _ h1 h2
  obtain ⟨y, hy, hnot⟩ := rowFits_not (cfg := cfg) hci hW hL hbad
  exact upsample_panics h hf hv hV1 hu hc h4 hW hy ⟨i, _, _, h1, h2, hnot⟩

/-- 16 pixels wide, 4:2:2 (2x1, 1x1, 1x1). -/
def frame422 (lines : Nat) : Frame :=
  ⟨0, 8, lines, 16, ⟨1, 1⟩, [⟨1, 2, 1, 0, 2, 16, ⟨16, 8⟩, 128, ⟨2, 1⟩, ⟨16, lines⟩⟩,
    ⟨2, 1, 1, 0, 1, 8, ⟨8, 8⟩, 64, ⟨1, 1⟩, ⟨8, lines⟩⟩,
    ⟨3, 1, 1, 0, 1, 8, ⟨8, 8⟩, 64, ⟨1, 1⟩, ⟨8, lines⟩⟩]⟩

/-- A decoder with that frame and complete planes. -/
def decoder422 (lines : Nat) : Decoder :=
  { Decoder.default with
    frame := some (frame422 lines)
    planes := [List.replicate 128 100, List.replicate 64 128, List.replicate 64 128] }

theorem decoder422_decoded (lines : Nat) (h : lines = 7 ∨ lines = 8) :
    Decoded (decoder422 lines) (frame422 lines) := by
  refine ⟨rfl, ?_, .cons rfl (.cons rfl (.cons rfl .nil))⟩
  refine ⟨by rcases h with rfl | rfl <;> decide, by rcases h with rfl | rfl <;> decide, 2, 1, ⟨by rcases h with rfl | rfl <;> decide,
    by rcases h with rfl | rfl <;> decide⟩, ⟨by rcases h with rfl | rfl <;> decide,
    by rcases h with rfl | rfl <;> decide⟩, by rcases h with rfl | rfl <;> decide, ?_⟩
  intro c hc
  simp only [frame422, List.mem_cons, List.not_mem_nil, or_false] at hc
  rcases h with rfl | rfl <;> rcases hc with rfl | rfl | rfl <;>
    exact ⟨by decide, by decide, by decide, by decide, by decide, by decide, by decide⟩

/-- Cases of C32: 16 by 7 pixels work, 16 by 8 pixels panic (in the last row). -/
example : (∃ image, upsample ⟨true, false⟩ (decoder422 7) = .ok image) ∧
    ∃ p, upsample ⟨true, false⟩ (decoder422 8) = .error (.panic p) := by
  constructor
  · obtain ⟨image, h, _⟩ := C32_no_panic_partial ⟨true, false⟩ (decoder422 7) (frame422 7)
      (decoder422_decoded 7 (Or.inl rfl)) (by decide) .ycbcr rfl (by decide) _ rfl 2 1
      ⟨by decide, by decide⟩ ⟨by decide, by decide⟩ (by decide)
    exact ⟨image, h⟩
  · exact C32_violated ⟨true, false⟩ (decoder422 8) (frame422 8) (decoder422_decoded 8 (Or.inr rfl))
      (by decide) (by decide) .ycbcr rfl _ rfl 2 1 ⟨by decide, by decide⟩ ⟨by decide, by decide⟩ (by decide)

/-! ## C33 -/

/-- The upsampled sample of component `c`. -/
def upAt (frame : Frame) (H V : Nat) (c : Component) (plane : List UInt8) (row x : Nat) : UInt8 :=
  UInt8.ofNat (upsampled frame.samplesPerLine frame.lines H V c.h c.v c.size.width c.size.height
    (fun r x => (plane.getD (r * c.lineStride + x) 0).toNat) row x)

/-- No component is upsampled by nearest neighbour with an incomplete last group of columns (C29). -/
def CompleteColumns (frame : Frame) (H V : Nat) : Prop :=
  ∀ c ∈ frame.components, ∀ hs vs,
    chooseUpsampler (c.h, c.v) (H, V) ⟨frame.samplesPerLine, frame.lines⟩ = .ok (.generic hs vs) →
    frame.samplesPerLine % hs = 0

theorem flatMap_get {f : Nat → List UInt8} {k : Nat} (hf : ∀ i, (f i).length = k) :
    ∀ (n i j : Nat), i < n → j < k → ((List.range n).flatMap f)[k * i + j]? = (f i)[j]? := by
  intro n
  induction n generalizing f with
  | zero => intro i j h; omega
  | succ n ih =>
    intro i j hi hj
    rw [List.range_succ_eq_map, List.flatMap_cons, List.flatMap_map]
    rcases i with _ | i
    · rw [Nat.mul_zero, Nat.zero_add, List.getElem?_append_left (by rw [hf]; omega)]
    · rw [Nat.mul_succ, List.getElem?_append_right (by rw [hf]; omega), hf,
        show k * i + k + j - k = k * i + j by omega]
      exact ih (f := fun i => f (i + 1)) (fun i => hf _) i j (by omega) hj

/-- Success of `upsample` read backwards. -/
theorem upsample_success {cfg : Cfg} {d : Decoder} {frame : Frame} (h : Decoded d frame) {image : List UInt8}
    (e : upsample cfg d = .ok image) (f : ColorConvertFunc)
    (hf : chooseColorConvert frame.components.length d.colorTransform = .ok f) (hk : f ≠ .ycck)
    {H V : Nat} (hH : Largest (·.h) frame.components H) (hV : Largest (·.v) frame.components V) :
    ∃ us, CompsOk frame.samplesPerLine frame.lines H V us frame.components d.planes ∧
      1 ≤ frame.samplesPerLine ∧ 1 ≤ V ∧
      image = (List.range frame.lines).flatMap fun y => convLine f frame.samplesPerLine
        (rowVals us frame.samplesPerLine frame.components d.planes (rowOf cfg V y)) := by
  have e' := e
  unfold upsample at e'
  rw [h.has] at e'
  simp only [hf] at e'
  cases hu : upsamplerNew frame.components ⟨frame.samplesPerLine, frame.lines⟩ with
  | error x => rw [hu] at e'; simp at e'
  | ok ucs =>
    rw [hu] at e'
    simp only at e'
    obtain ⟨H', V', us, hH', hV', hv, hV1, rfl, hc, h4⟩ := h.comps hu
    obtain rfl := hH.unique hH'
    obtain rfl := hV.unique hV'
    rw [hv] at e'
    simp only at e'
    split at e'
    · simp at e'
    · rename_i hls
      have hW : 1 ≤ frame.samplesPerLine := by
        rcases Nat.eq_zero_or_pos frame.samplesPerLine with h0 | h0
        · rw [h0] at hls; simp at hls
        · exact h0
      by_cases hgood : ∀ y, y < frame.lines → ∀ (i : Nat) u c, us[i]? = some u →
          frame.components[i]? = some c → RowFits u frame.samplesPerLine c (rowOf cfg V y)
      · have := upsample_eq h hf hk hv hV1 hu hc h4 hW hgood
        rw [e] at this
        exact ⟨us, hc, hW, hV1, Except.ok.inj this⟩
      · exfalso
        apply hgood
        intro y hy i u c h1 h2
        by_contra h3
        obtain ⟨p, hp⟩ := upsample_panics h hf hv hV1 hu hc h4 hW hy ⟨i, u, c, h1, h2, h3⟩
        rw [e] at hp
        simp at hp

theorem rowVals_upAt {frame : Frame} {H V : Nat} {us : List Upsample} {planes : List (List UInt8)}
    (hc : CompsOk frame.samplesPerLine frame.lines H V us frame.components planes)
    (hcol : CompleteColumns frame H V) {i : Nat} {c : Component} {p : List UInt8}
    (h1 : frame.components[i]? = some c) (h2 : planes[i]? = some p) {row x : Nat}
    (hx : x < frame.samplesPerLine) :
    rowVals us frame.samplesPerLine frame.components planes row i x = upAt frame H V c p row x := by
  have hi : i < us.length := by
    rw [hc.length.1]
    by_contra hn
    rw [List.getElem?_eq_none (by omega)] at h1
    simp at h1
  have hu := List.getElem?_eq_getElem hi
  obtain ⟨p', hp', hci⟩ := hc.get i _ _ hu h1
  rw [h2] at hp'
  obtain rfl := Option.some.inj hp'
  rw [rowVals_eq hu h1 h2, rowValue_spec hci.choose]
  · rfl
  · unfold Covered
    split
    · rename_i hs vs heq
      have := hcol c (List.mem_of_getElem? h1) hs vs (by rw [hci.choose, heq])
      rw [Nat.div_mul_cancel (Nat.dvd_of_mod_eq_zero this)]
      exact hx
    · exact hx

/-- **C33** (what the code does). A successful conversion of a frame of three components without Adobe
transform 0: pixel `(x, y)` is the colour of the three upsampled components in column `x` of row
`y / V * V` (sequential build; `V` is the largest vertical factor) resp. `y / V` (rayon). -/
theorem C33_group_row (cfg : Cfg) (d : Decoder) (frame : Frame) (h : Decoded d frame) (image : List UInt8)
    (e : upsample cfg d = .ok image) (c0 c1 c2 : Component) (p0 p1 p2 : List UInt8)
    (hcs : frame.components = [c0, c1, c2]) (hps : d.planes = [p0, p1, p2])
    (hct : d.colorTransform ≠ some .unknown)
    (H V : Nat) (hH : Largest (·.h) frame.components H) (hV : Largest (·.v) frame.components V)
    (hcol : CompleteColumns frame H V) (y x : Nat) (hy : y < frame.lines) (hx : x < frame.samplesPerLine) :
    let row := if cfg.rayon then y / V else y / V * V
    ∃ r g b, ycbcrToRgb (upAt frame H V c0 p0 row x) (upAt frame H V c1 p1 row x)
        (upAt frame H V c2 p2 row x) = .ok (r, g, b) ∧
      image[3 * frame.samplesPerLine * y + (3 * x)]? = some r ∧
      image[3 * frame.samplesPerLine * y + (3 * x + 1)]? = some g ∧
      image[3 * frame.samplesPerLine * y + (3 * x + 2)]? = some b := by
  intro row
  have hf : chooseColorConvert frame.components.length d.colorTransform = .ok .ycbcr := by
    rw [hcs]
    show (if d.colorTransform = some .unknown then _ else _) = _
    rw [if_neg hct]
  obtain ⟨us, hc, hW, hV1, rfl⟩ := upsample_success h e .ycbcr hf (by decide) hH hV
  have hlen : ∀ y, (convLine .ycbcr frame.samplesPerLine
      (rowVals us frame.samplesPerLine frame.components d.planes (rowOf cfg V y))).length =
      3 * frame.samplesPerLine := by
    intro y
    rw [convLine_length _ _ _ _ _ hf (by decide), hcs, Nat.mul_comm]; rfl
  have hv : ∀ i c p, frame.components[i]? = some c → d.planes[i]? = some p →
      rowVals us frame.samplesPerLine frame.components d.planes (rowOf cfg V y) i x =
        upAt frame H V c p row x := fun i c p h1 h2 => rowVals_upAt hc hcol h1 h2 hx
  refine ⟨_, _, _, ycbcrToRgb_eq _ _ _, ?_⟩
  have key : ∀ j, j < 3 → ((List.range frame.lines).flatMap fun y => convLine .ycbcr frame.samplesPerLine
        (rowVals us frame.samplesPerLine frame.components d.planes (rowOf cfg V y)))[
        3 * frame.samplesPerLine * y + (3 * x + j)]? =
      (rgbPixel (upAt frame H V c0 p0 row x) (upAt frame H V c1 p1 row x) (upAt frame H V c2 p2 row x))[j]? := by
    intro j hj
    rw [flatMap_get hlen frame.lines y (3 * x + j) hy (by omega)]
    show ((List.range frame.samplesPerLine).flatMap fun x => _)[3 * x + j]? = _
    rw [flatMap_get (k := 3) (fun _ => rfl) frame.samplesPerLine x j hx hj,
      hv 0 c0 p0 (by rw [hcs]; rfl) (by rw [hps]; rfl), hv 1 c1 p1 (by rw [hcs]; rfl) (by rw [hps]; rfl),
      hv 2 c2 p2 (by rw [hcs]; rfl) (by rw [hps]; rfl)]
  exact ⟨key 0 (by omega), key 1 (by omega), key 2 (by omega)⟩

/-- **C33** (part). With vertical sampling factors 1 every pixel comes from its own row.

Missing: frames with a larger vertical factor, where it is false: `C33_violated`. -/
theorem C33_own_row_partial (cfg : Cfg) (d : Decoder) (frame : Frame) (h : Decoded d frame) (image : List UInt8)
    (e : upsample cfg d = .ok image) (c0 c1 c2 : Component) (p0 p1 p2 : List UInt8)
    (hcs : frame.components = [c0, c1, c2]) (hps : d.planes = [p0, p1, p2])
    (hct : d.colorTransform ≠ some .unknown)
    (H : Nat) (hH : Largest (·.h) frame.components H) (hV : ∀ c ∈ frame.components, c.v = 1)
    (hcol : CompleteColumns frame H 1) (y x : Nat) (hy : y < frame.lines) (hx : x < frame.samplesPerLine) :
    ∃ r g b, ycbcrToRgb (upAt frame H 1 c0 p0 y x) (upAt frame H 1 c1 p1 y x)
        (upAt frame H 1 c2 p2 y x) = .ok (r, g, b) ∧
      image[3 * frame.samplesPerLine * y + (3 * x)]? = some r ∧
      image[3 * frame.samplesPerLine * y + (3 * x + 1)]? = some g ∧
      image[3 * frame.samplesPerLine * y + (3 * x + 2)]? = some b := by
  have key := C33_group_row cfg d frame h image e c0 c1 c2 p0 p1 p2 hcs hps hct H 1 hH
    ⟨fun c hc => Nat.le_of_eq (hV c hc), c0, by rw [hcs]; simp, hV c0 (by rw [hcs]; simp)⟩ hcol y x hy hx
  simp only [Nat.div_one, Nat.mul_one, ite_self] at key
  exact key

/-- **C33** (violated). Whenever the largest vertical factor `V` is above 1, all lines of a group of
`V` lines come out identical, whatever the planes are. -/
theorem C33_violated (cfg : Cfg) (d : Decoder) (frame : Frame) (h : Decoded d frame) (image : List UInt8)
    (e : upsample cfg d = .ok image) (f : ColorConvertFunc)
    (hf : chooseColorConvert frame.components.length d.colorTransform = .ok f) (hk : f ≠ .ycck)
    (V : Nat) (hV : Largest (·.v) frame.components V) (y y' : Nat) (hy : y < frame.lines)
    (hy' : y' < frame.lines) (hg : y / V = y' / V) (k : Nat)
    (hx : k < frame.samplesPerLine * frame.components.length) :
    image[frame.samplesPerLine * frame.components.length * y + k]? =
      image[frame.samplesPerLine * frame.components.length * y' + k]? := by
  obtain ⟨_, _, H, _, hH, _, _, _⟩ := h.geo
  obtain ⟨us, hc, hW, hV1, rfl⟩ := upsample_success h e f hf hk hH hV
  have hlen : ∀ y, (convLine f frame.samplesPerLine
      (rowVals us frame.samplesPerLine frame.components d.planes (rowOf cfg V y))).length =
      frame.samplesPerLine * frame.components.length := fun y => convLine_length _ _ _ _ _ hf hk
  rw [flatMap_get hlen _ _ _ hy hx, flatMap_get hlen _ _ _ hy' hx]
  unfold rowOf
  rw [hg]

/-- One column of 3 pixels; all components with vertical factor 2 (full resolution). -/
def frameV2 : Frame :=
  ⟨0, 8, 3, 1, ⟨1, 1⟩, [⟨1, 1, 2, 0, 2, 8, ⟨8, 16⟩, 128, ⟨1, 2⟩, ⟨1, 3⟩⟩,
    ⟨2, 1, 2, 0, 2, 8, ⟨8, 16⟩, 128, ⟨1, 2⟩, ⟨1, 3⟩⟩, ⟨3, 1, 2, 0, 2, 8, ⟨8, 16⟩, 128, ⟨1, 2⟩, ⟨1, 3⟩⟩]⟩

/-- Luma rows 10, 20, 30; neutral chroma. -/
def decoderV2 : Decoder :=
  { Decoder.default with
    frame := some frameV2
    planes := [List.replicate 8 10 ++ List.replicate 8 20 ++ List.replicate 8 30 ++ List.replicate 104 0,
      List.replicate 128 128, List.replicate 128 128] }

theorem decoderV2_decoded : Decoded decoderV2 frameV2 := by
  refine ⟨rfl, ?_, .cons (by decide +kernel) (.cons (by decide +kernel) (.cons (by decide +kernel) .nil))⟩
  refine ⟨by decide, by decide, 1, 2, ⟨by decide, by decide⟩, ⟨by decide, by decide⟩, by decide, ?_⟩
  intro c hc
  simp only [frameV2, List.mem_cons, List.not_mem_nil, or_false] at hc
  rcases hc with rfl | rfl | rfl <;>
    exact ⟨by decide, by decide, by decide, by decide, by decide, by decide, by decide⟩

/-- A case of the violation: the column of greys 10, 20, 30 comes out as 10, 10, 30 (and as 10, 10, 20
with rayon). -/
theorem C33_violated_witness :
    Decoded decoderV2 frameV2 ∧
    upsample ⟨true, false⟩ decoderV2 = .ok [10, 10, 10, 10, 10, 10, 30, 30, 30] ∧
    upsample ⟨true, true⟩ decoderV2 = .ok [10, 10, 10, 10, 10, 10, 20, 20, 20] :=
  ⟨decoderV2_decoded, by decide +kernel, by decide +kernel⟩

/-! ## C34 -/

theorem upsampleGroups_rayon {b : Bool} {f : ColorConvertFunc} {us : List UpsamplerComponent}
    {planes : List (List UInt8)} {W vMax : Nat} : ∀ (fuel row group : Nat) (bufs lines : List (List UInt8)),
    row = group → vMax ≤ 1 ∨ lines.length ≤ vMax →
    upsampleGroups ⟨b, true⟩ f us planes W vMax fuel row group bufs lines =
      upsampleGroups ⟨b, false⟩ f us planes W vMax fuel row group bufs lines := by
  intro fuel
  induction fuel with
  | zero => intros; rfl
  | succ fuel ih =>
    intro row group bufs lines hr hv
    subst hr
    rw [upsampleGroups, upsampleGroups]
    have e : ∀ bufs r, upsampleAndInterleaveRow ⟨b, true⟩ us planes bufs r W =
        upsampleAndInterleaveRow ⟨b, false⟩ us planes bufs r W := fun _ _ => rfl
    simp only [e, if_true, Bool.false_eq_true, if_false]
    split
    · rfl
    · split
      · rfl
      · split
        · rfl
        · rename_i bufs' _ _ _ _
          rcases hv with hv | hv
          · rw [show max vMax 1 = 1 by omega, ih (row + 1) (row + 1) _ _ rfl (Or.inl hv)]
          · have hd : lines.drop (max vMax 1) = [] := List.drop_eq_nil_of_le (by omega)
            rw [hd]
            have hnil : ∀ c fuel r g, upsampleGroups c f us planes W vMax fuel r g bufs' [] = .ok [] := by
              intro c fuel r g
              cases fuel <;> simp [upsampleGroups]
            rw [hnil, hnil]

/-- **C34** (part). For vertical factors 1, and for images of at most one group of lines, both builds
give the same result (image, error or panic) for every decoder state.

Missing: other vertical factors, where it is false: `C34_violated`. -/
theorem C34_rayon_partial (b : Bool) (d : Decoder)
    (h : ∀ frame, d.frame = some frame → (∀ c ∈ frame.components, c.v ≤ 1) ∨
      ∃ V, Largest (·.v) frame.components V ∧ frame.lines ≤ V) :
    upsample ⟨b, true⟩ d = upsample ⟨b, false⟩ d := by
  unfold upsample
  split
  · rfl
  · rename_i frame hfr
    split
    · rfl
    · split
      · rfl
      · simp only
        split
        · rfl
        · rename_i vMax hv
          split
          · rfl
          · rw [upsampleGroups_rayon _ _ _ _ _ rfl]
            have hV : Largest (·.v) frame.components vMax := by
              unfold Frame.maxV at hv
              split at hv
              · simp at hv
              · rename_i v e
                injection hv with hv
                subst hv
                exact listMax?_largest _ _ _ e
            rcases h frame hfr with h | ⟨V, h1, h2⟩
            · left
              obtain ⟨c, hc, e⟩ := hV.2
              have := h c hc
              simp only at e
              omega
            · right
              rw [hV.unique h1, List.length_replicate]
              exact h2

/-- **C34** (violated). There is an accepted frame with complete planes on which the builds differ. -/
theorem C34_violated : ∃ d frame, Decoded d frame ∧
    upsample ⟨true, true⟩ d ≠ upsample ⟨true, false⟩ d :=
  ⟨decoderV2, frameV2, decoderV2_decoded, by
    rw [C33_violated_witness.2.1, C33_violated_witness.2.2]; decide⟩

/-- Line buffers as they can occur: fresh ones, and those left behind by any successful row. With rayon
every worker starts from a copy of the fresh ones and processes any groups of lines in any order. -/
inductive Buffers (cfg : Cfg) (us : List UpsamplerComponent) (planes : List (List UInt8)) (W Ht : Nat) :
    List (List UInt8) → Prop
  | fresh : Buffers cfg us planes W Ht (List.replicate 4 [])
  | row {bufs bufs' colors : List (List UInt8)} {r : Nat} : Buffers cfg us planes W Ht bufs → r < Ht →
      upsampleAndInterleaveRow cfg us planes bufs r W = .ok (colors, bufs') →
      Buffers cfg us planes W Ht bufs'

/-- **C34** (scheduling). Which rows a worker has done before does not matter: for any two line buffers
that can occur a row either fails with both or gives lines that agree in all `W` columns, and then the
converted lines are the same. -/
theorem C34_buffers_irrelevant (cfg : Cfg) (d : Decoder) (frame : Frame) (h : Decoded d frame)
    (hW : 1 ≤ frame.samplesPerLine) (f : ColorConvertFunc)
    (hf : chooseColorConvert frame.components.length d.colorTransform = .ok f) (hk : f ≠ .ycck)
    (us : List UpsamplerComponent)
    (hu : upsamplerNew frame.components ⟨frame.samplesPerLine, frame.lines⟩ = .ok us)
    (bufs bufs' : List (List UInt8))
    (hb : Buffers cfg us d.planes frame.samplesPerLine frame.lines bufs)
    (hb' : Buffers cfg us d.planes frame.samplesPerLine frame.lines bufs') (row : Nat) (hrow : row < frame.lines) :
    (∃ p, upsampleAndInterleaveRow cfg us d.planes bufs row frame.samplesPerLine = .error (.panic p) ∧
      upsampleAndInterleaveRow cfg us d.planes bufs' row frame.samplesPerLine = .error (.panic p)) ∨
    ∃ colors colors' b b', upsampleAndInterleaveRow cfg us d.planes bufs row frame.samplesPerLine =
        .ok (colors, b) ∧
      upsampleAndInterleaveRow cfg us d.planes bufs' row frame.samplesPerLine = .ok (colors', b') ∧
      f.convert (List.replicate (frame.samplesPerLine * frame.components.length) 0) colors =
        f.convert (List.replicate (frame.samplesPerLine * frame.components.length) 0) colors' := by
  obtain ⟨H, V, us', hH, hV, hv, hV1, rfl, hc, h4⟩ := h.comps hu
  have hgo : ∀ bufs row, upsampleAndInterleaveRow cfg (compsOf us' frame.components) d.planes bufs row
      frame.samplesPerLine = upsampleRowGo row frame.samplesPerLine (compsOf us' frame.components) d.planes
        bufs := by
    intro bufs row
    unfold upsampleAndInterleaveRow
    rw [if_neg]
    rintro ⟨_, hne⟩
    have := hc.length
    unfold compsOf at hne
    rw [List.length_zipWith] at hne
    omega
  have hok : ∀ bufs, Buffers cfg (compsOf us' frame.components) d.planes frame.samplesPerLine frame.lines bufs →
      BufsOk frame.samplesPerLine us' bufs := by
    intro bufs hb
    induction hb with
    | fresh => exact BufsOk.init _ _ _ h4
    | row _ hr e ih =>
      rename_i b1 b2 colors r _
      rw [hgo] at e
      by_cases hfit : ∀ (i : Nat) u c, us'[i]? = some u → frame.components[i]? = some c →
          RowFits u frame.samplesPerLine c r
      · obtain ⟨lines, bufs', e', hb', hl⟩ := rowGo_ok hc hW hr hfit _ ih
        rw [e] at e'
        simp only [Except.ok.injEq, Prod.mk.injEq] at e'
        rw [e'.2]
        exact hb'
      · rw [rowGo_panics hc hW hr ?_ _ ih] at e
        · simp at e
        · by_contra hn
          exact hfit fun i u c h1 h2 => by
            by_contra h3
            exact hn ⟨i, u, c, h1, h2, h3⟩
  rw [hgo, hgo]
  by_cases hfit : ∀ (i : Nat) u c, us'[i]? = some u → frame.components[i]? = some c →
      RowFits u frame.samplesPerLine c row
  · right
    obtain ⟨l1, b1, e1, _, hl1⟩ := rowGo_ok hc hW hrow hfit _ (hok _ hb)
    obtain ⟨l2, b2, e2, _, hl2⟩ := rowGo_ok hc hW hrow hfit _ (hok _ hb')
    refine ⟨l1, l2, b1, b2, e1, e2, ?_⟩
    have hline : if f = .null then List.replicate (frame.samplesPerLine * frame.components.length) (0 : UInt8) =
        List.replicate (3 * frame.samplesPerLine) 0
        else (List.replicate (frame.samplesPerLine * frame.components.length) (0 : UInt8)).length =
          frame.samplesPerLine * frame.components.length := by
      split
      · rename_i hn
        subst hn
        unfold chooseColorConvert at hf
        split at hf
        · rename_i h3; rw [h3, Nat.mul_comm]
        · split at hf <;> simp at hf
        · simp at hf
      · simp
    rw [convert_row hc rfl hf hk hl1 hline, convert_row hc rfl hf hk hl2 hline]
  · left
    have hbad : ∃ (i : Nat) (u : Upsample) (c : Component), us'[i]? = some u ∧
        frame.components[i]? = some c ∧ ¬ RowFits u frame.samplesPerLine c row := by
      by_contra hn
      exact hfit fun i u c h1 h2 => by
        by_contra h3
        exact hn ⟨i, u, c, h1, h2, h3⟩
    exact ⟨_, rowGo_panics hc hW hrow hbad _ (hok _ hb), rowGo_panics hc hW hrow hbad _ (hok _ hb')⟩

end Jpeg
