import Verif.Spec.Joined
import Verif.Props.Crop
/-!
# C101: pictures joined without decoding them
-/

namespace Jpeg
open Spec

theorem Stacked.cropped {f g s : BaselineFile} {H V r : Nat} {codes : List (Code × Code)} (h : Stacked f g s V)
    (hf : f.Laid r H V codes) : Cropped s f H V 0 0 ∧ Cropped s g H V (f.y / (8 * V)) 0 := by
  have hlen := hf.mcus
  have hV : 0 < 8 * V := by
    obtain ⟨c, hc, e⟩ := hf.vmax.2
    have := hf.factors c hc
    simp only at e
    omega
  have hm := Nat.div_add_mod f.y (8 * V)
  rw [h.whole, Nat.add_zero] at hm
  have hceil : ceilDiv f.y (8 * V) = f.y / (8 * V) := by
    unfold ceilDiv
    generalize f.y / (8 * V) = k at hm
    rw [← hm, Nat.mul_add_div hV, Nat.div_eq_of_lt (by omega)]
    rfl
  rw [hceil] at hlen
  refine ⟨⟨h.upper, ?_, ?_, ?_⟩, h.lower, ?_, ?_, ?_⟩
  · rw [h.widthUpper]; omega
  · rw [h.y]; omega
  · intro R C hR hC
    unfold BaselineFile.mcuAt
    rw [h.mcus, ← h.widthUpper, List.getElem?_append_left, Nat.zero_add, Nat.zero_add]
    rw [hlen, Nat.zero_add, Nat.zero_add]
    rw [hceil] at hR
    calc R * ceilDiv f.x (8 * H) + C < R * ceilDiv f.x (8 * H) + ceilDiv f.x (8 * H) := by omega
      _ = (R + 1) * ceilDiv f.x (8 * H) := by rw [Nat.add_mul, Nat.one_mul]
      _ ≤ f.y / (8 * V) * ceilDiv f.x (8 * H) := Nat.mul_le_mul_right _ (by omega)
      _ = _ := Nat.mul_comm _ _
  · rw [h.widthLower]; omega
  · rw [hm, h.y]
  · intro R C hR hC
    unfold BaselineFile.mcuAt
    rw [h.mcus, h.widthLower, ← h.widthUpper, List.getElem?_append_right, hlen, Nat.zero_add]
    · congr 1
      rw [Nat.add_mul, Nat.mul_comm (ceilDiv f.x (8 * H))]
      omega
    · rw [hlen, Nat.add_mul, Nat.mul_comm (ceilDiv f.x (8 * H))]
      omega

/-- A byte's place by line and place within the line. -/
theorem line_split {n x k y : Nat} (hn : 0 < n) (hk : k < x * y * n) :
    k / (n * x) < y ∧ k % (n * x) / n < x ∧ k % (n * x) % n < n ∧
      k = n * x * (k / (n * x)) + (n * (k % (n * x) / n) + k % (n * x) % n) := by
  have hx : 0 < n * x := by
    rcases Nat.eq_zero_or_pos x with rfl | h
    · simp at hk
    · exact Nat.mul_pos hn h
  refine ⟨?_, ?_, Nat.mod_lt _ hn, ?_⟩
  · rw [Nat.div_lt_iff_lt_mul hx]
    calc k < x * y * n := hk
      _ = y * (n * x) := by rw [Nat.mul_comm x y, Nat.mul_assoc, Nat.mul_comm x n]
  · rw [Nat.div_lt_iff_lt_mul hn, Nat.mul_comm x]
    exact Nat.mod_lt _ hx
  · rw [Nat.div_add_mod, Nat.div_add_mod]

/-- **C101** (one below the other). The image is the image of the first followed by that of the second. With vertical
subsampling (`V` is the largest vertical factor) the line above the joint and the first `V` below it are excepted, and with
the `rayon` feature all of the lower part (C34). -/
theorem C101_stacked_partial (cfg : Cfg) (f g s : BaselineFile) (H V : Nat) (hs : Stacked f g s V) (k₁ k₂ k₃ : List (Code × Code))
    (d₁ d₂ d₃ : Decoder) (hd₁ : UsedDecoder d₁) (hd₂ : UsedDecoder d₂) (hd₃ : UsedDecoder d₃)
    (hh₁ : Holds cfg d₁ f.earlier) (hh₂ : Holds cfg d₂ g.earlier) (hh₃ : Holds cfg d₃ s.earlier) (n : Nat)
    (hn₁ : f.Coloured d₁.transform n) (hn₂ : g.Coloured d₂.transform n) (hn₃ : s.Coloured d₃.transform n)
    (hv₁ : f.Valid (f.interval d₁.restartInterval) H V k₁) (hv₂ : g.Valid (g.interval d₂.restartInterval) H V k₂)
    (hv₃ : s.Valid (s.interval d₃.restartInterval) H V k₃) (hr₁ : f.Renderable H V) (hr₂ : g.Renderable H V)
    (hr₃ : s.Renderable H V) :
    ∃ p q t e₁ e₂ e₃, d₁.decode cfg f.bytes = .ok p e₁ ∧ d₂.decode cfg g.bytes = .ok q e₂ ∧ d₃.decode cfg s.bytes = .ok t e₃ ∧
      (V = 1 → t = p ++ q) ∧
      (∀ y x j, y < f.y → x < s.x → j < n → V = 1 ∨ y + 1 < f.y →
        t[n * s.x * y + (n * x + j)]? = p[n * s.x * y + (n * x + j)]?) ∧
      (cfg.rayon = false → ∀ y x j, y < g.y → x < s.x → j < n → V ≤ y →
        t[n * s.x * (y + f.y) + (n * x + j)]? = q[n * s.x * y + (n * x + j)]?) := by
  obtain ⟨c₁, c₂⟩ := Stacked.cropped hs hv₁.toLaid
  have hm := Nat.div_add_mod f.y (8 * V)
  rw [hs.whole, Nat.add_zero] at hm
  obtain ⟨t, p, e₃, e₁, t1, p1, t2, p2, P⟩ := C93_crop_partial cfg s f H V 0 0 c₁ (.inr (.inr rfl)) k₃ k₁ d₃ d₁ hd₃ hd₁ hh₃ hh₁ n hn₃ hn₁ hv₃ hv₁ hr₃ hr₁
  obtain ⟨q, e₂, q1, q2⟩ := coloured_decodes cfg g H V k₂ d₂ hd₂ hh₂ hn₂ hv₂ hr₂
  rw [hs.widthUpper] at P p2
  rw [hs.widthLower] at q2
  have Q : cfg.rayon = false ∨ V = 1 → ∀ y x, y < g.y → x < s.x → (V = 1 ∨ V ≤ y) → ∀ j, j < n →
      t[n * s.x * (y + f.y) + (n * x + j)]? = q[n * s.x * y + (n * x + j)]? := by
    intro hc y x hy hx hw j hj
    obtain ⟨t', q', e₃', e₂', t1', q1', -, -, Q⟩ := C93_crop_partial cfg s g H V _ 0 c₂ (hc.imp_right .inl) k₃ k₂ d₃ d₂ hd₃ hd₂ hh₃ hh₂ n hn₃ hn₂ hv₃ hv₂ hr₃ hr₂
    rw [t1] at t1'
    rw [q1] at q1'
    cases t1'
    cases q1'
    rw [hs.widthLower, hm] at Q
    have := Q y x hy hx (hw.imp_right fun h => ⟨.inl h, .inr hs.y.symm⟩) (.inr ⟨.inr (Nat.mul_zero _), .inr (by simp)⟩) j hj
    rw [this]
    simp
  have P' : ∀ y x j, y < f.y → x < s.x → j < n → V = 1 ∨ y + 1 < f.y →
      t[n * s.x * y + (n * x + j)]? = p[n * s.x * y + (n * x + j)]? := by
    intro y x j hy hx hj hw
    have := P y x hy hx (hw.imp_right fun h => ⟨.inr (Nat.mul_zero _), .inl h⟩) (.inr ⟨.inr (Nat.mul_zero _), .inr (by simp)⟩) j hj
    rw [this]
    simp
  refine ⟨p, q, t, e₁, e₂, e₃, p1, q1, t1, ?_, P', fun hc y x j hy hx hj hw => Q (.inl hc) y x hy hx (.inr hw) j hj⟩
  intro hV
  have hn : 0 < n := by
    rcases hn₁.2 with ⟨rfl, -⟩ | ⟨rfl, -⟩ <;> decide
  have lt : t.length = p.length + q.length := by
    rw [t2, p2, q2, hs.y, Nat.mul_add, Nat.add_mul]
  apply List.ext_getElem?
  intro k
  by_cases hk : k < p.length
  · rw [List.getElem?_append_left hk]
    rw [p2] at hk
    obtain ⟨h1, h2, h3, h4⟩ := line_split hn hk
    rw [h4]
    exact P' _ _ _ h1 h2 h3 (.inl hV)
  · rw [List.getElem?_append_right (by omega)]
    by_cases hk' : k - p.length < q.length
    · rw [q2] at hk'
      obtain ⟨h1, h2, h3, h4⟩ := line_split hn hk'
      generalize (k - p.length) / (n * s.x) = y at *
      generalize (k - p.length) % (n * s.x) = m at *
      have := Q (.inr hV) y (m / n) h1 h2 (.inl hV) (m % n) h3
      rw [← h4] at this
      rw [← this]
      congr 1
      have e : p.length = n * s.x * f.y := by
        rw [p2, Nat.mul_comm (s.x * f.y), Nat.mul_assoc]
      rw [Nat.mul_add, ← e]
      omega
    · rw [List.getElem?_eq_none (by omega), List.getElem?_eq_none (by omega)]

/-- **C101** (side by side). Every line of the image is a line of the first followed by one of the second. With horizontal
subsampling the pixels on both sides of the joint are excepted. -/
theorem C101_beside (cfg : Cfg) (f g s : BaselineFile) (H V : Nat) (hs : Beside f g s H V) (k₁ k₂ k₃ : List (Code × Code))
    (d₁ d₂ d₃ : Decoder) (hd₁ : UsedDecoder d₁) (hd₂ : UsedDecoder d₂) (hd₃ : UsedDecoder d₃)
    (hh₁ : Holds cfg d₁ f.earlier) (hh₂ : Holds cfg d₂ g.earlier) (hh₃ : Holds cfg d₃ s.earlier) (n : Nat)
    (hn₁ : f.Coloured d₁.transform n) (hn₂ : g.Coloured d₂.transform n) (hn₃ : s.Coloured d₃.transform n)
    (hv₁ : f.Valid (f.interval d₁.restartInterval) H V k₁) (hv₂ : g.Valid (g.interval d₂.restartInterval) H V k₂)
    (hv₃ : s.Valid (s.interval d₃.restartInterval) H V k₃) (hr₁ : f.Renderable H V) (hr₂ : g.Renderable H V)
    (hr₃ : s.Renderable H V) :
    ∃ p q t e₁ e₂ e₃, d₁.decode cfg f.bytes = .ok p e₁ ∧ d₂.decode cfg g.bytes = .ok q e₂ ∧ d₃.decode cfg s.bytes = .ok t e₃ ∧
      p.length = f.x * s.y * n ∧ q.length = g.x * s.y * n ∧ t.length = s.x * s.y * n ∧ ∀ y, y < s.y →
      (∀ x j, x < f.x → j < n → H = 1 ∨ x + 1 < f.x →
        t[n * s.x * y + (n * x + j)]? = p[n * f.x * y + (n * x + j)]?) ∧
      (∀ x j, x < g.x → j < n → H = 1 ∨ 1 ≤ x →
        t[n * s.x * y + (n * (f.x + x) + j)]? = q[n * g.x * y + (n * x + j)]?) ∧
      (H = 1 → (t.drop (n * s.x * y)).take (n * s.x) =
        (p.drop (n * f.x * y)).take (n * f.x) ++ (q.drop (n * g.x * y)).take (n * g.x)) := by
  have hm := Nat.div_add_mod f.x (8 * H)
  rw [hs.whole, Nat.add_zero] at hm
  have hH : 0 < 8 * H := by
    obtain ⟨c, hc, e⟩ := hv₁.toLaid.hmax.2
    have := hv₁.toLaid.factors c hc
    simp only at e
    omega
  have hceil : ceilDiv f.x (8 * H) = f.x / (8 * H) := by
    unfold ceilDiv
    generalize f.x / (8 * H) = k at hm
    rw [← hm, Nat.mul_add_div hH, Nat.div_eq_of_lt (by omega)]
    rfl
  have c₁ : Cropped s f H V 0 0 := by
    refine ⟨hs.left, ?_, ?_, ?_⟩
    · rw [hs.x]; omega
    · rw [hs.heightLeft]; omega
    · intro R C hR hC
      rw [hs.heightLeft] at hR
      rw [hceil] at hC
      rw [Nat.zero_add, Nat.zero_add]
      exact ((hs.mcus R hR).1 C hC).symm
  have c₂ : Cropped s g H V 0 (f.x / (8 * H)) := by
    refine ⟨hs.right, ?_, ?_, ?_⟩
    · rw [hm, hs.x]
    · rw [hs.heightRight]; omega
    · intro R C hR hC
      rw [hs.heightRight] at hR
      rw [Nat.zero_add]
      exact ((hs.mcus R hR).2 C hC).symm
  obtain ⟨t, p, e₃, e₁, t1, p1, t2, p2, P⟩ := C93_crop_partial cfg s f H V 0 0 c₁ (.inr (.inr rfl)) k₃ k₁ d₃ d₁ hd₃ hd₁ hh₃ hh₁ n hn₃ hn₁ hv₃ hv₁ hr₃ hr₁
  obtain ⟨t', q, e₃', e₂, t1', q1, -, q2, Q⟩ := C93_crop_partial cfg s g H V 0 _ c₂ (.inr (.inr rfl)) k₃ k₂ d₃ d₂ hd₃ hd₂ hh₃ hh₂ n hn₃ hn₂ hv₃ hv₂ hr₃ hr₂
  rw [t1] at t1'
  cases t1'
  rw [hs.heightLeft] at P p2
  rw [hs.heightRight, hm] at Q
  rw [hs.heightRight] at q2
  refine ⟨p, q, t, e₁, e₂, e₃, p1, q1, t1, p2, q2, t2, ?_⟩
  intro y hy
  have P' : ∀ x j, x < f.x → j < n → H = 1 ∨ x + 1 < f.x →
        t[n * s.x * y + (n * x + j)]? = p[n * f.x * y + (n * x + j)]? := by
    intro x j hx hj hw
    have := P y x hy hx (.inr ⟨.inr (Nat.mul_zero _), .inr (by simp)⟩) (hw.imp_right fun h => ⟨.inr (Nat.mul_zero _), .inl h⟩) j hj
    rw [this]
    simp
  have Q' : ∀ x j, x < g.x → j < n → H = 1 ∨ 1 ≤ x →
        t[n * s.x * y + (n * (f.x + x) + j)]? = q[n * g.x * y + (n * x + j)]? := by
    intro x j hx hj hw
    have := Q y x hy hx (.inr ⟨.inr (Nat.mul_zero _), .inr (by simp)⟩) (hw.imp_right fun h => ⟨.inl h, .inr hs.x.symm⟩) j hj
    rw [this, Nat.add_comm x]
    simp
  refine ⟨P', Q', fun h1 => ?_⟩
  have hn : 0 < n := by
    rcases hn₁.2 with ⟨rfl, -⟩ | ⟨rfl, -⟩ <;> decide
  have line : ∀ x (l : List UInt8), l.length = x * s.y * n → ((l.drop (n * x * y)).take (n * x)).length = n * x := by
    intro x l hl
    rw [List.length_take, List.length_drop, hl]
    have : n * x * y + n * x ≤ x * s.y * n := by
      calc n * x * y + n * x = n * x * (y + 1) := by rw [Nat.mul_add, Nat.mul_one]
        _ ≤ n * x * s.y := Nat.mul_le_mul_left _ hy
        _ = x * s.y * n := by rw [Nat.mul_comm (x * s.y), Nat.mul_assoc]
    omega
  have lp := line f.x p p2
  have lq := line g.x q q2
  have lt := line s.x t t2
  have sum : n * s.x = n * f.x + n * g.x := by rw [hs.x, Nat.mul_add]
  have split : ∀ {k x : Nat}, k < n * x → k / n < x ∧ k % n < n ∧ n * (k / n) + k % n = k := by
    intro k x hk
    exact ⟨by rw [Nat.div_lt_iff_lt_mul hn, Nat.mul_comm]; exact hk, Nat.mod_lt _ hn, Nat.div_add_mod _ _⟩
  apply List.ext_getElem?
  intro k
  by_cases hk : k < n * f.x
  · rw [List.getElem?_append_left (by omega), List.getElem?_take, if_pos (by omega), List.getElem?_take, if_pos hk,
      List.getElem?_drop, List.getElem?_drop]
    obtain ⟨a1, a2, a3⟩ := split hk
    have := P' _ _ a1 a2 (.inl h1)
    rwa [a3] at this
  · rw [List.getElem?_append_right (by omega), lp]
    by_cases hk' : k - n * f.x < n * g.x
    · rw [List.getElem?_take, if_pos (by omega), List.getElem?_take, if_pos hk', List.getElem?_drop, List.getElem?_drop]
      obtain ⟨a1, a2, a3⟩ := split hk'
      have := Q' _ _ a1 a2 (.inl h1)
      rw [Nat.mul_add, Nat.add_assoc, a3] at this
      rw [← this]
      congr 1
      omega
    · rw [List.getElem?_eq_none (by omega), List.getElem?_eq_none (by omega)]

/-- **C101** (refutation). Two pictures of 16 lines with half of the chrominance lines, the lower one lighter. With the `rayon`
feature line 2 of the lower one is 228, but line 18 of the two together 128. -/
theorem C101_rayon_violated : ∃ (f g s : BaselineFile) (codes : List (Code × Code)), Stacked f g s 2 ∧ s.comps.length = 3 ∧
    f.Valid 0 1 2 codes ∧ g.Valid 0 1 2 codes ∧ s.Valid 0 1 2 codes ∧ f.Renderable 1 2 ∧ g.Renderable 1 2 ∧ s.Renderable 1 2 ∧
    g.InRange ∧ s.InRange ∧ f.y = 16 ∧ 2 + 1 < g.y ∧ 0 < s.x ∧
    ∀ debug, ∃ q t : List UInt8, decode ⟨debug, true⟩ g.bytes = .ok q ∧ decode ⟨debug, true⟩ s.bytes = .ok t ∧
      t[3 * s.x * (2 + f.y) + (3 * 0 + 0)]? = some 128 ∧ q[3 * s.x * 2 + (3 * 0 + 0)]? = some 228 := by
  obtain ⟨d₁, v₁⟩ := column_valid [0] (by decide) (by decide)
  obtain ⟨d₂, v₂⟩ := column_valid [100] (by decide) (by decide)
  obtain ⟨d₃, v₃⟩ := column_valid [0, 100] (by decide) (by decide)
  have hr : ∀ vs d, vs.length ∈ [1, 2] → (columnFile vs d).Renderable 1 2 := by
    intro vs d h
    have hx : (columnFile vs d).x = 1 := rfl
    have hy : (columnFile vs d).y = 16 * vs.length := rfl
    unfold BaselineFile.Renderable
    rw [hx, hy, show (columnFile vs d).comps = tallComps from rfl]
    clear hx hy
    generalize vs.length = n at *
    revert n
    decide
  have i₂ : (columnFile [100] d₂).InRange := codedFile_inRange (by decide) (by decide +kernel)
  have i₃ : (columnFile [0, 100] d₃).InRange := codedFile_inRange (by decide) (by decide +kernel)
  refine ⟨columnFile [0] d₁, columnFile [100] d₂, columnFile [0, 100] d₃, _,
    ⟨.cons ⟨rfl, rfl, rfl⟩ (.cons ⟨rfl, rfl, rfl⟩ (.cons ⟨rfl, rfl, rfl⟩ .nil)),
      .cons ⟨rfl, rfl, rfl⟩ (.cons ⟨rfl, rfl, rfl⟩ (.cons ⟨rfl, rfl, rfl⟩ .nil)), rfl, rfl, by show 16 % 16 = 0; decide, rfl, rfl⟩,
    rfl, v₁, v₂, v₃, hr _ _ (by decide), hr _ _ (by decide), hr _ _ (by decide), i₂, i₃, rfl, by show 3 < 16; decide,
    by show 0 < 1; decide, ?_⟩
  intro debug
  obtain ⟨q, b1, b2⟩ := column_pixel debug [100] d₂ 2 228 (by decide) v₂ (hr _ _ (by decide)) i₂ (by decide +kernel) ⟨_, rfl, by decide +kernel⟩
  obtain ⟨t, a1, a2⟩ := column_pixel debug [0, 100] d₃ 18 128 (by decide) v₃ (hr _ _ (by decide)) i₃ (by decide +kernel) ⟨_, rfl, by decide +kernel⟩
  exact ⟨q, t, b1, a1, a2, b2⟩

/-- Half as many columns of chrominance (4:2:2). -/
def halfComps : List FileComponent := [⟨⟨1, 2, 1, 0⟩, 0, 0⟩, ⟨⟨2, 1, 1, 0⟩, 0, 0⟩, ⟨⟨3, 1, 1, 0⟩, 0, 0⟩]

/-- An MCU of it. -/
def halfMcu (v : Int) : Mcu := [[leanBlock v, dcBlock 2], [leanBlock 5], [dcBlock (-v)]]

/-- A case of `C101_stacked_partial`: 8 by 8 and 8 by 5 pixels with horizontal subsampling. -/
example : ∃ f g s : BaselineFile, Stacked f g s 1 ∧ ∀ cfg, ∃ p q : List UInt8, decode cfg f.bytes = .ok p ∧
    decode cfg g.bytes = .ok q ∧ decode cfg s.bytes = .ok (p ++ q) := by
  have hq : GoodTable (List.replicate 64 8) := ⟨by decide, by decide⟩
  obtain ⟨d₁, v₁⟩ := codedFile_valid hq (comps := halfComps) (x := 8) (y := 8) (H := 2) (V := 1) (mcus := [halfMcu 3])
    ⟨by decide, by decide, by decide, by decide, by decide, ⟨by decide, by decide⟩, ⟨by decide, by decide⟩, by decide,
      by decide, by decide, by decide, by decide⟩ (by decide +kernel)
  obtain ⟨d₂, v₂⟩ := codedFile_valid hq (comps := halfComps) (x := 8) (y := 5) (H := 2) (V := 1) (mcus := [halfMcu (-9)])
    ⟨by decide, by decide, by decide, by decide, by decide, ⟨by decide, by decide⟩, ⟨by decide, by decide⟩, by decide,
      by decide, by decide, by decide, by decide⟩ (by decide +kernel)
  obtain ⟨d₃, v₃⟩ := codedFile_valid hq (comps := halfComps) (x := 8) (y := 13) (H := 2) (V := 1) (mcus := [halfMcu 3, halfMcu (-9)])
    ⟨by decide, by decide, by decide, by decide, by decide, ⟨by decide, by decide⟩, ⟨by decide, by decide⟩, by decide,
      by decide, by decide, by decide, by decide⟩ (by decide +kernel)
  have hr : ∀ y m d, y ∈ [8, 5, 13] → (codedFile (List.replicate 64 8) halfComps 8 y m d).Renderable 2 1 := by
    intro y m d hy
    have e : (codedFile (List.replicate 64 8) halfComps 8 y m d).y = y := rfl
    have ex : (codedFile (List.replicate 64 8) halfComps 8 y m d).x = 8 := rfl
    unfold BaselineFile.Renderable
    rw [e, ex, show (codedFile (List.replicate 64 8) halfComps 8 y m d).comps = halfComps from rfl]
    clear e ex
    revert y
    decide
  have hs : Stacked (codedFile (List.replicate 64 8) halfComps 8 8 [halfMcu 3] d₁)
      (codedFile (List.replicate 64 8) halfComps 8 5 [halfMcu (-9)] d₂)
      (codedFile (List.replicate 64 8) halfComps 8 13 [halfMcu 3, halfMcu (-9)] d₃) 1 :=
    ⟨.cons ⟨rfl, rfl, rfl⟩ (.cons ⟨rfl, rfl, rfl⟩ (.cons ⟨rfl, rfl, rfl⟩ .nil)),
      .cons ⟨rfl, rfl, rfl⟩ (.cons ⟨rfl, rfl, rfl⟩ (.cons ⟨rfl, rfl, rfl⟩ .nil)), rfl, rfl, by show 8 % 8 = 0; decide, rfl, rfl⟩
  refine ⟨_, _, _, hs, fun cfg => ?_⟩
  have ct : (none : Option Nat) ≠ some 0 := by decide
  obtain ⟨p, q, t, e₁, e₂, e₃, h1, h2, h3, h4, -⟩ := C101_stacked_partial cfg _ _ _ 2 1 hs _ _ _ Decoder.default Decoder.default
    Decoder.default .new .new .new (.nothing _) (.nothing _) (.nothing _) 3 ⟨rfl, .inl ⟨rfl, ct⟩⟩ ⟨rfl, .inl ⟨rfl, ct⟩⟩
    ⟨rfl, .inl ⟨rfl, ct⟩⟩ v₁ v₂ v₃ (hr 8 _ _ (by decide)) (hr 5 _ _ (by decide)) (hr 13 _ _ (by decide))
  rw [h4 rfl] at h3
  exact ⟨p, q, by unfold decode; rw [h1], by unfold decode; rw [h2], by unfold decode; rw [h3]⟩

/-- A case of `C101_beside`: 8 by 5 and 7 by 5 pixels. -/
example : ∃ f g s : BaselineFile, Beside f g s 1 1 ∧ ∀ cfg, ∃ p q t : List UInt8, decode cfg f.bytes = .ok p ∧
    decode cfg g.bytes = .ok q ∧ decode cfg s.bytes = .ok t ∧ ∀ y, y < 5 → (t.drop (3 * 15 * y)).take (3 * 15) =
      (p.drop (3 * 8 * y)).take (3 * 8) ++ (q.drop (3 * 7 * y)).take (3 * 7) := by
  have hq : GoodTable (List.replicate 64 8) := ⟨by decide, by decide⟩
  have hv : ∀ x m, x ∈ [8, 7, 15] → m.length = ceilDiv x 8 → (∀ b ∈ m, b ∈ [[[leanBlock 1], [dcBlock 2], [dcBlock 4]],
      [[dcBlock 9], [leanBlock 0], [dcBlock (-7)]]]) → ∃ d, (codedFile (List.replicate 64 8) fullComps x 5 m d).Valid 0 1 1
        (List.replicate fullComps.length (dcK3, acK5)) := by
    intro x m hx hl hm
    have hx' : 1 ≤ x ∧ x ≤ 15 := by clear hl; revert x; decide
    refine codedFile_valid hq ⟨by omega, by decide, by decide, by decide, by decide, ⟨by decide, by decide⟩, ⟨by decide, by decide⟩, by decide,
      by decide, by decide, ?_, ?_⟩ ?_
    · rw [hl, show ceilDiv 5 (8 * 1) = 1 from by decide, Nat.mul_one]
    · intro b hb
      have := hm b hb
      clear hm hl hb
      revert b
      decide
    · intro b hb
      have := hm b hb
      clear hm hl hb
      revert b
      decide +kernel
  obtain ⟨d₁, v₁⟩ := hv 8 [[[leanBlock 1], [dcBlock 2], [dcBlock 4]]] (by decide) (by decide) (by decide)
  obtain ⟨d₂, v₂⟩ := hv 7 [[[dcBlock 9], [leanBlock 0], [dcBlock (-7)]]] (by decide) (by decide) (by decide)
  obtain ⟨d₃, v₃⟩ := hv 15 [[[leanBlock 1], [dcBlock 2], [dcBlock 4]], [[dcBlock 9], [leanBlock 0], [dcBlock (-7)]]]
    (by decide) (by decide) (by decide)
  have hs : Beside (codedFile (List.replicate 64 8) fullComps 8 5 [[[leanBlock 1], [dcBlock 2], [dcBlock 4]]] d₁)
      (codedFile (List.replicate 64 8) fullComps 7 5 [[[dcBlock 9], [leanBlock 0], [dcBlock (-7)]]] d₂)
      (codedFile (List.replicate 64 8) fullComps 15 5 [[[leanBlock 1], [dcBlock 2], [dcBlock 4]],
        [[dcBlock 9], [leanBlock 0], [dcBlock (-7)]]] d₃) 1 1 := by
    refine ⟨.cons ⟨rfl, rfl, rfl⟩ (.cons ⟨rfl, rfl, rfl⟩ (.cons ⟨rfl, rfl, rfl⟩ .nil)),
      .cons ⟨rfl, rfl, rfl⟩ (.cons ⟨rfl, rfl, rfl⟩ (.cons ⟨rfl, rfl, rfl⟩ .nil)), rfl, rfl,
      by show 8 % 8 = 0; decide, rfl, ?_⟩
    intro R hR
    have hR : R < ceilDiv 5 (8 * 1) := hR
    rw [show ceilDiv 5 (8 * 1) = 1 by decide] at hR
    obtain rfl : R = 0 := by omega
    refine ⟨fun C hC => ?_, fun C hC => ?_⟩
    · have hC : C < 8 / (8 * 1) := hC
      obtain rfl : C = 0 := by omega
      simp [BaselineFile.mcuAt, codedFile]
    · have hC : C < ceilDiv 7 (8 * 1) := hC
      rw [show ceilDiv 7 (8 * 1) = 1 by decide] at hC
      obtain rfl : C = 0 := by omega
      simp [BaselineFile.mcuAt, codedFile]
  refine ⟨_, _, _, hs, fun cfg => ?_⟩
  have ct : (none : Option Nat) ≠ some 0 := by decide
  obtain ⟨p, q, t, e₁, e₂, e₃, h1, h2, h3, -, -, -, h4⟩ := C101_beside cfg _ _ _ 1 1 hs _ _ _ Decoder.default Decoder.default
    Decoder.default .new .new .new (.nothing _) (.nothing _) (.nothing _) 3 ⟨rfl, .inl ⟨rfl, ct⟩⟩ ⟨rfl, .inl ⟨rfl, ct⟩⟩
    ⟨rfl, .inl ⟨rfl, ct⟩⟩ v₁ v₂ v₃ (renderable_one v₁.toLaid.ones) (renderable_one v₂.toLaid.ones) (renderable_one v₃.toLaid.ones)
  exact ⟨p, q, t, by unfold decode; rw [h1], by unfold decode; rw [h2], by unfold decode; rw [h3], fun y hy => (h4 y hy).2.2 rfl⟩

end Jpeg
