import Verif.Proofs.F32
import Verif.Proofs.Segments
import Verif.Spec.Geometry
/-!
# Frame headers
-/

namespace Jpeg
open Spec

/-! ## Maximum -/

theorem foldl_max (l : List Nat) : ∀ x, (∀ y ∈ x :: l, y ≤ l.foldl max x) ∧
    l.foldl max x ∈ x :: l := by
  induction l with
  | nil => intro x; simp
  | cons a l ih =>
    intro x
    rw [List.foldl_cons]
    obtain ⟨h1, h2⟩ := ih (max x a)
    constructor
    · intro y hy
      have h3 := h1 (max x a) (by simp)
      rw [List.mem_cons, List.mem_cons] at hy
      rcases hy with rfl | rfl | hy
      · omega
      · omega
      · exact h1 y (by simp [hy])
    · rw [List.mem_cons] at h2
      rcases h2 with h2 | h2
      · rcases Nat.le_total x a with h | h
        · rw [h2, Nat.max_eq_right h]; simp
        · rw [h2, Nat.max_eq_left h]; simp
      · simp [h2]

theorem listMax?_largest {α : Type} (f : α → Nat) (l : List α) (m : Nat)
    (h : listMax? (l.map f) = some m) : Largest f l m := by
  cases l with
  | nil => simp [listMax?] at h
  | cons a l =>
    simp only [List.map_cons, listMax?, Option.some.injEq] at h
    obtain ⟨h1, h2⟩ := foldl_max (l.map f) (f a)
    rw [h] at h1 h2
    rw [← List.map_cons] at h1 h2
    refine ⟨fun c hc => h1 _ (List.mem_map_of_mem hc), ?_⟩
    obtain ⟨c, hc, he⟩ := List.mem_map.1 h2
    exact ⟨c, hc, he⟩

theorem listMax?_some {l : List Nat} (h : l ≠ []) : ∃ m, listMax? l = some m := by
  cases l with
  | nil => exact absurd rfl h
  | cons a l => exact ⟨_, rfl⟩

theorem Spec.Largest.unique {α : Type} {f : α → Nat} {l : List α} {m n : Nat} (h : Largest f l m)
    (h' : Largest f l n) : m = n := by
  obtain ⟨h1, c, hc, rfl⟩ := h
  obtain ⟨h2, c', hc', rfl⟩ := h'
  have := h1 c' hc'
  have := h2 c hc
  omega

/-! ## Parsing components -/

/-- The raw component the parser gives. -/
def rawComponent (id : UInt8) (h v tq : Nat) : Component :=
  { id, h, v, tq, blocksPerMcu := h * v, mcuSampleSize := ⟨h * 8, v * 8⟩, bytesPerMcuLine := 0
    lineStride := 0, blockSize := ⟨0, 0⟩, size := ⟨0, 0⟩ }

/-- The factors are valid. -/
def FactorsOk (h v : Nat) : Prop := 1 ≤ h ∧ h ≤ 4 ∧ 1 ≤ v ∧ v ≤ 4

theorem checkSamplingFactor_ok {s : Nat} : checkSamplingFactor s = .ok () ↔ 1 ≤ s ∧ s ≤ 4 := by
  unfold checkSamplingFactor
  split
  · simp; omega
  · simp; omega

theorem componentP_ok {l rest : List UInt8} {c : Component} (h : componentP l = .ok (c, rest)) :
    ∃ id b tq, l = id :: b :: tq :: rest ∧
      c = rawComponent id (b.toNat >>> 4) (b.toNat &&& 0x0F) tq.toNat ∧ FactorsOk c.h c.v := by
  unfold componentP at h
  cases l with
  | nil => simp [anyByte, bind, Except.bind] at h
  | cons id l =>
    cases l with
    | nil => simp [anyByte, split4Bit, bind, Except.bind] at h
    | cons b l =>
      simp only [anyByte, split4Bit, bind, Except.bind] at h
      cases e1 : checkSamplingFactor (b.toNat >>> 4) with
      | error f => rw [e1] at h; simp at h
      | ok u =>
        rw [e1] at h
        simp only at h
        cases e2 : checkSamplingFactor (b.toNat &&& 0x0F) with
        | error f => rw [e2] at h; simp at h
        | ok u =>
          rw [e2] at h
          cases l with
          | nil => simp at h
          | cons tq l =>
            simp only [pure, Except.pure, Except.ok.injEq, Prod.mk.injEq] at h
            obtain ⟨rfl, rfl⟩ := h
            have f1 := checkSamplingFactor_ok.1 e1
            have f2 := checkSamplingFactor_ok.1 e2
            exact ⟨id, b, tq, rfl, rfl, f1.1, f1.2, f2.1, f2.2⟩

theorem componentsP_ok (n : Nat) : ∀ {l rest : List UInt8} {cs : List Component},
    componentsP n l = .ok (cs, rest) → cs.length = n ∧
      ∀ c ∈ cs, ∃ id h v tq, c = rawComponent id h v tq ∧ FactorsOk h v := by
  induction n with
  | zero =>
    intro l rest cs h
    simp only [componentsP, Except.ok.injEq, Prod.mk.injEq] at h
    obtain ⟨rfl, rfl⟩ := h
    simp
  | succ n ih =>
    intro l rest cs h
    simp only [componentsP, bind, Except.bind] at h
    cases e : componentP l with
    | error f => rw [e] at h; simp at h
    | ok p =>
      obtain ⟨c, l1⟩ := p
      rw [e] at h
      simp only at h
      cases e2 : componentsP n l1 with
      | error f => rw [e2] at h; simp at h
      | ok p =>
        obtain ⟨cs', l2⟩ := p
        rw [e2] at h
        simp only [pure, Except.pure, Except.ok.injEq, Prod.mk.injEq] at h
        obtain ⟨rfl, rfl⟩ := h
        obtain ⟨h1, h2⟩ := ih e2
        refine ⟨by simp [h1], ?_⟩
        intro c' hc
        rw [List.mem_cons] at hc
        rcases hc with rfl | hc
        · obtain ⟨id, b, tq, _, hc, hf⟩ := componentP_ok e
          refine ⟨_, _, _, _, hc, ?_⟩
          rw [hc] at hf
          exact hf
        · exact h2 c' hc

theorem nibbles {h v : Nat} (hh : h ≤ 4) (hv : v ≤ 4) :
    (UInt8.ofNat (h * 16 + v)).toNat >>> 4 = h ∧ (UInt8.ofNat (h * 16 + v)).toNat &&& 0x0F = v := by
  interval_cases h <;> interval_cases v <;> decide

theorem componentP_bytes {c : HeaderComponent} (hf : FactorsOk c.h c.v) (rest : List UInt8) :
    componentP (c.bytes ++ rest) = .ok (rawComponent c.id c.h c.v c.tq.toNat, rest) := by
  obtain ⟨h1, h2⟩ := nibbles hf.2.1 hf.2.2.2
  unfold componentP HeaderComponent.bytes
  simp only [List.cons_append, List.nil_append, anyByte, split4Bit, bind, Except.bind, h1, h2,
    checkSamplingFactor_ok.2 ⟨hf.1, hf.2.1⟩, checkSamplingFactor_ok.2 hf.2.2]
  rfl

theorem componentsP_bytes (cs : List HeaderComponent) (hf : ∀ c ∈ cs, FactorsOk c.h c.v)
    (rest : List UInt8) :
    componentsP cs.length (cs.flatMap HeaderComponent.bytes ++ rest) =
      .ok (cs.map fun c => rawComponent c.id c.h c.v c.tq.toNat, rest) := by
  induction cs with
  | nil => rfl
  | cons c cs ih =>
    rw [List.length_cons, componentsP, List.flatMap_cons, List.append_assoc,
      componentP_bytes (hf c (by simp))]
    simp only [bind, Except.bind]
    rw [ih fun c' h => hf c' (by simp [h])]
    rfl

/-! ## Computed fields -/

theorem mcu_mul_lt {X h H : Nat} (hX : X < 2 ^ 16) (hH : h ≤ H) (h4 : H ≤ 4) (h1 : 1 ≤ H) :
    ceilDiv X (8 * H) * h < 2 ^ 16 := by
  have hd := Nat.div_mul_le_self (X + (8 * H - 1)) (8 * H)
  have h2 : ceilDiv X (8 * H) * h ≤ ceilDiv X (8 * H) * H := Nat.mul_le_mul_left _ hH
  have h3 : ceilDiv X (8 * H) * (8 * H) = 8 * (ceilDiv X (8 * H) * H) := by ring
  unfold ceilDiv at *
  omega

/-- The final form of a component. -/
def fullComponent (X Y H V : Nat) (c : Component) : Component :=
  { c with
    size := ⟨ceilDiv (X * c.h) H, ceilDiv (Y * c.v) V⟩
    blockSize := ⟨ceilDiv X (8 * H) * c.h, ceilDiv Y (8 * V) * c.v⟩
    bytesPerMcuLine := c.blocksPerMcu * 64 * ceilDiv X (8 * H)
    lineStride := ceilDiv X (8 * H) * c.h * 8 }

theorem fillComponent_eq (cfg : Cfg) {X Y H V : Nat} (hX : X < 2 ^ 16) (hY : Y < 2 ^ 16)
    (hH : H ≤ 4) (hV : V ≤ 4) {c : Component} (hf : FactorsOk c.h c.v) (h1 : c.h ≤ H)
    (h2 : c.v ≤ V) :
    fillComponent cfg (F32.ofNat H) (F32.ofNat V) (F32.ofNat X) (F32.ofNat Y)
      ⟨ceilDiv X (8 * H), ceilDiv Y (8 * V)⟩ c = .ok (fullComponent X Y H V c) := by
  unfold fillComponent
  simp only [F32.size_ceil hX hf.1 h1 hH, F32.size_ceil hY hf.2.2.1 h2 hV, mulU16]
  rw [if_pos (mcu_mul_lt hX h1 hH (by have := hf.1; omega)),
    if_pos (mcu_mul_lt hY h2 hV (by have := hf.2.2.1; omega))]
  rfl

theorem fillComponents_eq (cfg : Cfg) {X Y H V : Nat} (hX : X < 2 ^ 16) (hY : Y < 2 ^ 16)
    (hH : H ≤ 4) (hV : V ≤ 4) (cs : List Component)
    (hf : ∀ c ∈ cs, FactorsOk c.h c.v ∧ c.h ≤ H ∧ c.v ≤ V) :
    fillComponents cfg (F32.ofNat H) (F32.ofNat V) (F32.ofNat X) (F32.ofNat Y)
      ⟨ceilDiv X (8 * H), ceilDiv Y (8 * V)⟩ cs = .ok (cs.map (fullComponent X Y H V)) := by
  induction cs with
  | nil => rfl
  | cons c cs ih =>
    obtain ⟨h1, h2, h3⟩ := hf c (by simp)
    rw [fillComponents, fillComponent_eq cfg hX hY hH hV h1 h2 h3]
    simp only [bind, Except.bind]
    rw [ih fun c' h => hf c' (by simp [h])]
    rfl

theorem fullComponent_geometry {X Y H V : Nat} {id : UInt8} {h v tq : Nat} (hf : FactorsOk h v) :
    ComponentGeometry X Y H V (fullComponent X Y H V (rawComponent id h v tq)) := by
  refine ⟨rfl, rfl, rfl, ?_, ?_, ?_, hf⟩
  · simp [fullComponent, rawComponent, Nat.mul_comm]
  · simp only [fullComponent, rawComponent]; ring
  · simp only [fullComponent, rawComponent]; ring

/-- `buildFrame` on raw components never fails, except on an empty list. -/
theorem buildFrame_eq (cfg : Cfg) (i : Nat) (p : UInt8) {X Y : Nat} (hX : X < 2 ^ 16)
    (hY : Y < 2 ^ 16) (cs : List Component) (hne : cs ≠ [])
    (hf : ∀ c ∈ cs, FactorsOk c.h c.v) :
    ∃ H V, Largest (·.h) cs H ∧ Largest (·.v) cs V ∧ buildFrame cfg i p Y X cs =
      .ok ⟨i, p, Y, X, ⟨ceilDiv X (8 * H), ceilDiv Y (8 * V)⟩, cs.map (fullComponent X Y H V)⟩ := by
  obtain ⟨H, hHm⟩ := listMax?_some (l := cs.map (·.h)) (by simpa using hne)
  obtain ⟨V, hVm⟩ := listMax?_some (l := cs.map (·.v)) (by simpa using hne)
  have hH := listMax?_largest _ _ _ hHm
  have hV := listMax?_largest _ _ _ hVm
  refine ⟨H, V, hH, hV, ?_⟩
  obtain ⟨c1, hc1, e1⟩ := hH.2
  obtain ⟨c2, hc2, e2⟩ := hV.2
  have hf1 := hf c1 hc1
  have hf2 := hf c2 hc2
  unfold FactorsOk at hf1 hf2
  simp only at e1 e2
  unfold buildFrame
  rw [hHm, hVm]
  simp only
  rw [F32.mcu_ceil hX (by omega) (by omega), F32.mcu_ceil hY (by omega) (by omega)]
  have := fillComponents_eq cfg hX hY (H := H) (V := V) (by omega) (by omega) cs
    fun c hc => ⟨hf c hc, hH.1 c hc, hV.1 c hc⟩
  unfold ceilDiv at this ⊢
  rw [this]
  rfl

theorem Largest.map {α β : Type} {f : β → Nat} {g : α → β} {l : List α} {m : Nat} :
    Largest f (l.map g) m ↔ Largest (fun a => f (g a)) l m := by
  unfold Largest
  simp

theorem beU16_lt {l rest : List UInt8} {n : Nat} (h : beU16 l = .ok (n, rest)) : n < 2 ^ 16 := by
  unfold beU16 at h
  split at h
  · rename_i a b _
    simp only [Except.ok.injEq, Prod.mk.injEq] at h
    have := a.toNat_lt; have := b.toNat_lt
    omega
  · simp at h

/-- Every accepted frame header gives the exact geometry. -/
theorem sof_geometry {cfg : Cfg} {i : Nat} {l rest : List UInt8} {frame : Frame}
    (h : sof cfg i l = .ok (frame, rest)) :
    FrameGeometry frame ∧ frame.components ≠ [] ∧ frame.markerIndex = i := by
  unfold sof at h
  simp only [bind, Except.bind] at h
  cases e1 : anyByte l with
  | error f => rw [e1] at h; simp at h
  | ok p1 =>
    obtain ⟨prec, l1⟩ := p1
    rw [e1] at h; simp only at h
    cases e2 : beU16 l1 with
    | error f => rw [e2] at h; simp at h
    | ok p2 =>
      obtain ⟨Y, l2⟩ := p2
      rw [e2] at h; simp only at h
      cases e3 : beU16 l2 with
      | error f => rw [e3] at h; simp at h
      | ok p3 =>
        obtain ⟨X, l3⟩ := p3
        rw [e3] at h; simp only at h
        cases e4 : anyByte l3 with
        | error f => rw [e4] at h; simp at h
        | ok p4 =>
          obtain ⟨n, l4⟩ := p4
          rw [e4] at h; simp only at h
          cases e5 : componentsP n.toNat l4 with
          | error f => rw [e5] at h; simp at h
          | ok p5 =>
            obtain ⟨cs, l5⟩ := p5
            rw [e5] at h; simp only at h
            obtain ⟨hlen, hcs⟩ := componentsP_ok _ e5
            by_cases hne : cs = []
            · subst hne
              simp [buildFrame, listMax?] at h
            · have hX := beU16_lt e3
              have hY := beU16_lt e2
              obtain ⟨H, V, hH, hV, hb⟩ := buildFrame_eq cfg i prec hX hY cs hne (by
                intro c hc
                obtain ⟨_, _, _, _, rfl, hf⟩ := hcs c hc
                exact hf)
              rw [hb] at h
              simp only [pure, Except.pure, Except.ok.injEq, Prod.mk.injEq] at h
              obtain ⟨rfl, _⟩ := h
              refine ⟨⟨hX, hY, H, V, ?_, ?_, rfl, ?_⟩, by simpa using hne, rfl⟩
              · exact Largest.map.2 hH
              · exact Largest.map.2 hV
              · intro c hc
                obtain ⟨c', hc', rfl⟩ := List.mem_map.1 hc
                obtain ⟨_, _, _, _, rfl, hf⟩ := hcs c' hc'
                exact fullComponent_geometry hf

theorem beU16_bytes {n : Nat} (h : n < 2 ^ 16) (rest : List UInt8) :
    beU16 (UInt8.ofNat (n / 256) :: UInt8.ofNat (n % 256) :: rest) = .ok (n, rest) := by
  unfold beU16
  have h1 : (UInt8.ofNat (n / 256)).toNat = n / 256 := UInt8.toNat_ofNat_of_lt' (show n / 256 < 256 by omega)
  have h2 : (UInt8.ofNat (n % 256)).toNat = n % 256 := UInt8.toNat_ofNat_of_lt' (show n % 256 < 256 by omega)
  simp only [h1, h2]
  congr 2
  omega

/-- Every well-formed frame header is accepted. -/
theorem sof_header (cfg : Cfg) (i : Nat) (p : UInt8) {X Y : Nat} (hX : X < 2 ^ 16) (hY : Y < 2 ^ 16)
    (cs : List HeaderComponent) (h1 : cs ≠ []) (h255 : cs.length ≤ 255)
    (hf : ∀ c ∈ cs, FactorsOk c.h c.v) (rest : List UInt8) :
    ∃ H V, Largest (·.h) cs H ∧ Largest (·.v) cs V ∧
      sof cfg i (frameHeader p Y X cs ++ rest) = .ok
        (⟨i, p, Y, X, ⟨ceilDiv X (8 * H), ceilDiv Y (8 * V)⟩,
          cs.map fun c => fullComponent X Y H V (rawComponent c.id c.h c.v c.tq.toNat)⟩, rest) := by
  obtain ⟨H, V, hH, hV, hb⟩ := buildFrame_eq cfg i p hX hY
    (cs.map fun c => rawComponent c.id c.h c.v c.tq.toNat) (by simpa using h1) (by
      intro c hc
      obtain ⟨c', hc', rfl⟩ := List.mem_map.1 hc
      exact hf c' hc')
  refine ⟨H, V, (Largest.map (f := Component.h)).1 hH, (Largest.map (f := Component.v)).1 hV, ?_⟩
  unfold sof frameHeader
  simp only [List.cons_append, List.nil_append, anyByte, bind, Except.bind, beU16_bytes hX,
    beU16_bytes hY]
  have hl : (UInt8.ofNat cs.length).toNat = cs.length :=
    UInt8.toNat_ofNat_of_lt' (show cs.length < 256 by omega)
  rw [hl, componentsP_bytes cs hf rest]
  simp only [hb, List.map_map]
  rfl

end Jpeg
