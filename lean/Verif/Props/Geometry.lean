import Verif.Proofs.Geometry
import Verif.Model.Scan
/-!
# C18, C19: frame geometry
-/

namespace Jpeg
open Spec

/-- **C18.** For every accepted frame header (any 16 bit size, any number of components, sampling
factors 1 to 4) the MCU counts, component sizes and block counts that the decoder computes in single
precision are the exact integer ceilings of T.81. -/
theorem C18_geometry_exact (cfg : Cfg) (i : Nat) (bytes rest : List UInt8) (frame : Frame)
    (h : sof cfg i bytes = .ok (frame, rest)) : FrameGeometry frame :=
  (sof_geometry h).1

/-- **C18** (every header). Every frame header with 1 to 255 components of sampling factors 1 to 4
is accepted, with the size, the components and the geometry it says. -/
theorem C18_header_accepted (cfg : Cfg) (i : Nat) (p : UInt8) (x y : Nat) (hx : x < 2 ^ 16)
    (hy : y < 2 ^ 16) (cs : List HeaderComponent) (hne : cs ≠ []) (h255 : cs.length ≤ 255)
    (hf : ∀ c ∈ cs, 1 ≤ c.h ∧ c.h ≤ 4 ∧ 1 ≤ c.v ∧ c.v ≤ 4) (rest : List UInt8) :
    ∃ frame, sof cfg i (frameHeader p y x cs ++ rest) = .ok (frame, rest) ∧
      frame.samplesPerLine = x ∧ frame.lines = y ∧ frame.precision = p ∧ frame.markerIndex = i ∧
      frame.components.map (fun c => (c.id, c.h, c.v, c.tq)) =
        cs.map (fun c => (c.id, c.h, c.v, c.tq.toNat)) ∧ FrameGeometry frame := by
  obtain ⟨H, V, _, _, e⟩ := sof_header cfg i p hx hy cs hne h255 hf rest
  refine ⟨_, e, rfl, rfl, rfl, rfl, ?_, (sof_geometry e).1⟩
  simp [fullComponent, rawComponent]

/-- **C19** (no overflow). The only way the frame header parser panics is a header without
components; in particular the 16 bit block counts never overflow, and debug and release builds
compute the same frame. -/
theorem C19_no_overflow (i : Nat) (bytes : List UInt8) :
    (∀ cfg p, sof cfg i bytes = .error (.panic p) → p = .noComponents) ∧
    ∀ cfg cfg', sof cfg i bytes = sof cfg' i bytes := by
  -- one description of `sof` for all configurations
  have hs : (∃ f, (∀ p, f ≠ .panic p) ∧ ∀ cfg, sof cfg i bytes = .error f) ∨
      (∀ cfg, sof cfg i bytes = .error (.panic .noComponents)) ∨
      ∃ r, ∀ cfg, sof cfg i bytes = .ok r := by
    have hany : ∀ (l : List UInt8), anyByte l = .error .eof ∨ ∃ r, anyByte l = .ok r := by
      intro l; cases l with
      | nil => exact Or.inl rfl
      | cons b l => exact Or.inr ⟨_, rfl⟩
    have hbe : ∀ (l : List UInt8), beU16 l = .error .eof ∨ ∃ r, beU16 l = .ok r := by
      intro l; unfold beU16; split
      · exact Or.inr ⟨_, rfl⟩
      · exact Or.inl rfl
    have hcomp : ∀ l, (∃ f, componentP l = .error f ∧ ∀ p, f ≠ .panic p) ∨
        ∃ r, componentP l = .ok r := by
      intro l
      cases e : componentP l with
      | ok r => exact Or.inr ⟨r, rfl⟩
      | error f =>
        refine Or.inl ⟨f, rfl, ?_⟩
        rintro p rfl
        unfold componentP at e
        rcases l with _ | ⟨id, _ | ⟨b, l⟩⟩
        · simp [anyByte, bind, Except.bind] at e
        · simp [anyByte, split4Bit, bind, Except.bind] at e
        · simp only [anyByte, split4Bit, bind, Except.bind, checkSamplingFactor] at e
          split at e
          · rename_i h; split at h <;> simp_all
          · split at e
            · rename_i h; split at h <;> simp_all
            · cases l <;> simp [pure, Except.pure] at e
    have hcomps : ∀ n l, (∃ f, componentsP n l = .error f ∧ ∀ p, f ≠ .panic p) ∨
        ∃ r, componentsP n l = .ok r := by
      intro n
      induction n with
      | zero => intro l; exact Or.inr ⟨_, rfl⟩
      | succ n ih =>
        intro l
        simp only [componentsP, bind, Except.bind]
        rcases hcomp l with ⟨f, e, hf⟩ | ⟨⟨c, l'⟩, e⟩
        · exact Or.inl ⟨f, by rw [e], hf⟩
        · rw [e]
          simp only
          rcases ih l' with ⟨f, e, hf⟩ | ⟨⟨cs, l''⟩, e⟩
          · exact Or.inl ⟨f, by rw [e], hf⟩
          · exact Or.inr ⟨(c :: cs, l''), by rw [e]; rfl⟩
    simp only [sof, bind, Except.bind]
    rcases hany bytes with e | ⟨⟨prec, l1⟩, e⟩ <;> rw [e]
    · exact Or.inl ⟨.eof, by simp, fun _ => rfl⟩
    simp only
    rcases hbe l1 with e | ⟨⟨Y, l2⟩, e2⟩
    · rw [e]; exact Or.inl ⟨.eof, by simp, fun _ => rfl⟩
    rw [e2]; simp only
    rcases hbe l2 with e | ⟨⟨X, l3⟩, e3⟩
    · rw [e]; exact Or.inl ⟨.eof, by simp, fun _ => rfl⟩
    rw [e3]; simp only
    rcases hany l3 with e | ⟨⟨n, l4⟩, e4⟩
    · rw [e]; exact Or.inl ⟨.eof, by simp, fun _ => rfl⟩
    rw [e4]; simp only
    rcases hcomps n.toNat l4 with ⟨f, e5, hf⟩ | ⟨⟨cs, l5⟩, e5⟩
    · rw [e5]; exact Or.inl ⟨f, hf, fun _ => rfl⟩
    rw [e5]; simp only
    by_cases hne : cs = []
    · subst hne
      exact Or.inr (Or.inl fun cfg => rfl)
    · refine Or.inr (Or.inr ?_)
      obtain ⟨_, hcs⟩ := componentsP_ok _ e5
      have hb := fun cfg => buildFrame_eq cfg i prec (beU16_lt e3) (beU16_lt e2) cs hne (by
        intro c hc
        obtain ⟨_, _, _, _, rfl, hf⟩ := hcs c hc
        exact hf)
      obtain ⟨H, V, hH, hV, _⟩ := hb ⟨true, true⟩
      refine ⟨(⟨i, prec, Y, X, ⟨ceilDiv X (8 * H), ceilDiv Y (8 * V)⟩,
        cs.map (fullComponent X Y H V)⟩, l5), ?_⟩
      intro cfg
      obtain ⟨H', V', hH', hV', hb'⟩ := hb cfg
      rw [hb', hH.unique hH', hV.unique hV']
      rfl
  rcases hs with ⟨f, hf, hs⟩ | hs | ⟨r, hs⟩
  · refine ⟨fun cfg p e => ?_, fun cfg cfg' => by rw [hs, hs]⟩
    rw [hs] at e
    exact absurd (Except.error.inj e) (hf p)
  · refine ⟨fun cfg p e => ?_, fun cfg cfg' => by rw [hs, hs]⟩
    rw [hs] at e
    simp only [Except.error.injEq, Fail.panic.injEq] at e
    exact e.symm
  · refine ⟨fun cfg p e => ?_, fun cfg cfg' => by rw [hs, hs]⟩
    rw [hs] at e
    simp at e

theorem ceilDiv_le_mul {a b : Nat} (hb : 0 < b) : a ≤ ceilDiv a b * b := by
  unfold ceilDiv
  have := Nat.div_add_mod (a + (b - 1)) b
  have := Nat.mod_lt (a + (b - 1)) hb
  rw [Nat.mul_comm]
  omega

theorem ceilDiv_le_iff {a b n : Nat} (hb : 0 < b) : ceilDiv a b ≤ n ↔ a ≤ n * b := by
  constructor
  · intro h
    exact le_trans (ceilDiv_le_mul hb) (Nat.mul_le_mul_right _ h)
  · intro h
    unfold ceilDiv
    rw [← Nat.lt_succ_iff, Nat.div_lt_iff_lt_mul hb, Nat.succ_mul]
    omega

/-- **C19** (coverage). Every component's plane has whole lines, at least as many and at least as
long as the component, and at full resolution at least as many and as long as the image. The block
counts fit 16 bits. -/
theorem C19_planes_cover (cfg : Cfg) (i : Nat) (bytes rest : List UInt8) (frame : Frame)
    (h : sof cfg i bytes = .ok (frame, rest)) (c : Component) (hc : c ∈ frame.components) :
    c.blockSize.width < 2 ^ 16 ∧ c.blockSize.height < 2 ^ 16 ∧
    c.lineStride = 8 * c.blockSize.width ∧
    (allocPlane c).length = c.lineStride * (8 * c.blockSize.height) ∧
    c.size.width ≤ c.lineStride ∧ c.size.height ≤ 8 * c.blockSize.height ∧
    ((∀ c' ∈ frame.components, c'.h ≤ c.h) →
      c.size.width = frame.samplesPerLine ∧ frame.samplesPerLine ≤ c.lineStride) ∧
    ((∀ c' ∈ frame.components, c'.v ≤ c.v) →
      c.size.height = frame.lines ∧ frame.lines ≤ 8 * c.blockSize.height) := by
  obtain ⟨⟨hx, hy, H, V, hH, hV, _, hg⟩, _⟩ := sof_geometry h
  have g := hg c hc
  obtain ⟨f1, f2, f3, f4⟩ := g.factors
  have h1 := hH.1 c hc
  have h2 := hV.1 c hc
  simp only at h1 h2
  have hH4 : H ≤ 4 := by
    obtain ⟨c', hc', rfl⟩ := hH.2
    exact (hg c' hc').factors.2.1
  have hV4 : V ≤ 4 := by
    obtain ⟨c', hc', rfl⟩ := hV.2
    exact (hg c' hc').factors.2.2.2
  have cov : ∀ {X h H : Nat}, 1 ≤ H → ceilDiv (X * h) H ≤ 8 * (ceilDiv X (8 * H) * h) := by
    intro X h H h1
    rw [ceilDiv_le_iff (by omega)]
    have := ceilDiv_le_mul (a := X) (b := 8 * H) (by omega)
    calc X * h ≤ ceilDiv X (8 * H) * (8 * H) * h := Nat.mul_le_mul_right _ this
      _ = _ := by ring
  have hself : ∀ {X H : Nat}, 1 ≤ H → ceilDiv (X * H) H = X := by
    intro X H h1
    unfold ceilDiv
    rw [Nat.mul_comm, Nat.mul_add_div (by omega), Nat.div_eq_of_lt (by omega), Nat.add_zero]
  refine ⟨?_, ?_, ?_, ?_, ?_, ?_, ?_, ?_⟩
  · rw [g.blocks]; exact mcu_mul_lt hx h1 hH4 (by omega)
  · rw [g.blocks]; exact mcu_mul_lt hy h2 hV4 (by omega)
  · rw [g.blocks, g.lineStride]
  · rw [allocPlane, List.length_replicate, g.lineStride, g.blocks]
    simp only [Dim.area, BLOCK_SIZE]; ring
  · rw [g.size, g.lineStride]; exact cov (by omega)
  · rw [g.size, g.blocks]; exact cov (by omega)
  · intro hall
    have : c.h = H := by
      obtain ⟨c', hc', e⟩ := hH.2
      simp only at e
      have := hall c' hc'
      omega
    have e : c.size.width = frame.samplesPerLine := by rw [g.size, this]; exact hself (by omega)
    refine ⟨e, ?_⟩
    rw [← e, g.size, g.lineStride]; exact cov (by omega)
  · intro hall
    have : c.v = V := by
      obtain ⟨c', hc', e⟩ := hV.2
      simp only at e
      have := hall c' hc'
      omega
    have e : c.size.height = frame.lines := by rw [g.size, this]; exact hself (by omega)
    refine ⟨e, ?_⟩
    rw [← e, g.size, g.blocks]; exact cov (by omega)

/-- A case of C18 and C19: 65535 x 100 with sampling 3x2, 2x1, 1x1. The second component is
`ceil(65535 * 2 / 3) = 43690` samples wide, in `2731 * 2` blocks per line. -/
example : ∃ frame, sof ⟨true, false⟩ 0
      (frameHeader 8 100 65535 [⟨1, 3, 2, 0⟩, ⟨2, 2, 1, 1⟩, ⟨3, 1, 1, 1⟩]) = .ok (frame, []) ∧
    frame.mcuSize = ⟨2731, 7⟩ ∧
    frame.components.map (fun c => (c.size, c.blockSize)) =
      [(⟨65535, 100⟩, ⟨8193, 14⟩), (⟨43690, 50⟩, ⟨5462, 7⟩), (⟨21845, 50⟩, ⟨2731, 7⟩)] := by
  refine ⟨⟨0, 8, 100, 65535, ⟨2731, 7⟩, [
    ⟨1, 3, 2, 0, 6, 65544, ⟨24, 16⟩, 1048704, ⟨8193, 14⟩, ⟨65535, 100⟩⟩,
    ⟨2, 2, 1, 1, 2, 43696, ⟨16, 8⟩, 349568, ⟨5462, 7⟩, ⟨43690, 50⟩⟩,
    ⟨3, 1, 1, 1, 1, 21848, ⟨8, 8⟩, 174784, ⟨2731, 7⟩, ⟨21845, 50⟩⟩]⟩, ?_, rfl, rfl⟩
  decide +kernel

end Jpeg
