import Verif.Props.AnyPicture
import Mathlib.Data.List.Forall2
/-!
# Files for given coefficients

For all blocks within the range of the tables of annex K, in any arrangement, there is a file. Used for the
cases beside the theorems.
-/

namespace Jpeg
open Spec

/-- The components and MCUs fit together and to the size of the picture (T.81 A.2, B.2.2, B.2.3). -/
structure Arranged (comps : List FileComponent) (w l H V : Nat) (ms : List Mcu) : Prop where
  x : 1 ≤ w ∧ w < 2 ^ 16
  y : l < 2 ^ 16
  count : 1 ≤ comps.length ∧ comps.length ≤ 4
  ids : (comps.map (·.id)).Nodup
  factors : ∀ c ∈ comps, 1 ≤ c.h ∧ c.h ≤ 4 ∧ 1 ≤ c.v ∧ c.v ≤ 4
  hmax : Largest (·.h) comps H
  vmax : Largest (·.v) comps V
  ten : (comps.map fun c => c.h * c.v).sum ≤ 10
  single : comps.length = 1 → H = 1 ∧ V = 1
  zero : ∀ c ∈ comps, c.tq = 0 ∧ c.dc = 0 ∧ c.ac = 0
  mcus : ms.length = ceilDiv w (8 * H) * ceilDiv l (8 * V)
  blocks : ∀ m ∈ ms, m.map List.length = comps.map fun c => c.h * c.v

/-- The file with quantisation table `q` and the Huffman tables of annex K. -/
def codedFile (q : List Nat) (comps : List FileComponent) (x y : Nat) (mcus : List Mcu) (data : List UInt8) :
    BaselineFile where
  before := [.dqt [⟨false, 0, q⟩]]
  sof := 0
  precision := 8
  y := y
  x := x
  comps := comps
  after := [.dht [⟨false, 0, dcK3.counts, dcK3.values⟩, ⟨true, 0, acK5.counts, acK5.values⟩], .dri 0]
  intervals := [mcus]
  data := stuff data ++ markerBytes .EOI

theorem codable_blocks : ∀ (bs : List BlockData), (∀ b ∈ bs, Codable b) → ∀ p : Int, (-1024 ≤ p ∧ p ≤ 1016) →
    ∃ bits q, BlocksBits dcK3 acK5 p bs bits q ∧ -1024 ≤ q ∧ q ≤ 1016
  | [], _, p, hp => ⟨[], p, .nil, hp⟩
  | b :: bs, h, p, hp => by
    have hb := h b (by simp)
    obtain ⟨x, hx⟩ := codable_bits hb hp
    obtain ⟨y, q, hy, hq⟩ := codable_blocks bs (fun b hb => h b (by simp [hb])) b.dc hb.dc
    cases hx with
    | cons h1 h2 h3 => exact ⟨_, q, .cons h1 h2 hy, hq⟩

theorem codable_mcu : ∀ (m : Mcu), (∀ bs ∈ m, ∀ b ∈ bs, Codable b) → ∀ ps : List Int, ps.length = m.length →
    (∀ p ∈ ps, -1024 ≤ p ∧ p ≤ 1016) →
    ∃ bits qs, McuBits (List.replicate m.length (dcK3, acK5)) ps m bits qs ∧ qs.length = m.length ∧
      ∀ q ∈ qs, -1024 ≤ q ∧ q ≤ 1016
  | [], _, ps, hl, hp => ⟨[], ps, .nil, hl, hp⟩
  | bs :: m, h, ps, hl, hp => by
    match ps, hl, hp with
    | p :: ps, hl, hp =>
      obtain ⟨x, q, hx, hq⟩ := codable_blocks bs (h bs (by simp)) p (hp p (by simp))
      obtain ⟨y, qs, hy, hl', hqs⟩ := codable_mcu m (fun bs hb => h bs (by simp [hb])) ps (by simpa using hl)
        (fun p h => hp p (by simp [h]))
      refine ⟨x ++ y, q :: qs, .cons hx hy, by simp [hl'], ?_⟩
      intro r hr
      rcases List.mem_cons.1 hr with rfl | hr
      · exact hq
      · exact hqs r hr

theorem codable_mcus (n : Nat) : ∀ (ms : List Mcu), (∀ m ∈ ms, m.length = n ∧ ∀ bs ∈ m, ∀ b ∈ bs, Codable b) →
    ∀ ps : List Int, ps.length = n → (∀ p ∈ ps, -1024 ≤ p ∧ p ≤ 1016) →
    ∃ bits qs, McusBits (List.replicate n (dcK3, acK5)) ps ms bits qs
  | [], _, ps, _, _ => ⟨[], ps, .nil⟩
  | m :: ms, h, ps, hl, hp => by
    obtain ⟨hm, hb⟩ := h m (by simp)
    subst hm
    obtain ⟨x, qs, hx, hl', hq⟩ := codable_mcu m hb ps hl hp
    obtain ⟨y, rs, hy⟩ := codable_mcus m.length ms (fun m hm => h m (by simp [hm])) qs hl' hq
    exact ⟨x ++ y, rs, .cons hx hy⟩

/-- For all MCUs there is a file. -/
theorem codedFile_valid {q : List Nat} (hq : GoodTable q) {comps : List FileComponent} {x y H V : Nat}
    {mcus : List Mcu} (ha : Arranged comps x y H V mcus) (hc : ∀ m ∈ mcus, ∀ bs ∈ m, ∀ b ∈ bs, Codable b) :
    ∃ data, (codedFile q comps x y mcus data).Valid 0 H V (List.replicate comps.length (dcK3, acK5)) := by
  obtain ⟨bits, qs, hb⟩ := codable_mcus comps.length mcus (fun m hm => ⟨by
    have := congrArg List.length (ha.blocks m hm); simpa using this, hc m hm⟩)
    (List.replicate comps.length 0) (by simp) (by
      intro p hp
      rw [(List.mem_replicate.1 hp).2]
      omega)
  obtain ⟨data, pad, -, hd⟩ := pack_bits bits
  refine ⟨data, ⟨?_, Nat.zero_le 1, ha.x, ha.y, ha.count, ha.ids, ha.factors, ha.hmax, ha.vmax, ha.ten, ha.single,
    ?_, ?_, ?_, ?_, ?_⟩, ⟨0, .last ⟨bits, pad, qs, by simpa using hb, hd⟩⟩⟩
  · intro t ht
    simp only [codedFile, BaselineFile.tables, BaselineFile.segments, List.cons_append, List.nil_append, List.mem_cons,
      List.not_mem_nil, or_false] at ht
    rcases ht with rfl | rfl | rfl
    · refine ⟨?_, ?_⟩
      · simp [TableSegment.content, QuantDef.bytes, hq.1]
      · intro t ht
        simp only [List.mem_cons, List.not_mem_nil, or_false] at ht
        subst ht
        refine ⟨by show (0 : Nat) ≤ 3; omega, hq.1, fun v hv => ?_⟩
        have := (hq.2 v hv).2
        show v < 256
        omega
    · refine ⟨by decide +kernel, ?_⟩
      intro t ht
      simp only [List.mem_cons, List.not_mem_nil, or_false] at ht
      rcases ht with rfl | rfl
      · exact ⟨⟨by decide, by decide, by decide⟩, by decide, by decide, by unfold KraftOk; decide +kernel⟩
      · exact ⟨⟨by decide, by decide, by decide +kernel⟩, by decide +kernel, by decide +kernel, by unfold KraftOk; decide +kernel⟩
    · exact ⟨by decide, by show (0 : Nat) < 65536; decide⟩
  · intro c hc
    refine ⟨q, ?_⟩
    unfold BaselineFile.quantOf
    rw [(ha.zero c hc).1]
    rfl
  · refine List.forall₂_iff_get.2 ⟨by simp [codedFile], ?_⟩
    intro i h1 h2
    have hz := ha.zero _ (List.get_mem comps ⟨i, h1⟩)
    unfold BaselineFile.dcCode BaselineFile.acCode
    rw [show ((codedFile q comps x y mcus data).comps.get ⟨i, h1⟩).dc = 0 from hz.2.1,
      show ((codedFile q comps x y mcus data).comps.get ⟨i, h1⟩).ac = 0 from hz.2.2]
    simp only [List.get_eq_getElem, List.getElem_replicate]
    exact ⟨rfl, rfl⟩
  · show [mcus].flatten.length = ceilDiv x (8 * H) * ceilDiv y (8 * V)
    simpa using ha.mcus
  · intro m hm
    exact ha.blocks m (by simpa [codedFile] using hm)
  · unfold IntervalsOk
    rw [if_pos rfl]; rfl

theorem codedFile_quantOf (q : List Nat) (comps : List FileComponent) (x y : Nat) (mcus : List Mcu) (data : List UInt8)
    (c : FileComponent) (hc : c.tq = 0) : (codedFile q comps x y mcus data).quantOf c = some q := by
  unfold BaselineFile.quantOf
  rw [hc]
  rfl

/-- Bounds of a single block. -/
def BlockInRange (q : List Nat) (b : BlockData) : Prop :=
  (∀ k < 8, ∀ j < 8, -2 ^ 16 ≤ dequantised q b k j ∧ dequantised q b k j ≤ 2 ^ 16) ∧
  ∀ k < 8, ∀ j < 8, -256 ≤ idctSample (dequantised q b) k j ∧ idctSample (dequantised q b) k j ≤ 767

instance (q : List Nat) (b : BlockData) : Decidable (BlockInRange q b) := by
  unfold BlockInRange
  infer_instance

theorem codedFile_inRange {q : List Nat} {comps : List FileComponent} {x y : Nat} {mcus : List Mcu} {data : List UInt8}
    (hz : ∀ c ∈ comps, c.tq = 0) (h : ∀ m ∈ mcus, ∀ bs ∈ m, ∀ b ∈ bs, BlockInRange q b) :
    (codedFile q comps x y mcus data).InRange := by
  intro i c q' hc hq m hm bs hbs b hb
  rw [codedFile_quantOf _ _ _ _ _ _ c (hz c (List.mem_of_getElem? hc))] at hq
  cases hq
  obtain ⟨h1, h2⟩ := h m (by simpa [codedFile] using hm) bs (List.mem_of_getElem? hbs) b hb
  exact ⟨fun k j hk hj => h1 k hk j hj, fun k j hk hj => h2 k hk j hj⟩

instance (b : BlockData) : Decidable (Codable b) :=
  decidable_of_iff (b.zz.length = 63 ∧ (-1024 ≤ b.dc ∧ b.dc ≤ 1016) ∧ ∀ v ∈ b.zz, category v ≤ 10)
    ⟨fun h => ⟨h.1, h.2.1, h.2.2⟩, fun h => ⟨h.1, h.2, h.3⟩⟩

end Jpeg
