import Verif.Proofs.BaselineRun
import Verif.Props.Idct
/-!
# The samples of a whole sequential file
-/

namespace Jpeg
open Spec

/-- Only samples inside the component matter. -/
theorem upsampled_congr {W Ht H V : Nat} {c : Component} (g : ComponentGeometry W Ht H V c)
    (hH : c.h ≤ H) (hV : c.v ≤ V) (hW : 1 ≤ W) {row : Nat} (hrow : row < Ht)
    (hmod : H % c.h = 0 ∧ V % c.v = 0) {x : Nat} (hx : x < W) (f f' : Nat → Nat → Nat)
    (hf : ∀ r i, r < c.size.height → i < c.size.width → f r i = f' r i) :
    upsampled W Ht H V c.h c.v c.size.width c.size.height f row x =
      upsampled W Ht H V c.h c.v c.size.width c.size.height f' row x := by
  have F := Facts.of g hH hV hW (by omega)
  obtain ⟨f1, f2, f3, f4⟩ := g.factors
  have hw1 : 1 ≤ c.size.width := by
    rw [g.size]; exact ceilDiv_pos (Nat.mul_pos (by omega) (by omega)) (by omega)
  have hh1 : 1 ≤ c.size.height := by
    rw [g.size]; exact ceilDiv_pos (Nat.mul_pos (by omega) (by omega)) (by omega)
  have col1 : (c.h = H ∨ W = 1) → x < c.size.width := by
    rintro (h | h)
    · rw [F.fullW h]; omega
    · omega
  have row1 : (c.v = V ∨ Ht = 1) → row < c.size.height := by
    rintro (h | h)
    · rw [F.fullH h]; omega
    · omega
  have far : 2 * c.v = V → row / 2 < c.size.height ∧ farRow c.size.height row < c.size.height := by
    intro h
    have := F.halfH h
    unfold farRow
    split <;> omega
  unfold upsampled
  split
  · rename_i h
    exact hf _ _ (row1 h.2) (col1 h.1)
  · split
    · rename_i h
      have hw := F.halfW h.1
      have hr := row1 h.2
      have e : ∀ i, i < c.size.width → f row i = f' row i := fun i hi => hf row i hr hi
      unfold doubleLine
      split
      · exact e _ (by omega)
      · split
        · exact e _ (by omega)
        · split
          · rw [e _ (by omega), e _ (by omega)]
          · rw [e _ (by omega), e _ (by omega)]
    · split
      · rename_i h
        obtain ⟨h1, h2⟩ := far h.2
        unfold doubleRows
        rw [hf _ _ h1 (col1 h.1), hf _ _ h2 (col1 h.1)]
      · split
        · rename_i h
          have hw := F.halfW h.1
          obtain ⟨h1, h2⟩ := far h.2
          have e : ∀ i, i < c.size.width → 3 * f (row / 2) i + f (farRow c.size.height row) i =
              3 * f' (row / 2) i + f' (farRow c.size.height row) i := fun i hi => by
            rw [hf _ _ h1 hi, hf _ _ h2 hi]
          unfold doubleBoth
          simp only
          split
          · rw [e _ (by omega)]
          · split
            · rw [e _ (by omega)]
            · split
              · rw [e _ (by omega), e _ (by omega)]
              · rw [e _ (by omega), e _ (by omega)]
        · have hs0 : 0 < H / c.h := Nat.div_pos hH (by omega)
          have vs0 : 0 < V / c.v := Nat.div_pos hV (by omega)
          have hxw : x / (H / c.h) < c.size.width := by
            rw [F.divW hmod.1, Nat.div_lt_iff_lt_mul hs0]
            have := ceilDiv_le_mul (a := W) (b := H / c.h) hs0
            omega
          have hrv : row / (V / c.v) < c.size.height := by
            rw [F.divH hmod.2, Nat.div_lt_iff_lt_mul vs0]
            have := ceilDiv_le_mul (a := Ht) (b := V / c.v) vs0
            omega
          exact hf _ _ hrv hxw

/-- Every cell has a place in zig-zag order. -/
theorem zigzag_idxOf {p : Nat} (hp : p < 64) :
    ((List.range 64).map zigzag).idxOf p < 64 ∧ zigzag (((List.range 64).map zigzag).idxOf p) = p := by
  have : ∀ p : Fin 64, ((List.range 64).map zigzag).idxOf p.1 < 64 ∧
      zigzag (((List.range 64).map zigzag).idxOf p.1) = p := by decide +kernel
  exact this ⟨p, hp⟩

/-- What the inverse transform sees of a coded block is its dequantised form. -/
theorem coef_dequantised {q qv : List Nat} (hq : ∀ i, i < 64 → q[zigzag i]? = qv[i]?) (b : BlockData)
    {k i : Nat} (hk : k < 8) (hi : i < 8) :
    coef b.block (i + 8 * k) * quant q (i + 8 * k) = dequantised qv b k i := by
  have hp : i + 8 * k < 64 := by omega
  obtain ⟨h1, h2⟩ := zigzag_idxOf hp
  have := hq _ h1
  rw [h2] at this
  unfold coef quant dequantised BlockData.block
  rw [this, List.getElem?_map, List.getElem?_range hp]
  simp only [Option.map_some, Option.getD_some, List.getD_eq_getElem?_getD]
  rw [Nat.add_comm i]

theorem idctSample_congr {g g' : Nat → Nat → Int} (h : ∀ k i, k < 8 → i < 8 → g k i = g' k i) (r x : Nat) :
    idctSample g r x = idctSample g' r x := by
  have h1 : ∀ i, i < 8 → idctPass1 g r i = idctPass1 g' r i := by
    intro i hi
    unfold idctPass1
    rw [show (List.range 8).map (fun k => g k i) = (List.range 8).map fun k => g' k i from
      List.map_congr_left fun k hk => h k i (List.mem_range.1 hk) hi]
  unfold idctSample
  rw [show (List.range 8).map (fun k => idctPass1 g r k) = (List.range 8).map fun k => idctPass1 g' r k from
    List.map_congr_left fun k hk => h1 k (List.mem_range.1 hk)]

theorem sampleAt_block {q qv : List Nat} (hq : ∀ i, i < 64 → q[zigzag i]? = qv[i]?) {b : BlockData}
    (h1 : ∀ k j, k < 8 → j < 8 → -2 ^ 16 ≤ dequantised qv b k j ∧ dequantised qv b k j ≤ 2 ^ 16)
    (h2 : ∀ k j, k < 8 → j < 8 → -256 ≤ idctSample (dequantised qv b) k j ∧
        idctSample (dequantised qv b) k j ≤ 767) {r x : Nat} (hr : r < 8) (hx : x < 8) :
    sampleAt b.block q r x = saturate (idctSample (dequantised qv b) r x) := by
  have e : ∀ r x, r < 8 → x < 8 → idctSample (fun k i => coef b.block (i + 8 * k) * quant q (i + 8 * k)) r x =
      idctSample (dequantised qv b) r x :=
    fun r x _ _ => idctSample_congr (fun k i hk hi => coef_dequantised hq b hk hi) r x
  unfold sampleAt
  rw [C24_saturated b.block q (by
    intro i hi
    have := coef_dequantised hq b (k := i / 8) (i := i % 8) (by omega) (by omega)
    rw [show i % 8 + 8 * (i / 8) = i by omega] at this
    rw [this]
    exact h1 _ _ (by omega) (by omega)) (by
    intro r x hr hx
    rw [e r x hr hx]
    exact h2 r x hr hx)]
  simp only [List.getD_eq_getElem?_getD, List.getElem?_map, List.getElem?_range hr, List.getElem?_range hx,
    Option.map_some, Option.getD_some]
  rw [e r x hr hx]

/-- Sample in row `Y`, column `X` of component `i`, blocks being transformed by `S`. -/
def sampleBy (S : List Nat → BlockData → Nat → Nat → UInt8) (f : BaselineFile) (H i Y X : Nat) : UInt8 :=
  match f.comps[i]? with
  | none => 0
  | some c =>
    match f.blockAt H i c Y X, f.quantOf c with
    | some b, some q => S q b (Y % 8) (X % 8)
    | _, _ => 0

/-- Component `i` upsampled, blocks being transformed by `S`. -/
def upsampledBy (S : List Nat → BlockData → Nat → Nat → UInt8) (f : BaselineFile) (H V i row col : Nat) : Nat :=
  match f.comps[i]? with
  | none => 0
  | some c => upsampled f.x f.y H V c.h c.v (ceilDiv (f.x * c.h) H) (ceilDiv (f.y * c.v) V)
      (fun r k => (sampleBy S f H i r k).toNat) row col

/-- The blocks of the file are transformed by `S`. -/
def GivenBy (S : List Nat → BlockData → Nat → Nat → UInt8) (f : BaselineFile) : Prop :=
  ∀ (i : Nat) (c : FileComponent) (qv : List Nat), f.comps[i]? = some c → f.quantOf c = some qv →
    ∀ m ∈ f.intervals.flatten, ∀ blocks, m[i]? = some blocks → ∀ b ∈ blocks, ∀ q : List Nat, q.length = 64 →
      (∀ i, i < 64 → q[zigzag i]? = qv[i]?) → ∀ r x, r < 8 → x < 8 → sampleAt b.block q r x = S qv b r x

/-- The transform of the specification. -/
def exactly (q : List Nat) (b : BlockData) (r x : Nat) : UInt8 := saturate (idctSample (dequantised q b) r x)

theorem sampleBy_exactly (f : BaselineFile) (H i Y X : Nat) : sampleBy exactly f H i Y X = f.sample H i Y X := rfl

theorem upsampledBy_exactly (f : BaselineFile) (H V i row col : Nat) :
    upsampledBy exactly f H V i row col = f.upsampledSample H V i row col := rfl

theorem givenBy_exactly {f : BaselineFile} (h : f.InRange) : GivenBy exactly f := by
  intro i c qv hc hqv m hm bs hbs b hb q _ hq r x hr hx
  obtain ⟨r1, r2⟩ := h i c qv hc hqv m hm bs hbs b hb
  exact sampleAt_block hq r1 r2 hr hx

section

variable {cfg : Cfg} {f : BaselineFile} {r H V : Nat} {codes : List (Code × Code)}
  {S : List Nat → BlockData → Nat → Nat → UInt8}

theorem scanPlanes_get {W : Nat} {qts : List (Option (List Nat))} {cs : List Component} {ms : List Mcu}
    {i : Nat} {c : Component} (hc : cs[i]? = some c) : (scanPlanes W qts cs ms)[i]? =
      some (planeSamples W c (quantOf qts c) (ms.map fun m => (splitBlocks cs (mcuBuf m)).getD i [])) := by
  unfold scanPlanes
  rw [List.getElem?_map, List.getElem?_range (List.getElem?_eq_some_iff.1 hc).1]
  simp only [Option.map_some, hc]

/-- The samples of the decoded planes are those of the file. -/
theorem plane_sample (hv : f.Laid r H V codes) (hin : GivenBy S f) {d : Decoder}
    (ht : TablesHeld cfg f.tables d) {i : Nat} {c : FileComponent} (hc : f.comps[i]? = some c)
    {p : List UInt8} (hp : (scanPlanes (ceilDiv f.x (8 * H)) d.quantTables (fileFrame f H V).components
      f.intervals.flatten)[i]? = some p) {Y X : Nat}
    (hY : Y < 8 * (ceilDiv f.y (8 * V) * c.v)) (hX : X < 8 * (ceilDiv f.x (8 * H) * c.h)) :
    p.getD (Y * (fileComponent f H V c).lineStride + X) 0 = sampleBy S f H i Y X := by
  have hcm := List.mem_of_getElem? hc
  have g := fileComponent_geometry hv hcm
  have hc' : (fileFrame f H V).components[i]? = some (fileComponent f H V c) := by
    show (f.comps.map (fileComponent f H V))[i]? = _
    rw [List.getElem?_map, hc]; rfl
  obtain ⟨f1, f2, f3, f4⟩ := hv.factors c hcm
  rw [scanPlanes_get hc'] at hp
  obtain rfl := Option.some.inj hp
  have hst : (fileComponent f H V c).lineStride = 8 * (ceilDiv f.x (8 * H) * c.h) := g.lineStride
  have hs := planeSamples_get (PlaneGeom.of g) (quantOf d.quantTables (fileComponent f H V c))
    (f.intervals.flatten.map fun m => (splitBlocks (fileFrame f H V).components (mcuBuf m)).getD i [])
    (Y := Y) (X := X) hY (by rw [hst]; exact hX)
  rw [hs]
  obtain ⟨qv, hqv⟩ := hv.quant c hcm
  obtain ⟨q, hq1, hq2, hq3⟩ := quant_uses hv ht hqv
  rw [quantOf_eq (c := fileComponent f H V c) hq1]
  -- the MCU
  have e1 : (fileComponent f H V c).v = c.v := rfl
  have e2 : (fileComponent f H V c).h = c.h := rfl
  rw [e1, e2]
  have hm1 : Y / 8 / c.v < ceilDiv f.y (8 * V) := by
    rw [Nat.div_lt_iff_lt_mul f3]; omega
  have hm2 : X / 8 / c.h < ceilDiv f.x (8 * H) := by
    rw [Nat.div_lt_iff_lt_mul f1]; omega
  have hm : Y / 8 / c.v * ceilDiv f.x (8 * H) + X / 8 / c.h < f.intervals.flatten.length := by
    rw [hv.mcus]
    calc Y / 8 / c.v * ceilDiv f.x (8 * H) + X / 8 / c.h
        < Y / 8 / c.v * ceilDiv f.x (8 * H) + ceilDiv f.x (8 * H) := by omega
      _ = (Y / 8 / c.v + 1) * ceilDiv f.x (8 * H) := by ring
      _ ≤ ceilDiv f.y (8 * V) * ceilDiv f.x (8 * H) := Nat.mul_le_mul_right _ hm1
      _ = _ := Nat.mul_comm _ _
  have hmcu := List.getElem?_eq_getElem hm
  generalize f.intervals.flatten[Y / 8 / c.v * ceilDiv f.x (8 * H) + X / 8 / c.h] = m at hmcu
  have hmm := List.mem_of_getElem? hmcu
  have hlen := hv.blocks m hmm
  -- its blocks
  have hbs : (m.map List.length)[i]? = some (c.h * c.v) := by
    rw [hlen, List.getElem?_map, hc]; rfl
  rw [List.getElem?_map] at hbs
  obtain ⟨bs, hbs, hbl⟩ := Option.map_eq_some_iff.1 hbs
  have hsplit : splitBlocks (fileFrame f H V).components (mcuBuf m) = m.map (·.map BlockData.block) := by
    unfold mcuBuf padBlocks
    apply splitBlocks_mcu
    rw [hlen]
    simp only [fileFrame, List.map_map]
    apply List.map_congr_left
    intro k _
    exact Nat.mul_comm _ _
  -- the block
  have hk : Y / 8 % c.v * c.h + X / 8 % c.h < bs.length := by
    have h1 := Nat.mod_lt (Y / 8) (show c.v > 0 by omega)
    have h2 := Nat.mod_lt (X / 8) (show c.h > 0 by omega)
    rw [hbl]
    calc Y / 8 % c.v * c.h + X / 8 % c.h < Y / 8 % c.v * c.h + c.h := by omega
      _ = (Y / 8 % c.v + 1) * c.h := by ring
      _ ≤ c.v * c.h := Nat.mul_le_mul_right _ h1
      _ = _ := Nat.mul_comm _ _
  have hb := List.getElem?_eq_getElem hk
  generalize bs[Y / 8 % c.v * c.h + X / 8 % c.h] = b at hb
  have hblock : f.blockAt H i c Y X = some b := by
    unfold BaselineFile.blockAt
    rw [hmcu, Option.bind_some, hbs, Option.bind_some, hb]
  have r1 := hin i c qv hc hqv m hmm bs hbs b (List.mem_of_getElem? hb) q hq2 hq3
  rw [List.getD_eq_getElem?_getD, List.getD_eq_getElem?_getD, List.getElem?_map, hmcu, Option.map_some,
    Option.getD_some, hsplit, List.getD_eq_getElem?_getD, List.getElem?_map, hbs, Option.map_some,
    Option.getD_some, List.getElem?_map, hb, Option.map_some, Option.getD_some,
    r1 _ _ (Nat.mod_lt _ (by omega)) (Nat.mod_lt _ (by omega))]
  unfold sampleBy
  rw [hc]
  simp only [hblock, hqv]

/-- The component upsampled from the decoded planes is the one upsampled from the file. -/
theorem upAt_file (hv : f.Laid r H V codes) (hr : f.Renderable H V) (hin : GivenBy S f) {d : Decoder}
    (ht : TablesHeld cfg f.tables d) {i : Nat} {c : FileComponent} (hc : f.comps[i]? = some c)
    {p : List UInt8} (hp : (scanPlanes (ceilDiv f.x (8 * H)) d.quantTables (fileFrame f H V).components
      f.intervals.flatten)[i]? = some p) {row x : Nat} (hrow : row < f.y) (hx : x < f.x) :
    upAt (fileFrame f H V) H V (fileComponent f H V c) p row x = UInt8.ofNat (upsampledBy S f H V i row x) := by
  have hcm := List.mem_of_getElem? hc
  have g := fileComponent_geometry hv hcm
  have F := Facts.of g (hv.hmax.1 c hcm) (hv.vmax.1 c hcm) hv.x.1 (by omega)
  unfold upAt upsampledBy
  rw [hc]
  simp only
  congr 1
  refine (upsampled_congr g (hv.hmax.1 c hcm) (hv.vmax.1 c hcm) hv.x.1 hrow
    ⟨(hr c hcm).1, (hr c hcm).2.1⟩ hx _ (fun r k => (sampleBy S f H i r k).toNat) ?_).trans ?_
  · intro r k h1 h2
    have e1 := F.w_le
    have e2 := F.h_le
    have e3 : (fileComponent f H V c).lineStride = 8 * (ceilDiv f.x (8 * H) * c.h) := g.lineStride
    have e4 : (fileComponent f H V c).blockSize.height = ceilDiv f.y (8 * V) * c.v := by rw [g.blocks]; rfl
    rw [plane_sample hv hin ht hc hp (by omega) (by omega)]
  · rfl

end

end Jpeg
