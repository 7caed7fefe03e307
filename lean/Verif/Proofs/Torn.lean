import Verif.Proofs.DamagePicture
import Verif.Spec.Torn
/-!
# Decoding of intervals that are intact up to some MCU
-/

namespace Jpeg
open Spec Biterator

theorem BlocksBits_i16 {cd ca : Code} {p q : Int} {bs : List BlockData} {x : List Bool}
    (h : BlocksBits cd ca p bs x q) (hp : IsI16 p) : IsI16 q := by
  induction h with
  | nil => exact hp
  | cons _ hdc _ ih => exact ih (by rw [hdc, ← wrapI16_eq_wrap16]; exact wrapI16_range _)

theorem McuBits_i16 {codes : List (Code × Code)} {ps qs : List Int} {m : Mcu} {x : List Bool}
    (h : McuBits codes ps m x qs) (hp : ∀ p ∈ ps, IsI16 p) : (∀ q ∈ qs, IsI16 q) ∧ qs.length = ps.length := by
  induction h with
  | nil => exact ⟨hp, rfl⟩
  | cons hb _ ih =>
    obtain ⟨i1, i2⟩ := ih fun p h => hp p (List.mem_cons_of_mem _ h)
    refine ⟨?_, by simp [i2]⟩
    intro q hq
    rcases List.mem_cons.1 hq with rfl | hq
    · exact BlocksBits_i16 hb (hp _ (by simp))
    · exact i1 q hq

/-- Predictors stay in their range. -/
theorem McusBits_i16 {codes : List (Code × Code)} {ps qs : List Int} {ms : List Mcu} {x : List Bool}
    (h : McusBits codes ps ms x qs) (hp : ∀ p ∈ ps, IsI16 p) : (∀ q ∈ qs, IsI16 q) ∧ qs.length = ps.length := by
  induction h with
  | nil => exact ⟨hp, rfl⟩
  | cons hm _ ih =>
    obtain ⟨i1, i2⟩ := McuBits_i16 hm hp
    obtain ⟨j1, j2⟩ := ih i1
    exact ⟨j1, j2.trans i2⟩

section

variable {cfg : Cfg} {d : Decoder} {scan : Scan} {frame : Frame}
  {codes : List (Code × Code)} {r W H : Nat} {t : List UInt8}

/-- `n` MCUs, the first `ms` of which are intact, without a restart marker. -/
theorem mcuLoop_torn (h : DamageCtx d scan frame codes r W H) {ms : List Mcu} {data : List UInt8}
    (ht : StartsWithMarker t) (hi : IntervalData codes ms data) (hfit : ∀ m ∈ ms, McuFits frame m) (L : List Mcu)
    (n : Nat) (hk : L.length + (ms.length + n) ≤ W * H)
    (hnd : ∀ j, L.length ≤ j → j < L.length + (ms.length + n) → ¬ RstDue r (W * H) j)
    (coef : List (List Int)) (exp left : Nat)
    (hl : 0 < r → left = r - L.length % r) (he : 0 < r → exp = L.length / r % 8) :
    Soft (mcuLoop cfg true (coords frame L.length (ms.length + n))
      (mkSt d coef (List.replicate MAX_COMPONENTS 0) exp left (partPlanes d frame L)
        ⟨stuff data ++ t, 0, 0⟩)) fun s =>
      ∃ ms' coef' preds eob left' bi, ms'.length = n ∧ (∀ m ∈ ms', McuFits frame m) ∧ JunkSt preds eob ∧
        At t bi ∧ s = mkStE d coef' preds eob exp left' (partPlanes d frame (L ++ (ms ++ ms'))) bi ∧
        (L.length + (ms.length + n) < W * H → 0 < r →
          left' = r - (L.length + (ms.length + n)) % r ∧ exp = (L.length + (ms.length + n)) / r % 8) := by
  obtain ⟨bits, pad, qs, hmb, hbits⟩ := hi
  have hsz : frame.mcuSize.width * frame.mcuSize.height = W * H := by rw [h.size]
  have hzero : List.replicate MAX_COMPONENTS (0 : Int) =
      List.replicate codes.length 0 ++ List.replicate (MAX_COMPONENTS - codes.length) 0 := by
    rw [List.replicate_append_replicate]; congr 1; have := h.ctx.comps; omega
  have hms' := hmb.extend (List.replicate (MAX_COMPONENTS - codes.length) 0)
  rw [← hzero] at hms'
  have hrep : Rep False ⟨stuff data ++ t, 0, 0⟩ (bits ++ pad) t := rep_new ht hbits
  obtain ⟨coef1, left1, bi1, e1, hr1, hl1⟩ := mcuLoop_stretch (produce := true) (cfg := cfg) h.ctx
    hms' L.length coef exp left (partPlanes d frame L) (partPlanes d frame (L ++ ms)) _
    pad hfit hrep (by rw [hsz]; omega) (by rw [hsz]; exact fun j a b => hnd j a (by omega)) hl
    he (h.dequantAll L ms hfit (by omega))
  rw [hsz] at hl1
  obtain ⟨q1, q2⟩ := McusBits_i16 hms' junkSt_zero.preds
  have hll : (L ++ ms).length = L.length + ms.length := List.length_append
  rw [coords_append, mcuLoop_append, e1, Out.bind_ok, ← hll]
  refine (mcuLoop_junk (t := t) h n (coef := coef1) (eob := 0) (exp := exp) (left := left1) (bi := bi1) (L ++ ms)
    ⟨by rw [q2]; rfl, q1, by omega⟩ ⟨hr1.wf, hr1.tail⟩ (by omega) (fun j a b => hnd j (by omega) (by omega))
    (fun h1 h0 => by rw [hll]; exact hl1 (by omega) h0)).imp fun s hs => ?_
  obtain ⟨ms1, coef2, preds2, eob2, left2, bi2, k1, k2, k3, k4, k5, k6, k7⟩ := hs
  refine ⟨ms1, coef2, preds2, eob2, left2, bi2, k1, k2, k3, k4, by rw [k5, List.append_assoc], ?_⟩
  intro h1 h0
  rcases Nat.eq_zero_or_pos n with hn | hn
  · subst hn
    rw [k7 rfl]
    exact hl1 (by omega) h0
  · have := k6 hn (by omega) h0
    rwa [hll, Nat.add_assoc] at this

/-- No restart marker is due before the end of an interval. -/
theorem noneDue {n N k : Nat} (h0 : 0 < r) (hL : k % r = 0) (hn : n < r) :
    ∀ j, k ≤ j → j < k + n → ¬ RstDue r N j := by
  rintro j h1 h2 ⟨_, h3, h4⟩
  have hd := Nat.div_add_mod k r
  rw [hL] at hd
  have : (j + 1) % r = j + 1 - k := by
    conv_lhs => rw [show j + 1 = r * (k / r) + (j + 1 - k) by omega]
    rw [Nat.mul_add_mod, Nat.mod_eq_of_lt (by omega)]
  omega

theorem take_part {g : Nat} {ms ms1 : List Mcu} (h : ms1.length = ms.length - (ms.take g).length) :
    (ms.take g ++ ms1).take g = ms.take g := by
  rcases Nat.lt_or_ge ms.length g with hg | hg
  · rw [List.take_of_length_le (l := ms) (by omega)] at *
    rw [List.length_eq_zero_iff.1 (show ms1.length = 0 by omega), List.append_nil,
      List.take_of_length_le (by omega)]
  · rw [List.take_append_of_le_length (by simp; omega), List.take_take, Nat.min_self]

/-- An interval, intact up to some MCU, that is followed by a restart marker. -/
theorem mcuLoop_tornInterval (h : DamageCtx d scan frame codes r W H) {g : Nat} {ms : List Mcu}
    {data t rest : List UInt8} (ht : StartsWithMarker t) (hi : IntervalData codes (ms.take g) data)
    (hfit : ∀ m ∈ ms, McuFits frame m) (h0 : 0 < r) (hms : ms.length = r) (L : List Mcu)
    (hL : L.length % r = 0) (hk : L.length + r < W * H)
    (hmark : marker t = .ok (.RST (L.length / r % 8), rest)) (coef : List (List Int)) :
    Soft (mcuLoop cfg true (coords frame L.length r)
      (mkSt d coef (List.replicate MAX_COMPONENTS 0) (L.length / r % 8) r (partPlanes d frame L)
        ⟨stuff data ++ t, 0, 0⟩)) fun s =>
      ∃ ms' coef', ms'.length = r ∧ (∀ m ∈ ms', McuFits frame m) ∧ ms'.take g = ms.take g ∧
        s = mkSt d coef' (List.replicate MAX_COMPONENTS 0) ((L.length / r % 8 + 1) % 8) r
          (partPlanes d frame (L ++ ms')) ⟨rest, 0, 0⟩ := by
  rcases Nat.lt_or_ge g r with hg | hg
  · have hlt : (ms.take g).length = g := by simp; omega
    have hfg : ∀ m ∈ ms.take g, McuFits frame m := fun m hm => hfit m (List.mem_of_mem_take hm)
    obtain ⟨n, hn⟩ : ∃ n, r = g + n + 1 := ⟨r - g - 1, by omega⟩
    have hd := Nat.div_add_mod L.length r
    rw [hL] at hd
    have hdiv : (L.length + (g + n)) / r = L.length / r := by
      conv_lhs => rw [show L.length + (g + n) = r * (L.length / r) + (g + n) by omega]
      rw [Nat.mul_add_div h0, Nat.div_eq_of_lt (show g + n < r by omega), Nat.add_zero]
    have hdue : RstDue r (W * H) (L.length + (g + n)) := by
      refine ⟨h0, ?_, by omega⟩
      rw [show L.length + (g + n) + 1 = r * (L.length / r + 1) by rw [Nat.mul_succ]; omega, Nat.mul_mod_right]
    have hco : coords frame L.length r =
        coords frame L.length (g + n) ++ [mcuCoord frame.mcuSize (L.length + (g + n))] := by
      conv_lhs => rw [hn]
      rw [coords_append]; rfl
    rw [hco, mcuLoop_append]
    have hb := mcuLoop_torn (cfg := cfg) h ht hi hfg L n (by omega)
      (by rw [hlt]; exact noneDue h0 hL (by omega)) coef (L.length / r % 8) r
      (fun _ => by rw [hL]; rfl) (fun _ => rfl)
    rw [hlt] at hb
    refine hb.bind fun _ s hs => ?_
    obtain ⟨ms1, coef1, preds1, eob1, left1, bi1, k1, k2, k3, k4, rfl, k6⟩ := hs
    obtain ⟨l1, l2⟩ := k6 (by omega) h0
    have hl : (L ++ (ms.take g ++ ms1)).length = L.length + (g + n) := by simp [hlt, k1]
    have := mcuStep_junk_due (cfg := cfg) h (coef := coef1) (exp := L.length / r % 8) (L ++ (ms.take g ++ ms1)) k3 k4
      (by rw [hl]; omega) (by rw [hl]; exact hdue) (by rw [hl]; exact fun _ => l1)
      (by rw [hl]; exact fun _ => l2) (rest := rest) (by rw [hl, hdiv]; exact hmark)
    rw [hl, hdiv] at this
    rw [mcuLoop]
    refine Soft.bind this fun _ s hs => ?_
    obtain ⟨m, coef2, q1, rfl⟩ := hs
    refine ⟨ms.take g ++ (ms1 ++ [m]), coef2, by rw [List.length_append, List.length_append, hlt, k1, List.length_singleton]; omega, ?_,
      take_part (by simp [k1]; omega), by simp only [List.append_assoc]⟩
    intro x hx
    simp only [List.mem_append, List.mem_singleton] at hx
    rcases hx with hx | hx | rfl
    · exact hfg x hx
    · exact k2 x hx
    · exact q1
  · rw [List.take_of_length_le (by omega)] at hi
    refine (mcuLoop_interval (bad := False) h ht (fun _ => hi) hfit h0 hms L hL hk hmark coef).imp fun s hs => ?_
    obtain ⟨ms', coef', k1, k2, k3, k4⟩ := hs
    exact ⟨ms', coef', k1, k2, by rw [k3 not_false], k4⟩

/-- The last interval, intact up to some MCU. -/
theorem mcuLoop_tornInterval_last (h : DamageCtx d scan frame codes r W H) {g : Nat} {ms : List Mcu}
    {data t : List UInt8} (ht : StartsWithMarker t) (hi : IntervalData codes (ms.take g) data)
    (hfit : ∀ m ∈ ms, McuFits frame m) (hms : 0 < r → ms.length ≤ r) (L : List Mcu)
    (hL : 0 < r → L.length % r = 0) (hk : L.length + ms.length = W * H) (coef : List (List Int)) (exp left : Nat)
    (hl : 0 < r → left = r) (he : 0 < r → exp = L.length / r % 8) :
    Soft (mcuLoop cfg true (coords frame L.length ms.length)
      (mkSt d coef (List.replicate MAX_COMPONENTS 0) exp left (partPlanes d frame L)
        ⟨stuff data ++ t, 0, 0⟩)) fun s =>
      ∃ ms' coef' preds eob exp left bi, ms'.length = ms.length ∧ (∀ m ∈ ms', McuFits frame m) ∧
        ms'.take g = ms.take g ∧
        At t bi ∧ s = mkStE d coef' preds eob exp left (partPlanes d frame (L ++ ms')) bi := by
  have hnd : ∀ j, L.length ≤ j → j < L.length + ms.length → ¬ RstDue r (W * H) j := by
    rintro j h1 h2 ⟨h0, h3, h4⟩
    have := hms h0
    have hd := Nat.div_add_mod L.length r
    rw [hL h0] at hd
    have : (j + 1) % r = j + 1 - L.length := by
      conv_lhs => rw [show j + 1 = r * (L.length / r) + (j + 1 - L.length) by omega]
      rw [Nat.mul_add_mod, Nat.mod_eq_of_lt (by omega)]
    omega
  have hle : (ms.take g).length ≤ ms.length := by simp
  have hfg : ∀ m ∈ ms.take g, McuFits frame m := fun m hm => hfit m (List.mem_of_mem_take hm)
  have hb := mcuLoop_torn (cfg := cfg) h ht hi hfg L (ms.length - (ms.take g).length) (by omega)
    (fun j a b => hnd j a (by omega)) coef exp left (fun h0 => by rw [hL h0]; exact hl h0) he
  rw [show (ms.take g).length + (ms.length - (ms.take g).length) = ms.length by omega] at hb
  refine hb.imp fun s hs => ?_
  obtain ⟨ms1, coef1, preds1, eob1, left1, bi1, k1, k2, k3, k4, k5, -⟩ := hs
  refine ⟨ms.take g ++ ms1, coef1, preds1, eob1, exp, left1, bi1, by rw [List.length_append, k1]; omega, ?_,
    take_part k1, k4, k5⟩
  intro x hx
  rw [List.mem_append] at hx
  exact hx.elim (hfg x) (k2 x)

/-- The MCU loop over a scan intact in part. -/
theorem mcuLoop_tornScan (h : DamageCtx d scan frame codes r W H) {tail : List UInt8}
    (htail : StartsWithMarker tail) {good : Nat → Nat} {j : Nat} {intervals : List (List Mcu)} {bytes : List UInt8}
    (hsb : TornScan codes tail good j intervals bytes) :
    ∀ (L : List Mcu) (coef : List (List Int)) (exp left : Nat),
    (∀ m ∈ intervals.flatten, McuFits frame m) →
    L.length + intervals.flatten.length = W * H →
    (0 < r → L.length = j * r) → (0 < r → left = r) → (0 < r → exp = j % 8) →
    (r = 0 → intervals.length = 1) →
    (0 < r → ∃ init last, intervals = init ++ [last] ∧ (∀ i ∈ init, i.length = r) ∧
      last.length ≤ r ∧ (init ≠ [] → 1 ≤ last.length)) →
    Soft (mcuLoop cfg true (coords frame L.length intervals.flatten.length)
        (mkSt d coef (List.replicate MAX_COMPONENTS 0) exp left (partPlanes d frame L) ⟨bytes, 0, 0⟩)) fun s =>
      ∃ (Z : List (List Mcu)) (coef' : List (List Int)) (preds : List Int) (eob exp left : Nat) (bi : Biterator), Z.map List.length = intervals.map List.length ∧
        (∀ m ∈ Z.flatten, McuFits frame m) ∧ (∀ i, Z[i]?.map (List.take (good (j + i))) = intervals[i]?.map (List.take (good (j + i)))) ∧
        At tail bi ∧ s = mkStE d coef' preds eob exp left (partPlanes d frame (L ++ Z.flatten)) bi := by
  induction hsb with
  | @last j ms data hi =>
    intro L coef exp left hfit htot hL hleft hexp _ hshape
    simp only [List.flatten_cons, List.flatten_nil, List.append_nil] at hfit htot ⊢
    have hlen : 0 < r → ms.length ≤ r := by
      intro h0
      obtain ⟨init, last, he, _, hl, _⟩ := hshape h0
      have hi : init = [] := by
        have := congrArg List.length he
        simp at this
        exact this
      subst hi
      simp at he
      rw [he]; exact hl
    refine (mcuLoop_tornInterval_last (cfg := cfg) h htail hi hfit hlen L (fun h0 => by rw [hL h0, Nat.mul_mod_left]) htot
      coef exp left hleft (fun h0 => by rw [hexp h0, hL h0, Nat.mul_div_cancel _ h0])).imp fun s hs => ?_
    obtain ⟨ms', coef', preds, eob, exp, left, bi, k1, k2, k3, k4, k5⟩ := hs
    refine ⟨[ms'], coef', preds, eob, exp, left, bi, by simp [k1], by simpa using k2, ?_, k4, by simpa using k5⟩
    intro i
    cases i with
    | zero => simp [k3]
    | succ i => rfl
  | @cons j ms rest data bytes kf hi hsb ih =>
    intro L coef exp left hfit htot hL hleft hexp hone hshape
    have hrne : rest ≠ [] := by cases hsb <;> simp
    have h0 : 0 < r := by
      rcases Nat.eq_zero_or_pos r with h | h
      · have := hone h
        rw [List.length_cons] at this
        exact absurd (List.length_eq_zero_iff.1 (by omega)) hrne
      · exact h
    obtain ⟨init, last, he, hinit, hlast, hlast1⟩ := hshape h0
    obtain ⟨init', hinit', hrest⟩ : ∃ init', init = ms :: init' ∧ rest = init' ++ [last] := by
      cases init with
      | nil => simp at he; exact absurd he.2 hrne
      | cons i init' =>
        simp at he
        exact ⟨init', by rw [he.1], he.2⟩
    subst hinit'
    have hmsr : ms.length = r := hinit ms (by simp)
    have hlast1 := hlast1 (by simp)
    have hrestpos : 1 ≤ rest.flatten.length := by
      rw [hrest, List.flatten_append, List.length_append]; simp; omega
    rw [List.flatten_cons, List.length_append] at htot
    have hL := hL h0
    have hj : L.length / r = j := by rw [hL, Nat.mul_div_cancel _ h0]
    have hn8 : j % 8 < 8 := Nat.mod_lt _ (by omega)
    have hint := mcuLoop_tornInterval (cfg := cfg) h (g := good j) (ms := ms) (data := data)
      (starts_rst hn8 kf bytes) hi
      (fun m hm => hfit m (by rw [List.flatten_cons]; simp only [List.mem_append]; exact Or.inl hm)) h0 hmsr L
      (by rw [hL, Nat.mul_mod_left]) (by omega) (rest := bytes) (by rw [hj]; exact marker_rst hn8 kf bytes) coef
    rw [List.flatten_cons, List.length_append, hmsr, coords_append, mcuLoop_append, hleft h0, hexp h0]
    rw [hj] at hint
    refine hint.bind fun _ s hs => ?_
    obtain ⟨ms', coef', k1, k2, k3, rfl⟩ := hs
    have hl : (L ++ ms').length = L.length + r := by simp [k1]
    have := ih (L ++ ms') coef' ((j % 8 + 1) % 8) r
      (fun m hm => hfit m (by rw [List.flatten_cons]; simp only [List.mem_append]; exact Or.inr hm))
      (by rw [hl]; omega) (fun _ => by rw [hl, hL, Nat.succ_mul]) (fun _ => rfl) (fun _ => by omega)
      (fun h => absurd h (by omega))
      (fun _ => ⟨init', last, hrest, fun i hi => hinit i (by simp [hi]), hlast, fun _ => hlast1⟩)
    rw [hl] at this
    refine this.imp fun s hs => ?_
    obtain ⟨Z, coef2, preds, eob, exp, left, bi, q1, q2, q3, q4, q5⟩ := hs
    refine ⟨ms' :: Z, coef2, preds, eob, exp, left, bi, by simp [q1, k1, hmsr], ?_, ?_, q4, ?_⟩
    · intro m hm
      rw [List.flatten_cons, List.mem_append] at hm
      exact hm.elim (k2 m) (q2 m)
    · intro i
      cases i with
      | zero => simp [k3]
      | succ i =>
        rw [List.getElem?_cons_succ, List.getElem?_cons_succ]
        have := q3 i
        rwa [show j + 1 + i = j + (i + 1) by omega] at this
    · rw [q5, List.flatten_cons, List.append_assoc]

/-! ## The scan -/

/-- A scan, intact in part, of all components. -/
theorem decodeScan_torn (h : DamageCtx d scan frame codes r W H)
    (hready : ScanReady cfg d scan frame codes r)
    (hhs : scan.headers.map (·.componentIndex) = List.range frame.components.length)
    {tail : List UInt8} (htail : StartsWithMarker tail) {good : Nat → Nat} {intervals : List (List Mcu)}
    {bytes : List UInt8} (hbytes : TornScan codes tail good 0 intervals bytes)
    (hok : IntervalsOk r intervals)
    (hfit : ∀ m ∈ intervals.flatten, McuFits frame m)
    (htotal : intervals.flatten.length = W * H) :
    Soft (decodeScan cfg true ⟨d, ⟨bytes, 0, 0⟩⟩) fun s =>
      ∃ (Z : List (List Mcu)) (ss : ScanState) (bi : Biterator),
        s = ⟨{ d with
          scanState := ss
          planes := scanPlanes W d.quantTables frame.components Z.flatten }, bi⟩ ∧
        Z.map List.length = intervals.map List.length ∧ (∀ m ∈ Z.flatten, McuFits frame m) ∧
        (∀ i, Z[i]?.map (List.take (good i)) = intervals[i]?.map (List.take (good i))) ∧ At tail bi := by
  have hi := hready.init true h.four ⟨bytes, 0, 0⟩
  rw [if_pos rfl] at hi
  unfold decodeScan
  rw [hi, Out.bind_ok]
  simp only [mkSt, h.ctx.frame_eq, h.ctx.scan_eq]
  have hloop := mcuLoop_tornScan (cfg := cfg) h htail hbytes [] ScanState.default.mcuRowCoefficients 0 r hfit
    (by simpa using htotal) (fun _ => by simp) (fun _ => rfl) (fun _ => rfl)
    (fun h => by unfold IntervalsOk at hok; rw [if_pos h] at hok; exact hok)
    (fun h => by
      unfold IntervalsOk at hok
      rw [if_neg (by omega)] at hok
      rcases hok with h | ⟨init, last, h1, h2, h3, h4⟩
      · exact ⟨[], [], h, by simp, Nat.zero_le _, by simp⟩
      · exact ⟨init, last, h1, h2, h4, fun _ => h3⟩)
  have hp0 : partPlanes d frame [] = frame.components.map allocPlane := by
    unfold partPlanes
    rw [List.map_nil, lsOf_nil, planesOf_init]
  rw [hp0] at hloop
  have hco : coords frame ([] : List Mcu).length intervals.flatten.length = mcuList frame.mcuSize := by
    rw [mcuList_eq, h.size, htotal, List.range_eq_range']
    unfold coords
    rw [h.size]
    rfl
  rw [hco] at hloop
  simp only [mkSt, h.ctx.frame_eq, h.ctx.scan_eq] at hloop
  refine hloop.bind fun _ s hs => ?_
  obtain ⟨Z, coef, preds, eob, exp, left, bi, k1, k2, k3, k4, rfl⟩ := hs
  have hl : scan.headers.length = frame.components.length := h.headers
  have hZl : Z.flatten.length = W * H := by
    rw [List.length_flatten, k1, ← List.length_flatten, htotal]
  have hpl : partPlanes d frame ([] ++ Z.flatten) =
      (scanPlanes W d.quantTables frame.components Z.flatten).map (·.map some) := by
    unfold partPlanes
    rw [List.nil_append, h.size, planesOf_scan h.geom hZl]
  rw [hpl]
  simp only [mkStE]
  rw [takeResults_range scan.headers 0 _ (scanPlanes W d.quantTables frame.components Z.flatten)
    (by rw [hhs, hl, List.range_eq_range']) (by simp [scanPlanes, hl]) (by
      intro i p hp
      rw [Nat.zero_add, List.getElem?_map, hp]
      rfl)]
  exact ⟨Z, _, bi, by rw [h.ctx.frame_eq, h.ctx.scan_eq], k1, k2, by simpa using k3, k4⟩

end

/-! ## The file -/

section

variable {cfg : Cfg} {f : BaselineFile} {H V : Nat} {codes : List (Code × Code)}

/-- The run over a file with intervals intact in part. -/
theorem loopAll_torn {d : Decoder} (hd : DecInv d) (hh : TablesHeld cfg f.earlier d)
    (hv : f.Laid (f.interval d.restartInterval) H V codes) {good : Nat → Nat} {x : List UInt8} {k : Nat}
    (hx : TornScan codes (List.replicate k 0xFF ++ markerBytes .EOI) good 0 f.intervals x) :
    Soft (loopAll cfg ⟨d, Biterator.new ({ f with data := x } : BaselineFile).bytes⟩) fun s =>
      s.bi.input = [] ∧ TablesHeld cfg f.tables s.dec ∧ s.dec.frame = some (fileFrame f H V) ∧
      s.dec.transform = f.transform d.transform ∧
      ∃ Z : List (List Mcu), Z.map List.length = f.intervals.map List.length ∧
        (∀ m ∈ Z.flatten, m.map List.length = f.comps.map fun c => c.h * c.v) ∧
        (∀ i, Z[i]?.map (List.take (good i)) = f.intervals[i]?.map (List.take (good i))) ∧
        s.dec.planes = scanPlanes (ceilDiv f.x (8 * H)) s.dec.quantTables (fileFrame f H V).components Z.flatten := by
  obtain ⟨d3, i3, hh3, hf3, hr3, ht3, e3⟩ := loopAll_toScan (cfg := cfg) hd hh hv x
  rw [e3]
  obtain ⟨D, fin, hD, hready, hs⟩ := sos_start hv i3 hf3 hh3 hr3 x
  rw [hs]
  have hc4 : (fileFrame f H V).components.length ≤ 4 := by
    simp only [fileFrame, List.length_map]; exact hv.count.2
  have hctx : DamageCtx D ⟨fileHeaders f, 0, 63, 0, 0⟩ (fileFrame f H V) codes (f.interval d.restartInterval)
      (ceilDiv f.x (8 * H)) (ceilDiv f.y (8 * V)) :=
    ⟨hready.ctx, by simp [fileHeaders, fileFrame], hc4, rfl, fileFrame_planes hv, fileFrame_bpm hv,
      by rw [hD]; exact fun c hc => fileFrame_quant hv hh3 c hc, by rw [fileFrame_blocks]; exact hv.ten⟩
  refine (decodeScan_torn hctx hready (by rw [fileHeaders_index]; simp [fileFrame]) (starts_eoi k) hx hv.restarts
    (fun m hm => hctx.fits.2 (by rw [hv.blocks m hm, fileFrame_blocks])) hv.mcus).bind fun _ s hs => ?_
  obtain ⟨Z, ss, bi, rfl, z1, z0, z2, z3⟩ := hs
  rw [loopAll_eoi (rest := []) (by
    simp only
    rw [marker_scanTail z3.2]
    simpa using marker_bytes (m := .EOI) trivial k [])]
  subst hD
  exact ⟨rfl, hh3.same rfl rfl rfl, hf3, ht3, Z, z1,
    fun m hm => by rw [hctx.fits.1 (z0 m hm), fileFrame_blocks], z2, rfl⟩

theorem keptAt_intact {r : Nat} (hv : f.Valid r H V codes) {good : Nat → Nat} {Z : List (List Mcu)}
    (hZl : Z.map List.length = f.intervals.map List.length)
    (hZ : ∀ i, Z[i]?.map (List.take (good i)) = f.intervals[i]?.map (List.take (good i)))
    {row col : Nat} (hun : f.Intact r H V good row col) : KeptAt f H V Z.flatten row col :=
  fun c hc Y X h1 h2 n1 n2 => flatten_part hv.restarts hZl (hZ _) (hun c hc Y X h1 h2 n1 n2)

end

end Jpeg
