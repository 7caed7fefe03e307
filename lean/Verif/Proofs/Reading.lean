import Verif.Spec.Reading
import Verif.Proofs.Damage
/-!
# Reading is decoding of what has been encoded
-/

namespace Jpeg
open Spec Biterator

namespace Spec.Reading

variable {α β : Type}

theorem bind_value {r : Reading α} {k : α → List Bool → Reading β} {b : β} {rest : List Bool} :
    r.bind k = .value b rest ↔ ∃ a m, r = .value a m ∧ k a m = .value b rest := by
  cases r <;> simp [Reading.bind]

theorem bind_invalid {r : Reading α} {k : α → List Bool → Reading β} :
    r.bind k = .invalid ↔ r = .invalid ∨ ∃ a m, r = .value a m ∧ k a m = .invalid := by
  cases r <;> simp [Reading.bind]

end Spec.Reading

/-! ## Values -/

theorem category_extend {s : Nat} (hs : 1 ≤ s) {bits : List Bool} (hb : bits.length = s) :
    extendT81 (natOfBits bits) s ≠ 0 ∧ category (extendT81 (natOfBits bits) s) = s ∧
      additional (extendT81 (natOfBits bits) s) = bits := by
  obtain ⟨n, rfl⟩ : ∃ n, s = n + 1 := ⟨s - 1, by omega⟩
  have hlt := natOfBits_lt bits
  rw [hb] at hlt
  generalize hN : natOfBits bits = N at hlt ⊢
  have hpow : (2 : Nat) ^ (n + 1) = 2 * 2 ^ n := by rw [pow_succ]; ring
  have hp : 0 < 2 ^ n := by positivity
  have hcat : ∀ v : Int, 2 ^ n ≤ v.natAbs → v.natAbs < 2 ^ (n + 1) → v ≠ 0 ∧ category v = n + 1 := by
    intro v h1 h2
    have h0 : v ≠ 0 := by rintro rfl; simp at h1
    refine ⟨h0, ?_⟩
    unfold category
    rw [if_neg h0, (Nat.log2_eq_iff (by omega)).2 ⟨h1, h2⟩]
  have hcast : ((2 : Int) ^ n) = ((2 ^ n : Nat) : Int) := by push_cast; rfl
  have hcast' : ((2 : Int) ^ (n + 1)) = ((2 ^ (n + 1) : Nat) : Int) := by push_cast; rfl
  have hback : bitsN (n + 1) N = bits := by
    rw [← hN, ← hb]
    exact bitsN_natOfBits bits
  unfold extendT81
  rw [Nat.add_sub_cancel, hcast, hcast']
  split
  · rename_i h
    obtain ⟨c1, c2⟩ := hcat ((N : Int) + (-((2 ^ (n + 1) : Nat) : Int) + 1)) (by omega) (by omega)
    refine ⟨c1, c2, ?_⟩
    unfold additional
    rw [c2, if_neg (by omega), hcast']
    rw [show (((N : Int) + (-((2 ^ (n + 1) : Nat) : Int) + 1) + ((2 ^ (n + 1) : Nat) : Int) - 1)).toNat = N by omega]
    exact hback
  · rename_i h
    obtain ⟨c1, c2⟩ := hcat (N : Int) (by omega) (by omega)
    refine ⟨c1, c2, ?_⟩
    unfold additional
    rw [c2, if_pos (by omega), Int.toNat_natCast]
    exact hback

theorem read_value {c : Code} {bits rest : List Bool} {sym : Nat} (h : c.read bits = .value sym rest) :
    ∃ b, c.For sym b ∧ bits = b ++ rest := by
  unfold Code.read at h
  split at h
  · rename_i k hk
    obtain ⟨h1, h2⟩ := List.find?_eq_some_iff_append.1 hk
    have hmem := List.mem_of_find?_eq_some hk
    rw [List.mem_range] at hmem
    have hp : codeWord (codeSizes c.counts) k <+: bits := by simpa using h1
    split at h
    · rename_i v hv
      simp only [Reading.value.injEq] at h
      obtain ⟨w, hw⟩ := hp
      refine ⟨_, ⟨k, v, hmem, hv, h.1, rfl⟩, ?_⟩
      rw [← h.2, ← hw, List.drop_left]
    · simp at h
  · split at h <;> simp at h

theorem receiveExtend_value {s : Nat} (hs : 1 ≤ s) {bits rest : List Bool} {v : Int}
    (h : Spec.receiveExtend s bits = .value v rest) :
    v ≠ 0 ∧ category v = s ∧ bits = additional v ++ rest := by
  unfold Spec.receiveExtend at h
  split at h
  · simp at h
  · simp only [Reading.value.injEq] at h
    obtain ⟨h1, h2⟩ := h
    obtain ⟨a, b, c⟩ := category_extend hs (bits := bits.take s) (by simp; omega)
    rw [h1] at a b c
    exact ⟨a, b, by rw [c, ← h2, List.take_append_drop]⟩

theorem readDc_value {c : Code} {bits rest : List Bool} {diff : Int} (h : readDc c bits = .value diff rest) :
    ∃ b, DcBits c diff b ∧ bits = b ++ rest := by
  unfold readDc at h
  obtain ⟨s, m, h1, h2⟩ := Reading.bind_value.1 h
  obtain ⟨b, hb, rfl⟩ := read_value h1
  split at h2
  · rename_i h0
    simp only [Reading.value.injEq] at h2
    obtain ⟨rfl, rfl⟩ := h2
    subst h0
    refine ⟨b, ⟨by decide, b, by simpa [category] using hb, by simp [additional, category, zeros]⟩, rfl⟩
  · split at h2
    · simp at h2
    · obtain ⟨a1, a2, rfl⟩ := receiveExtend_value (by omega) h2
      exact ⟨b ++ additional diff, ⟨by omega, b, by rwa [a2], rfl⟩, by rw [List.append_assoc]⟩

theorem readAc_value {c : Code} (n : Nat) : ∀ {bits rest : List Bool} {l : List Int},
    readAc c n bits = .value l rest → l.length = n ∧ ∃ b, AcBits c l b ∧ bits = b ++ rest := by
  induction n using Nat.strongRecOn with
  | ind n ih =>
    intro bits rest l h
    cases n with
    | zero =>
      rw [readAc] at h
      simp only [Reading.value.injEq] at h
      obtain ⟨rfl, rfl⟩ := h
      exact ⟨rfl, [], .done, rfl⟩
    | succ n =>
      rw [readAc] at h
      obtain ⟨rs, m, h1, h2⟩ := Reading.bind_value.1 h
      obtain ⟨b, hb, rfl⟩ := read_value h1
      have hrs : rs < 256 := by
        obtain ⟨k, v, -, -, rfl, -⟩ := hb
        exact v.toNat_lt
      have hne : List.replicate (n + 1) (0 : Int) ≠ [] := by simp
      have hz : ∀ x ∈ List.replicate (n + 1) (0 : Int), x = 0 := fun x hx => List.eq_of_mem_replicate hx
      split at h2
      · rename_i hs
        split at h2
        · simp only [Reading.value.injEq] at h2
          obtain ⟨rfl, rfl⟩ := h2
          exact ⟨by simp, b, .eob hne hz (by rwa [show rs = 0 by omega] at hb), rfl⟩
        · split at h2
          · have hb' : c.For 0xF0 b := by rwa [show rs = 0xF0 by omega] at hb
            split at h2
            · simp only [Reading.value.injEq] at h2
              obtain ⟨rfl, rfl⟩ := h2
              exact ⟨by simp, b, .overZrl hne hz (by rw [List.length_replicate]; assumption) hb', rfl⟩
            · obtain ⟨l', m', h3, h4⟩ := Reading.bind_value.1 h2
              simp only [Reading.value.injEq] at h4
              obtain ⟨rfl, rfl⟩ := h4
              obtain ⟨k1, b', k2, rfl⟩ := ih (n + 1 - 16) (by omega) h3
              refine ⟨by simp [k1]; omega, b ++ b', .zrl ?_ hb' k2, by rw [List.append_assoc]⟩
              rintro rfl
              simp at k1
              omega
          · simp at h2
      · obtain ⟨v, m', h3, h4⟩ := Reading.bind_value.1 h2
        obtain ⟨a1, a2, rfl⟩ := receiveExtend_value (by omega) h3
        have hb' : c.For (16 * (rs / 16) + category v) b := by
          rw [a2, Nat.div_add_mod]; exact hb
        split at h4
        · rename_i hle
          simp only [Reading.value.injEq] at h4
          obtain ⟨rfl, rfl⟩ := h4
          exact ⟨by simp, b ++ additional v, .over hne hz (by simpa using hle) (by omega) a1 (by omega) hb',
            by rw [List.append_assoc]⟩
        · obtain ⟨l', m2, h5, h6⟩ := Reading.bind_value.1 h4
          simp only [Reading.value.injEq] at h6
          obtain ⟨rfl, rfl⟩ := h6
          obtain ⟨k1, b', k2, rfl⟩ := ih (n - rs / 16) (by omega) h5
          exact ⟨by simp [k1]; omega, b ++ additional v ++ b', .coef (by omega) a1 (by omega) hb' k2,
            by simp only [List.append_assoc]⟩

theorem readBlocks_value {cd ca : Code} (n : Nat) : ∀ {p : Int} {bits rest : List Bool}
    {bs : List BlockData} {q : Int}, readBlocks cd ca n p bits = .value (bs, q) rest →
    bs.length = n ∧ ∃ b, BlocksBits cd ca p bs b q ∧ bits = b ++ rest := by
  induction n with
  | zero =>
    intro p bits rest bs q h
    rw [readBlocks] at h
    simp only [Reading.value.injEq, Prod.mk.injEq] at h
    obtain ⟨⟨rfl, rfl⟩, rfl⟩ := h
    exact ⟨rfl, [], .nil, rfl⟩
  | succ n ih =>
    intro p bits rest bs q h
    rw [readBlocks] at h
    obtain ⟨diff, m1, h1, h⟩ := Reading.bind_value.1 h
    obtain ⟨zz, m2, h2, h⟩ := Reading.bind_value.1 h
    obtain ⟨⟨bs', q'⟩, m3, h3, h⟩ := Reading.bind_value.1 h
    simp only [Reading.value.injEq, Prod.mk.injEq] at h
    obtain ⟨⟨rfl, rfl⟩, rfl⟩ := h
    obtain ⟨b1, k1, rfl⟩ := readDc_value h1
    obtain ⟨kl, b2, k2, rfl⟩ := readAc_value 63 h2
    obtain ⟨l3, b3, k3, rfl⟩ := ih h3
    exact ⟨by simp [l3], b1 ++ b2 ++ b3, .cons ⟨kl, b1, b2, k1, k2, rfl⟩ rfl k3, by simp only [List.append_assoc]⟩

theorem readMcu_value : ∀ {codes : List (Code × Code)} {ns : List Nat} {ps : List Int} {bits rest : List Bool}
    {m : Mcu} {qs : List Int}, readMcu codes ns ps bits = .value (m, qs) rest → ns.length = codes.length →
    codes.length ≤ ps.length →
    m.map List.length = ns ∧ qs.length = ps.length ∧ ∃ b, McuBits codes ps m b qs ∧ bits = b ++ rest := by
  intro codes
  induction codes with
  | nil =>
    intro ns ps bits rest m qs h hn hp
    obtain rfl : ns = [] := List.length_eq_zero_iff.1 hn
    rw [readMcu] at h
    · simp only [Reading.value.injEq, Prod.mk.injEq] at h
      obtain ⟨⟨rfl, rfl⟩, rfl⟩ := h
      exact ⟨rfl, rfl, [], .nil, rfl⟩
    · simp
  | cons code codes ih =>
    intro ns ps bits rest m qs h hn hp
    cases ns with
    | nil => simp at hn
    | cons n ns =>
      cases ps with
      | nil => simp at hp
      | cons p ps =>
        rw [readMcu] at h
        obtain ⟨⟨bs, q⟩, m1, h1, h⟩ := Reading.bind_value.1 h
        obtain ⟨⟨m', qs'⟩, m2, h2, h⟩ := Reading.bind_value.1 h
        simp only [Reading.value.injEq, Prod.mk.injEq] at h
        obtain ⟨⟨rfl, rfl⟩, rfl⟩ := h
        obtain ⟨l1, b1, k1, rfl⟩ := readBlocks_value _ h1
        obtain ⟨l2, l3, b2, k2, rfl⟩ := ih h2 (by simpa using hn) (by simpa using hp)
        exact ⟨by simp [l1, l2], by simp [l3], b1 ++ b2, .cons k1 k2, by rw [List.append_assoc]⟩

theorem readMcus_value {codes : List (Code × Code)} {ns : List Nat} (hn : ns.length = codes.length) (count : Nat) :
    ∀ {ps : List Int} {bits rest : List Bool} {ms : List Mcu}, codes.length ≤ ps.length →
    readMcus codes ns count ps bits = .value ms rest →
    ms.length = count ∧ (∀ m ∈ ms, m.map List.length = ns) ∧
      ∃ b qs, McusBits codes ps ms b qs ∧ bits = b ++ rest := by
  induction count with
  | zero =>
    intro ps bits rest ms _ h
    rw [readMcus] at h
    simp only [Reading.value.injEq] at h
    obtain ⟨rfl, rfl⟩ := h
    exact ⟨rfl, by simp, [], ps, .nil, rfl⟩
  | succ count ih =>
    intro ps bits rest ms hp h
    rw [readMcus] at h
    obtain ⟨⟨m, qs⟩, m1, h1, h⟩ := Reading.bind_value.1 h
    obtain ⟨ms', m2, h2, h⟩ := Reading.bind_value.1 h
    simp only [Reading.value.injEq] at h
    obtain ⟨rfl, rfl⟩ := h
    obtain ⟨l1, l2, b1, k1, rfl⟩ := readMcu_value h1 hn hp
    obtain ⟨l3, l4, b2, qs2, k2, rfl⟩ := ih (ps := qs) (by omega) h2
    refine ⟨by simp [l3], ?_, b1 ++ b2, qs2, .cons k1 k2, by rw [List.append_assoc]⟩
    intro x hx
    rcases List.mem_cons.1 hx with rfl | hx
    · exact l1
    · exact l4 x hx

/-- What an interval reads as, it encodes. -/
theorem readInterval_value {codes : List (Code × Code)} {ns : List Nat} (hn : ns.length = codes.length) {count : Nat}
    {data : List UInt8} {ms : List Mcu} {rest : List Bool}
    (h : readInterval codes ns count data = .value ms rest) :
    ms.length = count ∧ (∀ m ∈ ms, m.map List.length = ns) ∧ IntervalData codes ms data := by
  obtain ⟨h1, h2, b, qs, h3, h4⟩ := readMcus_value hn count (by simp) h
  exact ⟨h1, h2, b, rest, qs, h3, h4⟩

/-! ## Encodings are read back -/

/-- A code with a code word for each of its values, none the beginning of another. -/
structure Proper (c : Code) : Prop where
  len : c.counts.length = 16
  kraft : KraftOk (codeSizes c.counts)

theorem TableOk.proper {c : Code} {tb : BaseTable} (h : TableOk (codeSizes c.counts) c.counts c.values tb) :
    Proper c := ⟨h.len, h.kraft⟩

theorem Proper.length_le {c : Code} (h : Proper c) {k : Nat} (hk : k < (codeSizes c.counts).length) :
    (codeWord (codeSizes c.counts) k).length ≤ 16 := by
  have := codeSizes_range h.len _ (List.getElem_mem hk)
  rw [codeWord_length hk this.2]
  exact this.2

theorem Proper.unique {c : Code} (h : Proper c) {b : List Bool} {j k : Nat}
    (hj : j < (codeSizes c.counts).length) (hk : k < (codeSizes c.counts).length)
    (h1 : codeWord (codeSizes c.counts) j <+: b) (h2 : codeWord (codeSizes c.counts) k <+: b) : j = k := by
  have hext : ∀ i, i < (codeSizes c.counts).length → codeWord (codeSizes c.counts) i <+: b →
      codeWord (codeSizes c.counts) i <+: (b ++ zeros 16).take 16 := by
    intro i hi hp
    rw [List.prefix_take_iff]
    exact ⟨hp.trans (List.prefix_append _ _), h.length_le hi⟩
  have hl : ((b ++ zeros 16).take 16).length = 16 := by simp
  have hs : (codeSizes c.counts).Pairwise (· ≤ ·) := sizesFrom_sorted _ _
  obtain ⟨a1, a2⟩ := (codeWord_prefix_iff hs (codeSizes_range h.len) h.kraft hj _ hl).1 (hext j hj h1)
  obtain ⟨b1, b2⟩ := (codeWord_prefix_iff hs (codeSizes_range h.len) h.kraft hk _ hl).1 (hext k hk h2)
  exact slot_unique a1 a2 b1 b2

theorem Proper.read {c : Code} (h : Proper c) {sym : Nat} {b : List Bool} (hb : c.For sym b) (rest : List Bool) :
    c.read (b ++ rest) = .value sym rest := by
  obtain ⟨k, v, hk, hv, rfl, rfl⟩ := hb
  have hf : (List.range (codeSizes c.counts).length).find?
      (fun j => codeWord (codeSizes c.counts) j <+: codeWord (codeSizes c.counts) k ++ rest) = some k := by
    cases e : (List.range (codeSizes c.counts).length).find?
        (fun j => codeWord (codeSizes c.counts) j <+: codeWord (codeSizes c.counts) k ++ rest) with
    | none =>
      have := List.find?_eq_none.1 e k (List.mem_range.2 hk)
      simp at this
    | some j =>
      have hj := List.mem_range.1 (List.mem_of_find?_eq_some e)
      have hp := List.find?_some e
      rw [h.unique hj hk (by simpa using hp) (List.prefix_append _ _)]
  unfold Code.read
  rw [hf]
  simp only [hv, List.drop_left]

theorem receiveExtend_additional {v : Int} (hv : v ≠ 0) (rest : List Bool) :
    Spec.receiveExtend (category v) (additional v ++ rest) = .value v rest := by
  have hl := additional_length v
  unfold Spec.receiveExtend
  rw [if_neg (by simp [hl]), List.take_left' hl, List.drop_left' hl, extendT81_additional hv]

theorem Proper.readDc {c : Code} (h : Proper c) {diff : Int} {b : List Bool} (hb : DcBits c diff b) (rest : List Bool) :
    Spec.readDc c (b ++ rest) = .value diff rest := by
  obtain ⟨h11, b, hf, rfl⟩ := hb
  unfold Spec.readDc
  rw [List.append_assoc, h.read hf]
  simp only [Reading.bind]
  by_cases h0 : diff = 0
  · subst h0
    rw [if_pos (by decide)]
    simp [additional, category, zeros]
  · have := category_pos h0
    rw [if_neg (by omega), if_neg (by omega), receiveExtend_additional h0]

theorem Proper.readAc {c : Code} (h : Proper c) {l : List Int} {b : List Bool} (hb : AcBits c l b) :
    ∀ rest, Spec.readAc c l.length (b ++ rest) = .value l rest := by
  have hzero : ∀ {l : List Int}, (∀ x ∈ l, x = 0) → List.replicate l.length 0 = l := by
    intro l hz
    exact (List.eq_replicate_iff.2 ⟨rfl, hz⟩).symm
  induction hb with
  | done => intro rest; rw [List.length_nil, Spec.readAc]; rfl
  | @eob l b hne hz hb =>
    intro rest
    obtain ⟨n, hn⟩ : ∃ n, l.length = n + 1 := ⟨l.length - 1, by have := List.length_pos_iff.2 hne; omega⟩
    rw [hn, Spec.readAc, h.read hb]
    simp only [Reading.bind]
    rw [if_pos (by decide), if_pos (by decide), ← hn, hzero hz]
  | @zrl l b bs hne hb hl ih =>
    intro rest
    have hpos := List.length_pos_iff.2 hne
    rw [List.length_append, List.length_replicate, show 16 + l.length = (l.length + 15) + 1 by omega, Spec.readAc,
      List.append_assoc, h.read hb]
    simp only [Reading.bind]
    rw [if_pos (by decide), if_neg (by decide), if_pos (by decide), if_neg (by omega),
      show l.length + 15 + 1 - 16 = l.length by omega, ih]
  | @coef r v l b bs hr hv hcat hb hl ih =>
    intro rest
    have hpos := category_pos hv
    rw [List.length_append, List.length_replicate, List.length_cons, show r + (l.length + 1) = (r + l.length) + 1 by omega,
      Spec.readAc, List.append_assoc, List.append_assoc, h.read hb]
    simp only [Reading.bind]
    have e1 : (16 * r + category v) % 16 = category v := by omega
    have e2 : (16 * r + category v) / 16 = r := by omega
    rw [e1, e2, if_neg (by omega), receiveExtend_additional hv]
    simp only
    rw [if_neg (by omega), show r + l.length - r = l.length by omega, ih]
  | @over r v l b hne hz hlr hr hv hcat hb =>
    intro rest
    have hpos := category_pos hv
    obtain ⟨n, hn⟩ : ∃ n, l.length = n + 1 := ⟨l.length - 1, by have := List.length_pos_iff.2 hne; omega⟩
    rw [hn, Spec.readAc, List.append_assoc, h.read hb]
    simp only [Reading.bind]
    have e1 : (16 * r + category v) % 16 = category v := by omega
    have e2 : (16 * r + category v) / 16 = r := by omega
    rw [e1, e2, if_neg (by omega), receiveExtend_additional hv]
    simp only
    rw [if_pos (by omega), ← hn, hzero hz]
  | @overZrl l b hne hz hl16 hb =>
    intro rest
    obtain ⟨n, hn⟩ : ∃ n, l.length = n + 1 := ⟨l.length - 1, by have := List.length_pos_iff.2 hne; omega⟩
    rw [hn, Spec.readAc, h.read hb]
    simp only [Reading.bind]
    rw [if_pos (by decide), if_neg (by decide), if_pos (by decide), if_pos (by omega), ← hn, hzero hz]

theorem Proper.readBlocks {cd ca : Code} (hd : Proper cd) (ha : Proper ca) {p q : Int} {bs : List BlockData}
    {b : List Bool} (hb : BlocksBits cd ca p bs b q) :
    ∀ rest, Spec.readBlocks cd ca bs.length p (b ++ rest) = .value (bs, q) rest := by
  induction hb with
  | nil => intro rest; rfl
  | @cons p b diff bs x y q hx hdc _ ih =>
    intro rest
    obtain ⟨hlen, b1, b2, k1, k2, rfl⟩ := hx
    rw [List.length_cons, Spec.readBlocks]
    simp only [List.append_assoc]
    rw [hd.readDc k1]
    simp only [Reading.bind]
    have := ha.readAc k2 (y ++ rest)
    rw [hlen] at this
    rw [this]
    simp only
    rw [← hdc, ih]

/-- All codes are proper. -/
def ProperAll (codes : List (Code × Code)) : Prop := ∀ c ∈ codes, Proper c.1 ∧ Proper c.2

theorem ProperAll.readMcu {codes : List (Code × Code)} {ps qs : List Int} {m : Mcu} {b : List Bool}
    (hb : McuBits codes ps m b qs) (h : ProperAll codes) :
    ∀ rest, Spec.readMcu codes (m.map List.length) ps (b ++ rest) = .value (m, qs) rest := by
  induction hb with
  | nil => intro rest; simp [Spec.readMcu]
  | @cons cd ca cs p ps bs mcu x y q qs hx _ ih =>
    intro rest
    obtain ⟨h1, h2⟩ := h (cd, ca) (by simp)
    rw [List.map_cons, Spec.readMcu, List.append_assoc]
    simp only
    rw [h1.readBlocks h2 hx]
    simp only [Reading.bind]
    rw [ih fun c hc => h c (by simp [hc])]

theorem ProperAll.readMcus {codes : List (Code × Code)} (h : ProperAll codes) {ns : List Nat} {ps qs : List Int}
    {ms : List Mcu} {b : List Bool} (hb : McusBits codes ps ms b qs) :
    (∀ m ∈ ms, m.map List.length = ns) →
    ∀ rest, Spec.readMcus codes ns ms.length ps (b ++ rest) = .value ms rest := by
  induction hb with
  | nil => intro _ rest; rfl
  | @cons ps m ms x y qs rs hm _ ih =>
    intro hns rest
    rw [List.length_cons, Spec.readMcus, List.append_assoc, ← hns m (by simp), h.readMcu hm]
    simp only [Reading.bind]
    rw [hns m (by simp), ih (fun m hm => hns m (by simp [hm]))]

/-- An encoding reads as what it encodes. -/
theorem ProperAll.readInterval {codes : List (Code × Code)} (h : ProperAll codes) {ns : List Nat} {ms : List Mcu}
    {data : List UInt8} (hd : IntervalData codes ms data) (hns : ∀ m ∈ ms, m.map List.length = ns) :
    ∃ rest, Spec.readInterval codes ns ms.length data = .value ms rest := by
  obtain ⟨bits, pad, qs, h1, h2⟩ := hd
  refine ⟨pad, ?_⟩
  unfold Spec.readInterval
  rw [h2]
  exact h.readMcus h1 hns pad

/-! ## What cannot be read is refused -/

/-- A failure, of the kind `P`. -/
def Refuses {σ α : Type} (P : Fail → Prop) (o : Out σ α) : Prop := ∃ f s, P f ∧ o = .fail f s

/-- How bits that cannot be read show: as the end of the input, unless there is a DC category above 11 (`big`). -/
def Undecodable (big : Prop) (f : Fail) : Prop :=
  f = .eof ∨ (∃ p, f = .panic p) ∨ (f = .err .dcCategory ∧ big)

theorem Undecodable.panic (big : Prop) (p : PanicSite) : Undecodable big (.panic p) := .inr (.inl ⟨p, rfl⟩)

theorem Undecodable.imp {a b : Prop} (h : a → b) {f : Fail} : Undecodable a f → Undecodable b f := by
  rintro (e | e | ⟨e, e2⟩)
  · exact .inl e
  · exact .inr (.inl e)
  · exact .inr (.inr ⟨e, h e2⟩)

theorem Refuses.bind {σ α β : Type} {P : Fail → Prop} {o : Out σ α} (h : Refuses P o) (k : α → σ → Out σ β) :
    Refuses P (o.bind k) := by
  obtain ⟨f, s, hp, rfl⟩ := h
  exact ⟨f, s, hp, rfl⟩

theorem Refuses.imp {σ α : Type} {P Q : Fail → Prop} {o : Out σ α} (h : Refuses P o) (hq : ∀ f, P f → Q f) :
    Refuses Q o := by
  obtain ⟨f, s, hp, e⟩ := h
  exact ⟨f, s, hq f hp, e⟩

theorem Refuses.toEof {σ α : Type} {o : Out σ α} (h : Refuses (· = .unit) o) (big : Prop) :
    Refuses (Undecodable big) (o.mapErr toEof) := by
  obtain ⟨f, s, rfl, rfl⟩ := h
  exact ⟨_, s, .inl rfl, rfl⟩

theorem Refuses.lift {α : Type} {P : Fail → Prop} {op : Biterator → Out Biterator α} {s : BlockSt}
    (h : Refuses P (op s.bi)) : Refuses P (liftBi op s) := by
  obtain ⟨f, b, hp, e⟩ := h
  exact ⟨f, { s with bi := b }, hp, by unfold liftBi; rw [e]⟩

/-- The code has a value above 11. -/
def Spec.Code.Big (c : Code) : Prop := ∃ v ∈ c.values, 11 < v.toNat

theorem unzigzag_panics {α : Type} {out : List α} {i : Nat} {v : α} {f : Fail}
    (h : unzigzag out i v = .error f) : ∃ p, f = .panic p := by
  unfold unzigzag at h
  cases hz : UNZIGZAG[i]? with
  | none => rw [hz] at h; cases h; exact ⟨_, rfl⟩
  | some p =>
    rw [hz] at h
    simp only at h
    split at h
    · cases h
    · cases h; exact ⟨_, rfl⟩

variable {t : List UInt8}

/-- No code word: the Huffman decoder fails. -/
theorem decode_invalid {c : Code} {tb : BaseTable} (ht : TableOk (codeSizes c.counts) c.counts c.values tb)
    {s : Biterator} {bits : List Bool} (hr : Rep A s bits t) (h : c.read bits = .invalid) :
    Refuses (· = .unit) (tb.decode s) := by
  unfold Code.read at h
  split at h
  · rename_i k hk
    have hk := List.mem_range.1 (List.mem_of_find?_eq_some hk)
    split at h
    · simp at h
    · rename_i hv
      have := ht.lenV
      rw [List.getElem?_eq_none_iff] at hv
      omega
  · rename_i hnone
    split at h
    · simp at h
    · rename_i h16
      obtain ⟨s1, e1, h1, hc16⟩ := hr.ensure16
      have hb : (s1.buf.take 16).length = 16 := by simp [buf_length]; omega
      unfold BaseTable.decode
      rw [e1, Out.bind_ok, show LUT_BITS = 8 from rfl, peekBits_ok h1.wf (by omega) (by omega) (by omega)]
      simp only [Out.ofExcept_ok, Out.bind_ok]
      rcases decodeInner_hit ht h1.wf hc16 with ⟨k, v, hk, hv, p1, p2, e⟩ | ⟨_, e⟩
      · exfalso
        have hp := (codeWord_prefix_iff ht.sorted ht.range ht.kraft hk _ hb).2 ⟨p1, p2⟩
        rw [h1.take_buf (by omega) hc16] at hp
        have := List.find?_eq_none.1 hnone k (List.mem_range.2 hk)
        simp only [decide_eq_true_eq] at this
        exact this (hp.trans (List.take_prefix _ _))
      · exact ⟨_, _, rfl, e⟩

theorem fastAc_invalid {c : Code} {ac : AcTable} (ht : AcTableOk (codeSizes c.counts) c.counts c.values ac)
    {s : Biterator} {bits : List Bool} (hr : Rep A s bits t) (h : c.read bits = .invalid) :
    Refuses (· = .unit) (ac.decodeFastAc s) := by
  obtain ⟨f, s', hp, e⟩ := decode_invalid ht.table hr h
  rcases decodeFastAc_eq ht hr.wf with ⟨b, s1, v, s2, e1, -⟩ | e1
  · rw [e] at e1; simp at e1
  · rw [e1, e]; exact ⟨f, s', hp, rfl⟩

theorem decodeDc_invalid {c : Code} {dc : BaseTable} (ht : TableOk (codeSizes c.counts) c.counts c.values dc)
    {scan : Scan} (hss : scan.ss = 0) {s : BlockSt} {bits : List Bool} (hr : Rep A s.bi bits t)
    (h : readDc c bits = .invalid) : Refuses (Undecodable c.Big) (decodeDc scan dc s) := by
  unfold decodeDc
  rw [if_pos hss]
  unfold readDc at h
  replace h := Reading.bind_invalid.1 h
  rcases h with h | ⟨sym, m, h1, h2⟩
  · exact ((decode_invalid ht hr h).lift.toEof _).bind _
  · obtain ⟨b, ⟨k, v, hk, hv, rfl, rfl⟩, rfl⟩ := read_value h1
    obtain ⟨v', s1, hv', e, h1⟩ := Rep.decode ht hk hr
    rw [hv] at hv'; injection hv' with hv'; subst hv'
    split at h2
    · simp at h2
    · rename_i h0
      split at h2
      · rename_i h11
        unfold liftBi
        rw [e]
        simp only [Out.mapErr_ok, Out.bind_ok]
        rw [if_neg (by rintro rfl; exact h0 rfl), if_pos h11]
        exact ⟨_, _, .inr (.inr ⟨rfl, v, List.mem_of_getElem? hv, h11⟩), rfl⟩
      · unfold Spec.receiveExtend at h2
        split at h2 <;> simp at h2

theorem decodeAcGo_invalid {c : Code} {ac : AcTable} (hac : AcTableOk (codeSizes c.counts) c.counts c.values ac)
    {scan : Scan} (big : Prop) (n : Nat) : ∀ (index fuel : Nat) (s : BlockSt) (bits : List Bool), index + n = 64 → 1 ≤ n →
    Rep A s.bi bits t → readAc c n bits = .invalid →
    Refuses (Undecodable big) (decodeAcGo scan ac 63 fuel index s) := by
  induction n using Nat.strongRecOn with
  | ind n ih =>
    intro index fuel s bits hlen h1 hr h
    cases fuel with
    | zero => exact ⟨_, _, .panic _ _, rfl⟩
    | succ fuel =>
    obtain ⟨n, rfl⟩ : ∃ k, n = k + 1 := ⟨n - 1, by omega⟩
    rw [readAc] at h
    unfold decodeAcGo
    replace h := Reading.bind_invalid.1 h
    rcases h with h | ⟨rs, m, hrd, h⟩
    · unfold acRound
      exact (((fastAc_invalid hac hr h).lift.toEof _).bind _).bind _
    · obtain ⟨b, hb, rfl⟩ := read_value hrd
      have hrs : rs < 256 := by
        obtain ⟨k, v, -, -, rfl, -⟩ := hb
        exact v.toNat_lt
      split at h
      · rename_i hs
        split at h
        · simp at h
        · split at h
          · rename_i h15
            split at h
            · simp at h
            · rename_i h16
              obtain ⟨bi, hrb, e, -⟩ := acRound_plain (r := 15) hac scan
                (by rwa [show rs = 16 * 15 by omega] at hb) hr 63 index
              rw [e rfl, if_pos (by omega)]
              simp only [Out.bind_ok]
              replace h := Reading.bind_invalid.1 h
              rcases h with h | ⟨l, m', h3, h4⟩
              · exact ih (n + 1 - 16) (by omega) (index + 16) fuel { s with bi } m (by omega) (by omega) hrb h
              · simp at h4
          · simp at h
      · replace h := Reading.bind_invalid.1 h
        rcases h with h | ⟨v, m', h3, h4⟩
        · unfold Spec.receiveExtend at h
          split at h <;> simp at h
        · obtain ⟨a1, a2, rfl⟩ := receiveExtend_value (by omega) h3
          have hb' : c.For (16 * (rs / 16) + category v) b := by
            rw [a2, Nat.div_add_mod]; exact hb
          obtain ⟨bi, hrb, e⟩ := acRound_coef hac scan a1 (by omega) hb' hr 63 index
          split at h4
          · simp at h4
          · rename_i hle
            replace h4 := Reading.bind_invalid.1 h4
            rcases h4 with h4 | ⟨l, m2, h5, h6⟩
            · have hpos : 1 ≤ n - rs / 16 := by
                by_contra hc
                rw [show n - rs / 16 = 0 by omega, readAc] at h4
                simp at h4
              rw [e]
              unfold acPut
              rw [if_pos (by omega)]
              cases hz : unzigzag s.coeffs (index + rs / 16) (shlI16 v scan.al) with
              | error f =>
                obtain ⟨p, rfl⟩ := unzigzag_panics hz
                exact ⟨_, _, .panic _ _, rfl⟩
              | ok coeffs =>
                simp only
                rw [if_pos (by omega)]
                exact ih (n - rs / 16) (by omega) (index + rs / 16 + 1) fuel { s with bi, coeffs } m'
                  (by omega) hpos hrb h4
            · simp at h6

theorem decodeBlocks_invalid {cd ca : Code} {dc : BaseTable} {ac : AcTable}
    (hdc : TableOk (codeSizes cd.counts) cd.counts cd.values dc)
    (hac : AcTableOk (codeSizes ca.counts) ca.counts ca.values ac) {scan : Scan}
    (hss : scan.ss = 0) (hse : scan.se = 63) (hal : scan.al = 0) (n : Nat) :
    ∀ (p : Int) (bi : Biterator) (bits : List Bool) (done : List (List Int)), Rep A bi bits t →
    done.length + n ≤ MAX_BLOCKS_IN_MCU → readBlocks cd ca n p bits = .invalid →
    Refuses (Undecodable cd.Big) (decodeBlocks scan dc ac n ⟨bi, 0, p, done⟩) := by
  induction n with
  | zero => intro p bi bits done _ _ h; simp [readBlocks] at h
  | succ n ih =>
    intro p bi bits done hr hlen h
    rw [readBlocks] at h
    have hfail : Refuses (Undecodable cd.Big) (decodeBlock scan dc ac ⟨bi, 0, p, zeroBlock⟩) →
        Refuses (Undecodable cd.Big) (decodeBlocks scan dc ac (n + 1) ⟨bi, 0, p, done⟩) := by
      rintro ⟨f, b, hp, e⟩
      unfold decodeBlocks
      rw [if_pos (show done.length < MAX_BLOCKS_IN_MCU by omega)]
      simp only
      rw [e]
      exact ⟨_, _, hp, rfl⟩
    replace h := Reading.bind_invalid.1 h
    rcases h with h | ⟨diff, m, h1, h⟩
    · apply hfail
      unfold decodeBlock
      exact (decodeDc_invalid hdc hss hr h).bind _
    · obtain ⟨b1, k1, rfl⟩ := readDc_value h1
      replace h := Reading.bind_invalid.1 h
      rcases h with h | ⟨zz, m2, h2, h⟩
      · apply hfail
        obtain ⟨bi1, e1, hr1⟩ := decodeDc_inv hdc hss hal k1 hr p zeroBlock
        unfold decodeBlock
        rw [e1]
        simp only [Out.bind_ok, hss, hse]
        rw [if_neg (by omega), if_pos (by decide)]
        exact decodeAcGo_invalid hac _ 63 1 64 _ m (by omega) (by omega) hr1 h
      · obtain ⟨l2, b2, k2, rfl⟩ := readAc_value 63 h2
        replace h := Reading.bind_invalid.1 h
        rcases h with h | ⟨bs, m3, h3, h⟩
        · rw [← List.append_assoc] at hr
          obtain ⟨bi1, coeffs, e, hr1, -⟩ := decodeBlock_inv hdc hac hss hse hal
            (diff := diff) (zz := zz) ⟨l2, b1, b2, k1, k2, rfl⟩ hr p
          unfold decodeBlocks
          rw [if_pos (show done.length < MAX_BLOCKS_IN_MCU by omega)]
          simp only
          rw [e]
          exact ih _ bi1 m2 _ hr1 (by simp; omega) h
        · simp at h

theorem decodeComponents_invalid {d : Decoder} {scan : Scan}
    (hss : scan.ss = 0) (hse : scan.se = 63) (hal : scan.al = 0) :
    ∀ (codes : List (Code × Code)) (comps : List Component) (headers : List ScanHeader) (ps e : List Int)
      (bits : List Bool) (bi : Biterator) (prev : List Int) (done : List (List Int)),
    List.Forall₂ (TablesFor d) headers codes →
    Rep A bi bits t → done.length + (comps.map (·.blocksPerMcu)).sum ≤ MAX_BLOCKS_IN_MCU →
    readMcu codes (comps.map (·.blocksPerMcu)) ps bits = .invalid →
    Refuses (Undecodable (∃ c ∈ codes, c.1.Big))
      (decodeComponents d scan comps headers (ps ++ e) ⟨bi, 0, prev, done⟩) := by
  intro codes
  induction codes with
  | nil => intro comps headers ps e bits bi prev done _ _ _ h; simp [readMcu] at h
  | cons code codes ih =>
    intro comps headers ps e bits bi prev done ht hr hlen h
    cases ht with
    | @cons hd _ hs _ ht hts =>
    cases comps with
    | nil => simp [readMcu] at h
    | cons c comps =>
    cases ps with
    | nil => simp [readMcu] at h
    | cons p ps =>
    obtain ⟨dc, ac, hdc, hac, hdok, haok⟩ := ht
    rw [List.map_cons, readMcu] at h
    rw [List.map_cons, List.sum_cons] at hlen
    rw [List.cons_append]
    unfold decodeComponents
    rw [hdc, hac]
    simp only
    replace h := Reading.bind_invalid.1 h
    rcases h with h | ⟨⟨bs, q⟩, m, h1, h⟩
    · obtain ⟨f, r, hp, e⟩ := decodeBlocks_invalid hdok haok hss hse hal c.blocksPerMcu p bi bits done hr (by omega) h
      rw [e]
      exact ⟨_, _, hp.imp fun hb => ⟨code, by simp, hb⟩, rfl⟩
    · obtain ⟨l1, b1, k1, rfl⟩ := readBlocks_value _ h1
      replace h := Reading.bind_invalid.1 h
      rcases h with h | ⟨m', m2, h2, h⟩
      · obtain ⟨bi1, blocks, e1, hr1, hall⟩ := decodeBlocks_inv hdok haok hss hse hal k1 m bi done hr (by omega)
        have hlb : bs.length = blocks.length := hall.length_eq
        rw [l1] at e1
        rw [e1]
        refine (ih comps hs ps e m bi1 _ _ hts hr1 (by simp; omega) h).imp fun f hp => hp.imp ?_
        rintro ⟨c, hc, hb⟩
        exact ⟨c, by simp [hc], hb⟩
      · simp at h

/-- The first MCU that cannot be read. -/
theorem readMcus_invalid {codes : List (Code × Code)} {ns : List Nat} (hn : ns.length = codes.length) (count : Nat) :
    ∀ {ps : List Int} {bits : List Bool}, codes.length ≤ ps.length → readMcus codes ns count ps bits = .invalid →
    ∃ ms b qs rest, ms.length < count ∧ (∀ m ∈ ms, m.map List.length = ns) ∧ McusBits codes ps ms b qs ∧
      bits = b ++ rest ∧ readMcu codes ns qs rest = .invalid := by
  induction count with
  | zero => intro ps bits _ h; simp [readMcus] at h
  | succ count ih =>
    intro ps bits hp h
    rw [readMcus] at h
    replace h := Reading.bind_invalid.1 h
    rcases h with h | ⟨⟨m, qs⟩, m1, h1, h⟩
    · exact ⟨[], [], ps, bits, by simp, by simp, .nil, rfl, h⟩
    · obtain ⟨l1, l2, b1, k1, rfl⟩ := readMcu_value h1 hn hp
      replace h := Reading.bind_invalid.1 h
      rcases h with h | ⟨ms', m2, h2, h⟩
      · obtain ⟨ms, b, qs2, rest, q1, q2, q3, rfl, q5⟩ := ih (ps := qs) (by omega) h
        refine ⟨m :: ms, b1 ++ b, qs2, rest, by simpa using q1, ?_, .cons k1 q3, by rw [List.append_assoc], q5⟩
        intro x hx
        rcases List.mem_cons.1 hx with rfl | hx
        · exact l1
        · exact q2 x hx
      · simp at h

theorem Refuses.soft {σ α : Type} {K : Fail → Prop} {o : Out σ α} {P : σ → Prop} (h : Refuses K o) (hs : Soft o P)
    (Q : σ → Prop) : Soft o Q := by
  obtain ⟨f, s, -, rfl⟩ := h
  exact hs

section

variable {cfg : Cfg} {d : Decoder} {scan : Scan} {frame : Frame}
  {codes : List (Code × Code)} {r W H : Nat}

theorem decodeRow_invalid (h : DamageCtx d scan frame codes r W H) {coef : List (List Int)} {ps e : List Int}
    {exp left : Nat} {R : List (List (Option UInt8))} {bi : Biterator} {bits : List Bool} (hr : Rep A bi bits t)
    (hm : readMcu codes (frame.components.map fun c => c.v * c.h) ps bits = .invalid) :
    Refuses (Undecodable (∃ c ∈ codes, c.1.Big)) (decodeRow (mkSt d coef (ps ++ e) exp left R bi)) := by
  have hb : frame.components.map (·.blocksPerMcu) = frame.components.map (fun c => c.v * c.h) :=
    List.map_congr_left h.blocks
  obtain ⟨f, m, hp, e⟩ := decodeComponents_invalid (d := (mkSt d coef (ps ++ e) exp left R bi).dec) h.ctx.ss h.ctx.se
    h.ctx.al codes frame.components scan.headers ps e bits bi [] [] h.ctx.tables hr
    (by rw [hb]; simpa [MAX_BLOCKS_IN_MCU] using h.ten) (by rw [hb]; exact hm)
  unfold decodeRow
  rw [show (mkSt d coef (ps ++ _) exp left R bi).dec.scan = some scan from h.ctx.scan_eq,
    show (mkSt d coef (ps ++ _) exp left R bi).dec.frame = some frame from h.ctx.frame_eq]
  simp only
  rw [show decodeComponents (mkSt d coef (ps ++ _) exp left R bi).dec scan frame.components scan.headers
      (mkSt d coef (ps ++ _) exp left R bi).dec.scanState.dcPredictors
      ⟨(mkSt d coef (ps ++ _) exp left R bi).bi, (mkSt d coef (ps ++ _) exp left R bi).dec.scanState.eobRun, [], []⟩
        = _ from e]
  cases f <;> exact ⟨_, _, hp, rfl⟩

/-- An interval that cannot be read. -/
theorem mcuLoop_invalid (h : DamageCtx d scan frame codes r W H) {data : List UInt8} (ht : StartsWithMarker t)
    {n : Nat} (hi : readInterval codes (frame.components.map fun c => c.v * c.h) n data = .invalid)
    (hn : 0 < r → n ≤ r) (L : List Mcu) (hL : 0 < r → L.length % r = 0) (hk : L.length + n ≤ W * H)
    (coef : List (List Int)) (exp left : Nat) (hl : 0 < r → left = r) (he : 0 < r → exp = L.length / r % 8) :
    Refuses (Undecodable (∃ c ∈ codes, c.1.Big)) (mcuLoop cfg true (coords frame L.length n)
      (mkSt d coef (List.replicate MAX_COMPONENTS 0) exp left (partPlanes d frame L) ⟨stuff data ++ t, 0, 0⟩)) := by
  have hlen : (frame.components.map fun c => c.v * c.h).length = codes.length := by
    rw [List.length_map, ← h.headers]; exact h.ctx.tables.length_eq
  obtain ⟨ms, b, qs, rest, h1, h2, h3, h4, h5⟩ := readMcus_invalid hlen n (by simp) hi
  have hfit : ∀ m ∈ ms, McuFits frame m := fun m hm => h.fits.2 (h2 m hm)
  have hnd : ∀ j, L.length ≤ j → j < L.length + ms.length → ¬ RstDue r (W * H) j := by
    rintro j k1 k2 ⟨h0, k3, k4⟩
    have := hn h0
    have hd := Nat.div_add_mod L.length r
    rw [hL h0] at hd
    have : (j + 1) % r = j + 1 - L.length := by
      conv_lhs => rw [show j + 1 = r * (L.length / r) + (j + 1 - L.length) by omega]
      rw [Nat.mul_add_mod, Nat.mod_eq_of_lt (by omega)]
    omega
  have hsz : frame.mcuSize.width * frame.mcuSize.height = W * H := by rw [h.size]
  have hzero : List.replicate MAX_COMPONENTS (0 : Int) =
      List.replicate codes.length 0 ++ List.replicate (MAX_COMPONENTS - codes.length) 0 := by
    rw [List.replicate_append_replicate]; congr 1; have := h.ctx.comps; omega
  have hms' := h3.extend (List.replicate (MAX_COMPONENTS - codes.length) 0)
  rw [← hzero] at hms'
  have hrep : Rep False ⟨stuff data ++ t, 0, 0⟩ (b ++ rest) t := rep_new ht h4
  obtain ⟨coef1, left1, bi1, e1, hr1, -⟩ := mcuLoop_stretch (produce := true) (cfg := cfg) h.ctx
    hms' L.length coef exp left (partPlanes d frame L) (partPlanes d frame (L ++ ms)) _
    rest hfit hrep (by rw [hsz]; omega) (by rw [hsz]; exact hnd) (fun h0 => by rw [hL h0]; exact hl h0)
    he (h.dequantAll L ms hfit (by omega))
  obtain ⟨k, rfl⟩ : ∃ k, n = ms.length + (1 + k) := ⟨n - ms.length - 1, by omega⟩
  rw [coords_append, mcuLoop_append, e1, Out.bind_ok, coords_append, mcuLoop_append]
  refine Refuses.bind ?_ _
  rw [show coords frame (L.length + ms.length) 1 = [mcuCoord frame.mcuSize (L.length + ms.length)] from rfl, mcuLoop]
  refine Refuses.bind ?_ _
  unfold mcuStep
  exact (decodeRow_invalid h hr1 h5).bind _

/-- The MCU loop over a scan with an interval that cannot be read. -/
theorem mcuLoop_chunks_invalid (h : DamageCtx d scan frame codes r W H) {tail : List UInt8}
    (htail : StartsWithMarker tail) {j : Nat} {chunks : List (List UInt8)} {bytes : List UInt8}
    (hc : Chunks tail j chunks bytes) :
    ∀ (intervals : List (List Mcu)) (L : List Mcu) (coef : List (List Int)) (exp left : Nat),
    chunks.length = intervals.length →
    (∀ m ∈ intervals.flatten, McuFits frame m) →
    L.length + intervals.flatten.length = W * H →
    (0 < r → L.length = j * r) → (0 < r → left = r) → (0 < r → exp = j % 8) →
    (r = 0 → intervals.length = 1) →
    (0 < r → ∃ init last, intervals = init ++ [last] ∧ (∀ i ∈ init, i.length = r) ∧
      last.length ≤ r ∧ (init ≠ [] → 1 ≤ last.length)) →
    (∃ (i : Nat) (ms : List Mcu) (data : List UInt8), intervals[i]? = some ms ∧ chunks[i]? = some data ∧
      readInterval codes (frame.components.map fun c => c.v * c.h) ms.length data = .invalid) →
    Soft (mcuLoop cfg true (coords frame L.length intervals.flatten.length)
        (mkSt d coef (List.replicate MAX_COMPONENTS 0) exp left (partPlanes d frame L) ⟨bytes, 0, 0⟩))
      fun _ => False := by
  induction hc with
  | @last j data =>
    intro intervals L coef exp left hlen hfit htot hL hleft hexp _ hshape hbad
    obtain ⟨ms, rfl⟩ := List.length_eq_one_iff.1 hlen.symm
    obtain ⟨i, ms', data', b1, b2, b3⟩ := hbad
    obtain rfl : i = 0 := by
      have := (List.getElem?_eq_some_iff.1 b1).1
      simpa using this
    simp only [List.getElem?_cons_zero, Option.some.injEq] at b1 b2
    subst b1; subst b2
    simp only [List.flatten_cons, List.flatten_nil, List.append_nil] at hfit htot ⊢
    have hl : 0 < r → ms.length ≤ r := by
      intro h0
      obtain ⟨init, last, he, _, hl, _⟩ := hshape h0
      have hi : init = [] := by
        have := congrArg List.length he
        simp at this
        exact this
      subst hi
      simp at he
      rw [he]; exact hl
    have hLm : 0 < r → L.length % r = 0 := fun h0 => by rw [hL h0, Nat.mul_mod_left]
    have he : 0 < r → exp = L.length / r % 8 := fun h0 => by rw [hexp h0, hL h0, Nat.mul_div_cancel _ h0]
    exact (mcuLoop_invalid h htail b3 hl L hLm (by omega) coef exp left hleft he).soft
      (mcuLoop_interval_last (bad := True) (cfg := cfg) h htail (fun hb => absurd trivial hb) hfit hl L hLm htot
        coef exp left hleft he) _
  | @cons j data rest bytes kf hc ih =>
    intro intervals L coef exp left hlen hfit htot hL hleft hexp hone hshape hbad
    cases intervals with
    | nil => simp at hlen
    | cons ms intervals =>
    have hlen : rest.length = intervals.length := by simpa using hlen
    have hrne : intervals ≠ [] := by
      rintro rfl
      cases hc <;> simp at hlen
    have h0 : 0 < r := by
      rcases Nat.eq_zero_or_pos r with h | h
      · have := hone h
        rw [List.length_cons] at this
        exact absurd (List.length_eq_zero_iff.1 (by omega)) hrne
      · exact h
    obtain ⟨init, last, he, hinit, hlast, hlast1⟩ := hshape h0
    obtain ⟨init', hinit', hrest⟩ : ∃ init', init = ms :: init' ∧ intervals = init' ++ [last] := by
      cases init with
      | nil => simp at he; exact absurd he.2 hrne
      | cons i init' =>
        simp at he
        exact ⟨init', by rw [he.1], he.2⟩
    subst hinit'
    have hmsr : ms.length = r := hinit ms (by simp)
    have hlast1 := hlast1 (by simp)
    have hrestpos : 1 ≤ intervals.flatten.length := by
      rw [hrest, List.flatten_append, List.length_append]; simp; omega
    rw [List.flatten_cons, List.length_append] at htot
    have hL := hL h0
    have hj : L.length / r = j := by rw [hL, Nat.mul_div_cancel _ h0]
    have hn8 : j % 8 < 8 := Nat.mod_lt _ (by omega)
    have hint := mcuLoop_interval (cfg := cfg) h (bad := True) (ms := ms) (data := data)
      (starts_rst hn8 kf bytes) (fun hb => absurd trivial hb)
      (fun m hm => hfit m (by rw [List.flatten_cons]; simp only [List.mem_append]; exact Or.inl hm)) h0 hmsr L
      (by rw [hL, Nat.mul_mod_left]) (by omega) (rest := bytes) (by rw [hj]; exact marker_rst hn8 kf bytes) coef
    rw [List.flatten_cons, List.length_append, hmsr, coords_append, mcuLoop_append, hleft h0, hexp h0]
    rw [hj] at hint
    obtain ⟨i, ms', data', b1, b2, b3⟩ := hbad
    cases i with
    | zero =>
      simp only [List.getElem?_cons_zero, Option.some.injEq] at b1 b2
      subst b1; subst b2
      rw [hmsr] at b3
      refine Soft.bind ((mcuLoop_invalid h (starts_rst hn8 kf bytes) b3 (fun _ => le_refl _) L
        (fun _ => by rw [hL, Nat.mul_mod_left]) (by omega) coef (j % 8) r (fun _ => rfl)
        (fun _ => by rw [hj])).soft hint fun _ => False) fun _ s hs => absurd hs id
    | succ i =>
      rw [List.getElem?_cons_succ] at b1 b2
      refine hint.bind fun _ s hs => ?_
      obtain ⟨ms', coef', k1, k2, k3, rfl⟩ := hs
      have hl : (L ++ ms').length = L.length + r := by simp [k1]
      have := ih intervals (L ++ ms') coef' ((j % 8 + 1) % 8) r hlen
        (fun m hm => hfit m (by rw [List.flatten_cons]; simp only [List.mem_append]; exact Or.inr hm))
        (by rw [hl]; omega) (fun _ => by rw [hl, hL, Nat.succ_mul]) (fun _ => rfl) (fun _ => by omega)
        (fun h => absurd h (by omega))
        (fun _ => ⟨init', last, hrest, fun i hi => hinit i (by simp [hi]), hlast, fun _ => hlast1⟩)
        ⟨i, _, _, b1, b2, b3⟩
      rw [hl] at this
      exact this

theorem decodeScan_invalid (h : DamageCtx d scan frame codes r W H) (hready : ScanReady cfg d scan frame codes r)
    {tail : List UInt8} (htail : StartsWithMarker tail) {intervals : List (List Mcu)}
    {chunks : List (List UInt8)} {bytes : List UInt8} (hbytes : Chunks tail 0 chunks bytes)
    (hlen : chunks.length = intervals.length) (hok : IntervalsOk r intervals)
    (hfit : ∀ m ∈ intervals.flatten, McuFits frame m) (htotal : intervals.flatten.length = W * H)
    (hbad : ∃ (i : Nat) (ms : List Mcu) (data : List UInt8), intervals[i]? = some ms ∧ chunks[i]? = some data ∧
      readInterval codes (frame.components.map fun c => c.v * c.h) ms.length data = .invalid) :
    Soft (decodeScan cfg true ⟨d, ⟨bytes, 0, 0⟩⟩) fun _ => False := by
  have hi := hready.init true h.four ⟨bytes, 0, 0⟩
  rw [if_pos rfl] at hi
  unfold decodeScan
  rw [hi, Out.bind_ok]
  simp only [mkSt, h.ctx.frame_eq, h.ctx.scan_eq]
  have hloop := mcuLoop_chunks_invalid (cfg := cfg) h htail hbytes intervals [] ScanState.default.mcuRowCoefficients 0 r
    hlen hfit (by simpa using htotal) (fun _ => by simp) (fun _ => rfl) (fun _ => rfl)
    (fun h => by unfold IntervalsOk at hok; rw [if_pos h] at hok; exact hok)
    (fun h => by
      unfold IntervalsOk at hok
      rw [if_neg (by omega)] at hok
      rcases hok with h | ⟨init, last, h1, h2, h3, h4⟩
      · exact ⟨[], [], h, by simp, Nat.zero_le _, by simp⟩
      · exact ⟨init, last, h1, h2, h4, fun _ => h3⟩) hbad
  have hp0 : partPlanes d frame [] = frame.components.map allocPlane := by
    unfold partPlanes
    rw [List.map_nil, lsOf_nil, planesOf_init]
  rw [hp0] at hloop
  have hco : coords frame ([] : List Mcu).length intervals.flatten.length = mcuList frame.mcuSize := by
    rw [mcuList_eq, h.size, htotal, List.range_eq_range']
    unfold coords
    rw [h.size]
    rfl
  rw [hco] at hloop
  simp only [mkSt, h.ctx.frame_eq, h.ctx.scan_eq] at hloop
  exact hloop.bind fun _ s hs => absurd hs id

/-- Without restart intervals, and with the DC categories the standard allows: the failure looks like the end of the
input. -/
theorem decodeScan_undecodable (h : DamageCtx d scan frame codes r W H) (hready : ScanReady cfg d scan frame codes r)
    {tail : List UInt8} (htail : StartsWithMarker tail) {ms : List Mcu} {data : List UInt8}
    (hok : IntervalsOk r [ms])
    (hfit : ∀ m ∈ ms, McuFits frame m) (htotal : ms.length = W * H)
    (hbad : readInterval codes (frame.components.map fun c => c.v * c.h) ms.length data = .invalid)
    (hdc : ¬ ∃ c ∈ codes, c.1.Big) :
    ∃ s, decodeScan cfg true ⟨d, ⟨stuff data ++ tail, 0, 0⟩⟩ = .fail .eof s := by
  have hsoft := decodeScan_invalid (cfg := cfg) h hready htail (intervals := [ms]) (.last (data := data)) rfl hok (by simpa using hfit) (by simpa using htotal)
    ⟨0, ms, data, rfl, rfl, hbad⟩
  have hi := hready.init true h.four ⟨stuff data ++ tail, 0, 0⟩
  rw [if_pos rfl] at hi
  unfold decodeScan at hsoft ⊢
  rw [hi, Out.bind_ok] at hsoft ⊢
  simp only [mkSt, h.ctx.frame_eq, h.ctx.scan_eq] at hsoft ⊢
  have hrow : 0 < r → ms.length ≤ r := by
    intro h0
    unfold IntervalsOk at hok
    rw [if_neg (by omega)] at hok
    rcases hok with h | ⟨init, last, h1, h2, h3, h4⟩
    · simp only [List.cons.injEq, and_true] at h
      simp [h]
    · have hi : init = [] := by
        have := congrArg List.length h1
        simp at this
        exact this
      subst hi
      simp at h1
      rw [h1]; exact h4
  have hloop := mcuLoop_invalid (cfg := cfg) h htail hbad hrow [] (fun _ => by simp) (by simp [htotal])
    ScanState.default.mcuRowCoefficients 0 r (fun _ => rfl) (fun _ => by simp)
  have hp0 : partPlanes d frame [] = frame.components.map allocPlane := by
    unfold partPlanes
    rw [List.map_nil, lsOf_nil, planesOf_init]
  have hco : coords frame ([] : List Mcu).length ms.length = mcuList frame.mcuSize := by
    rw [mcuList_eq, h.size, htotal, List.range_eq_range']
    unfold coords
    rw [h.size]
    rfl
  rw [hp0, hco] at hloop
  simp only [mkSt, h.ctx.frame_eq, h.ctx.scan_eq] at hloop
  obtain ⟨f, s, hf, e⟩ := hloop
  rw [e] at hsoft ⊢
  rcases hf with rfl | ⟨p, rfl⟩ | ⟨-, hb⟩
  · exact ⟨s, rfl⟩
  · exact absurd rfl (hsoft p)
  · exact absurd hb hdc

end

section

variable {cfg : Cfg} {f : BaselineFile} {codes : List (Code × Code)} {H V : Nat}

/-- The codes of a file are proper. -/
theorem Laid.properAll {r : Nat} (hv : f.Laid r H V codes) : ProperAll codes := by
  have key : ∀ (ac : Bool) (n : Nat) (code : Code),
      (lastWith (fun t => t.ac == ac && t.dest == n) (huffmanDefs f.tables)).map
        (fun t => (⟨t.counts, t.values⟩ : Code)) = some code → Proper code := by
    intro ac n code h
    obtain ⟨t, hl, rfl⟩ := Option.map_eq_some_iff.1 h
    obtain ⟨hm, hp⟩ := lastWith_some hl
    obtain ⟨s, hs, ht⟩ := List.mem_flatMap.1 hm
    have hok := (hv.tables s hs).2
    cases s with
    | dht ts =>
      obtain ⟨o, -, -, hk⟩ := hok t ht
      exact ⟨o.2.1, hk⟩
    | _ => simp at ht
  intro c hc
  obtain ⟨i, hi⟩ := List.mem_iff_getElem?.1 hc
  have hlen := hv.huffman.length_eq
  have hil := (List.getElem?_eq_some_iff.1 hi).1
  have := List.forall₂_iff_get.1 hv.huffman
  have := this.2 i (by omega) hil
  rw [List.get_eq_getElem, List.get_eq_getElem, (List.getElem?_eq_some_iff.1 hi).2] at this
  generalize f.comps[(⟨i, _⟩ : Fin f.comps.length)] = fc at this
  constructor
  · refine key false fc.dc _ ?_
    rw [← this.1]
    unfold BaselineFile.dcCode
    congr 2
    funext t; cases t.ac <;> rfl
  · refine key true fc.ac _ ?_
    rw [← this.2]
    unfold BaselineFile.acCode
    congr 2
    funext t; cases t.ac <;> rfl

theorem scanStart {d : Decoder} (hd : DecInv d) (hh : TablesHeld cfg f.earlier d)
    (hv : f.Laid (f.interval d.restartInterval) H V codes) (x : List UInt8) :
    ∃ D, DamageCtx D ⟨fileHeaders f, 0, 63, 0, 0⟩ (fileFrame f H V) codes (f.interval d.restartInterval)
        (ceilDiv f.x (8 * H)) (ceilDiv f.y (8 * V)) ∧
      ScanReady cfg D ⟨fileHeaders f, 0, 63, 0, 0⟩ (fileFrame f H V) codes (f.interval d.restartInterval) ∧
      loopAll cfg ⟨d, Biterator.new ({ f with data := x } : BaselineFile).bytes⟩ =
        (decodeScan cfg true ⟨D, ⟨x, 0, 0⟩⟩).bind fun _ s => loopAll cfg s := by
  obtain ⟨d3, i3, hh3, hf3, hr3, ht3, e3⟩ := loopAll_toScan (cfg := cfg) hd hh hv x
  rw [e3]
  obtain ⟨D, fin, hD, hready, hs⟩ := sos_start hv i3 hf3 hh3 hr3 x
  rw [hs]
  have hc4 : (fileFrame f H V).components.length ≤ 4 := by
    simp only [fileFrame, List.length_map]; exact hv.count.2
  exact ⟨D, ⟨hready.ctx, by simp [fileHeaders, fileFrame], hc4, rfl, fileFrame_planes hv, fileFrame_bpm hv,
      by rw [hD]; exact fun c hc => fileFrame_quant hv hh3 c hc, by rw [fileFrame_blocks]; exact hv.ten⟩, hready, rfl⟩

theorem loopAll_invalid {d : Decoder} (hd : DecInv d) (hh : TablesHeld cfg f.earlier d)
    (hv : f.Laid (f.interval d.restartInterval) H V codes) {chunks : List (List UInt8)} {k : Nat}
    (hx : Chunks (List.replicate k 0xFF ++ markerBytes .EOI) 0 chunks f.data)
    (hlen : chunks.length = f.intervals.length)
    (hbad : ∃ (i : Nat) (ms : List Mcu) (data : List UInt8), f.intervals[i]? = some ms ∧ chunks[i]? = some data ∧
      readInterval codes (f.comps.map fun c => c.h * c.v) ms.length data = .invalid) :
    Soft (loopAll cfg ⟨d, Biterator.new f.bytes⟩) fun _ => False := by
  obtain ⟨D, hctx, hready, e⟩ := scanStart (cfg := cfg) hd hh hv f.data
  rw [show ({ f with data := f.data } : BaselineFile) = f from rfl] at e
  rw [e]
  exact (decodeScan_invalid hctx hready (starts_eoi k) hx hlen hv.restarts
    (fun m hm => hctx.fits.2 (by rw [hv.blocks m hm, fileFrame_blocks])) hv.mcus
    (by rw [fileFrame_blocks]; exact hbad)).bind fun _ s hs => absurd hs id

/-- The scan of a file with one interval of undecodable data, whatever marker follows. -/
theorem sos_undecodable {d : Decoder} (hd : DecInv d) (hf : d.frame = some (fileFrame f H V))
    (ht : TablesHeld cfg f.tables d) {r : Nat} (hr : d.restartInterval = r)
    (hv : f.Laid r H V codes) {tail : List UInt8} (htail : StartsWithMarker tail) {ms : List Mcu} {data : List UInt8}
    (hone : f.intervals = [ms])
    (hbad : readInterval codes (f.comps.map fun c => c.h * c.v) ms.length data = .invalid)
    (hdc : ¬ ∃ c ∈ codes, c.1.Big) :
    ∃ s, sos cfg ⟨d, ⟨segmentOf (scanHeader (f.comps.map fun c => ⟨c.id, c.dc, c.ac⟩) 0 63 0 0) ++ (stuff data ++ tail),
      0, 0⟩⟩ = .fail .eof s := by
  obtain ⟨D, fin, hD, hready, hs⟩ := sos_start hv hd hf ht hr (stuff data ++ tail)
  rw [hs]
  have hc4 : (fileFrame f H V).components.length ≤ 4 := by
    simp only [fileFrame, List.length_map]; exact hv.count.2
  have hctx : DamageCtx D ⟨fileHeaders f, 0, 63, 0, 0⟩ (fileFrame f H V) codes r
        (ceilDiv f.x (8 * H)) (ceilDiv f.y (8 * V)) :=
    ⟨hready.ctx, by simp [fileHeaders, fileFrame], hc4, rfl, fileFrame_planes hv, fileFrame_bpm hv,
      by rw [hD]; exact fun c hc => fileFrame_quant hv ht c hc, by rw [fileFrame_blocks]; exact hv.ten⟩
  have hb := hv.blocks
  have hm := hv.mcus
  have hi := hv.restarts
  rw [hone] at hb hm hi
  refine decodeScan_undecodable hctx hready htail hi
    (fun m hm => hctx.fits.2 (by rw [hb m (by simpa using hm), fileFrame_blocks])) (by simpa using hm)
    (by rw [fileFrame_blocks]; exact hbad) hdc

end

end Jpeg
