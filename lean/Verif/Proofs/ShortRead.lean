import Verif.Proofs.Reading
/-!
# How many bits are enough to read a value, and what zero bits are read as
-/

namespace Jpeg
open Spec

/-- With `n` bits the reading is not short, and takes no more than these. -/
def Enough {α : Type} (n : Nat) (bits : List Bool) (r : Reading α) : Prop :=
  n ≤ bits.length → r ≠ .short ∧ ∀ a rest, r = .value a rest → bits.length ≤ rest.length + n

theorem Enough.value {α : Type} {bits : List Bool} (a : α) : Enough 0 bits (.value a bits) := by
  intro _
  refine ⟨nofun, fun b rest h => ?_⟩
  cases h; simp

theorem Enough.mono {α : Type} {n m : Nat} {bits : List Bool} {r : Reading α} (h : Enough n bits r) (hm : n ≤ m) :
    Enough m bits r := by
  intro hb
  obtain ⟨h1, h2⟩ := h (by omega)
  exact ⟨h1, fun a rest e => by have := h2 a rest e; omega⟩

theorem Enough.bind {α β : Type} {n m : Nat} {bits : List Bool} {r : Reading α} {k : α → List Bool → Reading β}
    (h : Enough n bits r) (hk : ∀ a rest, r = .value a rest → Enough m rest (k a rest)) :
    Enough (n + m) bits (r.bind k) := by
  intro hb
  obtain ⟨h1, h2⟩ := h (by omega)
  cases r with
  | value a rest =>
    have h3 := h2 a rest rfl
    obtain ⟨h4, h5⟩ := hk a rest rfl (by omega)
    exact ⟨h4, fun b rest' e => by have := h5 b rest' e; omega⟩
  | invalid => exact ⟨nofun, nofun⟩
  | reserved => exact ⟨nofun, nofun⟩
  | short => exact absurd rfl h1

theorem Proper.enough {c : Code} (h : Proper c) (bits : List Bool) : Enough 16 bits (c.read bits) := by
  intro hb
  unfold Code.read
  cases e : (List.range (codeSizes c.counts).length).find? fun k => codeWord (codeSizes c.counts) k <+: bits with
  | none => simp only [if_neg (by omega : ¬ bits.length < 16)]; exact ⟨nofun, nofun⟩
  | some k =>
    have hk := List.mem_range.1 (List.mem_of_find?_eq_some e)
    have hl := h.length_le hk
    cases hv : c.values[k]? with
    | none => simp only [hv]; exact ⟨nofun, nofun⟩
    | some v =>
      simp only [hv]
      refine ⟨nofun, fun a rest e => ?_⟩
      cases e
      rw [List.length_drop]; omega

theorem receiveExtend_enough (s : Nat) (bits : List Bool) : Enough s bits (Spec.receiveExtend s bits) := by
  intro hb
  unfold Spec.receiveExtend
  rw [if_neg (by omega)]
  refine ⟨nofun, fun a rest e => ?_⟩
  cases e
  rw [List.length_drop]; omega

theorem Proper.enoughDc {c : Code} (h : Proper c) (bits : List Bool) : Enough 27 bits (Spec.readDc c bits) := by
  unfold Spec.readDc
  refine (h.enough bits).bind (m := 11) fun s rest _ => ?_
  by_cases h0 : s = 0
  · rw [if_pos h0]; exact (Enough.value _).mono (by omega)
  rw [if_neg h0]
  by_cases h1 : 11 < s
  · rw [if_pos h1]; exact fun _ => ⟨nofun, nofun⟩
  · rw [if_neg h1]; exact (receiveExtend_enough s rest).mono (by omega)

theorem Proper.enoughAc {c : Code} (h : Proper c) (n : Nat) : ∀ bits, Enough (31 * n) bits (Spec.readAc c n bits) := by
  induction n using Nat.strongRecOn with
  | ind n ih =>
    intro bits
    cases n with
    | zero => rw [Spec.readAc]; exact (Enough.value _).mono (by omega)
    | succ n =>
      rw [Spec.readAc]
      refine ((h.enough bits).bind (m := 15 + 31 * n) fun rs rest _ => ?_).mono (by omega)
      by_cases h0 : rs % 16 = 0
      · rw [if_pos h0]
        by_cases h1 : rs / 16 = 0
        · rw [if_pos h1]; exact (Enough.value _).mono (by omega)
        rw [if_neg h1]
        by_cases h2 : rs / 16 = 15
        · rw [if_pos h2]
          by_cases h3 : n + 1 ≤ 16
          · rw [if_pos h3]; exact (Enough.value _).mono (by omega)
          · rw [if_neg h3]
            exact ((ih (n + 1 - 16) (by omega) rest).bind (m := 0) fun l rest' _ => Enough.value _).mono (by omega)
        · rw [if_neg h2]; exact fun _ => ⟨nofun, nofun⟩
      · rw [if_neg h0]
        refine ((receiveExtend_enough (rs % 16) rest).bind (m := 31 * n) fun v rest' _ => ?_).mono (by omega)
        by_cases h3 : n + 1 ≤ rs / 16
        · rw [if_pos h3]; exact (Enough.value _).mono (by omega)
        · rw [if_neg h3]
          exact ((ih (n - rs / 16) (by omega) rest').bind (m := 0) fun l rest' _ => Enough.value _).mono (by omega)

theorem Proper.enoughBlocks {cd ca : Code} (hd : Proper cd) (ha : Proper ca) (n : Nat) :
    ∀ p bits, Enough (1980 * n) bits (Spec.readBlocks cd ca n p bits) := by
  induction n with
  | zero => intro p bits; exact Enough.value _
  | succ n ih =>
    intro p bits
    rw [Spec.readBlocks]
    refine ((hd.enoughDc bits).bind (m := 31 * 63 + 1980 * n) fun diff r1 _ => ?_).mono (by omega)
    refine (ha.enoughAc 63 r1).bind fun zz r2 _ => ?_
    exact ((ih _ r2).bind (m := 0) fun bs r3 _ => Enough.value _).mono (by omega)

theorem ProperAll.enoughMcu {codes : List (Code × Code)} (h : ProperAll codes) :
    ∀ (ns : List Nat) (ps : List Int) (bits : List Bool), Enough (1980 * ns.sum) bits (Spec.readMcu codes ns ps bits) := by
  induction codes with
  | nil => intro ns ps bits; rw [Spec.readMcu]; · exact (Enough.value _).mono (by omega)
           · nofun
  | cons c codes ih =>
    intro ns ps bits
    cases ns with
    | nil => rw [Spec.readMcu]; · exact Enough.value _
             · nofun
    | cons n ns =>
      cases ps with
      | nil => rw [Spec.readMcu]; · exact (Enough.value _).mono (by omega)
               · nofun
      | cons p ps =>
        rw [Spec.readMcu]
        obtain ⟨h1, h2⟩ := h c (by simp)
        refine ((h1.enoughBlocks h2 n p bits).bind (m := 1980 * ns.sum) fun bs r1 _ => ?_).mono (by simp; omega)
        exact ((ih (fun c hc => h c (by simp [hc])) ns ps r1).bind (m := 0) fun m r2 _ => Enough.value _).mono (by omega)

/-- 1980 bits for each block are enough to read MCUs. -/
theorem ProperAll.enoughMcus {codes : List (Code × Code)} (h : ProperAll codes) (ns : List Nat) (count : Nat) :
    ∀ (ps : List Int) (bits : List Bool), Enough (1980 * ns.sum * count) bits (Spec.readMcus codes ns count ps bits) := by
  induction count with
  | zero => intro ps bits; rw [Spec.readMcus]; exact (Enough.value _).mono (by omega)
  | succ count ih =>
    intro ps bits
    rw [Spec.readMcus]
    refine ((h.enoughMcu ns ps bits).bind (m := 1980 * ns.sum * count) fun m r1 _ => ?_).mono (by rw [Nat.mul_succ]; omega)
    exact ((ih _ r1).bind (m := 0) fun m r2 _ => Enough.value _).mono (by omega)

/-- Data with enough zeros behind it does not read as short. -/
theorem ProperAll.notShort {codes : List (Code × Code)} (h : ProperAll codes) (ns : List Nat) (count : Nat)
    (data : List UInt8) {n : Nat} (hn : 1980 * ns.sum * count ≤ n) :
    Spec.readInterval codes ns count (data ++ List.replicate n 0) ≠ .short :=
  (h.enoughMcus ns count _ _ (by rw [bitsOf_length, List.length_append, List.length_replicate]; omega)).1

/-! ## Zero bits -/

/-- Read from `n` zero bits, if there are `k`, a value: it takes at most `k` bits. -/
def ZeroReads {α : Type} (k n : Nat) (r : Reading α) : Prop :=
  k ≤ n → ∃ a m, r = .value a (zeros m) ∧ n ≤ m + k

theorem ZeroReads.mono {α : Type} {k k' n : Nat} {r : Reading α} (h : ZeroReads k n r) (hk : k ≤ k') :
    ZeroReads k' n r := by
  intro hn
  obtain ⟨a, m, e, hm⟩ := h (by omega)
  exact ⟨a, m, e, by omega⟩

theorem ZeroReads.value {α : Type} (a : α) (n : Nat) : ZeroReads 0 n (.value a (zeros n)) :=
  fun _ => ⟨a, n, rfl, by omega⟩

theorem ZeroReads.bind {α β : Type} {k k' n : Nat} {r : Reading α} {f : α → List Bool → Reading β}
    (h : ZeroReads k n r) (hf : ∀ a m, r = .value a (zeros m) → ZeroReads k' m (f a (zeros m))) :
    ZeroReads (k + k') n (r.bind f) := by
  intro hn
  obtain ⟨a, m, rfl, hm⟩ := h (by omega)
  obtain ⟨b, m', e, hm'⟩ := hf a m rfl (by omega)
  exact ⟨b, m', e, by omega⟩

theorem Proper.readZeros {c : Code} (h : Proper c) {v : UInt8} (hl : 0 < (codeSizes c.counts).length)
    (hv : c.values[0]? = some v) {n : Nat} (hn : 16 ≤ n) :
    ∃ m, c.read (zeros n) = .value v.toNat (zeros m) ∧ n ≤ m + 16 := by
  have h16 := h.length_le hl
  have hw : codeWord (codeSizes c.counts) 0 = zeros (codeWord (codeSizes c.counts) 0).length := by
    refine List.eq_replicate_iff.2 ⟨rfl, fun b hb => ?_⟩
    unfold codeWord at hb
    have hb := List.mem_of_mem_take hb
    have : bitsN 16 (Spec.kraft (List.take 0 (codeSizes c.counts))) = zeros 16 := by rw [List.take_zero]; decide
    rw [this] at hb
    exact (List.mem_replicate.1 hb).2
  refine ⟨n - (codeWord (codeSizes c.counts) 0).length, ?_, by omega⟩
  have := h.read (⟨0, v, hl, hv, rfl, rfl⟩ : c.For v.toNat (codeWord (codeSizes c.counts) 0))
    (zeros (n - (codeWord (codeSizes c.counts) 0).length))
  rw [← this]
  generalize (codeWord (codeSizes c.counts) 0).length = l at hw h16
  rw [hw, zeros, zeros, zeros, List.replicate_append_replicate]
  congr 2
  omega

theorem receiveExtend_zeros (s n : Nat) : ZeroReads s n (Spec.receiveExtend s (zeros n)) := by
  intro hn
  unfold Spec.receiveExtend
  rw [if_neg (by simp; omega)]
  rw [show (zeros n).drop s = zeros (n - s) by rw [zeros, zeros, List.drop_replicate]]
  exact ⟨_, n - s, rfl, by omega⟩

/-- The first symbols of the codes: a DC category, and an AC symbol that is not reserved. -/
structure FirstSymbols (c : Code × Code) (vd va : UInt8) : Prop where
  dc : c.1.values[0]? = some vd
  ac : c.2.values[0]? = some va
  small : vd.toNat ≤ 11
  free : va.toNat % 16 = 0 → va.toNat / 16 = 0 ∨ va.toNat / 16 = 15
  ne : 0 < (codeSizes c.1.counts).length ∧ 0 < (codeSizes c.2.counts).length

theorem FirstSymbols.readDc {c : Code × Code} {vd va : UInt8} (f : FirstSymbols c vd va) (h : Proper c.1) (n : Nat) :
    ZeroReads 27 n (Spec.readDc c.1 (zeros n)) := by
  unfold Spec.readDc
  have h1 : ZeroReads 16 n (c.1.read (zeros n)) := fun hn => by
    obtain ⟨m, e, hm⟩ := h.readZeros f.ne.1 f.dc hn
    exact ⟨_, m, e, hm⟩
  intro hn
  obtain ⟨m, e, hm⟩ := h.readZeros f.ne.1 f.dc (show 16 ≤ n by omega)
  refine (h1.bind (k' := 11) fun s m' e' => ?_) hn
  have hs : s = vd.toNat := by
    rw [e] at e'
    injection e' with e1 _
    exact e1.symm
  have := f.small
  by_cases h0 : s = 0
  · rw [if_pos h0]; exact (ZeroReads.value _ _).mono (by omega)
  rw [if_neg h0, if_neg (by omega)]
  exact (receiveExtend_zeros s m').mono (by omega)

theorem FirstSymbols.readAc {c : Code × Code} {vd va : UInt8} (f : FirstSymbols c vd va) (h : Proper c.2) (k : Nat) :
    ∀ n, ZeroReads (31 * k) n (Spec.readAc c.2 k (zeros n)) := by
  induction k using Nat.strongRecOn with
  | ind k ih =>
    intro n
    cases k with
    | zero => rw [Spec.readAc]; exact ZeroReads.value _ _
    | succ k =>
      rw [Spec.readAc]
      intro hn
      obtain ⟨m, e, hm⟩ := h.readZeros f.ne.2 f.ac (show 16 ≤ n by omega)
      rw [e]
      show ∃ _, _
      suffices hs : ZeroReads (15 + 31 * k) m _ by
        obtain ⟨a, m', e', hm'⟩ := hs (by omega)
        exact ⟨a, m', e', by omega⟩
      have hfree := f.free
      by_cases h0 : va.toNat % 16 = 0
      · rw [Reading.bind, if_pos h0]
        by_cases h1 : va.toNat / 16 = 0
        · rw [if_pos h1]; exact (ZeroReads.value _ _).mono (by omega)
        rw [if_neg h1, if_pos ((hfree h0).resolve_left h1)]
        by_cases h3 : k + 1 ≤ 16
        · rw [if_pos h3]; exact (ZeroReads.value _ _).mono (by omega)
        · rw [if_neg h3]
          exact ((ih (k + 1 - 16) (by omega) m).bind (k' := 0) fun l m' _ => ZeroReads.value _ _).mono (by omega)
      · rw [Reading.bind, if_neg h0]
        refine ((receiveExtend_zeros (va.toNat % 16) m).bind (k' := 31 * k) fun v m' _ => ?_).mono (by omega)
        by_cases h3 : k + 1 ≤ va.toNat / 16
        · rw [if_pos h3]; exact (ZeroReads.value _ _).mono (by omega)
        · rw [if_neg h3]
          exact ((ih (k - va.toNat / 16) (by omega) m').bind (k' := 0) fun l m' _ => ZeroReads.value _ _).mono (by omega)

theorem FirstSymbols.readBlocks {c : Code × Code} {vd va : UInt8} (f : FirstSymbols c vd va) (hd : Proper c.1)
    (ha : Proper c.2) (k : Nat) : ∀ p n, ZeroReads (1980 * k) n (Spec.readBlocks c.1 c.2 k p (zeros n)) := by
  induction k with
  | zero => intro p n; exact ZeroReads.value _ _
  | succ k ih =>
    intro p n
    rw [Spec.readBlocks]
    refine ((f.readDc hd n).bind (k' := 31 * 63 + 1980 * k) fun diff m1 _ => ?_).mono (by omega)
    refine (f.readAc ha 63 m1).bind fun zz m2 _ => ?_
    exact ((ih _ m2).bind (k' := 0) fun bs m3 _ => ZeroReads.value _ _).mono (by omega)

theorem zeroMcu_reads {codes : List (Code × Code)} (h : ProperAll codes)
    (hf : ∀ c ∈ codes, ∃ vd va, FirstSymbols c vd va) :
    ∀ (ns : List Nat) (ps : List Int) (n : Nat), ZeroReads (1980 * ns.sum) n (Spec.readMcu codes ns ps (zeros n)) := by
  induction codes with
  | nil => intro ns ps n; rw [Spec.readMcu]; · exact (ZeroReads.value _ _).mono (by omega)
           · nofun
  | cons c codes ih =>
    intro ns ps n
    cases ns with
    | nil => rw [Spec.readMcu]; · exact ZeroReads.value _ _
             · nofun
    | cons k ns =>
      cases ps with
      | nil => rw [Spec.readMcu]; · exact (ZeroReads.value _ _).mono (by omega)
               · nofun
      | cons p ps =>
        rw [Spec.readMcu]
        obtain ⟨h1, h2⟩ := h c (by simp)
        obtain ⟨vd, va, f⟩ := hf c (by simp)
        refine ((f.readBlocks h1 h2 k p n).bind (k' := 1980 * ns.sum) fun bs m1 _ => ?_).mono (by simp; omega)
        exact ((ih (fun c hc => h c (by simp [hc])) (fun c hc => hf c (by simp [hc])) ns ps m1).bind (k' := 0)
          fun m m2 _ => ZeroReads.value _ _).mono (by omega)

theorem zeroMcus_reads {codes : List (Code × Code)} (h : ProperAll codes)
    (hf : ∀ c ∈ codes, ∃ vd va, FirstSymbols c vd va) (ns : List Nat) (count : Nat) :
    ∀ (ps : List Int) (n : Nat), ZeroReads (1980 * ns.sum * count) n (Spec.readMcus codes ns count ps (zeros n)) := by
  induction count with
  | zero => intro ps n; rw [Spec.readMcus]; exact (ZeroReads.value _ _).mono (by omega)
  | succ count ih =>
    intro ps n
    rw [Spec.readMcus]
    refine ((zeroMcu_reads h hf ns ps n).bind (k' := 1980 * ns.sum * count) fun m m1 _ => ?_).mono
      (by rw [Nat.mul_succ]; omega)
    exact ((ih _ m1).bind (k' := 0) fun m m2 _ => ZeroReads.value _ _).mono (by omega)

theorem bitsOf_zeros (n : Nat) : bitsOf (List.replicate n 0) = zeros (8 * n) := by
  induction n with
  | zero => rfl
  | succ n ih =>
    have hb : bitsN 8 (0 : UInt8).toNat = zeros 8 := by decide
    rw [List.replicate_succ, bitsOf_cons, ih, hb, zeros, zeros, zeros, List.replicate_append_replicate]
    congr 1
    omega

/-- Enough zeros read as MCUs. -/
theorem zeros_read {codes : List (Code × Code)} (h : ProperAll codes)
    (hf : ∀ c ∈ codes, ∃ vd va, FirstSymbols c vd va) (ns : List Nat) (count : Nat) :
    ∃ ms rest, Spec.readInterval codes ns count (List.replicate (1980 * ns.sum * count) 0) = .value ms rest := by
  obtain ⟨a, m, e, -⟩ := zeroMcus_reads h hf ns count (List.replicate codes.length 0) (8 * (1980 * ns.sum * count)) (by omega)
  refine ⟨a, zeros m, ?_⟩
  rw [Spec.readInterval, bitsOf_zeros]
  exact e

end Jpeg
