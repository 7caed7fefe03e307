import Verif.Proofs.Reads
/-!
# C01, C02, C03, C05: the bit reader

(C04 is in `Props/Huffman.lean`, since its operations include Huffman decoding.)

`reads sizes s` issues one `next_bits` call per element of `sizes`. A reader state is *valid* when
`count ≤ 64` and the buffer is a 64 bit word; C04 shows that every state the decoder can reach is.
-/

namespace Jpeg
open Spec Biterator

/-- **C01.** From any valid reader state in front of the byte-stuffed form of any data and any
marker, any sequence of requests of 1..16 bits returns the buffered bits followed by the bits of
the data, in order and with nothing dropped, doubled or added. -/
theorem C01_bits_in_order (s : Biterator) (data t : List UInt8) (sizes : List Nat)
    (hcount : s.count ≤ 64) (hbits : s.bits < 2 ^ 64)
    (ht : StartsWithMarker t) (hinput : s.input = stuff data ++ t)
    (hs : ∀ n ∈ sizes, 1 ≤ n ∧ n ≤ 16) (hsum : sizes.sum ≤ s.count + 8 * data.length) :
    ∃ s', reads sizes s = .ok (chop sizes (bitsN s.count s.bits ++ bitsOf data)) s' := by
  have hr : Rep False s (bitsN s.count s.bits ++ bitsOf data) t := by
    refine ⟨⟨hcount, hbits⟩, by rw [hinput, scanTail_stuff ht], ?_, False.elim⟩
    rw [view, hinput, unstuff_stuff ht]
    exact List.prefix_append _ _
  obtain ⟨s', e, _⟩ := reads_rep hr sizes hs (by simp [bitsOf_length]; omega)
  exact ⟨s', e⟩

/-- A case of C01: nine data bytes with two stuffed ones, twelve requests, two refills. -/
example :
    ∃ s', reads [3, 13, 16, 1, 7, 8, 16, 8] (Biterator.new
      (stuff [0xFF, 0x12, 0xFF, 0x34, 0x56, 0x78, 0x9A, 0xBC, 0xDE] ++ [0xFF, 0xD9])) =
      .ok [7, 7954, 65332, 0, 86, 120, 39612, 222] s' := by
  obtain ⟨s', h⟩ := C01_bits_in_order (Biterator.new
      (stuff [0xFF, 0x12, 0xFF, 0x34, 0x56, 0x78, 0x9A, 0xBC, 0xDE] ++ [0xFF, 0xD9]))
      [0xFF, 0x12, 0xFF, 0x34, 0x56, 0x78, 0x9A, 0xBC, 0xDE] [0xFF, 0xD9]
      [3, 13, 16, 1, 7, 8, 16, 8] (by decide) (by decide) ⟨0xD9, [], rfl, by decide⟩ rfl
      (by decide) (by decide)
  exact ⟨s', h.trans (by congr 1)⟩

/-- **C02** (padding). Past the last data bit at least eight zero bits are delivered. -/
theorem C02_zero_padding (s : Biterator) (data t : List UInt8) (sizes : List Nat)
    (hcount : s.count ≤ 64) (hbits : s.bits < 2 ^ 64)
    (ht : StartsWithMarker t) (hinput : s.input = stuff data ++ t)
    (hs : ∀ n ∈ sizes, 1 ≤ n ∧ n ≤ 16) (hsum : sizes.sum ≤ s.count + 8 * data.length + 8) :
    ∃ s', reads sizes s = .ok (chop sizes (bitsN s.count s.bits ++ bitsOf data ++ zeros 8)) s' := by
  have hr : Rep False s (bitsN s.count s.bits ++ bitsOf data ++ zeros 8) t := by
    refine ⟨⟨hcount, hbits⟩, by rw [hinput, scanTail_stuff ht], ?_, False.elim⟩
    rw [view, hinput, unstuff_stuff ht]
    exact List.prefix_refl _
  obtain ⟨s', e, _⟩ := reads_rep hr sizes hs (by simp [bitsOf_length]; omega)
  exact ⟨s', e⟩

/-- **C02** (marker kept). However many bits are requested, all requests succeed and the marker
parser run afterwards returns exactly the marker that ends the data and the input behind it. -/
theorem C02_marker_kept (s : Biterator) (data rest : List UInt8) (m : UInt8) (sizes : List Nat)
    (hcount : s.count ≤ 64) (hbits : s.bits < 2 ^ 64) (h0 : m ≠ 0) (hFF : m ≠ 0xFF)
    (hinput : s.input = stuff data ++ 0xFF :: m :: rest)
    (hs : ∀ n ∈ sizes, 1 ≤ n ∧ n ≤ 16) :
    ∃ vs s', reads sizes s = .ok vs s' ∧
      marker s'.input = match markerOfByte m with
        | some k => .ok (k, rest)
        | none => .error (.err .markerExpected) := by
  have ht : StartsWithMarker (0xFF :: m :: rest) := ⟨m, rest, rfl, h0⟩
  obtain ⟨vs, s', e, _, ht'⟩ := reads_any ⟨hcount, hbits⟩
    (by rw [hinput, scanTail_stuff ht]) sizes hs
  refine ⟨vs, s', e, ?_⟩
  rw [marker_scanTail ht']
  simp only [marker, markerAux, hFF, h0, if_false, beq_self_eq_true]
  cases markerOfByte m <;> rfl

/-- A case of C02: 100 bits requested from two data bytes, EOI still found. -/
example : ∃ vs s', reads [16, 16, 16, 16, 16, 16, 4]
      (Biterator.new (stuff [0xFF, 0x12] ++ [0xFF, 0xD9, 0x55])) = .ok vs s' ∧
      marker s'.input = .ok (.EOI, [0x55]) :=
  C02_marker_kept (Biterator.new (stuff [0xFF, 0x12] ++ [0xFF, 0xD9, 0x55])) [0xFF, 0x12] [0x55]
    0xD9 [16, 16, 16, 16, 16, 16, 4] (by decide) (by decide) (by decide) (by decide) rfl (by decide)

/-- **C02** (marker bytes are never data). The values returned by any number of requests do not
depend on the marker, nor on anything behind it. -/
theorem C02_marker_not_data (bits count : Nat) (data t₁ t₂ : List UInt8) (sizes : List Nat)
    (hcount : count ≤ 64) (hbits : bits < 2 ^ 64) (h₁ : StartsWithMarker t₁)
    (h₂ : StartsWithMarker t₂) (hs : ∀ n ∈ sizes, 1 ≤ n ∧ n ≤ 16) :
    ∃ vs s₁ s₂, reads sizes ⟨stuff data ++ t₁, bits, count⟩ = .ok vs s₁ ∧
      reads sizes ⟨stuff data ++ t₂, bits, count⟩ = .ok vs s₂ :=
  reads_tail ⟨hcount, hbits⟩
    ⟨stuff data, rfl, rfl, scanTail_stuff h₁ _, scanTail_stuff h₂ _⟩ sizes hs

/-- **C02** (zeros for ever). With no `0xFF` among the data bytes still to be loaded, the requests
return the data bits and then zero bits without end. -/
theorem C02_zeros_forever (s : Biterator) (data t : List UInt8) (sizes : List Nat)
    (hcount : s.count ≤ 64) (hbits : s.bits < 2 ^ 64) (hdata : ∀ b ∈ data, b ≠ 0xFF)
    (ht : StartsWithMarker t) (hinput : s.input = data ++ t)
    (hs : ∀ n ∈ sizes, 1 ≤ n ∧ n ≤ 16) :
    ∃ s', reads sizes s =
      .ok (chop sizes (bitsN s.count s.bits ++ bitsOf data ++ zeros sizes.sum)) s' :=
  reads_plain ⟨hcount, hbits⟩ hdata ht hinput sizes hs

/-- A case of C02 (zeros for ever). -/
example : ∃ s', reads [16, 16, 16, 16, 16, 16] (Biterator.new [0x12, 0x34, 0x56, 0xFF, 0xD0]) =
    .ok [0x1234, 0x5600, 0, 0, 0, 0] s' := by
  obtain ⟨s', h⟩ := C02_zeros_forever (Biterator.new [0x12, 0x34, 0x56, 0xFF, 0xD0])
    [0x12, 0x34, 0x56] [0xFF, 0xD0] [16, 16, 16, 16, 16, 16] (by decide) (by decide) (by decide)
    ⟨0xD0, [], rfl, by decide⟩ rfl (by decide)
  exact ⟨s', h.trans (by congr 1)⟩

/-- **C02** (limit of the guarantee). When the refill that met the marker crossed a stuffed byte the
zeros do not last: a data byte is delivered a second time. Here the data is `FF 12`; the requests
after the padding see `12` again. -/
theorem C02_replay_witness :
    (match reads [16, 16, 16, 16, 16] (Biterator.new (stuff [0xFF, 0x12] ++ [0xFF, 0xD9])) with
      | .ok vs _ => vs
      | .fail _ _ => []) = [0xFF12, 0, 0, 0, 0x1200] := by decide

/-- **C03.** In front of a marker, one request for `a + b` bits returns the same value as a request
for `a` bits followed by one for `b` bits, and the two resulting readers deliver the same bits for
all further requests within the data and its eight padding bits. -/
theorem C03_reads_compose (s : Biterator) (data t : List UInt8) (a b : Nat) (sizes : List Nat)
    (hcount : s.count ≤ 64) (hbits : s.bits < 2 ^ 64)
    (ht : StartsWithMarker t) (hinput : s.input = stuff data ++ t)
    (ha : 1 ≤ a) (hb : 1 ≤ b) (hab : a + b ≤ 16)
    (hs : ∀ n ∈ sizes, 1 ≤ n ∧ n ≤ 16)
    (hsum : a + b + sizes.sum ≤ s.count + 8 * data.length + 8) :
    ∃ va vb vs s₁ s₂ s₁' s₂', s.nextBits (a + b) = .ok (va * 2 ^ b + vb) s₁ ∧
      reads [a, b] s = .ok [va, vb] s₂ ∧
      reads sizes s₁ = .ok vs s₁' ∧ reads sizes s₂ = .ok vs s₂' := by
  set v := bitsN s.count s.bits ++ bitsOf data ++ zeros 8 with hv
  have hl : v.length = s.count + 8 * data.length + 8 := by simp [hv, bitsOf_length]; omega
  have hr : Rep False s v t := by
    refine ⟨⟨hcount, hbits⟩, by rw [hinput, scanTail_stuff ht], ?_, False.elim⟩
    rw [view, hinput, unstuff_stuff ht]
    exact List.prefix_refl _
  obtain ⟨s₁, e₁, r₁⟩ := hr.next (n := a + b) (by omega) (by omega) (by omega)
  obtain ⟨s₂, e₂, r₂⟩ := reads_rep hr [a, b] (by simp; omega) (by simp; omega)
  obtain ⟨s₁', e₁', _⟩ := reads_rep r₁ sizes hs (by simp; omega)
  obtain ⟨s₂', e₂', _⟩ := reads_rep r₂ sizes hs (by simp; omega)
  refine ⟨_, _, _, s₁, s₂, s₁', s₂', ?_, e₂, e₁', by simpa using e₂'⟩
  rw [e₁, List.take_add, natOfBits_append]
  congr 3
  simp; omega

/-- A case of C03 where the single request refills and the split one refills in its second half. -/
example : ∃ va vb vs s₁ s₂ s₁' s₂',
    (⟨stuff [0xFF, 0x12] ++ [0xFF, 0xD9], 5, 3⟩ : Biterator).nextBits (2 + 9) =
      .ok (va * 2 ^ 9 + vb) s₁ ∧
    reads [2, 9] ⟨stuff [0xFF, 0x12] ++ [0xFF, 0xD9], 5, 3⟩ = .ok [va, vb] s₂ ∧
    reads [7, 9] s₁ = .ok vs s₁' ∧ reads [7, 9] s₂ = .ok vs s₂' :=
  C03_reads_compose ⟨stuff [0xFF, 0x12] ++ [0xFF, 0xD9], 5, 3⟩ [0xFF, 0x12] [0xFF, 0xD9] 2 9 [7, 9]
    (by decide) (by decide) ⟨0xD9, [], rfl, by decide⟩ rfl (by decide) (by decide) (by decide)
    (by decide) (by decide)

/-- **C03** (the value, without any limit on how far past the data the request goes). -/
theorem C03_values_compose (s : Biterator) (data t : List UInt8) (a b : Nat)
    (hcount : s.count ≤ 64) (hbits : s.bits < 2 ^ 64)
    (ht : StartsWithMarker t) (hinput : s.input = stuff data ++ t)
    (ha : 1 ≤ a) (hb : 1 ≤ b) (hab : a + b ≤ 16) :
    ∃ va vb s₁ s₂, s.nextBits (a + b) = .ok (va * 2 ^ b + vb) s₁ ∧
      reads [a, b] s = .ok [va, vb] s₂ := by
  have htail : scanTail s.input = some t := by rw [hinput, scanTail_stuff ht]
  obtain ⟨s₁, e₁, -⟩ := nextBits_value ⟨hcount, hbits⟩ htail (n := a + b) (by omega) (by omega)
  obtain ⟨s₂, e₂, wf₂, t₂, -⟩ := nextBits_value ⟨hcount, hbits⟩ htail ha (by omega)
  obtain ⟨s₃, e₃, -⟩ := nextBits_value wf₂ t₂ hb (by omega)
  have hrest := nextBits_rest ⟨hcount, hbits⟩ htail (k := b) ha (by omega) e₂
  refine ⟨_, _, s₁, s₃, ?_, by simp only [reads, e₂, e₃, Out.bind_ok]; rfl⟩
  rw [e₁, hrest, List.take_add, natOfBits_append]
  congr 3
  · rw [take_zeros_ext s.view (by omega : a ≤ a + b) (le_refl a)]
  · simp; omega

/-- A case of C03 beyond the data: nothing but the marker is left. -/
example : ∃ va vb s₁ s₂, (⟨stuff [] ++ [0xFF, 0xD9], 1, 1⟩ : Biterator).nextBits (7 + 9) =
      .ok (va * 2 ^ 9 + vb) s₁ ∧
      reads [7, 9] (⟨stuff [] ++ [0xFF, 0xD9], 1, 1⟩ : Biterator) = .ok [va, vb] s₂ :=
  C03_values_compose ⟨stuff [] ++ [0xFF, 0xD9], 1, 1⟩ [] [0xFF, 0xD9] 7 9 (by decide) (by decide)
    ⟨0xD9, [], rfl, by decide⟩ rfl (by decide) (by decide) (by decide)

/-- **C03** (limit). Without a marker behind the data the two can differ: here the single request is
served and the split one fails, because its refill happens at a smaller fill level and wants one
byte more than there is. -/
theorem C03_no_marker_witness :
    (∃ v s', (⟨[1, 2, 3, 4, 5, 6], 1, 9⟩ : Biterator).nextBits (8 + 8) = .ok v s') ∧
    (∃ f s', reads [8, 8] ⟨[1, 2, 3, 4, 5, 6], 1, 9⟩ = .fail f s') :=
  ⟨⟨_, _, rfl⟩, ⟨_, _, rfl⟩⟩

/-- **C05** (the procedure). The branch-free form is EXTEND of T.81 on every bit pattern. -/
theorem C05_extend_is_T81 (v t : Nat) (h1 : 1 ≤ t) (h15 : t ≤ 15) (hv : v < 2 ^ t) :
    extend v t = extendT81 v t := extend_eq v t h1 h15 hv

/-- **C05** (inverse). Reading the additional bits of any non-zero value of category at most 15 from
the stream gives the value back. `w` are the bits that follow. -/
theorem C05_magnitude_inverse (s : Biterator) (data t : List UInt8) (v : Int) (w : List Bool)
    (hcount : s.count ≤ 64) (hbits : s.bits < 2 ^ 64)
    (ht : StartsWithMarker t) (hinput : s.input = stuff data ++ t)
    (hv : v ≠ 0) (hrange : -(2 ^ 15 - 1) ≤ v ∧ v ≤ 2 ^ 15 - 1)
    (hbitsv : bitsN s.count s.bits ++ bitsOf data = additional v ++ w) :
    ∃ s', s.receiveExtend (category v) = .ok v s' := by
  have hr : Rep False s (additional v ++ w) t := by
    refine ⟨⟨hcount, hbits⟩, by rw [hinput, scanTail_stuff ht], ?_, False.elim⟩
    rw [view, hinput, unstuff_stuff ht, ← hbitsv]
    exact List.prefix_append _ _
  have hc : category v ≤ 15 := by
    by_contra hgt
    have := (category_bounds hv).1
    have h2 : 2 ^ 15 ≤ 2 ^ (category v - 1) := Nat.pow_le_pow_right (by omega) (by omega)
    omega
  obtain ⟨s', e, _⟩ := hr.receiveExtend hv hc
  exact ⟨s', e⟩

/-- A case of C05: −5 has category 3 and additional bits 010. -/
example : ∃ s', (⟨stuff [] ++ [0xFF, 0xD9], 0b01011, 5⟩ : Biterator).receiveExtend (category (-5)) =
    .ok (-5) s' :=
  C05_magnitude_inverse ⟨stuff [] ++ [0xFF, 0xD9], 0b01011, 5⟩ [] [0xFF, 0xD9] (-5) [true, true]
    (by decide) (by decide) ⟨0xD9, [], rfl, by decide⟩ rfl (by decide) (by decide) (by decide)

end Jpeg
