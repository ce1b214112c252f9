import Verif.Util.Lemmas

/-! # Theorems C15, C16 and C49: the helper functions -/

namespace Verif.Util

/-! ## C15 -/

/-- C15: text produced from bytes decodes to the same bytes: with a destination of at least that many
bytes the decoding succeeds, the destination starts with the bytes and is otherwise unchanged. -/
theorem C15_roundtrip (bs array : List UInt8) (n : Nat) (hn : bs.length ≤ n)
    (harr : n ≤ array.length) :
    hexStringToRawData (rawDataToHexString bs) array n = (true, bs ++ array.drop bs.length) := by
  have h := hexLoop_plain (rawDataToHexString bs) (array.take n) (rawDataToHexString_special bs)
  rw [hexSpec_rawData, List.length_take, Nat.min_eq_left harr, List.take_of_length_le hn] at h
  simp only at h
  unfold hexStringToRawData
  rw [h]
  simp only [List.append_assoc, Prod.mk.injEq, true_and]
  rw [List.drop_take]
  have : array.drop bs.length = (array.drop bs.length).take (n - bs.length) ++ array.drop n := by
    have e : array.drop n = (array.drop bs.length).drop (n - bs.length) := by
      rw [List.drop_drop]; congr 1; omega
    rw [e, List.take_append_drop]
  rw [← this]

example : hexStringToRawData (rawDataToHexString [0, 255, 0x1a]) [7, 7, 7, 9] 4 =
    (true, [0, 255, 0x1a, 9]) := C15_roundtrip _ _ _ (by decide) (by decide)

/-- C15: the text has two characters per byte, the lowercase hexadecimal digits of its high and low
half. -/
theorem C15_digits (bs : List UInt8) :
    (rawDataToHexString bs).length = 2 * bs.length ∧
    ∀ i (hi : i < bs.length), ∃ c0 c1,
      (rawDataToHexString bs)[2 * i]? = some c0 ∧ (rawDataToHexString bs)[2 * i + 1]? = some c1 ∧
      IsHexOf c0 ((bs[i]'hi).toNat / 16) ∧ IsHexOf c1 ((bs[i]'hi).toNat % 16) := by
  induction bs with
  | nil => simp [rawDataToHexString]
  | cons b t ih =>
    have := b.toNat_lt
    refine ⟨by simp [rawDataToHexString, ih.1]; omega, ?_⟩
    intro i hi
    cases i with
    | zero =>
      exact ⟨_, _, rfl, rfl, hexDigit_isHex (b.toNat / 16) (by omega),
        hexDigit_isHex (b.toNat % 16) (by omega)⟩
    | succ i =>
      obtain ⟨c0, c1, h0, h1, h2, h3⟩ := ih.2 i (by simpa using hi)
      refine ⟨c0, c1, ?_, ?_, h2, h3⟩
      · rw [show 2 * (i + 1) = 2 * i + 1 + 1 by omega]; simpa [rawDataToHexString] using h0
      · rw [show 2 * (i + 1) + 1 = 2 * i + 1 + 1 + 1 by omega]; simpa [rawDataToHexString] using h1

/-- C15: different byte strings have different texts. -/
theorem C15_injective (a b : List UInt8) (h : rawDataToHexString a = rawDataToHexString b) :
    a = b := by
  have ha := hexSpec_rawData a (a.length + b.length)
  have hb := hexSpec_rawData b (a.length + b.length)
  rw [h, hb] at ha
  rw [List.take_of_length_le (by omega), List.take_of_length_le (by omega)] at ha
  exact (Option.some.inj ha).symm

/-- C15: whatever the text, decoding changes at most the first `length` bytes of the destination, and
at most one byte per pair of characters. -/
theorem C15_writes_within (str array : List UInt8) (n : Nat) :
    (hexStringToRawData str array n).2.length = array.length ∧
    ∀ i, (n ≤ i ∨ str.length / 2 ≤ i) → (hexStringToRawData str array n).2[i]? = array[i]? := by
  have hlen := hexLoop_length str (array.take n)
  constructor
  · simp only [hexStringToRawData, List.length_append, hlen, List.length_take, List.length_drop]
    omega
  · intro i hi
    simp only [hexStringToRawData]
    by_cases h1 : i < (hexLoop str (array.take n)).2.length
    · rw [List.getElem?_append_left h1]
      rw [hlen, List.length_take] at h1
      rw [hexLoop_untouched _ _ _ (by omega), List.getElem?_take_of_lt (by omega)]
    · rw [List.getElem?_append_right (by omega), List.getElem?_drop]
      rw [hlen, List.length_take] at *
      by_cases hn : n ≤ array.length
      · congr 1; omega
      · rw [List.getElem?_eq_none (by omega), List.getElem?_eq_none (by omega)]

example : ∃ i : Nat, (hexStringToRawData (ascii "010203") [9, 9, 9] 2).2[i]? ≠ ([9, 9, 9] : List UInt8)[i]? :=
  ⟨0, by decide +kernel⟩

/-- C15, partial: on text free of NUL, white space and sign characters, decoding succeeds exactly
when every pair it reads consists of two hexadecimal digits, and then stores the encoded bytes.
What is missing: the same for all text; `C15_accepts_non_hex_violated` shows that it is false. -/
theorem C15_rejects_non_hex_partial (str array : List UInt8) (n : Nat) (harr : n ≤ array.length)
    (hs : ∀ c ∈ str, strtolSpecial c = false) :
    ((hexStringToRawData str array n).1 = true ↔ (hexSpec str n).isSome) ∧
    ∀ bytes, hexSpec str n = some bytes →
      (hexStringToRawData str array n).2 = bytes ++ array.drop bytes.length := by
  have h := hexLoop_plain str (array.take n) hs
  rw [List.length_take, Nat.min_eq_left harr] at h
  cases hsp : hexSpec str n with
  | none =>
    rw [hsp] at h
    simp only at h
    simp [hexStringToRawData, h]
  | some bytes =>
    rw [hsp] at h
    simp only at h
    have hl := hexLoop_length str (array.take n)
    rw [h] at hl
    simp only [List.length_append, List.length_drop, List.length_take] at hl
    simp only [hexStringToRawData, h, Option.isSome_some, iff_self, true_and, Option.some.injEq]
    intro b hb
    subst hb
    have hle : bytes.length ≤ n := by omega
    rw [List.append_assoc, List.drop_take]
    congr 1
    have e : array.drop n = (array.drop bytes.length).drop (n - bytes.length) := by
      rw [List.drop_drop]; congr 1; omega
    rw [e, List.take_append_drop]

example : (hexStringToRawData (ascii "1g") [0] 1).1 = false ∧
    (hexStringToRawData (ascii "AbcD") [0, 0] 2) = (true, [0xab, 0xcd]) := by decide +kernel

/-- C15 fails as stated: pairs that are not two hexadecimal digits but that `strtol` accepts are
decoded: `"+1"`, `" 1"` and `"-1"`, and pairs starting with a NUL byte. -/
theorem C15_accepts_non_hex_violated :
    hexStringToRawData (ascii "+1") [9] 1 = (true, [1]) ∧
    hexStringToRawData (ascii " 1") [9] 1 = (true, [1]) ∧
    hexStringToRawData (ascii "-1") [9] 1 = (true, [0xff]) ∧
    hexStringToRawData [0, 0x7a] [9] 1 = (true, [0]) ∧
    hexSpec (ascii "+1") 1 = none ∧ hexSpec (ascii " 1") 1 = none ∧ hexSpec (ascii "-1") 1 = none ∧
    hexSpec [0, 0x7a] 1 = none := by decide +kernel

/-! ## C16 -/

/-- C16: `Align<2^k>(v)` is the least multiple of `2^k` that is at least `v`, whenever there is such a
multiple below `2^64`. -/
theorem C16_align (k v : Nat) (hfits : ∃ m, 2 ^ k ∣ m ∧ v ≤ m ∧ m < 2 ^ 64) (hk : k ≤ 64) :
    IsRoundUp (2 ^ k) v (align k v) := by
  obtain ⟨m, ⟨q, hm⟩, hv, hm64⟩ := hfits
  have hp := Nat.two_pow_pos k
  have h64 : 2 ^ 64 = 2 ^ k * 2 ^ (64 - k) := by rw [← Nat.pow_add]; congr 1; omega
  have hsum : v + (2 ^ k - 1) < 2 ^ 64 := by
    have hq : q < 2 ^ (64 - k) := by
      rw [hm, h64] at hm64
      exact Nat.lt_of_mul_lt_mul_left hm64
    have : 2 ^ k * (q + 1) ≤ 2 ^ k * 2 ^ (64 - k) := Nat.mul_le_mul_left _ hq
    rw [Nat.mul_add] at this
    omega
  rw [align_eq_of_fits k v hsum]
  refine ⟨Nat.dvd_mul_left _ _, ?_, ?_⟩
  · have := Nat.div_add_mod (v + (2 ^ k - 1)) (2 ^ k)
    have := Nat.mod_lt (v + (2 ^ k - 1)) hp
    rw [Nat.mul_comm]
    omega
  · rintro m' ⟨q', hq'⟩ hv'
    have h1 : (v + (2 ^ k - 1)) / 2 ^ k ≤ q' := by
      have : v + (2 ^ k - 1) ≤ 2 ^ k - 1 + 2 ^ k * q' := by omega
      calc _ ≤ (2 ^ k - 1 + 2 ^ k * q') / 2 ^ k := Nat.div_le_div_right this
        _ = q' := by
          rw [Nat.add_mul_div_left _ _ hp, Nat.div_eq_of_lt (by omega), Nat.zero_add]
    rw [hq', Nat.mul_comm]
    exact Nat.mul_le_mul_left _ h1

example : IsRoundUp 8 13 (align 3 13) ∧ align 3 13 = 16 :=
  ⟨C16_align 3 13 ⟨16, ⟨2, rfl⟩, by decide, by decide⟩ (by decide), by decide +kernel⟩

/-- C16, the boundary: when no such multiple exists the result wraps to zero. -/
theorem C16_align_wraps (k v : Nat) (hv : v < 2 ^ 64) (hk : k ≤ 64)
    (hno : ¬ ∃ m, 2 ^ k ∣ m ∧ v ≤ m ∧ m < 2 ^ 64) : align k v = 0 := by
  have hp := Nat.two_pow_pos k
  have h64 : 2 ^ 64 = 2 ^ k * 2 ^ (64 - k) := by rw [← Nat.pow_add]; congr 1; omega
  have hbig : 2 ^ 64 ≤ v + (2 ^ k - 1) := by
    rcases Nat.lt_or_ge (v + (2 ^ k - 1)) (2 ^ 64) with h | h
    · exfalso
      apply hno
      refine ⟨(v + (2 ^ k - 1)) / 2 ^ k * 2 ^ k, Nat.dvd_mul_left _ _, ?_, ?_⟩
      · have := Nat.div_add_mod (v + (2 ^ k - 1)) (2 ^ k)
        have := Nat.mod_lt (v + (2 ^ k - 1)) hp
        rw [Nat.mul_comm]
        omega
      · have := Nat.div_mul_le_self (v + (2 ^ k - 1)) (2 ^ k)
        omega
    · exact h
  have hlt : v + (2 ^ k - 1) < 2 * 2 ^ 64 := by
    have : 2 ^ k ≤ 2 ^ 64 := Nat.pow_le_pow_right (by omega) hk
    omega
  rw [align_eq, Nat.mod_eq_sub_mod hbig, Nat.mod_eq_of_lt (by omega), Nat.div_eq_of_lt (by omega),
    Nat.zero_mul]

example : align 3 (2 ^ 64 - 3) = 0 := by decide +kernel

/-- C16: swapping an integer of a supported size gives the integer whose bytes are reversed. -/
theorem C16_swap_reverses (n x : Nat) (hn : n = 1 ∨ n = 2 ∨ n = 4 ∨ n = 8) (hx : x < 256 ^ n) :
    ∃ y, byteSwap n x = some y ∧ IsByteReverse n x y := by
  obtain ⟨y, hy⟩ := byteSwap_isSome x hn
  exact ⟨y, hy, byteSwap_rev hx hy⟩

/-- C16: swapping twice gives the original value. -/
theorem C16_swap_involutive (n x : Nat) (hn : n = 1 ∨ n = 2 ∨ n = 4 ∨ n = 8) (hx : x < 256 ^ n) :
    (byteSwap n x).bind (byteSwap n) = some x := byteSwap_twice hn hx

example : byteSwap 4 0x01020304 = some 0x04030201 := by decide +kernel

/-- C16: `ReverseByte` reverses the bits of a byte. -/
theorem C16_reverseByte_reverses (x : UInt8) (i : Nat) (hi : i < 8) :
    (reverseByte x).toNat.testBit i = x.toNat.testBit (7 - i) := by
  revert i
  apply uint8_forall (p := fun x => ∀ i, i < 8 →
    (reverseByte x).toNat.testBit i = x.toNat.testBit (7 - i))
  decide +kernel

/-- C16: reversing the bits of every byte of a bit field twice gives the field back. -/
theorem C16_reverse_involutive (field : List UInt8) :
    swapBitfieldOfBits (swapBitfieldOfBits field) = field := by
  have h : ∀ x, reverseByte (reverseByte x) = x := by
    apply uint8_forall
    decide +kernel
  unfold swapBitfieldOfBits
  rw [List.map_map]
  conv => rhs; rw [← List.map_id field]
  apply List.map_congr_left
  intro x _
  exact h x

example : reverseByte 0x16 = 0x68 := by decide +kernel

/-- `GetNumBits` counts the set bits. -/
theorem C16_getNumBits (n x : Nat) :
    getNumBits n x = ((List.range n).filter (fun i => x.testBit i)).length := by
  induction n generalizing x with
  | zero => rfl
  | succ n ih =>
    rw [getNumBits, ih, List.range_succ_eq_map, List.filter_cons]
    have : (List.filter (fun i => x.testBit i) (List.map Nat.succ (List.range n))).length =
        ((List.range n).filter (fun i => (x / 2).testBit i)).length := by
      rw [List.filter_map, List.length_map]
      congr 2
      funext i
      simp [Function.comp, Nat.testBit_succ]
    rw [← this]
    have hx : x.testBit 0 = decide (x % 2 = 1) := Nat.testBit_zero x
    rcases Nat.mod_two_eq_zero_or_one x with h | h
    · simp [hx, h]
    · simp [hx, h]; omega

example : getNumBits 64 0b1011 = 3 := by decide +kernel

/-! ## C49 -/

/-- C49: unpacking a packed pair of 32-bit values gives the pair back, and the packed value is 64
bits wide. -/
theorem C49_roundtrip (a b : Nat) (ha : a < 2 ^ 32) (hb : b < 2 ^ 32) :
    splitU64 (mergeTwoU32 a b) = (a, b) ∧ mergeTwoU32 a b < 2 ^ 64 := by
  rw [mergeTwoU32_eq hb]
  refine ⟨?_, by omega⟩
  unfold splitU64
  rw [Nat.and_comm, Nat.and_two_pow_sub_one_eq_mod, Nat.shiftRight_eq_div_pow]
  simp only [Prod.mk.injEq]
  omega

/-- C49: packing is injective. -/
theorem C49_injective (a b a' b' : Nat) (ha : a < 2 ^ 32) (hb : b < 2 ^ 32) (ha' : a' < 2 ^ 32)
    (hb' : b' < 2 ^ 32) (h : mergeTwoU32 a b = mergeTwoU32 a' b') : a = a' ∧ b = b' := by
  have h1 := (C49_roundtrip a b ha hb).1
  rw [h, (C49_roundtrip a' b' ha' hb').1] at h1
  simpa [eq_comm] using h1

/-- C49: packing keeps the order of the first component, which is what makes threads of a process
adjacent in the sorted set (`perf_parser.cc:407-408`). -/
theorem C49_order (a b a' b' : Nat) (hb : b < 2 ^ 32) (hb' : b' < 2 ^ 32) (h : a < a') :
    mergeTwoU32 a b < mergeTwoU32 a' b' := by
  rw [mergeTwoU32_eq hb, mergeTwoU32_eq hb']
  omega

example : mergeTwoU32 1234 5678 = 1234 * 2 ^ 32 + 5678 ∧ splitU64 (mergeTwoU32 1234 5678) = (1234, 5678) := by
  decide +kernel

end Verif.Util
