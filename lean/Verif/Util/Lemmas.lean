import Verif.Util.Model
import Verif.Util.Spec

namespace Verif.Util

theorem and_high_mask (x k : Nat) (hx : x < 2 ^ 64) :
    x &&& (2 ^ 64 - 1 - (2 ^ k - 1)) = x / 2 ^ k * 2 ^ k := by
  rcases Nat.lt_or_ge 64 k with hk | hk
  · have h1 : 2 ^ 64 ≤ 2 ^ k := Nat.pow_le_pow_right (by omega) (by omega)
    have : x / 2 ^ k = 0 := Nat.div_eq_of_lt (by omega)
    rw [this]
    have : 2 ^ 64 - 1 - (2 ^ k - 1) = 0 := by omega
    rw [this]; simp
  rw [← Nat.shiftRight_eq_div_pow, ← Nat.shiftLeft_eq]
  apply Nat.eq_of_testBit_eq
  intro i
  have hp := Nat.two_pow_pos k
  have h1 : 2 ^ k - 1 < 2 ^ 64 := by
    have : 2 ^ k ≤ 2 ^ 64 := Nat.pow_le_pow_right (by omega) hk
    omega
  have h2 : 2 ^ 64 - 1 - (2 ^ k - 1) = 2 ^ 64 - (2 ^ k - 1 + 1) := by omega
  rw [h2, Nat.testBit_and, Nat.testBit_two_pow_sub_succ h1, Nat.testBit_two_pow_sub_one,
    Nat.testBit_shiftLeft, Nat.testBit_shiftRight]
  by_cases hik : i < k
  · simp [hik]; omega
  · have : k ≤ i := by omega
    by_cases h64 : i < 64
    · simp [this, hik, h64]
    · have : x.testBit i = false := by
        apply Nat.testBit_lt_two_pow
        have : 2 ^ 64 ≤ 2 ^ i := Nat.pow_le_pow_right (by omega) (by omega)
        omega
      have e : k + (i - k) = i := by omega
      simp [this, e]

theorem align_eq (k v : Nat) : align k v = (v + (2 ^ k - 1)) % 2 ^ 64 / 2 ^ k * 2 ^ k := by
  unfold align
  exact and_high_mask _ _ (Nat.mod_lt _ (by decide))

theorem align_eq_of_fits (k v : Nat) (h : v + (2 ^ k - 1) < 2 ^ 64) :
    align k v = (v + (2 ^ k - 1)) / 2 ^ k * 2 ^ k := by
  rw [align_eq, Nat.mod_eq_of_lt h]

/-- `Align<8>` as used for strings and event sizes. -/
theorem align8 (v : Nat) (h : v + 7 < 2 ^ 64) : align 3 v = (v + 7) / 8 * 8 := by
  have := align_eq_of_fits 3 v (by omega)
  simpa using this

theorem isByteReverse_of_leNat {n x y : Nat} (h : y = leNat (toLE n x).reverse) :
    IsByteReverse n x y := by
  subst h
  have h1 := leNat_lt (toLE n x).reverse
  have h2 := toLE_leNat (toLE n x).reverse
  simp only [List.length_reverse, toLE_length] at h1 h2
  exact ⟨h1, h2⟩

theorem bswap16_rev (x : Nat) : IsByteReverse 2 x (bswap16 x) := by
  apply isByteReverse_of_leNat
  simp only [toLE, bswap16, List.reverse_cons, List.reverse_nil, List.nil_append, List.cons_append,
    leNat, UInt8.toNat_ofNat']
  omega

theorem bswap32_rev (x : Nat) : IsByteReverse 4 x (bswap32 x) := by
  apply isByteReverse_of_leNat
  simp only [toLE, bswap32, List.reverse_cons, List.reverse_nil, List.nil_append, List.cons_append,
    leNat, UInt8.toNat_ofNat', Nat.div_div_eq_div_mul, Nat.reducePow, Nat.reduceMul]
  generalize x % 256 = a
  generalize x / 256 % 256 = b
  generalize x / 65536 % 256 = c
  generalize x / 16777216 % 256 = d
  omega

theorem bswap64_rev (x : Nat) : IsByteReverse 8 x (bswap64 x) := by
  apply isByteReverse_of_leNat
  simp only [toLE, bswap64, List.reverse_cons, List.reverse_nil, List.nil_append, List.cons_append,
    leNat, UInt8.toNat_ofNat', Nat.div_div_eq_div_mul, Nat.reducePow, Nat.reduceMul]
  generalize x % 256 = a
  generalize x / 256 % 256 = b
  generalize x / 65536 % 256 = c
  generalize x / 16777216 % 256 = d
  generalize x / 4294967296 % 256 = e
  generalize x / 1099511627776 % 256 = f
  generalize x / 281474976710656 % 256 = g
  generalize x / 72057594037927936 % 256 = h
  omega

theorem byteSwap_rev {n x y : Nat} (hx : x < 256 ^ n) (h : byteSwap n x = some y) :
    IsByteReverse n x y := by
  unfold byteSwap at h
  split at h
  · cases h; exact ⟨hx, by simp [toLE]⟩
  · cases h; exact bswap16_rev x
  · cases h; exact bswap32_rev x
  · cases h; exact bswap64_rev x
  · cases h

theorem isByteReverse_unique {n x y z : Nat} (hy : IsByteReverse n x y) (hz : IsByteReverse n x z) :
    y = z :=
  toLE_inj hy.1 hz.1 (hy.2.trans hz.2.symm)

theorem isByteReverse_symm {n x y : Nat} (hx : x < 256 ^ n) (h : IsByteReverse n x y) :
    IsByteReverse n y x := ⟨hx, by rw [h.2, List.reverse_reverse]⟩

theorem byteSwap_isSome {n : Nat} (x : Nat) (hn : n = 1 ∨ n = 2 ∨ n = 4 ∨ n = 8) :
    ∃ y, byteSwap n x = some y := by
  rcases hn with h | h | h | h <;> subst h <;> exact ⟨_, rfl⟩

theorem byteSwap_twice {n x : Nat} (hn : n = 1 ∨ n = 2 ∨ n = 4 ∨ n = 8) (hx : x < 256 ^ n) :
    (byteSwap n x).bind (byteSwap n) = some x := by
  obtain ⟨y, hy⟩ := byteSwap_isSome x hn
  have h1 := byteSwap_rev hx hy
  obtain ⟨z, hz⟩ := byteSwap_isSome y hn
  have h2 := byteSwap_rev h1.1 hz
  rw [hy, Option.bind_some, hz, isByteReverse_unique h2 (isByteReverse_symm hx h1)]

/-- Swapping the value read from bytes is reading the reversed bytes. -/
theorem byteSwap_leNat {l : List UInt8}
    (hn : l.length = 1 ∨ l.length = 2 ∨ l.length = 4 ∨ l.length = 8) :
    byteSwap l.length (leNat l) = some (leNat l.reverse) := by
  obtain ⟨y, hy⟩ := byteSwap_isSome (leNat l) hn
  have h1 := byteSwap_rev (leNat_lt l) hy
  rw [hy]
  congr 1
  rw [← leNat_toLE_of_lt h1.1, h1.2, toLE_leNat]

/-! ### Hexadecimal text -/

theorem hexDigit_isHex : ∀ n, n < 16 → IsHexOf (hexDigit n) n := by
  unfold IsHexOf; decide +kernel

theorem hexDigit_special : ∀ n, n < 16 → strtolSpecial (hexDigit n) = false := by decide +kernel

theorem hexDigit_val : ∀ n, n < 16 → hexVal (hexDigit n) = some n := by decide +kernel

theorem uint8_forall {p : UInt8 → Prop} (h : ∀ n, n < 256 → p (UInt8.ofNat n)) (c : UInt8) : p c := by
  have := h c.toNat c.toNat_lt
  simpa using this

theorem special_facts : ∀ c : UInt8, strtolSpecial c = false →
    isSpace c = false ∧ c ≠ 0 ∧ c ≠ 45 ∧ c ≠ 43 := by
  intro c h
  simp only [strtolSpecial, Bool.or_eq_false_iff] at h
  simp only [isSpace, Bool.or_eq_false_iff]
  simp_all

theorem digit16 : ∀ c : UInt8, hexVal c = (digitVal c).filter (· < 16) := by
  apply uint8_forall
  decide +kernel

theorem hexVal_lt {c : UInt8} {n : Nat} (h : hexVal c = some n) : n < 16 := by
  rw [digit16] at h
  have := (Option.filter_eq_some_iff.mp h).2
  simpa using this

theorem readDigits_hex (acc : Nat) (c : UInt8) (t : List UInt8) :
    readDigits 16 acc (c :: t) = match hexVal c with
      | some d => let r := readDigits 16 (acc * 16 + d) t; (r.1, r.2.1 + 1, r.2.2)
      | none => (acc, 0, c :: t) := by
  rw [digit16, readDigits]
  cases digitVal c with
  | none => rfl
  | some d =>
    by_cases hd : d < 16
    · simp [hd, Option.filter]
    · simp [hd, Option.filter]

/-- What `strtol` makes of a pair of characters that are not special. -/
theorem strtolByte_plain (c0 c1 : UInt8) (h0 : strtolSpecial c0 = false)
    (h1 : strtolSpecial c1 = false) :
    (∀ a b, hexVal c0 = some a → hexVal c1 = some b →
      strtolByte [c0, c1] = (UInt8.ofNat (16 * a + b), [])) ∧
    ((hexVal c0 = none ∨ hexVal c1 = none) → (strtolByte [c0, c1]).2 ≠ []) := by
  obtain ⟨s0, z0, m0, p0⟩ := special_facts c0 h0
  obtain ⟨s1, z1, m1, p1⟩ := special_facts c1 h1
  have hc : cStr [c0, c1] = [c0, c1] := by simp [cStr, z0, z1]
  have hd : ([c0, c1] : List UInt8).dropWhile isSpace = [c0, c1] := by simp [s0]
  have hnil : ∀ acc, readDigits 16 acc [] = (acc, 0, []) := fun _ => rfl
  unfold strtolByte strto
  simp only [hc, hd, m0, p0, if_false, if_true, readDigits_hex, hnil]
  cases hv0 : hexVal c0 with
  | none => simp
  | some a =>
    cases hv1 : hexVal c1 with
    | none => simp
    | some b => simp [Nat.mul_comm]

theorem hexLoop_length (s arr : List UInt8) : (hexLoop s arr).2.length = arr.length := by
  fun_induction hexLoop s arr with
  | case1 c0 c1 s x arr v err he h => simp
  | case2 c0 c1 s x arr v err he h ok rest hr ih => simp [hr] at ih; simp [ih]
  | case3 => rfl

theorem hexLoop_untouched (s arr : List UInt8) (i : Nat) (hi : s.length / 2 ≤ i) :
    (hexLoop s arr).2[i]? = arr[i]? := by
  fun_induction hexLoop s arr generalizing i with
  | case1 c0 c1 s x arr v err he h =>
    simp only [List.length_cons] at hi
    cases i with
    | zero => omega
    | succ i => simp
  | case2 c0 c1 s x arr v err he h ok rest hr ih =>
    simp only [List.length_cons] at hi
    cases i with
    | zero => omega
    | succ i =>
      have := ih i (by omega)
      simp only [hr] at this
      simpa using this
  | case3 => rfl

/-- On text without special characters the loop is the specification. -/
theorem hexLoop_plain (s arr : List UInt8) (hs : ∀ c ∈ s, strtolSpecial c = false) :
    match hexSpec s arr.length with
    | some bytes => hexLoop s arr = (true, bytes ++ arr.drop bytes.length)
    | none => (hexLoop s arr).1 = false := by
  fun_induction hexLoop s arr with
  | case1 c0 c1 s x arr v err he h =>
    have hp := strtolByte_plain c0 c1 (hs _ (by simp)) (hs _ (by simp))
    simp only [List.length_cons, hexSpec]
    cases hv0 : hexVal c0 with
    | none => simp
    | some a =>
      cases hv1 : hexVal c1 with
      | none => simp
      | some b => have := hp.1 a b hv0 hv1; rw [this] at he; cases he; simp at h
  | case2 c0 c1 s x arr v err he h ok rest hr ih =>
    have hp := strtolByte_plain c0 c1 (hs _ (by simp)) (hs _ (by simp))
    have ih := ih (fun c hc => hs c (by simp [hc]))
    simp only [List.length_cons, hexSpec]
    have he' : (strtolByte [c0, c1]).2 = [] := by rw [he]; simpa using h
    cases hv0 : hexVal c0 with
    | none => exact absurd he' (hp.2 (Or.inl hv0))
    | some a =>
      cases hv1 : hexVal c1 with
      | none => exact absurd he' (hp.2 (Or.inr hv1))
      | some b =>
        have := hp.1 a b hv0 hv1
        rw [this] at he; cases he
        cases hsp : hexSpec s arr.length with
        | none => rw [hsp] at ih; simp only [hr] at ih; simpa using ih
        | some bytes =>
          rw [hsp] at ih
          simp only [hr] at ih
          simp only [Prod.mk.injEq] at ih
          simp [ih.1, ih.2]
  | case3 s arr h =>
    match s, arr with
    | _, [] => simp [hexSpec]
    | [], x :: t => simp [hexSpec]
    | [c], x :: t => simp [hexSpec]
    | c0 :: c1 :: s, x :: t => exact absurd rfl (fun e => (h c0 c1 s x t rfl) e)

theorem rawDataToHexString_special (bs : List UInt8) :
    ∀ c ∈ rawDataToHexString bs, strtolSpecial c = false := by
  induction bs with
  | nil => simp [rawDataToHexString]
  | cons b t ih =>
    have := b.toNat_lt
    simp only [rawDataToHexString, List.cons_append, List.nil_append, List.mem_cons,
      forall_eq_or_imp]
    exact ⟨hexDigit_special _ (by omega), hexDigit_special _ (by omega), ih⟩

theorem hexSpec_rawData (bs : List UInt8) (n : Nat) :
    hexSpec (rawDataToHexString bs) n = some (bs.take n) := by
  induction bs generalizing n with
  | nil => cases n <;> simp [rawDataToHexString, hexSpec]
  | cons b t ih =>
    have := b.toNat_lt
    cases n with
    | zero => simp [rawDataToHexString, hexSpec]
    | succ n =>
      simp only [rawDataToHexString, List.cons_append, List.nil_append, hexSpec, ih,
        hexDigit_val _ (show b.toNat / 16 < 16 by omega), hexDigit_val _ (show b.toNat % 16 < 16 by omega)]
      simp only [List.take_succ_cons, Option.some.injEq, List.cons.injEq, and_true]
      rw [show 16 * (b.toNat / 16) + b.toNat % 16 = b.toNat by omega]
      simp

/-! ### Packing -/

theorem mergeTwoU32_eq {a b : Nat} (hb : b < 2 ^ 32) : mergeTwoU32 a b = a * 2 ^ 32 + b := by
  unfold mergeTwoU32
  rw [← Nat.shiftLeft_add_eq_or_of_lt hb, Nat.shiftLeft_eq]

end Verif.Util
