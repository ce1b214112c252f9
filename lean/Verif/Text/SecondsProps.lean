import Verif.Text.SecondsSpec
import Verif.Text.Rounding

/-! # Theorems C132: seconds as text become milliseconds -/

namespace Verif.Text
open Verif.Util

/-! ## Reading the text -/

theorem digit_toNat {d : Nat} (h : d < 10) : (UInt8.ofNat (48 + d)).toNat = 48 + d := by
  simp only [UInt8.toNat_ofNat']
  omega

theorem digitVal_digit {d : Nat} (h : d < 10) : digitVal (UInt8.ofNat (48 + d)) = some d := by
  have : d = 0 ∨ d = 1 ∨ d = 2 ∨ d = 3 ∨ d = 4 ∨ d = 5 ∨ d = 6 ∨ d = 7 ∨ d = 8 ∨ d = 9 := by omega
  rcases this with h | h | h | h | h | h | h | h | h | h <;> subst h <;> decide

theorem readDigits_digits {ds : List Nat} (hd : ∀ d ∈ ds, d < 10) (acc : Nat) {r : List UInt8}
    (hr : ∀ c ∈ r.head?, digitVal c = none) :
    readDigits 10 acc (digits ds ++ r) = (acc * 10 ^ ds.length + number ds, ds.length, r) := by
  induction ds generalizing acc with
  | nil =>
    cases r with
    | nil => simp [digits, readDigits, number]
    | cons c t =>
      have := hr c (by simp)
      simp [digits, readDigits, number, this]
  | cons d ds ih =>
    have h1 := hd d (by simp)
    have h2 := ih (fun x hx => hd x (by simp [hx])) (acc * 10 + d)
    simp only [digits, List.map_cons, List.cons_append, readDigits, digitVal_digit h1, if_pos h1] at h2 ⊢
    rw [h2]
    simp only [number, List.length_cons, Nat.pow_succ, Prod.mk.injEq, and_true]
    ring

/-- A character of a decimal text. -/
def PlainChar (c : UInt8) : Prop := (∃ d, d < 10 ∧ c = UInt8.ofNat (48 + d)) ∨ c = 46

theorem plain_facts {c : UInt8} (h : PlainChar c) :
    c ≠ 0 ∧ isSpace c = false ∧ c ≠ 45 ∧ c ≠ 43 ∧ lowerCase c ≠ 105 ∧ lowerCase c ≠ 110 ∧
      lowerCase c ≠ 120 := by
  rcases h with ⟨d, hd, rfl⟩ | rfl
  · have : d = 0 ∨ d = 1 ∨ d = 2 ∨ d = 3 ∨ d = 4 ∨ d = 5 ∨ d = 6 ∨ d = 7 ∨ d = 8 ∨ d = 9 := by omega
    rcases this with h | h | h | h | h | h | h | h | h | h <;> subst h <;> decide
  · decide

theorem digits_plain {ds : List Nat} (hd : ∀ d ∈ ds, d < 10) : ∀ c ∈ digits ds, PlainChar c := by
  intro c hc
  obtain ⟨d, hm, rfl⟩ := List.mem_map.mp hc
  exact Or.inl ⟨d, hd d hm, rfl⟩

theorem written_plain {t : List UInt8} {q : ℚ} (h : Written t q) : t ≠ [] ∧ ∀ c ∈ t, PlainChar c := by
  cases h with
  | whole ds h hd => exact ⟨by simp [digits, h], digits_plain hd⟩
  | point ds fs h hd hf =>
    refine ⟨by simp, fun c hc => ?_⟩
    rcases List.mem_append.mp hc with hc | hc
    · exact digits_plain hd c hc
    · rcases List.mem_cons.mp hc with hc | hc
      · exact Or.inr hc
      · exact digits_plain hf c hc

theorem mantissa_written {t : List UInt8} {q : ℚ} (h : Written t q) :
    ∃ n f : Nat, mantissa 10 t = some (n, f, []) ∧ q = (n : ℚ) / 10 ^ f := by
  cases h with
  | whole ds h hd =>
    have h0 := readDigits_digits hd 0 (r := []) (by simp)
    refine ⟨number ds, 0, ?_, by simp⟩
    unfold mantissa
    rw [List.append_nil] at h0
    rw [h0]
    simp [h]
  | point ds fs h hd hf =>
    have h0 := readDigits_digits hd 0 (r := 46 :: digits fs) (by simp; decide)
    have h1 := readDigits_digits hf (number ds) (r := []) (by simp)
    rw [List.append_nil] at h1
    refine ⟨number ds * 10 ^ fs.length + number fs, fs.length, ?_, ?_⟩
    · unfold mantissa
      rw [h0]
      simp only [Nat.zero_mul, Nat.zero_add, if_true, h1]
      rw [if_neg]
      intro e
      apply h
      have e1 : ds = [] := List.length_eq_zero_iff.mp (by omega)
      have e2 : fs = [] := List.length_eq_zero_iff.mp (by omega)
      rw [e1, e2]; rfl
    · push_cast
      field_simp

theorem not_starts {w : UInt8} {ws t : List UInt8} (h : ∀ c ∈ t, lowerCase c ≠ w) :
    startsWith (w :: ws) t = false := by
  unfold startsWith
  cases t with
  | nil => rfl
  | cons c t =>
    have := h c (by simp)
    simp only [List.map_cons, List.isPrefixOf]
    have h' : (w == lowerCase c) = false := by simpa using fun e => this e.symm
    rw [h']; rfl

theorem not_starts2 {w w' : UInt8} {ws t : List UInt8} (h : ∀ c ∈ t, lowerCase c ≠ w') :
    startsWith (w :: w' :: ws) t = false := by
  unfold startsWith
  cases t with
  | nil => rfl
  | cons c t =>
    cases t with
    | nil => simp [List.isPrefixOf]
    | cons c' t =>
      have := h c' (by simp)
      simp only [List.map_cons, List.isPrefixOf]
      have h' : (w' == lowerCase c') = false := by simpa using fun e => this e.symm
      rw [h']; simp

/-- What the code reads in a decimal text, with or without a sign. -/
theorem strtodUnsigned_written {t : List UInt8} {q : ℚ} (h : Written t q) :
    ∃ n d : Nat, 0 < d ∧ q = (n : ℚ) / d ∧ strtodUnsigned t = some (toDouble n d, []) := by
  obtain ⟨n, f, hm, hq⟩ := mantissa_written h
  have hp := (written_plain h).2
  have f1 : startsWith (ascii "infinity") t = false :=
    not_starts (w := 105) (fun c hc => (plain_facts (hp c hc)).2.2.2.2.1)
  have f2 : startsWith (ascii "inf") t = false :=
    not_starts (w := 105) (fun c hc => (plain_facts (hp c hc)).2.2.2.2.1)
  have f3 : startsWith (ascii "nan") t = false :=
    not_starts (w := 110) (fun c hc => (plain_facts (hp c hc)).2.2.2.2.2.1)
  have f4 : startsWith (ascii "0x") t = false :=
    not_starts2 (w := 48) (w' := 120) (fun c hc => (plain_facts (hp c hc)).2.2.2.2.2.2)
  unfold strtodUnsigned
  simp only [f1, f2, f3, f4, Bool.false_eq_true, if_false, hm, exponent]
  unfold scaled
  by_cases h0 : f = 0
  · subst h0
    refine ⟨n, 1, by decide, by rw [hq]; simp, by simp⟩
  · refine ⟨n, 10 ^ f, by positivity, by rw [hq]; push_cast; rfl, ?_⟩
    rw [if_neg (by omega)]
    simp

theorem takeWhile_self {p : UInt8 → Bool} {t : List UInt8} (h : ∀ c ∈ t, p c = true) :
    t.takeWhile p = t := by
  induction t with
  | nil => rfl
  | cons c t ih =>
    rw [List.takeWhile_cons, if_pos (h c (by simp)), ih (fun x hx => h x (by simp [hx]))]

theorem strtod_written {t : List UInt8} {q : ℚ} (h : Written t q) :
    ∃ n d : Nat, 0 < d ∧ q = (n : ℚ) / d ∧ strtod t = (false, toDouble n d, []) ∧
      strtod (45 :: t) = (true, toDouble n d, []) := by
  obtain ⟨n, d, hd, hq, hs⟩ := strtodUnsigned_written h
  obtain ⟨hne, hp⟩ := written_plain h
  have hc : cStr t = t := by
    unfold cStr
    apply takeWhile_self
    intro c hc
    simpa using (plain_facts (hp c hc)).1
  have hc' : cStr (45 :: t) = 45 :: t := by
    have : cStr (45 :: t) = 45 :: cStr t := by unfold cStr; rw [List.takeWhile_cons]; simp
    rw [this, hc]
  refine ⟨n, d, hd, hq, ?_, ?_⟩
  · unfold strtod
    simp only [hc]
    obtain ⟨c, r, rfl⟩ := List.exists_cons_of_ne_nil hne
    have hf := plain_facts (hp c (by simp))
    rw [List.dropWhile_cons, hf.2.1]
    simp only [Bool.false_eq_true, if_false, takeSign, hf.2.2.1, hf.2.2.2.1, hs]
  · unfold strtod
    simp only [hc']
    rw [List.dropWhile_cons, show isSpace 45 = false from by decide]
    simp only [Bool.false_eq_true, if_false, takeSign, if_true, hs]

/-! ## The arithmetic -/

/-- The product, the sum and the conversion of line 78. -/
def ms (n d : Nat) : Option Nat := toU64 (plusHalf (times1000 (toDouble n d)))

/-- The sum of line 78 in units of the least positive double, without the limit to finite ones. -/
def sumOf (k : Nat) : Nat := rounded (rounded (k * 1000) (2 ^ 1074) + 2 ^ 1073) (2 ^ 1074)

theorem sumOf_mono {a b : Nat} (h : a ≤ b) : sumOf a ≤ sumOf b := by
  unfold sumOf
  apply rounded_mono (Nat.two_pow_pos _) (Nat.two_pow_pos _)
  apply Nat.mul_le_mul_right
  apply Nat.add_le_add_right
  apply rounded_mono (Nat.two_pow_pos _) (Nat.two_pow_pos _)
  apply Nat.mul_le_mul_right
  exact Nat.mul_le_mul_right _ h

theorem sum_large : 2 ^ 1138 ≤ rounded (2 ^ 2098 + 2 ^ 1073) (2 ^ 1074) := by decide +kernel

theorem prod_large : 2 ^ 2098 ≤ rounded (2 ^ 2098 * 1000) (2 ^ 1074) := by decide +kernel

theorem sum_large' {k : Nat} (h : 2 ^ 2098 ≤ k) : ¬ rounded (k + 2 ^ 1073) (2 ^ 1074) / 2 ^ 1074 < 2 ^ 64 := by
  have h1 : rounded (2 ^ 2098 + 2 ^ 1073) (2 ^ 1074) ≤ rounded (k + 2 ^ 1073) (2 ^ 1074) := by
    apply rounded_mono (Nat.two_pow_pos _) (Nat.two_pow_pos _)
    apply Nat.mul_le_mul_right
    exact Nat.add_le_add_right h _
  have h2 := Nat.le_trans sum_large h1
  rw [Nat.not_lt, Nat.le_div_iff_mul_le (Nat.two_pow_pos _), ← Nat.pow_add]
  exact h2

theorem ms_eq (n d : Nat) :
    ms n d = if sumOf (rounded n d) / 2 ^ 1074 < 2 ^ 64 then some (sumOf (rounded n d) / 2 ^ 1074)
      else none := by
  unfold ms
  rw [toDouble_eq]
  generalize rounded n d = k
  by_cases h1 : k < 2 ^ 2098
  · rw [if_pos h1]
    unfold times1000 sumOf
    simp only
    rw [toDouble_eq]
    generalize rounded (k * 1000) (2 ^ 1074) = k2
    by_cases h2 : k2 < 2 ^ 2098
    · rw [if_pos h2]
      unfold plusHalf
      simp only
      rw [toDouble_eq]
      generalize rounded (k2 + 2 ^ 1073) (2 ^ 1074) = k3
      by_cases h3 : k3 < 2 ^ 2098
      · rw [if_pos h3]; rfl
      · rw [if_neg h3]
        rw [if_neg]
        · rfl
        · rw [Nat.not_lt, Nat.le_div_iff_mul_le (Nat.two_pow_pos _), ← Nat.pow_add]
          exact Nat.le_trans (Nat.pow_le_pow_right (by decide) (by decide)) (Nat.not_lt.mp h3)
    · rw [if_neg h2, if_neg (sum_large' (Nat.not_lt.mp h2))]
      rfl
  · rw [if_neg h1]
    have : 2 ^ 2098 ≤ rounded (k * 1000) (2 ^ 1074) := by
      refine Nat.le_trans prod_large ?_
      apply rounded_mono (Nat.two_pow_pos _) (Nat.two_pow_pos _)
      apply Nat.mul_le_mul_right
      exact Nat.mul_le_mul_right _ (Nat.not_lt.mp h1)
    unfold sumOf
    rw [if_neg (sum_large' this)]
    rfl

theorem seconds_written {t : List UInt8} {q : ℚ} (h : Written t q) :
    ∃ n d : Nat, 0 < d ∧ q = (n : ℚ) / d ∧ secondsToMs t = (ms n d).map some := by
  obtain ⟨n, d, hd, hq, hs, _⟩ := strtod_written h
  refine ⟨n, d, hd, hq, ?_⟩
  unfold secondsToMs ms
  rw [hs]
  simp [isNegative]

/-- Rounding in terms of the values. -/
theorem rounded_value {n d : Nat} (hd : 0 < d) :
    |(rounded n d : ℚ) / 2 ^ 1074 - (n : ℚ) / d| ≤ (n : ℚ) / d / 2 ^ 53 + 1 / 2 ^ 1075 := by
  have h := rounded_close (n := n) hd
  have hs : (0 : ℚ) < 2 ^ 1074 := by positivity
  have e1 : (2 : ℚ) ^ 1075 = 2 ^ 1074 * 2 := pow_succ _ _
  rw [e1]
  generalize (2 : ℚ) ^ 1074 = S at *
  have e2 : (n : ℚ) * S / d = (n : ℚ) / d * S := by ring
  rw [e2] at h
  generalize (n : ℚ) / d = q at *
  have e3 : (rounded n d : ℚ) = (rounded n d : ℚ) / S * S := by field_simp
  rw [e3] at h
  generalize (rounded n d : ℚ) / S = a at *
  have e4 : a * S - q * S = (a - q) * S := by ring
  rw [e4, abs_mul, abs_of_pos hs] at h
  have e5 : q * S / 2 ^ 53 + 1 / 2 = (q / 2 ^ 53 + 1 / (S * 2)) * S := by field_simp
  rw [e5] at h
  exact le_of_mul_le_mul_right h hs

theorem sum_close {n d : Nat} (hd : 0 < d) :
    |(sumOf (rounded n d) : ℚ) / 2 ^ 1074 - (1000 * ((n : ℚ) / d) + 1 / 2)| <
      (1000 * ((n : ℚ) / d) + 1) / 2 ^ 51 := by
  have h1 := rounded_value (n := n) hd
  have h2 := rounded_value (n := rounded n d * 1000) (Nat.two_pow_pos 1074)
  have h3 := rounded_value (n := rounded (rounded n d * 1000) (2 ^ 1074) + 2 ^ 1073) (Nat.two_pow_pos 1074)
  have hq : 0 ≤ (n : ℚ) / d := by positivity
  have ht : (1 : ℚ) / 2 ^ 1075 ≤ 1 / 2 ^ 100 := by
    apply one_div_le_one_div_of_le (by positivity)
    exact pow_le_pow_right₀ (by norm_num) (by norm_num)
  have ht0 : (0 : ℚ) ≤ 1 / 2 ^ 1075 := by positivity
  have e2 : ((rounded n d * 1000 : Nat) : ℚ) / (2 ^ 1074 : Nat) =
      1000 * ((rounded n d : ℚ) / 2 ^ 1074) := by push_cast; ring
  rw [e2] at h2
  have hh : ((2 : ℚ) ^ 1073) / 2 ^ 1074 = 1 / 2 := by
    have : (2 : ℚ) ^ 1074 = 2 ^ 1073 * 2 := pow_succ _ _
    rw [this]
    have : (2 : ℚ) ^ 1073 ≠ 0 := by positivity
    generalize (2 : ℚ) ^ 1073 = S at *
    field_simp
  have e3 : ((rounded (rounded n d * 1000) (2 ^ 1074) + 2 ^ 1073 : Nat) : ℚ) / (2 ^ 1074 : Nat) =
      (rounded (rounded n d * 1000) (2 ^ 1074) : ℚ) / 2 ^ 1074 + 1 / 2 := by
    push_cast
    rw [add_div, hh]
  rw [e3] at h3
  change |(sumOf (rounded n d) : ℚ) / 2 ^ 1074 - _| ≤ _ at h3
  generalize (1 : ℚ) / 2 ^ 1075 = τ at *
  generalize (sumOf (rounded n d) : ℚ) / 2 ^ 1074 = c at *
  generalize (rounded (rounded n d * 1000) (2 ^ 1074) : ℚ) / 2 ^ 1074 = b at *
  generalize (rounded n d : ℚ) / 2 ^ 1074 = a at *
  generalize (n : ℚ) / d = q at *
  rw [abs_le] at h1 h2 h3
  rw [abs_lt]
  norm_num at h1 h2 h3 ht ⊢
  constructor <;> linarith

/-- From this number of seconds on the milliseconds do not fit 64 bits. -/
def tooMany : Nat := 18446744073709550

theorem fits_iff {n d : Nat} (hd : 0 < d) : ms n d = none ↔ tooMany * d ≤ n := by
  rw [ms_eq]
  have hc : (if sumOf (rounded n d) / 2 ^ 1074 < 2 ^ 64 then some (sumOf (rounded n d) / 2 ^ 1074)
      else none) = none ↔ ¬ sumOf (rounded n d) / 2 ^ 1074 < 2 ^ 64 := by
    split <;> simp_all
  rw [hc]
  constructor
  · intro h
    by_contra hlt
    apply h
    have hk : rounded n d ≤ 18446744073709548 * 2 ^ 1074 := by
      by_cases hx : n * 2 ^ 1074 / d < 2 ^ 1128
      · exact Nat.le_trans (rounded_le_pow hd hx (by decide)) (by decide +kernel)
      · have hx2 : n * 2 ^ 1074 / d < 2 ^ 1129 := by
          rw [Nat.div_lt_iff_lt_mul hd]
          have : n * 2 ^ 1074 < tooMany * d * 2 ^ 1074 :=
            Nat.mul_lt_mul_of_pos_right (Nat.not_le.mp hlt) (Nat.two_pow_pos _)
          calc n * 2 ^ 1074 < tooMany * d * 2 ^ 1074 := this
            _ = (tooMany * 2 ^ 1074) * d := by ring
            _ ≤ 2 ^ 1129 * d := Nat.mul_le_mul_right _ (by decide +kernel)
        have hl : (n * 2 ^ 1074 / d).log2 = 1128 := by
          have hne : n * 2 ^ 1074 / d ≠ 0 := by
            intro e; rw [e] at hx; exact hx (Nat.two_pow_pos _)
          have a1 := (Nat.log2_lt hne).mpr hx2
          have a2 := (Nat.le_log2 hne).mpr (Nat.not_lt.mp hx)
          omega
        have hu : ulp (n * 2 ^ 1074 / d) = 4 * 2 ^ 1074 := by
          unfold ulp; rw [hl]; decide +kernel
        unfold rounded
        rw [hu]
        have hn := (nearest_close (n * 2 ^ 1074) (d := d * (4 * 2 ^ 1074))
          (Nat.mul_pos hd (by decide +kernel))).2
        have hS : 0 < 2 ^ 1074 := Nat.two_pow_pos _
        have hlt' : n + 1 ≤ tooMany * d := by omega
        generalize 2 ^ 1074 = S at *
        generalize nearest (n * S) (d * (4 * S)) = k at *
        have : k < 4611686018427388 := by
          by_contra hk
          have b1 : 4611686018427388 * (d * (4 * S)) ≤ k * (d * (4 * S)) :=
            Nat.mul_le_mul_right _ (Nat.not_lt.mp hk)
          have b2 : (n + 1) * S ≤ tooMany * d * S := Nat.mul_le_mul_right _ hlt'
          have b3 : d * (4 * S) = 4 * (d * S) := by ring
          have b4 : tooMany * d * S = tooMany * (d * S) := by ring
          have b5 : (n + 1) * S = n * S + S := by ring
          rw [b3] at b1 hn
          rw [b4, b5] at b2
          unfold tooMany at b2
          omega
        calc k * (4 * S) ≤ 4611686018427387 * (4 * S) := Nat.mul_le_mul_right _ (by omega)
          _ = 18446744073709548 * S := by ring
    refine Nat.lt_of_le_of_lt (Nat.div_le_div_right (sumOf_mono hk)) (by decide +kernel)
  · intro h
    have hk : rounded tooMany 1 ≤ rounded n d :=
      rounded_mono (by decide) hd (by rw [Nat.mul_one]; exact h)
    rw [Nat.not_lt]
    refine Nat.le_trans ?_ (Nat.div_le_div_right (sumOf_mono hk))
    decide +kernel

theorem le_cross {n1 d1 n2 d2 : Nat} (h1 : 0 < d1) (h2 : 0 < d2)
    (h : (n1 : ℚ) / d1 ≤ (n2 : ℚ) / d2) : n1 * d2 ≤ n2 * d1 := by
  have h1' : (0 : ℚ) < d1 := by exact_mod_cast h1
  have h2' : (0 : ℚ) < d2 := by exact_mod_cast h2
  rw [div_le_div_iff₀ h1' h2'] at h
  exact_mod_cast h

/-! ## The theorems -/

/-- C132: whether the milliseconds of a decimal text can be computed at all. They can exactly below
18446744073709550 seconds; from there on the conversion to 64 bits is undefined behaviour. -/
theorem seconds_fit {t : List UInt8} {q : ℚ} (h : Written t q) :
    secondsToMs t = none ↔ 18446744073709550 ≤ q := by
  obtain ⟨n, d, hd, hq, hs⟩ := seconds_written h
  have hd' : (0 : ℚ) < d := by exact_mod_cast hd
  rw [hs, Option.map_eq_none_iff, fits_iff hd, hq, le_div_iff₀ hd']
  unfold tooMany
  constructor
  · intro h; exact_mod_cast h
  · intro h; exact_mod_cast h

/-- C132: the result is the nearest number of milliseconds, up to a relative error of `2^-51` in what
counts as half way. -/
theorem seconds_nearest {t : List UInt8} {q : ℚ} (h : Written t q) (hq : q < 18446744073709550) :
    ∃ v : Nat, secondsToMs t = some (some v) ∧
      |(v : ℚ) - 1000 * q| < 1 / 2 + (1000 * q + 1) / 2 ^ 51 := by
  have hf := seconds_fit h
  obtain ⟨n, d, hd, rfl, hs⟩ := seconds_written h
  have hc := sum_close (n := n) hd
  rw [ms_eq] at hs
  by_cases hlt : sumOf (rounded n d) / 2 ^ 1074 < 2 ^ 64
  · rw [if_pos hlt] at hs
    refine ⟨_, hs, ?_⟩
    have hS : (0 : ℚ) < 2 ^ 1074 := by positivity
    have v1 : ((sumOf (rounded n d) / 2 ^ 1074 : Nat) : ℚ) ≤ (sumOf (rounded n d) : ℚ) / 2 ^ 1074 := by
      rw [le_div_iff₀ hS]
      exact_mod_cast Nat.div_mul_le_self (sumOf (rounded n d)) (2 ^ 1074)
    have v2 : (sumOf (rounded n d) : ℚ) / 2 ^ 1074 < ((sumOf (rounded n d) / 2 ^ 1074 : Nat) : ℚ) + 1 := by
      rw [div_lt_iff₀ hS]
      have := Nat.lt_div_mul_add (a := sumOf (rounded n d)) (Nat.two_pow_pos 1074)
      have e : sumOf (rounded n d) / 2 ^ 1074 * 2 ^ 1074 + 2 ^ 1074 =
        (sumOf (rounded n d) / 2 ^ 1074 + 1) * 2 ^ 1074 := by ring
      rw [e] at this
      exact_mod_cast this
    generalize ((sumOf (rounded n d) / 2 ^ 1074 : Nat) : ℚ) = v at *
    generalize (sumOf (rounded n d) : ℚ) / 2 ^ 1074 = c at *
    generalize (n : ℚ) / d = q at *
    rw [abs_lt] at hc ⊢
    constructor <;> linarith [hc.1, hc.2]
  · rw [if_neg hlt] at hs
    exact absurd (hf.mp hs) (not_le.mpr hq)

/-- C132: a text that says a whole number of milliseconds, in whatever way, yields that number, for
more than thirty thousand years. -/
theorem seconds_exact {t : List UInt8} {q : ℚ} (h : Written t q) (n : Nat) (hn : 1000 * q = n)
    (hlt : n < 2 ^ 50) : secondsToMs t = some (some n) := by
  have hn' : (n : ℚ) + 1 ≤ 2 ^ 50 := by exact_mod_cast hlt
  have hq : q < 18446744073709550 := by
    have : (1000 : ℚ) * q ≤ 2 ^ 50 := by rw [hn]; linarith
    norm_num at this
    linarith
  obtain ⟨v, hv, hc⟩ := seconds_nearest h hq
  rw [hn] at hc
  have hb : ((n : ℚ) + 1) / 2 ^ 51 ≤ 1 / 2 := by
    rw [div_le_iff₀ (by positivity)]
    norm_num at hn' ⊢
    linarith
  have : |((v : ℤ) : ℚ) - ((n : ℤ) : ℚ)| < 1 := by push_cast; linarith
  have : |(v : ℤ) - (n : ℤ)| < 1 := by exact_mod_cast this
  rw [Int.abs_lt_one_iff] at this
  rw [hv]
  congr 2
  omega

/-- C132: `perf stat` prints nine digits behind the point. For less than 20 days these nanoseconds
become the nearest milliseconds, unless they are half way between two. -/
theorem seconds_nanoseconds {t : List UInt8} {q : ℚ} (h : Written t q) (n : Nat)
    (hn : 10 ^ 9 * q = n) (hlt : n < 2000000 * 10 ^ 9) (htie : n % 1000000 ≠ 500000) :
    secondsToMs t = some (some ((n + 500000) / 1000000)) := by
  have hn' : (n : ℚ) < 2000000000000000 := by exact_mod_cast hlt
  have eq : q = n / 10 ^ 9 := by rw [← hn]; field_simp
  have hq : q < 18446744073709550 := by rw [eq]; linarith
  obtain ⟨v, hv, hc⟩ := seconds_nearest h hq
  rw [hv]
  have h1 : |((v : ℚ) * 1000000) - n| < 500001 := by
    have e : ((v : ℚ) * 1000000) - n = (v - 1000 * q) * 1000000 := by
      rw [eq]; ring
    rw [e, abs_mul, abs_of_pos (by norm_num : (0 : ℚ) < 1000000)]
    have : (1000 * q + 1) / 2 ^ 51 < 1 / 1000000 := by
      rw [eq]; norm_num; linarith
    linarith
  have h2 : |((v : ℤ) * 1000000) - (n : ℤ)| < 500001 := by exact_mod_cast h1
  rw [abs_lt] at h2
  congr 2
  omega

/-- C132: more seconds never become fewer milliseconds. -/
theorem seconds_ordered {t1 t2 : List UInt8} {q1 q2 : ℚ} (h1 : Written t1 q1) (h2 : Written t2 q2)
    (hle : q1 ≤ q2) {v1 v2 : Nat} (r1 : secondsToMs t1 = some (some v1))
    (r2 : secondsToMs t2 = some (some v2)) : v1 ≤ v2 := by
  obtain ⟨n1, d1, hd1, hq1, hs1⟩ := seconds_written h1
  obtain ⟨n2, d2, hd2, hq2, hs2⟩ := seconds_written h2
  rw [hq1, hq2] at hle
  have hr := sumOf_mono (rounded_mono hd1 hd2 (le_cross hd1 hd2 hle))
  rw [hs1, ms_eq] at r1
  rw [hs2, ms_eq] at r2
  by_cases a1 : sumOf (rounded n1 d1) / 2 ^ 1074 < 2 ^ 64
  · by_cases a2 : sumOf (rounded n2 d2) / 2 ^ 1074 < 2 ^ 64
    · rw [if_pos a1, Option.map_some, Option.some_inj, Option.some_inj] at r1
      rw [if_pos a2, Option.map_some, Option.some_inj, Option.some_inj] at r2
      rw [← r1, ← r2]
      exact Nat.div_le_div_right hr
    · rw [if_neg a2] at r2; cases r2
  · rw [if_neg a1] at r1; cases r1

/-- C132: with a minus sign a text is refused, whatever it says, unless it rounds to zero. -/
theorem seconds_negative {t : List UInt8} {q : ℚ} (h : Written t q) (hq : 1 / 2 ^ 1000 ≤ q) :
    secondsToMs (45 :: t) = some none := by
  obtain ⟨n, d, hd, hqe, _, hs⟩ := strtod_written h
  unfold secondsToMs
  rw [hs]
  have hne : toDouble n d ≠ .fin 0 := by
    rw [toDouble_eq]
    have h0 : 0 < rounded n d := by
      have hm : rounded 1 (2 ^ 1000) ≤ rounded n d := by
        apply rounded_mono (Nat.two_pow_pos _) hd
        apply le_cross (Nat.two_pow_pos _) hd
        rw [← hqe]
        push_cast
        exact hq
      exact Nat.lt_of_lt_of_le (by decide +kernel) hm
    split
    · intro e
      injection e with e
      omega
    · intro e; cases e
  have hnan : toDouble n d ≠ .nan := by
    rw [toDouble_eq]; split <;> intro e <;> cases e
  simp [isNegative, hne, hnan]

theorem mantissa_stops {t : List UInt8} {q : ℚ} (h : Written t q) {c : UInt8}
    (hc : digitVal c = none ∨ 10 ≤ (digitVal c).getD 0) (hp : c ≠ 46) (g : List UInt8) :
    ∃ n f : Nat, mantissa 10 (t ++ c :: g) = some (n, f, c :: g) := by
  have hread : ∀ (ds : List Nat) (_ : ∀ d ∈ ds, d < 10) (acc : Nat),
      readDigits 10 acc (digits ds ++ c :: g) = (acc * 10 ^ ds.length + number ds, ds.length, c :: g) := by
    intro ds hd
    induction ds with
    | nil =>
      intro acc
      simp only [digits, List.map_nil, List.nil_append, readDigits]
      cases hv : digitVal c with
      | none => simp [number]
      | some v =>
        rw [hv] at hc
        simp only [Option.getD_some, reduceCtorEq, false_or] at hc
        simp only [if_neg (Nat.not_lt.mpr hc)]
        simp [number]
    | cons d ds ih =>
      intro acc
      have h1 := hd d (by simp)
      have h2 := ih (fun x hx => hd x (by simp [hx])) (acc * 10 + d)
      simp only [digits, List.map_cons, List.cons_append, readDigits, digitVal_digit h1, if_pos h1] at h2 ⊢
      rw [h2]
      simp only [number, List.length_cons, Nat.pow_succ, Prod.mk.injEq, and_true]
      ring
  cases h with
  | whole ds h hd =>
    refine ⟨number ds, 0, ?_⟩
    unfold mantissa
    rw [hread ds hd 0]
    simp only [hp, if_false]
    rw [if_neg]
    · simp
    · simpa using h
  | point ds fs h hd hf =>
    have h0 := readDigits_digits hd 0 (r := 46 :: (digits fs ++ c :: g)) (by simp; decide)
    refine ⟨number ds * 10 ^ fs.length + number fs, fs.length, ?_⟩
    unfold mantissa
    rw [List.append_assoc, List.cons_append, h0]
    simp only [Nat.zero_mul, Nat.zero_add, if_true, hread fs hf]
    rw [if_neg]
    intro e
    apply h
    have e1 : ds = [] := List.length_eq_zero_iff.mp (by omega)
    have e2 : fs = [] := List.length_eq_zero_iff.mp (by omega)
    rw [e1, e2]; rfl

/-- C132: a decimal text with something else behind it is refused, unless it could be an exponent or a
hexadecimal number, or a second point behind digits without one. -/
theorem seconds_trailing {t : List UInt8} {q : ℚ} (h : Written t q) {c : UInt8}
    (hc : digitVal c = none ∨ 10 ≤ (digitVal c).getD 0) (h0 : c ≠ 0) (hp : c ≠ 46)
    (he : c ≠ 101 ∧ c ≠ 69) (hx : lowerCase c ≠ 120) (g : List UInt8) :
    secondsToMs (t ++ c :: g) = some none := by
  obtain ⟨hne, hpl⟩ := written_plain h
  have hcs : cStr (t ++ c :: g) = t ++ c :: cStr g := by
    unfold cStr
    rw [List.takeWhile_append_of_pos (fun x hx => by simpa using (plain_facts (hpl x hx)).1),
      List.takeWhile_cons, if_pos (by simpa using h0)]
  obtain ⟨n, f, hm⟩ := mantissa_stops h hc hp (cStr g)
  obtain ⟨a, r, rfl⟩ := List.exists_cons_of_ne_nil hne
  have hf := plain_facts (hpl a (by simp))
  have first : ∀ (w : UInt8) (ws : List UInt8), lowerCase a ≠ w →
      startsWith (w :: ws) ((a :: r) ++ c :: cStr g) = false := by
    intro w ws hw
    unfold startsWith
    simp only [List.cons_append, List.map_cons, List.isPrefixOf]
    have h' : (w == lowerCase a) = false := by simpa using fun e => hw e.symm
    rw [h']; rfl
  have f1 : startsWith (ascii "infinity") ((a :: r) ++ c :: cStr g) = false := first 105 _ hf.2.2.2.2.1
  have f2 : startsWith (ascii "inf") ((a :: r) ++ c :: cStr g) = false := first 105 _ hf.2.2.2.2.1
  have f3 : startsWith (ascii "nan") ((a :: r) ++ c :: cStr g) = false := first 110 _ hf.2.2.2.2.2.1
  have f4 : startsWith (ascii "0x") ((a :: r) ++ c :: cStr g) = false := by
    show startsWith (48 :: 120 :: []) _ = false
    unfold startsWith
    obtain ⟨b, r', hb, hbx⟩ : ∃ b r', r ++ c :: cStr g = b :: r' ∧ lowerCase b ≠ 120 := by
      cases r with
      | nil => exact ⟨c, cStr g, rfl, hx⟩
      | cons b r => exact ⟨b, _, rfl, (plain_facts (hpl b (by simp))).2.2.2.2.2.2⟩
    rw [List.cons_append, hb]
    simp only [List.map_cons, List.isPrefixOf]
    have h' : (120 == lowerCase b) = false := by simpa using fun e => hbx e.symm
    rw [h']; simp
  have hu : ∃ x, strtodUnsigned ((a :: r) ++ c :: cStr g) = some (x, c :: cStr g) := by
    unfold strtodUnsigned
    simp only [f1, f2, f3, f4, Bool.false_eq_true, if_false, hm, exponent, he.1, he.2, or_self]
    exact ⟨_, rfl⟩
  obtain ⟨x, hu⟩ := hu
  have hs : strtod ((a :: r) ++ c :: g) = (false, x, c :: cStr g) := by
    unfold strtod
    simp only [hcs]
    rw [List.cons_append, List.dropWhile_cons, hf.2.1]
    simp only [Bool.false_eq_true, if_false, takeSign, hf.2.2.1, hf.2.2.2.1]
    rw [← List.cons_append, hu]
  unfold secondsToMs
  rw [hs]
  simp

/-! ## Examples -/

/-- "1234.1234567", the form of the documentation, says 1234.1234567. -/
example : Written (ascii "1234.1234567") (12341234567 / 10000000) := by
  have h := Written.point [1, 2, 3, 4] [1, 2, 3, 4, 5, 6, 7] (by decide) (by decide) (by decide)
  have e : ((number [1, 2, 3, 4] : Nat) : ℚ) + (number [1, 2, 3, 4, 5, 6, 7] : Nat) /
      10 ^ [1, 2, 3, 4, 5, 6, 7].length = 12341234567 / 10000000 := by
    norm_num [number]
  rw [e] at h
  exact h

example : secondsToMs (ascii "1234.1234567") = some (some 1234123) := by decide +kernel

example : secondsToMs (ascii "23.string") = some none :=
  seconds_trailing (t := ascii "23.") (q := 23 + 0 / 10 ^ 0)
    (Written.point [2, 3] [] (by decide) (by decide) (by decide)) (c := 115) (by decide) (by decide)
    (by decide) (by decide) (by decide) (ascii "tring")

/-- The largest number of seconds with three digits behind the point for which exactness is claimed. -/
example : secondsToMs (ascii "1125899906842.623") = some (some (2 ^ 50 - 1)) := by decide +kernel

/-- Beyond that, milliseconds written out are off by one. -/
theorem seconds_exact_violated :
    secondsToMs (ascii "4482241382231.813") = some (some 4482241382231814) := by decide +kernel

/-- Half way between two milliseconds the result may be the lower one, although 0.5 is added, or the
upper one. -/
theorem seconds_half_violated :
    secondsToMs (ascii "0.5005") = some (some 500) ∧
    secondsToMs (ascii "0.0005") = some (some 1) := by
  constructor <;> decide +kernel

/-- The documentation says that other texts are refused. These are not: the empty text, an exponent,
hexadecimal digits, white space, minus zero. -/
theorem seconds_form_violated :
    secondsToMs [] = some (some 0) ∧
    secondsToMs (ascii "1e3") = some (some 1000000) ∧
    secondsToMs (ascii "0x1p4") = some (some 16000) ∧
    secondsToMs (ascii " +7.") = some (some 7000) ∧
    secondsToMs (ascii "-0") = some (some 0) := by
  refine ⟨?_, ?_, ?_, ?_, ?_⟩ <;> decide +kernel

/-- And for these the conversion is undefined behaviour. -/
theorem seconds_undefined_violated :
    secondsToMs (ascii "nan") = none ∧ secondsToMs (ascii "inf") = none ∧
    secondsToMs (ascii "1e17") = none ∧ secondsToMs (ascii "18446744073709550") = none := by
  refine ⟨?_, ?_, ?_, ?_⟩ <;> decide +kernel

end Verif.Text
