import Verif.Text.Seconds
import Mathlib.Algebra.Order.Field.Rat
import Mathlib.Data.Rat.Cast.Order
import Mathlib.Tactic.Linarith
import Mathlib.Tactic.FieldSimp
import Mathlib.Tactic.Positivity
import Mathlib.Tactic.Ring
import Mathlib.Tactic.NormNum

/-! # Lemmas about rounding to doubles -/

namespace Verif.Text
open Verif.Util

theorem nearest_close (n : Nat) {d : Nat} (hd : 0 < d) :
    2 * n ≤ 2 * (nearest n d * d) + d ∧ 2 * (nearest n d * d) ≤ 2 * n + d := by
  have h1 := Nat.div_add_mod n d
  have h2 := Nat.mod_lt n hd
  have h3 : n / d * d = d * (n / d) := Nat.mul_comm _ _
  have h4 : (n / d + 1) * d = d * (n / d) + d := by ring
  unfold nearest
  split
  · rw [h3]; omega
  · rw [h4]; omega

theorem nearest_le {n d c : Nat} (hd : 0 < d) (h : n ≤ c * d) : nearest n d ≤ c := by
  have h1 : n / d ≤ c := Nat.div_le_of_le_mul (by rw [Nat.mul_comm]; exact h)
  unfold nearest
  split
  · exact h1
  · rename_i hn
    by_cases he : n / d = c
    · exfalso
      apply hn
      have h2 := Nat.div_add_mod n d
      rw [he, Nat.mul_comm] at h2
      left; omega
    · omega

theorem le_nearest {n d c : Nat} (hd : 0 < d) (h : c * d ≤ n) : c ≤ nearest n d := by
  have := (Nat.le_div_iff_mul_le hd).mpr h
  unfold nearest
  split <;> omega

theorem nearest_mono {n1 d1 n2 d2 : Nat} (h1 : 0 < d1) (h2 : 0 < d2) (h : n1 * d2 ≤ n2 * d1) :
    nearest n1 d1 ≤ nearest n2 d2 := by
  have hq : n1 / d1 ≤ n2 / d2 := by
    rw [Nat.le_div_iff_mul_le h2]
    have := Nat.div_mul_le_self n1 d1
    have h3 : n1 / d1 * d2 * d1 ≤ n2 * d1 := by
      calc n1 / d1 * d2 * d1 = (n1 / d1 * d1) * d2 := by ring
        _ ≤ n1 * d2 := Nat.mul_le_mul_right _ this
        _ ≤ n2 * d1 := h
    exact Nat.le_of_mul_le_mul_right h3 h1
  by_cases hlt : n1 / d1 < n2 / d2
  · have : nearest n1 d1 ≤ n1 / d1 + 1 := by unfold nearest; split <;> omega
    have : n2 / d2 ≤ nearest n2 d2 := by unfold nearest; split <;> omega
    omega
  · have he : n1 / d1 = n2 / d2 := by omega
    have e1 := Nat.div_add_mod n1 d1
    have e2 := Nat.div_add_mod n2 d2
    have hr : (n1 % d1) * d2 ≤ (n2 % d2) * d1 := by
      have : (d1 * (n1 / d1) + n1 % d1) * d2 ≤ (d2 * (n2 / d2) + n2 % d2) * d1 := by
        rw [e1, e2]; exact h
      rw [← he] at this
      have a1 : (d1 * (n1 / d1) + n1 % d1) * d2 = d1 * d2 * (n1 / d1) + (n1 % d1) * d2 := by ring
      have a2 : (d2 * (n1 / d1) + n2 % d2) * d1 = d1 * d2 * (n1 / d1) + (n2 % d2) * d1 := by ring
      rw [a1, a2] at this
      omega
    unfold nearest
    rw [← he]
    split
    · split <;> omega
    · rename_i hn
      rw [if_neg]
      intro hc
      apply hn
      rcases hc with hc | ⟨hc, hp⟩
      · left
        have : 2 * ((n1 % d1) * d2) < d2 * d1 := by
          calc 2 * ((n1 % d1) * d2) ≤ 2 * ((n2 % d2) * d1) := by omega
            _ = (2 * (n2 % d2)) * d1 := by ring
            _ < d2 * d1 := Nat.mul_lt_mul_of_pos_right hc h1
        have : (2 * (n1 % d1)) * d2 < d1 * d2 := by
          calc (2 * (n1 % d1)) * d2 = 2 * ((n1 % d1) * d2) := by ring
            _ < d2 * d1 := this
            _ = d1 * d2 := by ring
        exact Nat.lt_of_mul_lt_mul_right this
      · have : (2 * (n1 % d1)) * d2 ≤ d1 * d2 := by
          calc (2 * (n1 % d1)) * d2 = 2 * ((n1 % d1) * d2) := by ring
            _ ≤ 2 * ((n2 % d2) * d1) := by omega
            _ = (2 * (n2 % d2)) * d1 := by ring
            _ = d1 * d2 := by rw [hc]; ring
        have := Nat.le_of_mul_le_mul_right this h2
        rcases Nat.lt_or_ge (2 * (n1 % d1)) d1 with h5 | h5
        · left; exact h5
        · right; exact ⟨by omega, hp⟩

theorem ulp_pos (x : Nat) : 0 < ulp x := Nat.pos_of_ne_zero (by unfold ulp; exact Nat.ne_of_gt (Nat.two_pow_pos _))

theorem ulp_le (x : Nat) : ulp x = 1 ∨ ulp x * 2 ^ 52 ≤ x := by
  unfold ulp
  by_cases h : x.log2 ≤ 52
  · left; rw [Nat.sub_eq_zero_of_le h, Nat.pow_zero]
  · right
    rw [← Nat.pow_add, Nat.sub_add_cancel (by omega)]
    apply Nat.log2_self_le
    rintro rfl
    simp at h

theorem ulp_mono {x y : Nat} (h : x ≤ y) : ulp x ≤ ulp y := by
  unfold ulp
  apply Nat.pow_le_pow_right (by decide)
  have : x.log2 ≤ y.log2 := by
    rcases Nat.eq_zero_or_pos x with rfl | hx
    · simp
    · rw [Nat.le_log2 (by omega)]
      exact Nat.le_trans (Nat.log2_self_le (by omega)) h
  omega

/-- The number of units a quotient rounds to, without the limit to finite doubles. -/
def rounded (n d : Nat) : Nat :=
  nearest (n * 2 ^ 1074) (d * ulp (n * 2 ^ 1074 / d)) * ulp (n * 2 ^ 1074 / d)

theorem toDouble_eq (n d : Nat) :
    toDouble n d = if rounded n d < 2 ^ 2098 then .fin (rounded n d) else .inf := rfl

/-- A number below a power of two rounds at most to that power. -/
theorem rounded_le_pow {n d e : Nat} (hd : 0 < d) (h : n * 2 ^ 1074 / d < 2 ^ e) (he : 52 ≤ e) :
    rounded n d ≤ 2 ^ e := by
  unfold rounded
  generalize hx : n * 2 ^ 1074 / d = x at *
  generalize n * 2 ^ 1074 = N at *
  have hl : x.log2 - 52 ≤ e := by
    rcases Nat.eq_zero_or_pos x with rfl | hx0
    · simp
    · have := (Nat.log2_lt (by omega)).mpr h
      omega
  have hu : 2 ^ (e - (x.log2 - 52)) * ulp x = 2 ^ e := by
    unfold ulp
    rw [← Nat.pow_add, Nat.sub_add_cancel hl]
  have hN : N ≤ 2 ^ e * d := by
    rw [← hx] at h
    exact Nat.le_of_lt ((Nat.div_lt_iff_lt_mul hd).mp h)
  have : nearest N (d * ulp x) ≤ 2 ^ (e - (x.log2 - 52)) := by
    apply nearest_le (Nat.mul_pos hd (ulp_pos x))
    calc N ≤ 2 ^ e * d := hN
      _ = 2 ^ (e - (x.log2 - 52)) * (d * ulp x) := by rw [← hu]; ring
  calc nearest N (d * ulp x) * ulp x ≤ 2 ^ (e - (x.log2 - 52)) * ulp x :=
        Nat.mul_le_mul_right _ this
    _ = 2 ^ e := hu

/-- A number from a power of two on rounds at least to that power. -/
theorem pow_le_rounded {n d e : Nat} (hd : 0 < d) (h : 2 ^ e ≤ n * 2 ^ 1074 / d)
    (hl : (n * 2 ^ 1074 / d).log2 = e) : 2 ^ e ≤ rounded n d := by
  unfold rounded
  generalize hx : n * 2 ^ 1074 / d = x at *
  generalize n * 2 ^ 1074 = N at *
  have hu : 2 ^ (e - (e - 52)) * ulp x = 2 ^ e := by
    unfold ulp
    rw [hl, ← Nat.pow_add, Nat.sub_add_cancel (by omega)]
  have hN : 2 ^ e * d ≤ N := by
    rw [← hx] at h
    exact (Nat.le_div_iff_mul_le hd).mp h
  have : 2 ^ (e - (e - 52)) ≤ nearest N (d * ulp x) := by
    apply le_nearest (Nat.mul_pos hd (ulp_pos x))
    calc 2 ^ (e - (e - 52)) * (d * ulp x) = 2 ^ e * d := by rw [← hu]; ring
      _ ≤ N := hN
  calc 2 ^ e = 2 ^ (e - (e - 52)) * ulp x := hu.symm
    _ ≤ nearest N (d * ulp x) * ulp x := Nat.mul_le_mul_right _ this

/-- Rounding keeps the order of numbers. -/
theorem rounded_mono {n1 d1 n2 d2 : Nat} (h1 : 0 < d1) (h2 : 0 < d2) (h : n1 * d2 ≤ n2 * d1) :
    rounded n1 d1 ≤ rounded n2 d2 := by
  have hN : n1 * 2 ^ 1074 * d2 ≤ n2 * 2 ^ 1074 * d1 := by
    calc n1 * 2 ^ 1074 * d2 = n1 * d2 * 2 ^ 1074 := by ring
      _ ≤ n2 * d1 * 2 ^ 1074 := Nat.mul_le_mul_right _ h
      _ = n2 * 2 ^ 1074 * d1 := by ring
  have hx : n1 * 2 ^ 1074 / d1 ≤ n2 * 2 ^ 1074 / d2 := by
    rw [Nat.le_div_iff_mul_le h2]
    have := Nat.div_mul_le_self (n1 * 2 ^ 1074) d1
    have h3 : n1 * 2 ^ 1074 / d1 * d2 * d1 ≤ n2 * 2 ^ 1074 * d1 := by
      calc n1 * 2 ^ 1074 / d1 * d2 * d1 = (n1 * 2 ^ 1074 / d1 * d1) * d2 := by ring
        _ ≤ n1 * 2 ^ 1074 * d2 := Nat.mul_le_mul_right _ this
        _ ≤ n2 * 2 ^ 1074 * d1 := hN
    exact Nat.le_of_mul_le_mul_right h3 h1
  by_cases hu : ulp (n1 * 2 ^ 1074 / d1) = ulp (n2 * 2 ^ 1074 / d2)
  · unfold rounded
    rw [hu]
    apply Nat.mul_le_mul_right
    apply nearest_mono (Nat.mul_pos h1 (ulp_pos _)) (Nat.mul_pos h2 (ulp_pos _))
    calc n1 * 2 ^ 1074 * (d2 * ulp (n2 * 2 ^ 1074 / d2))
        = n1 * 2 ^ 1074 * d2 * ulp (n2 * 2 ^ 1074 / d2) := by ring
      _ ≤ n2 * 2 ^ 1074 * d1 * ulp (n2 * 2 ^ 1074 / d2) := Nat.mul_le_mul_right _ hN
      _ = n2 * 2 ^ 1074 * (d1 * ulp (n2 * 2 ^ 1074 / d2)) := by ring
  · have hlog : (n1 * 2 ^ 1074 / d1).log2 - 52 < (n2 * 2 ^ 1074 / d2).log2 - 52 := by
      have hm := ulp_mono hx
      unfold ulp at hu hm
      have := (Nat.pow_le_pow_iff_right (by decide : 1 < 2)).mp hm
      rcases Nat.lt_or_ge ((n1 * 2 ^ 1074 / d1).log2 - 52) ((n2 * 2 ^ 1074 / d2).log2 - 52) with h' | h'
      · exact h'
      · exact absurd (by rw [Nat.le_antisymm this h']) hu
    have hx2 : n2 * 2 ^ 1074 / d2 ≠ 0 := by
      intro e; rw [e] at hlog; simp at hlog
    have ha : rounded n1 d1 ≤ 2 ^ (n2 * 2 ^ 1074 / d2).log2 := by
      apply rounded_le_pow h1 _ (by omega)
      rcases Nat.eq_zero_or_pos (n1 * 2 ^ 1074 / d1) with h0 | h0
      · rw [h0]; positivity
      · rw [← Nat.log2_lt (by omega)]; omega
    exact Nat.le_trans ha (pow_le_rounded h2 (Nat.log2_self_le hx2) rfl)

/-- How far rounding goes: half a unit of the last place. -/
theorem rounded_close {n d : Nat} (hd : 0 < d) :
    |(rounded n d : ℚ) - (n : ℚ) * 2 ^ 1074 / d| ≤ (n : ℚ) * 2 ^ 1074 / d / 2 ^ 53 + 1 / 2 := by
  have hd' : (0 : ℚ) < d := by exact_mod_cast hd
  have hu := ulp_pos (n * 2 ^ 1074 / d)
  have hc := nearest_close (n * 2 ^ 1074) (Nat.mul_pos hd hu)
  have hl := ulp_le (n * 2 ^ 1074 / d)
  have hr : rounded n d =
    nearest (n * 2 ^ 1074) (d * ulp (n * 2 ^ 1074 / d)) * ulp (n * 2 ^ 1074 / d) := rfl
  have hdiv : ((n * 2 ^ 1074 / d : Nat) : ℚ) ≤ (n * 2 ^ 1074 : Nat) / d := by
    rw [le_div_iff₀ hd']
    exact_mod_cast Nat.div_mul_le_self (n * 2 ^ 1074) d
  generalize n * 2 ^ 1074 / d = x at *
  have hN : ((n : ℚ) * 2 ^ 1074) = ((n * 2 ^ 1074 : Nat) : ℚ) := by push_cast; rfl
  rw [hN]
  generalize n * 2 ^ 1074 = N at *
  generalize hk : nearest N (d * ulp x) = k at *
  rw [hr]
  generalize ulp x = u at *
  have hX : (N : ℚ) / d * d = N := div_mul_cancel₀ _ (ne_of_gt hd')
  generalize hXX : (N : ℚ) / d = X at *
  have c1 : (2 * N : ℚ) ≤ 2 * (k * (d * u)) + d * u := by exact_mod_cast hc.1
  have c2 : (2 * (k * (d * u)) : ℚ) ≤ 2 * N + d * u := by exact_mod_cast hc.2
  rw [← hX] at c1 c2
  have hbound : (u : ℚ) ≤ X / 2 ^ 52 + 1 := by
    have hX0 : 0 ≤ X := by rw [← hXX]; positivity
    rcases hl with hl | hl
    · rw [hl]; push_cast; linarith [div_nonneg hX0 (by positivity : (0 : ℚ) ≤ 2 ^ 52)]
    · have : (u : ℚ) * 2 ^ 52 ≤ x := by exact_mod_cast hl
      have : (u : ℚ) ≤ X / 2 ^ 52 := by rw [le_div_iff₀ (by positivity)]; linarith
      linarith
  have d1 : 2 * X ≤ 2 * (k * u) + u := by
    have : (2 * X) * d ≤ (2 * (k * u) + u) * d := by linarith
    exact le_of_mul_le_mul_right this hd'
  have d2 : 2 * (k * u : ℚ) ≤ 2 * X + u := by
    have : (2 * (k * u : ℚ)) * d ≤ (2 * X + u) * d := by linarith
    exact le_of_mul_le_mul_right this hd'
  push_cast
  rw [abs_le]
  have e : X / 2 ^ 53 = X / 2 ^ 52 / 2 := by ring
  constructor <;> linarith

end Verif.Text
