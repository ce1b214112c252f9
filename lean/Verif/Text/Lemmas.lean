import Verif.Text.Model
import Verif.Text.Spec
import Verif.Util.Lemmas
import Verif.Base.Lists

namespace Verif.Text
open Verif.Util

/-! ### Splitting -/

theorem splitString_nil (d : UInt8) : splitString d [] = [] := by
  rw [splitString.eq_def]

theorem splitString_last {d : UInt8} {a : List UInt8} (h : d ∉ a) (ha : a ≠ []) :
    splitString d a = [a] := by
  obtain ⟨c, t, rfl⟩ := List.exists_cons_of_ne_nil ha
  rw [splitString.eq_def]
  have : (c :: t).takeWhile (· ≠ d) = c :: t := by
    apply takeWhile_all
    intro x hx
    simp only [ne_eq, decide_eq_true_eq]
    rintro rfl
    exact h hx
  simp only [this]
  rw [List.drop_eq_nil_of_le (by simp), splitString_nil]

theorem splitString_cons {d : UInt8} {a b : List UInt8} (h : d ∉ a) :
    splitString d (a ++ d :: b) = a :: splitString d b := by
  have htw : (a ++ d :: b).takeWhile (· ≠ d) = a := by
    rw [List.takeWhile_append_of_pos]
    · simp
    · intro x hx
      simp only [ne_eq, decide_eq_true_eq]
      rintro rfl
      exact h hx
  have hne : a ++ d :: b ≠ [] := by simp
  obtain ⟨c, t, hct⟩ := List.exists_cons_of_ne_nil hne
  rw [splitString.eq_def, hct]
  simp only
  rw [← hct, htw]
  congr 2
  rw [List.drop_append, List.drop_eq_nil_of_le (by omega)]
  simp [show a.length + 1 - a.length = 1 by omega]

/-- Every token but the delimiters: the tokens contain no delimiter. -/
theorem splitString_no_delim (d : UInt8) (s : List UInt8) :
    ∀ t ∈ splitString d s, d ∉ t := by
  fun_induction splitString d s with
  | case1 => simp
  | case2 c t token ih =>
    intro x hx
    rcases List.mem_cons.mp hx with rfl | hx
    · intro hd
      have := mem_takeWhile_imp hd
      simp at this
    · exact ih x hx

/-! ### Decimal numbers -/

theorem dec_digits (n : Nat) : ∀ c ∈ dec n, 48 ≤ c ∧ c ≤ 57 := by
  have key : ∀ k, k < 10 → (48 : UInt8) ≤ UInt8.ofNat (48 + k) ∧ UInt8.ofNat (48 + k) ≤ 57 := by
    decide +kernel
  fun_induction dec n with
  | case1 n h => simpa using key n h
  | case2 n h ih =>
    intro c hc
    rcases List.mem_append.mp hc with hc | hc
    · exact ih c hc
    · rw [List.mem_singleton.mp hc]
      exact key _ (by omega)

theorem dec_ne_nil (n : Nat) : dec n ≠ [] := by
  rw [dec]; split <;> simp

theorem digitVal_dec : ∀ k, k < 10 → digitVal (UInt8.ofNat (48 + k)) = some k := by decide +kernel

theorem readDigits_dec (n acc : Nat) (t : List UInt8) :
    ∃ len, 0 < len ∧ readDigits 10 acc (dec n ++ t) =
      (let r := readDigits 10 (acc * 10 ^ len + n) t; (r.1, r.2.1 + len, r.2.2)) := by
  induction n using Nat.strongRecOn generalizing acc t with
  | _ n ih =>
  rw [dec]
  split
  · rename_i h
    refine ⟨1, by omega, ?_⟩
    simp only [List.singleton_append, readDigits, digitVal_dec n h, h, if_true, Nat.pow_one]
  · rename_i h
    obtain ⟨len, h0, hr⟩ := ih (n / 10) (by omega) acc ([UInt8.ofNat (48 + n % 10)] ++ t)
    refine ⟨len + 1, by omega, ?_⟩
    rw [List.append_assoc, hr]
    have hm : n % 10 < 10 := by omega
    simp only [List.singleton_append, readDigits, digitVal_dec _ hm, hm, if_true]
    have e : (acc * 10 ^ len + n / 10) * 10 + n % 10 = acc * 10 ^ (len + 1) + n := by
      rw [Nat.add_mul, Nat.pow_succ, Nat.mul_assoc]; omega
    rw [e]
    simp only [Nat.add_assoc, Nat.add_comm 1 len]

theorem strto_dec (n : Nat) : strto 10 (dec n) = (false, n, []) := by
  have hd := dec_digits n
  have hc : cStr (dec n) = dec n := by
    unfold cStr
    apply takeWhile_all
    intro x hx
    have := hd x hx
    simp only [ne_eq, decide_eq_true_eq]
    rintro rfl
    exact absurd this.1 (by decide)
  obtain ⟨c, t, hct⟩ := List.exists_cons_of_ne_nil (dec_ne_nil n)
  have hcd := hd c (by rw [hct]; simp)
  have hs : isSpace c = false := by
    simp only [isSpace, Bool.or_eq_false_iff, Bool.and_eq_false_iff, beq_eq_false_iff_ne,
      decide_eq_false_iff_not]
    have h1 := UInt8.le_iff_toNat_le.mp hcd.1
    simp at h1
    constructor
    · rintro rfl; simp at h1
    · right; intro h; have := UInt8.le_iff_toNat_le.mp h; simp at this; omega
  have hm : c ≠ 45 := by rintro rfl; exact absurd hcd.1 (by decide)
  have hp : c ≠ 43 := by rintro rfl; exact absurd hcd.1 (by decide)
  have hdw : (dec n).dropWhile isSpace = dec n := by rw [hct]; simp [hs]
  obtain ⟨len, hl, hr⟩ := readDigits_dec n 0 []
  have hnil : ∀ acc, readDigits 10 acc [] = (acc, 0, []) := fun _ => rfl
  simp only [List.append_nil, hnil, Nat.zero_mul, Nat.zero_add] at hr
  unfold strto
  simp only [hc, hdw]
  rw [hct]
  simp only [hm, hp, if_false]
  rw [← hct]
  rw [if_neg (show ¬ (10 : Nat) = 16 by decide)]
  simp only [hr]
  have : ¬ len = 0 := by omega
  simp [this]

theorem stou32_dec {n : Nat} (h : n < 2 ^ 32) : stou32 (dec n) = some n := by
  unfold stou32 strtoul10
  rw [strto_dec]
  have : ¬ n ≥ 2 ^ 64 := by omega
  simp [this, Nat.mod_eq_of_lt h]

theorem dec_no {n : Nat} {c : UInt8} (hc : c = 44 ∨ c = 45) : c ∉ dec n := by
  intro h
  have := (dec_digits n c h).1
  rcases hc with rfl | rfl <;> exact absurd this (by decide)

/-! ### CPU lists -/

theorem parseToken_single {n : Nat} (h : n < 2 ^ 32) : parseToken (dec n) = .ok [n] := by
  unfold parseToken
  rw [splitString_last (dec_no (Or.inr rfl)) (dec_ne_nil n)]
  simp [stou32_dec h]

theorem parseToken_range {a b : Nat} (hab : a < b) (hb : b < 2 ^ 32 - 1) :
    parseToken (dec a ++ [45] ++ dec b) = .ok (List.range' a (b - a + 1)) := by
  unfold parseToken
  rw [List.append_assoc, List.singleton_append, splitString_cons (dec_no (Or.inr rfl)),
    splitString_last (dec_no (Or.inr rfl)) (dec_ne_nil b)]
  simp only [stou32_dec (show a < 2 ^ 32 by omega), stou32_dec (show b < 2 ^ 32 by omega)]
  rw [if_neg (by omega), if_neg (by omega)]

/-- The group found by the inner loop on an increasing list. -/
theorem runEnd_spec (c : Nat) (t : List Nat) (hp : (c :: t).Pairwise (· < ·))
    (hlt : ∀ x ∈ c :: t, x < 2 ^ 32) :
    (runEnd c t).1 = c + (runEnd c t).2.1 ∧
    t = List.range' (c + 1) (runEnd c t).2.1 ++ (runEnd c t).2.2 := by
  induction t generalizing c with
  | nil => simp [runEnd]
  | cons x t ih =>
    have hx : c < x := (List.pairwise_cons.mp hp).1 x (by simp)
    have hx32 : x < 2 ^ 32 := hlt x (by simp)
    have hw : (c + 1) % 2 ^ 32 = c + 1 := Nat.mod_eq_of_lt (by omega)
    simp only [runEnd, hw]
    split
    · simp
    · rename_i h
      have hxe : x = c + 1 := by omega
      obtain ⟨h1, h2⟩ := ih x (List.pairwise_cons.mp hp).2 (fun y hy => hlt y (by simp [hy]))
      subst hxe
      refine ⟨by rw [h1]; simp only; omega, ?_⟩
      rw [List.range'_succ, List.cons_append]
      exact congrArg _ h2

theorem formatLoop_parse (cpus : List Nat) (hp : cpus.Pairwise (· < ·))
    (hlt : ∀ x ∈ cpus, x < 2 ^ 32) (htop : ¬ (2 ^ 32 - 2 ∈ cpus ∧ 2 ^ 32 - 1 ∈ cpus)) :
    ∃ tokens, parseTokens tokens = .ok cpus ∧ (cpus ≠ [] → tokens ≠ []) ∧
      splitString 44 (formatLoop true cpus) = tokens ∧
      (cpus ≠ [] → formatLoop false cpus = 44 :: formatLoop true cpus) := by
  induction h : cpus.length using Nat.strongRecOn generalizing cpus with
  | _ n ih =>
  subst h
  match cpus with
  | [] => exact ⟨[], rfl, by simp, by simp [formatLoop, splitString_nil], by simp⟩
  | c :: t =>
    obtain ⟨hl, ht⟩ := runEnd_spec c t hp hlt
    have hlen := runEnd_length c t
    generalize hl' : (runEnd c t).1 = l at *
    generalize hk' : (runEnd c t).2.1 = k at *
    generalize hr' : (runEnd c t).2.2 = r at *
    have hsub : ∀ x ∈ r, x ∈ c :: t := by intro x hx; rw [ht]; simp [hx]
    have hpr : r.Pairwise (· < ·) := by
      rw [ht] at hp
      exact (List.pairwise_append.mp (List.pairwise_cons.mp hp).2).2.1
    obtain ⟨toks, hpt, htn, hst, hfc⟩ := ih r.length (by simp; omega) r hpr
      (fun x hx => hlt x (hsub x hx)) (fun ⟨a, b⟩ => htop ⟨hsub _ a, hsub _ b⟩) rfl
    -- the text of the first group and what it parses to
    let tok := if k = 0 then dec c else dec c ++ [45] ++ dec l
    have htok : parseToken tok = .ok (c :: List.range' (c + 1) k) ∧ (44 : UInt8) ∉ tok ∧ tok ≠ [] := by
      by_cases hk : k = 0
      · simp only [tok, hk, if_true, List.range'_zero]
        exact ⟨parseToken_single (hlt c (by simp)), dec_no (Or.inl rfl), dec_ne_nil c⟩
      · simp only [tok, hk, if_false]
        have hmem : l ∈ c :: t := by
          rw [ht]; simp only [List.mem_cons, List.mem_append, List.mem_range'_1]; omega
        have hmem1 : l - 1 ∈ c :: t := by
          rw [ht]; simp only [List.mem_cons, List.mem_append, List.mem_range'_1]; omega
        have hltop : l < 2 ^ 32 - 1 := by
          have h1 := hlt l hmem
          rcases Nat.lt_or_ge l (2 ^ 32 - 1) with h | h
          · exact h
          · have he : l = 2 ^ 32 - 1 := by omega
            exact absurd ⟨by rw [he] at hmem1; exact hmem1, by rw [he] at hmem; exact hmem⟩ htop
        refine ⟨?_, ?_, by simp⟩
        · rw [parseToken_range (by omega) hltop]
          rw [show l - c + 1 = k + 1 by omega, List.range'_succ]
        · simp only [List.mem_append, List.mem_singleton, not_or]
          exact ⟨⟨dec_no (Or.inl rfl), by decide⟩, dec_no (Or.inl rfl)⟩
    have hfm : ∀ first, formatLoop first (c :: t) =
        (if first then [] else [44]) ++ tok ++ formatLoop false r := by
      intro first
      rw [formatLoop]
      simp only [hl', hk', hr', tok]
    refine ⟨tok :: toks, ?_, by simp, ?_, ?_⟩
    · simp only [parseTokens, htok.1, hpt]
      rw [List.cons_append, ← ht]
    · rw [hfm true]
      simp only [if_true, List.nil_append]
      by_cases hr0 : r = []
      · subst hr0
        have : formatLoop false [] = [] := by simp [formatLoop]
        rw [this, List.append_nil, splitString_last htok.2.1 htok.2.2]
        rw [show formatLoop true [] = [] by simp [formatLoop], splitString_nil] at hst
        rw [hst]
      · rw [hfc hr0, splitString_cons htok.2.1, hst]
    · intro _
      rw [hfm false, hfm true]
      simp

/-! ### Build-ID strings -/

theorem trimZeroes_append (s : List UInt8) (k : Nat) : trimZeroes (s ++ zeros (8 * k)) = trimZeroes s := by
  induction k with
  | zero => simp [zeros]
  | succ k ih =>
    rw [trimZeroes]
    have hl : (s ++ zeros (8 * (k + 1))).length = s.length + 8 * k + 8 := by simp [zeros]; omega
    have he : s ++ zeros (8 * (k + 1)) = (s ++ zeros (8 * k)) ++ zeros 8 := by
      rw [List.append_assoc, zeros, zeros, zeros, List.replicate_append_replicate]
      congr 2
    have hl2 : (s ++ zeros (8 * k)).length = s.length + 8 * k := by simp [zeros]
    rw [hl, show s.length + 8 * k + 8 - 8 = (s ++ zeros (8 * k)).length by rw [hl2]; omega, he,
      List.drop_left', List.take_left']
    · rw [if_pos ⟨by omega, rfl⟩]; exact ih
    · rfl
    · rfl

theorem trimZeroes_spec (s : List UInt8) :
    (∃ k, s = trimZeroes s ++ zeros (8 * k)) ∧ ¬ zeros 8 <:+ trimZeroes s := by
  fun_induction trimZeroes s with
  | case1 s h ih =>
    obtain ⟨⟨k, hk⟩, hn⟩ := ih
    refine ⟨⟨k + 1, ?_⟩, hn⟩
    conv => lhs; rw [← List.take_append_drop (s.length - 8) s, h.2, hk]
    rw [List.append_assoc, zeros, zeros, List.replicate_append_replicate]
    congr 2
  | case2 s h =>
    refine ⟨⟨0, by simp [zeros]⟩, ?_⟩
    rintro ⟨t, ht⟩
    apply h
    have hl : s.length = t.length + 8 := by rw [← ht]; simp [zeros]
    refine ⟨by omega, ?_⟩
    rw [hl, show t.length + 8 - 8 = t.length by omega, ← ht, List.drop_left']
    · rfl
    · rfl

/-! ### Paths -/

theorem skipSlashes_at {a s b : List UInt8} (hs : ∀ c ∈ s, c = 47) (hb : b.head? ≠ some 47) :
    skipSlashes (a ++ s ++ b) a.length = a.length + s.length := by
  unfold skipSlashes
  rw [List.append_assoc, List.drop_left', List.takeWhile_append_of_pos]
  · congr 1
    rw [List.length_append]
    have : b.takeWhile (· == 47) = [] := by
      cases b with
      | nil => rfl
      | cons x t =>
        have : x ≠ 47 := by simpa using hb
        simp [this]
    rw [this]; rfl
  · intro c hc; simp [hs c hc]
  · rfl

theorem findFrom_at {a s b : List UInt8} (hs : (47 : UInt8) ∉ s) :
    findFrom (a ++ s ++ 47 :: b) 47 a.length = some (a.length + s.length) := by
  unfold findFrom
  rw [List.append_assoc, List.drop_left']
  · have : (s ++ 47 :: b).findIdx? (· == (47 : UInt8)) = some s.length := by
      induction s with
      | nil => simp [List.findIdx?_cons]
      | cons x t ih =>
        have hx : x ≠ 47 := by rintro rfl; exact hs (by simp)
        have := ih (fun h => hs (by simp [h]))
        simp [List.findIdx?_cons, hx, this]
    rw [this]; simp [Nat.add_comm]
  · rfl

theorem findFrom_none {a s : List UInt8} (hs : (47 : UInt8) ∉ s) :
    findFrom (a ++ s) 47 a.length = none := by
  unfold findFrom
  rw [List.drop_left']
  · have : s.findIdx? (· == (47 : UInt8)) = none := by
      rw [List.findIdx?_eq_none_iff]
      intro x hx
      simp only [beq_eq_false_iff_ne]
      rintro rfl
      exact hs hx
    rw [this]; rfl
  · rfl

theorem rootPath_general {s : List UInt8} (hsp : ¬ SpecialName s) (h0 : s.head? = some 47) :
    rootPath s = s.take (rootLoop s 2 (skipSlashes s 1) (skipSlashes s 1)) := by
  unfold SpecialName at hsp
  simp only [not_or] at hsp
  unfold rootPath
  rw [if_neg (by simpa using hsp.1), if_neg (by simpa using hsp.2.1), if_neg (by simpa using hsp.2.2),
    if_neg (by simp [h0])]

theorem skipSlashes_start {s b : List UInt8} (hs : Slashes s) (hb : b.head? ≠ some 47) :
    skipSlashes (s ++ b) 1 = s.length := by
  obtain ⟨hne, hall⟩ := hs
  obtain ⟨c, t, rfl⟩ := List.exists_cons_of_ne_nil hne
  have := skipSlashes_at (a := [c]) (s := t) (b := b) (fun x hx => hall x (by simp [hx])) hb
  simpa [Nat.add_comm] using this

end Verif.Text
