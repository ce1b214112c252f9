import Verif.Normalizer.Model

/-! # Lemmas about strings -/

namespace Verif.Normalizer

theorem isPrefixOf_iff {p s : Bytes} : p.isPrefixOf s = true ↔ ∃ t, s = p ++ t := by
  rw [List.isPrefixOf_iff_prefix]
  exact ⟨fun ⟨t, h⟩ => ⟨t, h.symm⟩, fun ⟨t, h⟩ => ⟨t, h.symm⟩⟩

theorem isSuffixOf_iff {p s : Bytes} : p.isSuffixOf s = true ↔ ∃ t, s = t ++ p := by
  rw [List.isSuffixOf_iff_suffix]
  exact ⟨fun ⟨t, h⟩ => ⟨t, h.symm⟩, fun ⟨t, h⟩ => ⟨t, h.symm⟩⟩

/-- The pattern occurs at a position. -/
def At (pat s : Bytes) (i : Nat) : Prop := i ≤ s.length ∧ pat.isPrefixOf (s.drop i) = true

theorem at_iff {pat s : Bytes} {i : Nat} : At pat s i ↔ ∃ a b, s = a ++ pat ++ b ∧ a.length = i := by
  constructor
  · rintro ⟨h, hp⟩
    obtain ⟨t, ht⟩ := isPrefixOf_iff.1 hp
    refine ⟨s.take i, t, ?_, by simp; omega⟩
    rw [List.append_assoc, ← ht, List.take_append_drop]
  · rintro ⟨a, b, rfl, rfl⟩
    refine ⟨by simp, isPrefixOf_iff.2 ⟨b, by simp⟩⟩

theorem findFrom_none {pat s : Bytes} {pos : Nat} :
    findFrom pat s pos = none ↔ ∀ i, pos ≤ i → ¬ At pat s i := by
  unfold findFrom
  rw [List.find?_eq_none]
  constructor
  · intro h i hi hat
    have := h i (by simp; exact Nat.lt_succ_of_le hat.1)
    simp [hi, hat.2] at this
  · intro h i hi
    simp only [List.mem_range] at hi
    intro hc
    simp only [Bool.and_eq_true, decide_eq_true_eq] at hc
    exact h i hc.1 ⟨by omega, hc.2⟩

theorem findFrom_some {pat s : Bytes} {pos i : Nat} (h : findFrom pat s pos = some i) :
    pos ≤ i ∧ At pat s i ∧ ∀ j, pos ≤ j → j < i → ¬ At pat s j := by
  unfold findFrom at h
  rw [List.find?_range_eq_some] at h
  simp only [Bool.and_eq_true, decide_eq_true_eq, List.mem_range, Bool.not_eq_true', Bool.and_eq_false_iff,
    decide_eq_false_iff_not] at h
  obtain ⟨⟨h1, h2⟩, h3, h4⟩ := h
  refine ⟨h1, ⟨by omega, h2⟩, ?_⟩
  intro j hj hji hat
  rcases h4 j hji with h5 | h5
  · exact h5 hj
  · rw [hat.2] at h5; cases h5

theorem findFrom_isSome {pat s : Bytes} {pos : Nat} :
    (findFrom pat s pos).isSome = true ↔ ∃ i, pos ≤ i ∧ At pat s i := by
  cases h : findFrom pat s pos with
  | none =>
    simp only [Option.isSome_none, Bool.false_eq_true, false_iff, not_exists, not_and]
    exact findFrom_none.1 h
  | some i => simpa using ⟨i, (findFrom_some h).1, (findFrom_some h).2.1⟩

/-- A separator after ".so". -/
def isSep (c : UInt8) : Prop := c = 46 ∨ c = 95 ∨ c = 32

/-- ".so" followed by a separator at a position. -/
def SoSep (s : Bytes) (i : Nat) : Prop := At (ascii ".so") s i ∧ ∃ c, s[i + 3]? = some c ∧ isSep c

theorem so_len {s : Bytes} {i : Nat} (h : At (ascii ".so") s i) : i + 3 ≤ s.length := by
  obtain ⟨a, b, rfl, rfl⟩ := at_iff.1 h
  simp [ascii]

theorem deletedLoop_spec (s : Bytes) (fuel : Nat) : ∀ cursor, s.length + 1 ≤ fuel + cursor →
    (deletedLoop s fuel cursor = none ↔ (fuel ≠ 0 → ∃ i, cursor ≤ i ∧ At (ascii ".so") s i ∧ i + 3 = s.length) ∧
        (fuel ≠ 0 → ¬ ∃ i, cursor ≤ i ∧ SoSep s i)) ∧
    (fuel ≠ 0 → (deletedLoop s fuel cursor = some true ↔
        ∃ i, cursor ≤ i ∧ SoSep s i ∧ ∃ j, i + 3 ≤ j ∧ At (ascii "(deleted)") s j)) := by
  induction fuel with
  | zero => intro cursor h; simp [deletedLoop]
  | succ fuel ih =>
    intro cursor hc
    unfold deletedLoop
    cases hf : findFrom (ascii ".so") s cursor with
    | none =>
      have hn := findFrom_none.1 hf
      simp only [reduceCtorEq, false_iff, Option.some.injEq, Bool.false_eq_true]
      refine ⟨?_, fun _ => ?_⟩
      · rintro ⟨h1, -⟩
        obtain ⟨i, h1, h2, -⟩ := h1 (by omega)
        exact hn i h1 h2
      · rintro ⟨i, h1, h2, -⟩
        exact hn i h1 h2.1
    | some i =>
      obtain ⟨h1, h2, h3⟩ := findFrom_some hf
      have hl := so_len h2
      dsimp only
      cases hg : s[i + 3]? with
      | none =>
        rw [List.getElem?_eq_none_iff] at hg
        have hns : ¬ ∃ j, cursor ≤ j ∧ SoSep s j := by
          rintro ⟨j, hj, hs, c, hc', -⟩
          have : j + 3 < s.length := by
            rcases Nat.lt_or_ge (j + 3) s.length with h | h
            · exact h
            · rw [List.getElem?_eq_none_iff.2 h] at hc'; cases hc'
          exact h3 j hj (by omega) hs
        refine ⟨⟨fun _ => ⟨fun _ => ⟨i, h1, h2, by omega⟩, fun _ => hns⟩, fun _ => rfl⟩, fun _ => ?_⟩
        simp only [reduceCtorEq, false_iff]
        rintro ⟨j, hj, hs, -⟩
        exact hns ⟨j, hj, hs⟩
      | some ch =>
        have hlt : i + 3 < s.length := by
          rcases Nat.lt_or_ge (i + 3) s.length with h | h
          · exact h
          · rw [List.getElem?_eq_none_iff.2 h] at hg; cases hg
        dsimp only
        by_cases hsep : ch = 46 ∨ ch = 95 ∨ ch = 32
        · rw [if_pos hsep]
          have hi : SoSep s i := ⟨h2, ch, hg, hsep⟩
          refine ⟨⟨fun h => (by cases h), fun h => absurd ⟨i, h1, hi⟩ (h.2 (by omega))⟩, fun _ => ?_⟩
          rw [Option.some.injEq, findFrom_isSome]
          constructor
          · rintro ⟨j, hj, hd⟩; exact ⟨i, h1, hi, j, hj, hd⟩
          · rintro ⟨k, hk, hs, j, hj, hd⟩
            have : i ≤ k := by
              rcases Nat.lt_or_ge k i with h | h
              · exact absurd hs.1 (h3 k hk h)
              · exact h
            exact ⟨j, by omega, hd⟩
        · rw [if_neg hsep]
          obtain ⟨g1, g2⟩ := ih (i + 3) (by omega)
          have hz : fuel ≠ 0 := by omega
          have key : ∀ k, cursor ≤ k → At (ascii ".so") s k → k = i ∨ i + 3 ≤ k := by
            intro k hk ha
            rcases Nat.lt_or_ge k i with h | h
            · exact absurd ha (h3 k hk h)
            · rcases Nat.lt_or_ge k (i + 3) with h' | h'
              · left
                obtain ⟨a, b, e1, e2⟩ := at_iff.1 h2
                obtain ⟨a', b', e1', e2'⟩ := at_iff.1 ha
                have p0 : s[i]? = some 46 := by rw [e1, ← e2]; simp [ascii]
                have p1 : s[i + 1]? = some 115 := by
                  rw [e1, ← e2, List.append_assoc, List.getElem?_append_right (by omega)]; simp [ascii]
                have p2 : s[i + 2]? = some 111 := by
                  rw [e1, ← e2, List.append_assoc, List.getElem?_append_right (by omega)]; simp [ascii]
                have q0 : s[k]? = some 46 := by rw [e1', ← e2']; simp [ascii]
                rcases (by omega : k = i ∨ k = i + 1 ∨ k = i + 2) with e | e | e
                · exact e
                · rw [e, p1] at q0; simp at q0
                · rw [e, p2] at q0; simp at q0
              · exact Or.inr h'
          have hnot : ¬ SoSep s i := by
            rintro ⟨-, c, hc', hs⟩
            rw [hg] at hc'
            cases hc'
            exact hsep hs
          constructor
          · rw [g1]
            constructor
            · rintro ⟨a, b⟩
              obtain ⟨k, hk, hk1, hk2⟩ := a hz
              refine ⟨fun _ => ⟨k, by omega, hk1, hk2⟩, fun _ => ?_⟩
              rintro ⟨j, hj, hs⟩
              rcases key j hj hs.1 with e | e
              · rw [e] at hs; exact hnot hs
              · exact b hz ⟨j, e, hs⟩
            · rintro ⟨a, b⟩
              obtain ⟨k, hk, hk1, hk2⟩ := a (by omega)
              refine ⟨fun _ => ⟨k, ?_, hk1, hk2⟩, fun _ => ?_⟩
              · rcases key k hk hk1 with e | e <;> omega
              · rintro ⟨j, hj, hs⟩
                exact b (by omega) ⟨j, by omega, hs⟩
          · intro _
            rw [g2 hz]
            constructor
            · rintro ⟨k, hk, hs, r⟩; exact ⟨k, by omega, hs, r⟩
            · rintro ⟨k, hk, hs, r⟩
              rcases key k hk hs.1 with e | e
              · rw [e] at hs; exact absurd hs hnot
              · exact ⟨k, e, hs, r⟩

theorem isDeleted_none {s : Bytes} : isDeletedSharedObject s = none ↔
    (∃ i, 1 ≤ i ∧ At (ascii ".so") s i ∧ i + 3 = s.length) ∧ ¬ ∃ i, 1 ≤ i ∧ SoSep s i := by
  unfold isDeletedSharedObject
  rw [(deletedLoop_spec s (s.length + 1) 1 (by omega)).1]
  simp

theorem isDeleted_true {s : Bytes} : isDeletedSharedObject s = some true ↔
    ∃ i, 1 ≤ i ∧ SoSep s i ∧ ∃ j, i + 3 ≤ j ∧ At (ascii "(deleted)") s j := by
  unfold isDeletedSharedObject
  exact (deletedLoop_spec s (s.length + 1) 1 (by omega)).2 (by omega)

theorem isDeleted_of_not_suffix {s : Bytes} (h : (ascii ".so").isSuffixOf s = false) :
    isDeletedSharedObject s ≠ none := by
  intro hn
  obtain ⟨⟨i, -, h2, h3⟩, -⟩ := isDeleted_none.1 hn
  obtain ⟨a, b, e, ha⟩ := at_iff.1 h2
  have : b = [] := by
    have := congrArg List.length e
    simp [ascii] at this
    exact List.length_eq_zero_iff.1 (by omega)
  subst this
  rw [List.append_nil] at e
  rw [isSuffixOf_iff.2 ⟨a, e⟩] at h
  cases h

theorem canBeMain_total (name : Bytes) : ∃ b, canBeMain name = some b := by
  unfold canBeMain
  by_cases h1 : (ascii ".ko").isSuffixOf name = true
  · rw [if_pos h1]; exact ⟨_, rfl⟩
  · rw [if_neg h1]
    by_cases h2 : (ascii ".so").isSuffixOf name = true
    · rw [if_pos h2]; exact ⟨_, rfl⟩
    · rw [if_neg h2]
      cases hd : isDeletedSharedObject name with
      | none => exact absurd hd (isDeleted_of_not_suffix (Bool.eq_false_iff.2 h2))
      | some b => cases b <;> exact ⟨_, rfl⟩

/-! ## Build IDs -/

theorem cStr_of_noNul {b : Bytes} (h : (0 : UInt8) ∉ b) : Util.cStr b = b := by
  unfold Util.cStr
  induction b with
  | nil => rfl
  | cons x t ih =>
    simp only [List.mem_cons, not_or] at h
    rw [List.takeWhile_cons_of_pos (by simpa using fun e => h.1 e.symm), ih h.2]

theorem findFrom_prefix {a b : Bytes} (h : b.isPrefixOf a = true) : findFrom b a 0 = some 0 := by
  have hat : At b a 0 := ⟨by omega, by simpa using h⟩
  cases hf : findFrom b a 0 with
  | none => exact absurd hat (findFrom_none.1 hf 0 (by omega))
  | some i =>
    have := (findFrom_some hf).2.2 0 (by omega)
    rcases Nat.eq_zero_or_pos i with h0 | h0
    · rw [h0]
    · exact absurd hat (this h0)

/-- One build ID is the other followed by zeros. -/
def PadOf (a b : Bytes) : Prop := ∃ k, a = b ++ List.replicate k 48

theorem isSamePrefix_noNul {a b : Bytes} (hb : (0 : UInt8) ∉ b) (hl : a.length < 2 ^ 64) :
    ∃ r, isSamePrefix a b = some r ∧ (r = true ↔ PadOf a b) := by
  unfold isSamePrefix restAllZero
  rw [cStr_of_noNul hb]
  by_cases hp : b.isPrefixOf a = true
  · rw [if_pos hp, findFrom_prefix hp]
    obtain ⟨t, rfl⟩ := isPrefixOf_iff.1 hp
    simp only [List.length_append] at hl
    simp only [Option.getD_some, Nat.zero_add]
    rw [Nat.mod_eq_of_lt (by omega), if_neg (by simp)]
    refine ⟨_, rfl, ?_⟩
    simp only [List.drop_left, List.all_eq_true, beq_iff_eq]
    constructor
    · intro h
      exact ⟨t.length, by rw [List.append_right_inj]; exact List.eq_replicate_iff.2 ⟨rfl, h⟩⟩
    · rintro ⟨k, hk⟩ x hx
      rw [List.append_right_inj] at hk
      rw [hk] at hx
      exact (List.mem_replicate.1 hx).2
  · rw [if_neg hp]
    refine ⟨false, rfl, ?_⟩
    simp only [Bool.false_eq_true, false_iff]
    rintro ⟨k, rfl⟩
    exact hp (isPrefixOf_iff.2 ⟨_, rfl⟩)

theorem isSameBuildId_noNul {a b : Bytes} (ha : (0 : UInt8) ∉ a) (hb : (0 : UInt8) ∉ b)
    (hla : a.length < 2 ^ 64) (hlb : b.length < 2 ^ 64) :
    ∃ r, isSameBuildId a b = some r ∧ (r = true ↔ PadOf a b ∨ PadOf b a) := by
  obtain ⟨r, h1, h2⟩ := isSamePrefix_noNul hb hla
  obtain ⟨r', h1', h2'⟩ := isSamePrefix_noNul ha hlb
  unfold isSameBuildId
  rw [h1]
  cases r with
  | true => exact ⟨true, rfl, by simp [h2.1 rfl]⟩
  | false =>
    refine ⟨r', h1', ?_⟩
    rw [h2']
    constructor
    · exact Or.inr
    · rintro (h | h)
      · exact absurd (h2.2 h) (by simp)
      · exact h

theorem hexDigit_ne_zero (n : Nat) (h : n < 16) : Util.hexDigit n ≠ 0 := by
  have : ∀ n : Fin 16, Util.hexDigit n.val ≠ 0 := by decide +kernel
  exact this ⟨n, h⟩

theorem hexOf_noNul (b : Bytes) : (0 : UInt8) ∉ hexOf b := by
  unfold hexOf
  intro h
  rw [List.mem_flatMap] at h
  obtain ⟨x, -, h⟩ := h
  have := x.toNat_lt
  simp only [List.mem_cons, List.not_mem_nil, or_false] at h
  rcases h with h | h
  · exact hexDigit_ne_zero _ (by omega) h.symm
  · exact hexDigit_ne_zero _ (by omega) h.symm

theorem hexOf_length (b : Bytes) : (hexOf b).length = 2 * b.length := by
  unfold hexOf
  induction b with
  | nil => rfl
  | cons x t ih => simp only [List.flatMap_cons, List.length_append, ih, List.length_cons, List.length_nil]; omega

theorem hexDigit_inj {a b : Nat} (ha : a < 16) (hb : b < 16) (h : Util.hexDigit a = Util.hexDigit b) : a = b := by
  have : ∀ a b : Fin 16, Util.hexDigit a.val = Util.hexDigit b.val → a = b := by decide +kernel
  have := this ⟨a, ha⟩ ⟨b, hb⟩ h
  simpa using this

theorem hexOf_inj : ∀ {a b : Bytes}, hexOf a = hexOf b → a = b
  | [], [], _ => rfl
  | [], y :: t, h => by have := congrArg List.length h; simp [hexOf_length] at this
  | x :: s, [], h => by have := congrArg List.length h; simp [hexOf_length] at this
  | x :: s, y :: t, h => by
    unfold hexOf at h
    simp only [List.flatMap_cons, List.cons_append, List.nil_append, List.cons.injEq] at h
    have h1 := x.toNat_lt
    have h2 := y.toNat_lt
    have e1 := hexDigit_inj (by omega) (by omega) h.1
    have e2 := hexDigit_inj (by omega) (by omega) h.2.1
    have : x = y := UInt8.toNat_inj.1 (by omega)
    rw [this, hexOf_inj (a := s) (b := t) h.2.2]

end Verif.Normalizer
