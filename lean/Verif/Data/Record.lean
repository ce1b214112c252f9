import Verif.Data.Takes
import Verif.Data.Swap
import Verif.Data.Spec
import Verif.Names.Props

/-! Reading one record. -/

namespace Verif.Data
open Verif.Buffer Verif.Event Verif.Sample Verif.Attr Verif.Names Verif.Text Verif.Util Verif.Meta Verif.Serial

theorem known_iff {t : Nat} : known t = true ↔ t ∈ understood := by
  show ([1, 2, 3, 4, 5, 6, 7, 9, 10, 11, 12, 13, 14, 15, 16, 19, 17].contains t ||
    [68, 70, 71, 72, 69, 73, 75, 76, 77, 79, 84].contains t) = true ↔ _
  simp only [understood, Bool.or_eq_true, List.contains_iff_mem, List.mem_cons, List.not_mem_nil, or_false]
  omega

/-! ## The event in memory -/

theorem swapFixed_some {e e' : RawEvent} (h : swapFixed e = some (some e')) :
    ∃ l, fixedFields e = some l ∧ swapAll l e = some e' := by
  unfold swapFixed at h
  cases hf : fixedFields e with
  | none => rw [hf] at h; cases h
  | some l =>
    rw [hf] at h
    cases hs : swapAll l e with
    | none => simp only [hs] at h; cases h
    | some e1 => simp only [hs, Option.map_some, Option.some.injEq] at h; subst h; exact ⟨l, rfl, hs⟩

theorem swapVariable_some {e e' : RawEvent} (h : swapVariable e = some (some e')) :
    ∃ l, variableFields e = some (some l) ∧ swapAll l e = some e' := by
  unfold swapVariable at h
  cases hf : variableFields e with
  | none => rw [hf] at h; cases h
  | some l =>
    rw [hf] at h
    cases l with
    | none => cases h
    | some l =>
      cases hs : swapAll l e with
      | none => simp only [hs] at h; cases h
      | some e1 => simp only [hs, Option.map_some, Option.some.injEq] at h; subst h; exact ⟨l, rfl, hs⟩

theorem decode_native {ser : Ser} {fixed : Nat} {e e' : RawEvent} (h : decode ser false fixed e = some (some e')) : e' = e := by
  unfold decode at h
  simp only [Bool.false_eq_true, if_false] at h
  split at h
  · cases h
  · cases h
  · split at h
    · cases h
    · cases h; rfl

theorem decode_foreign {ser : Ser} {fixed : Nat} {e e' : RawEvent} (h : decode ser true fixed e = some (some e')) :
    ∃ l l' e₁, fixedFields e = some l ∧ swapAll l e = some e₁ ∧ variableFields e₁ = some (some l') ∧ swapAll l' e₁ = some e' := by
  unfold decode at h
  simp only [if_true] at h
  cases hf : swapFixed e with
  | none => rw [hf] at h; cases h
  | some x =>
    cases x with
    | none => rw [hf] at h; cases h
    | some e1 =>
      rw [hf] at h
      simp only at h
      cases hv : variablePayloadSize e1 (e1.size - fixed) with
      | none => rw [hv] at h; cases h
      | some y =>
        cases y with
        | none => rw [hv] at h; cases h
        | some n =>
          rw [hv] at h
          simp only at h
          cases hw : swapVariable e1 with
          | none => rw [hw] at h; cases h
          | some z =>
            cases z with
            | none => rw [hw] at h; cases h
            | some e2 =>
              rw [hw] at h
              simp only at h
              obtain ⟨l, h1, h2⟩ := swapFixed_some hf
              obtain ⟨l', h3, h4⟩ := swapVariable_some hw
              split at h
              · cases h
              · simp only [Option.some.injEq] at h; subst h; exact ⟨l, l', e1, h1, h2, h3, h4⟩

theorem decode_same {ser : Ser} {cross : Bool} {fixed : Nat} {e e' : RawEvent} (h : decode ser cross fixed e = some (some e')) :
    e'.type = e.type ∧ e'.misc = e.misc ∧ e'.payload.length = e.payload.length := by
  cases cross
  · rw [decode_native h]; exact ⟨rfl, rfl, rfl⟩
  · obtain ⟨l, l', e1, _, h2, _, h4⟩ := decode_foreign h
    obtain ⟨a, b, c⟩ := swapAll_same h2
    obtain ⟨a', b', c'⟩ := swapAll_same h4
    exact ⟨a'.trans a, b'.trans b, c'.trans c⟩

/-- No integer behind the fixed part is swapped in these. -/
theorem variable_none {e : RawEvent} (h : e.type = MMAP ∨ e.type = MMAP2 ∨ e.type = AUXTRACE) : variableFields e = some (some []) := by
  unfold variableFields
  rcases h with h | h | h <;> (rw [h]; rfl)

theorem fixed_mmap {e : RawEvent} {l : List (Nat × Nat)} (h : fixedFields e = some l) (ht : e.type = MMAP ∨ e.type = MMAP2) :
    Apart l ∧ (24, 8) ∈ l ∧ (∀ x ∈ l, x.1 + x.2 ≤ 72) ∧
      (e.type = MMAP2 → e.misc.testBit 14 = true → ∀ x ∈ l, x.1 + x.2 ≤ 40 ∨ 64 ≤ x.1) := by
  unfold fixedFields at h
  rcases ht with ht | ht
  · simp only [ht, if_true, Option.some.injEq] at h
    subst h
    refine ⟨?_, by decide, by decide, fun h => by rw [ht] at h; cases h⟩
    simp [Apart]
  · simp only [ht, if_true, Option.some.injEq, show (MMAP2 = MMAP) ↔ False from by decide, if_false] at h
    subst h
    cases hb : e.misc.testBit 14
    · refine ⟨?_, by decide, by decide, fun _ h => by cases h⟩
      simp [Apart]
    · refine ⟨?_, by decide, by decide, fun _ _ => by decide⟩
      simp [Apart]

theorem fixed_auxtrace {e : RawEvent} {l : List (Nat × Nat)} (h : fixedFields e = some l) (ht : e.type = AUXTRACE) :
    Apart l ∧ (8, 8) ∈ l := by
  unfold fixedFields at h
  rw [ht] at h
  have h : some [(8, 8), (16, 8), (24, 8), (32, 4), (36, 4), (40, 4)] = some l := h
  simp only [Option.some.injEq] at h
  subst h
  exact ⟨by simp [Apart], by decide⟩

/-- The integer at `off` in memory is the one at `off` in the file. -/
theorem decoded_len {ser : Ser} {cross : Bool} {fixed : Nat} {e e' : RawEvent} (h : decode ser cross fixed e = some (some e'))
    (ht : e.type = MMAP ∨ e.type = MMAP2) : leNat (bytesAt e' 24 8) = decodeInt cross (bytesAt e 24 8) := by
  cases cross
  · rw [decode_native h]; rfl
  · obtain ⟨l, l', e1, h1, h2, h3, h4⟩ := decode_foreign h
    have hs := swapAll_same h2
    rw [variable_none (by rw [hs.1]; omega)] at h3
    cases h3
    cases h4
    obtain ⟨ha, hm, _⟩ := fixed_mmap h1 ht
    rw [swapAll_mem h2 ha hm]
    rfl

theorem decoded_size {ser : Ser} {cross : Bool} {fixed : Nat} {e e' : RawEvent} (h : decode ser cross fixed e = some (some e'))
    (ht : e.type = AUXTRACE) : leNat (bytesAt e' 8 8) = decodeInt cross (bytesAt e 8 8) := by
  cases cross
  · rw [decode_native h]; rfl
  · obtain ⟨l, l', e1, h1, h2, h3, h4⟩ := decode_foreign h
    have hs := swapAll_same h2
    rw [variable_none (by rw [hs.1]; omega)] at h3
    cases h3
    cases h4
    obtain ⟨ha, hm⟩ := fixed_auxtrace h1 ht
    rw [swapAll_mem h2 ha hm]
    rfl

/-- The name and the build ID of a mapping are not touched. -/
theorem decoded_name {ser : Ser} {cross : Bool} {fixed : Nat} {e e' : RawEvent} (h : decode ser cross fixed e = some (some e'))
    (ht : e.type = MMAP2) : (∀ k, bytesAt e' 72 k = bytesAt e 72 k) ∧
      (e.misc.testBit 14 = true → ∀ o k, 40 ≤ o → o + k ≤ 64 → bytesAt e' o k = bytesAt e o k) := by
  cases cross
  · rw [decode_native h]; exact ⟨fun _ => rfl, fun _ _ _ _ _ => rfl⟩
  · obtain ⟨l, l', e1, h1, h2, h3, h4⟩ := decode_foreign h
    have hs := swapAll_same h2
    rw [variable_none (by rw [hs.1]; omega)] at h3
    cases h3
    cases h4
    obtain ⟨_, _, h72, hb⟩ := fixed_mmap h1 (Or.inr ht)
    refine ⟨fun k => swapAll_other (by omega) h2 fun x hx => Or.inr (h72 x hx), fun hm o k ho hk => ?_⟩
    refine swapAll_other (by omega) h2 fun x hx => ?_
    have := hb ht hm x hx
    omega

end Verif.Data
