import Verif.Event.Props

/-! The data size of an event does not depend on the sample data behind it. -/

namespace Verif.Event
open Verif.Buffer

theorem takeWhile_length_local {p : UInt8 → Bool} : ∀ {l l' : List UInt8},
    (l.takeWhile p).length < l.length → l.take ((l.takeWhile p).length + 1) = l'.take ((l.takeWhile p).length + 1) →
    (l'.takeWhile p).length = (l.takeWhile p).length
  | [], _, h, _ => by simp at h
  | a :: l, [], _, h => by simp at h
  | a :: l, b :: l', h, e => by
    by_cases ha : p a = true
    · simp only [List.takeWhile_cons, ha, if_true, List.length_cons, List.take_succ_cons, List.cons.injEq] at h e ⊢
      obtain ⟨rfl, e⟩ := e
      simp only [ha, if_true, List.length_cons]
      rw [takeWhile_length_local (by omega) e]
    · simp only [List.takeWhile_cons, ha, List.length_nil, Bool.false_eq_true, if_false] at e ⊢
      simp only [List.take_succ_cons, List.take_zero, List.cons.injEq, and_true] at e
      rw [← e]
      simp [ha]

theorem alignedString_local {e e' : RawEvent} {p q q' : List UInt8} {off max n : Nat}
    (he : e.payload = p ++ q) (he' : e'.payload = p ++ q') (hq : q.length = q'.length)
    (h : alignedString e off max = some (some n)) (hn : off + n = 8 + p.length) (hmax : max < 2 ^ 63) :
    alignedString e' off max = some (some n) := by
  unfold alignedString at h
  cases hs : strnlen e off max with
  | none => rw [hs] at h; cases h
  | some m =>
    rw [hs] at h
    simp only at h
    have key : strnlen e' off max = some m := by
      unfold strnlen at hs ⊢
      by_cases h8 : 8 ≤ off
      · rw [if_pos h8] at hs ⊢
        unfold fetch at hs ⊢
        by_cases hl : off - 8 + max ≤ e.payload.length
        · rw [if_pos hl] at hs
          rw [if_pos (by rw [he'] ; rw [he] at hl; simp at hl ⊢; omega)]
          simp only [Option.map_some, Option.some.injEq] at hs ⊢
          have hll : ((e.payload.drop (off - 8)).take max).length = max := by simp; omega
          split at h
          · cases h
          · rename_i hne
            split at h
            · cases h
            · have hmle : m ≤ max := by
                rw [← hs]; refine Nat.le_trans (List.takeWhile_sublist _).length_le ?_
                rw [hll]; omega
              simp only [Option.some.injEq] at h
              rw [aligned_eq (by omega)] at h
              rw [← hs]
              apply takeWhile_length_local
              · rw [hll, hs]; omega
              · rw [hs, List.take_take, List.take_take, Nat.min_eq_left (by omega), he, he',
                  List.drop_append, List.drop_append, List.take_append_of_le_length (by simp; omega),
                  List.take_append_of_le_length (by simp; omega)]
        · rw [if_neg hl] at hs; cases hs
      · rw [if_neg h8] at hs; cases hs
    unfold alignedString
    rw [key]
    exact h

theorem int_local {e e' : RawEvent} {p q q' : List UInt8} {off n : Nat}
    (he : e.payload = p ++ q) (he' : e'.payload = p ++ q') (hn : off + n ≤ 8 + p.length) :
    e'.int off n = e.int off n := by
  unfold RawEvent.int fetch
  by_cases h : 8 ≤ off
  · rw [if_pos h, if_pos h, he, he', if_pos (by simp; omega), if_pos (by simp; omega),
      List.drop_append, List.drop_append, List.take_append_of_le_length (by simp; omega),
      List.take_append_of_le_length (by simp; omega)]
  · rw [if_neg h, if_neg h]

/-- The types of events that may be followed by sample data. -/
def carriesSample (t : Nat) : Bool :=
  t = SAMPLE ∨ t = MMAP ∨ t = MMAP2 ∨ t = KSYMBOL ∨ t = BPF_METADATA ∨ t = FORK ∨
  t = EXIT ∨ t = COMM ∨ t = LOST ∨ t = THROTTLE ∨ t = UNTHROTTLE ∨ t = AUX ∨
  t = ITRACE_START ∨ t = LOST_SAMPLES ∨ t = SWITCH ∨ t = SWITCH_CPU_WIDE ∨
  t = NAMESPACES ∨ t = CGROUP

/-- Changing the bytes behind the data of an event does not change its data size. -/
theorem eventDataSize_local {e e' : RawEvent} {p q q' : List UInt8} (hok : e.Ok)
    (ht : e'.type = e.type) (hc : carriesSample e.type = true)
    (he : e.payload = p ++ q) (he' : e'.payload = p ++ q') (hq : q.length = q'.length)
    (h : eventDataSize e = some (8 + p.length)) : eventDataSize e' = some (8 + p.length) := by
  have hok' : e.size < 2 ^ 16 := hok
  have hs : e'.size = e.size := by unfold RawEvent.size; rw [he, he']; simp [hq]
  unfold eventDataSize at h ⊢
  rw [ht, hs]
  cases hf : fixedPayloadSize e.type with
  | none => rw [hf] at h; simp only [Option.some.injEq] at h; omega
  | some f =>
    rw [hf] at h
    simp only at h ⊢
    have f8 := (fixed_facts hf).2.1
    by_cases c : f > e.size
    · rw [if_pos c] at h; simp only [Option.some.injEq] at h; omega
    rw [if_neg c] at h ⊢
    have hv : ∃ n, variableSize e (e.size - f) = some (some n) ∧ f + n = 8 + p.length ∧ n % 8 = 0 := by
      unfold variablePayloadSize at h
      cases hv : variableSize e (e.size - f) with
      | none => rw [hv] at h; cases h
      | some x =>
        rw [hv] at h
        cases x with
        | none => simp only [Option.some.injEq] at h; omega
        | some n =>
          simp only at h
          by_cases hn : n % 8 ≠ 0
          · rw [if_pos hn] at h; simp only [Option.some.injEq] at h; omega
          · rw [if_neg hn] at h
            simp only [Option.some.injEq] at h
            exact ⟨n, rfl, h, by omega⟩
    obtain ⟨n, hv, hn, hn8⟩ := hv
    have key : variableSize e' (e.size - f) = some (some n) := by
      have str : ∀ t off max, e.type = t → fixedPayloadSize t = some off → max ≤ 4096 →
          alignedString e off max = some (some n) → alignedString e' off max = some (some n) := by
        intro t off max h1 h2 h3 h4
        rw [← h1, hf] at h2
        simp only [Option.some.injEq] at h2
        exact alignedString_local he he' hq h4 (by omega) (by omega)
      have int : ∀ t off m, e.type = t → fixedPayloadSize t = some m → off + 8 ≤ m →
          e'.int off 8 = e.int off 8 := by
        intro t off m h1 h2 h3
        rw [← h1, hf] at h2
        simp only [Option.some.injEq] at h2
        exact int_local he he' (by omega)
      simp only [carriesSample, decide_eq_true_eq] at hc
      unfold variableSize at hv ⊢
      rw [ht]
      rcases hc with c|c|c|c|c|c|c|c|c|c|c|c|c|c|c|c|c|c
      all_goals
        simp only [c] at hv ⊢
      case inr.inr.inr.inr.inl =>
        have hi := int _ 520 528 c (by decide) (by decide)
        rw [hi]; exact hv
      case inr.inr.inr.inr.inr.inr.inr.inr.inr.inr.inr.inr.inr.inr.inr.inr.inl =>
        have hi := int _ 16 24 c (by decide) (by decide)
        rw [hi]; exact hv
      case inr.inl => exact str _ _ _ c (by decide) (Nat.min_le_right _ _) hv
      case inr.inr.inl => exact str _ _ _ c (by decide) (Nat.min_le_right _ _) hv
      case inr.inr.inr.inl =>
        exact str _ _ _ c (by decide) (Nat.le_trans (Nat.min_le_right _ _) (by decide)) hv
      all_goals first
        | exact hv
        | exact str _ _ _ c (by decide) (Nat.min_le_right _ _) hv
    unfold variablePayloadSize
    rw [key]
    simp only
    rw [if_neg (by omega)]
    exact congrArg some hn

end Verif.Event
