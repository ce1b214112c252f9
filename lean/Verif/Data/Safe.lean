import Verif.Data.Fuel
import Verif.Attr.Props2
import Verif.Sample.Props

/-! No event but one with metadata of a BPF program makes reading go wrong. -/

namespace Verif.Data
open Verif.Buffer Verif.Event Verif.Sample Verif.Attr Verif.Names Verif.Text Verif.Util Verif.Meta Verif.Serial

theorem bind_ne {α β : Type} {x : Option α} {f : α → Option β} (hx : x ≠ none) (hf : ∀ a, x = some a → f a ≠ none) : (x >>= f) ≠ none := by
  cases x with
  | none => exact absurd rfl hx
  | some a => exact hf a rfl

theorem int_ne {e : RawEvent} {off n : Nat} (h : 8 ≤ off) (h' : off + n ≤ e.size) : e.int off n ≠ none := by
  obtain ⟨v, hv, _⟩ := int_some h h'
  rw [hv]; simp

theorem cstr_ne {e : RawEvent} {off : Nat} (h : 8 ≤ off) (h' : (0 : UInt8) ∈ e.payload.drop (off - 8)) : cstr e off ≠ none := by
  unfold cstr
  rw [if_pos h]
  simp only
  rw [if_pos (by simpa using h')]
  simp

theorem entries_ne {α : Type} {f : Nat → Option α} : ∀ {n k : Nat}, (∀ i, k ≤ i → i < k + n → f i ≠ none) → entries f k n ≠ none := by
  intro n
  induction n with
  | zero => intro k _; simp [entries]
  | succ n ih =>
    intro k h
    refine bind_ne (h k (by omega) (by omega)) fun a _ => bind_ne (ih fun i h1 h2 => h i (by omega) (by omega)) fun l _ => by simp

/-- What has been checked when an event is converted. -/
structure Fits (e : RawEvent) : Prop where
  str : ∀ off, (e.type = MMAP ∧ off = 40 ∨ e.type = COMM ∧ off = 16 ∨ e.type = MMAP2 ∧ off = 72 ∨ e.type = CGROUP ∧ off = 16 ∨
    e.type = KSYMBOL ∧ off = 24) → (0 : UInt8) ∈ e.payload.drop (off - 8)
  list : ∀ c s z, (e.type = NAMESPACES ∧ c = 16 ∧ s = 24 ∧ z = 16 ∨ e.type = ID_INDEX ∧ c = 8 ∧ s = 16 ∧ z = 32 ∨
    e.type = THREAD_MAP ∧ c = 8 ∧ s = 16 ∧ z = 24 ∨ e.type = STAT_CONFIG ∧ c = 8 ∧ s = 16 ∧ z = 16) →
      ∃ nr, e.int c 8 = some nr ∧ s + z * nr ≤ e.size
  comm : e.type = THREAD_MAP → ∀ nr, e.int 8 8 = some nr → ∀ i, i < nr → (0 : UInt8) ∈ bytesAt e (16 + 24 * i + 8) 16

theorem takeWhile_short : ∀ {l : List UInt8}, (l.takeWhile (· ≠ 0)).length ≠ l.length → (0 : UInt8) ∈ l := by
  intro l
  induction l with
  | nil => intro h; exact absurd rfl h
  | cons a l ih =>
    intro h
    by_cases c : a = 0
    · simp [c]
    · rw [List.takeWhile_cons, if_pos (by simpa using c)] at h
      exact List.mem_cons_of_mem _ (ih fun h' => h (by rw [List.length_cons, List.length_cons, h']))

theorem aligned_null {e : RawEvent} {off max n : Nat} (h : alignedString e off max = some (some n)) :
    8 ≤ off ∧ (0 : UInt8) ∈ bytesAt e off max := by
  unfold alignedString at h
  cases hs : strnlen e off max with
  | none => rw [hs] at h; cases h
  | some k =>
    rw [hs] at h
    simp only at h
    unfold strnlen at hs
    split at hs
    · rename_i h8
      refine ⟨h8, ?_⟩
      unfold fetch at hs
      split at hs
      · rename_i hb
        simp only [Option.map_some, Option.some.injEq] at hs
        have hlen : ((e.payload.drop (off - 8)).take max).length = max := by rw [List.length_take, List.length_drop]; omega
        refine takeWhile_short fun hc => ?_
        rw [show (List.takeWhile (fun x => decide (x ≠ 0)) (bytesAt e off max)).length = k from hs] at hc
        rw [show (bytesAt e off max).length = max from hlen] at hc
        rw [if_pos hc] at h
        cases h
      · cases hs
    · cases hs

theorem bytesAt_mem {e : RawEvent} {off n : Nat} {a : UInt8} (h : a ∈ bytesAt e off n) : a ∈ e.payload.drop (off - 8) :=
  List.mem_of_mem_take h

theorem checkComms_true {e : RawEvent} : ∀ {k i : Nat}, checkComms e i k = some true → ∀ j, i ≤ j → j < i + k →
    (0 : UInt8) ∈ bytesAt e (16 + 24 * j + 8) 16 := by
  intro k
  induction k with
  | zero => intro i _ j _ _; omega
  | succ k ih =>
    intro i h j h1 h2
    unfold checkComms at h
    cases ha : alignedString e (16 + 24 * i + 8) 16 with
    | none => rw [ha] at h; cases h
    | some x =>
      rw [ha] at h
      cases x with
      | none => cases h
      | some n =>
        simp only at h
        by_cases hj : j = i
        · subst hj; exact (aligned_null ha).2
        · exact ih h j (by omega) (by omega)

theorem fits_of_variable {e : RawEvent} {f n : Nat} (hok : e.Ok) (hf : fixedPayloadSize e.type = some f) (hle : f ≤ e.size)
    (h : variableSize e (e.size - f) = some (some n)) : Fits e := by
  have hok' : e.size < 2 ^ 16 := hok
  constructor
  · rintro off (⟨ht, rfl⟩ | ⟨ht, rfl⟩ | ⟨ht, rfl⟩ | ⟨ht, rfl⟩ | ⟨ht, rfl⟩)
    all_goals
      unfold variableSize at h
      simp only [ht] at h
      exact bytesAt_mem (aligned_null h).2
  · rintro c s z (⟨ht, rfl, rfl, rfl⟩ | ⟨ht, rfl, rfl, rfl⟩ | ⟨ht, rfl, rfl, rfl⟩ | ⟨ht, rfl, rfl, rfl⟩)
    all_goals
      rw [ht] at hf
      unfold variableSize at h
      simp only [ht] at h
    · have : f = 24 := (Option.some.inj (show some 24 = some f from hf)).symm
      obtain ⟨v, hv, hlt⟩ := @int_some e 16 8 (by omega) (by omega)
      refine ⟨v, hv, ?_⟩
      rw [hv] at h
      have h : (if v > (e.size - f) / 16 then some none else some (some (v * 16 % 2 ^ 64))) = some (some n) := h
      split at h
      · cases h
      · omega
    · have : f = 16 := (Option.some.inj (show some 16 = some f from hf)).symm
      obtain ⟨v, hv, hlt⟩ := @int_some e 8 8 (by omega) (by omega)
      refine ⟨v, hv, ?_⟩
      rw [hv] at h
      have h : (if v ≠ (e.size - f) / 32 then some none else if v * 32 % 2 ^ 64 ≠ e.size - f then some none else some (some (v * 32 % 2 ^ 64))) = some (some n) := h
      split at h
      · cases h
      · omega
    · have : f = 16 := (Option.some.inj (show some 16 = some f from hf)).symm
      obtain ⟨v, hv, hlt⟩ := @int_some e 8 8 (by omega) (by omega)
      refine ⟨v, hv, ?_⟩
      rw [hv] at h
      have h : (if v ≠ (e.size - f) / 24 then some none else _) = some (some n) := h
      split at h
      · cases h
      · omega
    · have : f = 16 := (Option.some.inj (show some 16 = some f from hf)).symm
      obtain ⟨v, hv, hlt⟩ := @int_some e 8 8 (by omega) (by omega)
      refine ⟨v, hv, ?_⟩
      rw [hv] at h
      have h : (if v ≠ (e.size - f) / 16 then some none else if v * 16 % 2 ^ 64 ≠ e.size - f then some none else some (some (v * 16 % 2 ^ 64))) = some (some n) := h
      split at h
      · cases h
      · omega
  · intro ht nr hnr i hi
    unfold variableSize at h
    simp only [ht, hnr] at h
    have h : (if nr ≠ (e.size - f) / 24 then some none else if nr * 24 % 2 ^ 64 ≠ e.size - f then some none else
      match checkComms e 0 nr with
        | none => none
        | some false => some none
        | some true => some (some (nr * 24 % 2 ^ 64))) = some (some n) := h
    split at h
    · cases h
    · split at h
      · cases h
      · split at h
        · cases h
        · cases h
        · rename_i hc
          exact checkComms_true hc i (by omega) (by omega)

/-! ## Foreign byte order -/

theorem zero_at {e e' : RawEvent} {off n : Nat} (h : bytesAt e' off n = bytesAt e off n) (hz : (0 : UInt8) ∈ bytesAt e off n) :
    (0 : UInt8) ∈ bytesAt e' off n := by rw [h]; exact hz

theorem int_same {e e' : RawEvent} {off n : Nat} (hl : e'.payload.length = e.payload.length) (h : bytesAt e' off n = bytesAt e off n) :
    e'.int off n = e.int off n := by
  unfold RawEvent.int fetch
  split
  · rw [hl]
    split
    · have : (e'.payload.drop (off - 8)).take n = (e.payload.drop (off - 8)).take n := h
      rw [this]
    · rfl
  · rfl

theorem variable_list {e : RawEvent} {l : List (Nat × Nat)} (h : variableFields e = some (some l)) :
    (e.type = MMAP ∨ e.type = COMM ∨ e.type = MMAP2 ∨ e.type = KSYMBOL → l = []) ∧ (e.type = CGROUP → l = [(8, 8)]) ∧
      (e.type = NAMESPACES → ∀ x ∈ l, 24 ≤ x.1) ∧ (e.type = ID_INDEX → ∀ x ∈ l, 16 ≤ x.1) ∧
      (e.type = STAT_CONFIG → ∀ x ∈ l, 16 ≤ x.1) ∧ (e.type = THREAD_MAP → ∀ x ∈ l, ∃ i, x = (16 + 24 * i, 8)) := by
  unfold variableFields at h
  refine ⟨?_, ?_, ?_, ?_, ?_, ?_⟩
  · rintro (ht | ht | ht | ht) <;> (rw [ht] at h; cases h; rfl)
  · intro ht; rw [ht] at h; cases h; rfl
  · intro ht x hx
    simp only [ht, if_true] at h
    cases hn : e.int 16 8 with
    | none => rw [hn] at h; cases h
    | some nr =>
      rw [hn] at h
      simp only [Option.map_some, Option.some.injEq] at h
      subst h
      obtain ⟨i, _, hi⟩ := List.mem_flatMap.mp hx
      simp only [List.mem_cons, List.not_mem_nil, or_false] at hi
      rcases hi with rfl | rfl <;> simp only <;> omega
  · intro ht x hx
    simp only [ht] at h
    have h : (e.int 8 8).map (fun nr => some ((List.range nr).flatMap fun i =>
      [(16 + 32 * i, 8), (16 + 32 * i + 8, 8), (16 + 32 * i + 16, 8), (16 + 32 * i + 24, 8)])) = some (some l) := h
    cases hn : e.int 8 8 with
    | none => rw [hn] at h; cases h
    | some nr =>
      rw [hn] at h
      simp only [Option.map_some, Option.some.injEq] at h
      subst h
      obtain ⟨i, _, hi⟩ := List.mem_flatMap.mp hx
      simp only [List.mem_cons, List.not_mem_nil, or_false] at hi
      rcases hi with rfl | rfl | rfl | rfl <;> simp only <;> omega
  · intro ht x hx
    simp only [ht] at h
    have h : (e.int 8 8).map (fun nr => some ((List.range nr).flatMap fun i => [(16 + 16 * i, 8), (16 + 16 * i + 8, 8)])) = some (some l) := h
    cases hn : e.int 8 8 with
    | none => rw [hn] at h; cases h
    | some nr =>
      rw [hn] at h
      simp only [Option.map_some, Option.some.injEq] at h
      subst h
      obtain ⟨i, _, hi⟩ := List.mem_flatMap.mp hx
      simp only [List.mem_cons, List.not_mem_nil, or_false] at hi
      rcases hi with rfl | rfl <;> simp only <;> omega
  · intro ht x hx
    simp only [ht] at h
    have h : (e.int 8 8).map (fun nr => some ((List.range nr).map fun i => (16 + 24 * i, 8))) = some (some l) := h
    cases hn : e.int 8 8 with
    | none => rw [hn] at h; cases h
    | some nr =>
      rw [hn] at h
      simp only [Option.map_some, Option.some.injEq] at h
      subst h
      obtain ⟨i, _, hi⟩ := List.mem_map.mp hx
      exact ⟨i, hi.symm⟩

theorem fits_swap {e e' : RawEvent} {l : List (Nat × Nat)} (hf : Fits e) (hl : variableFields e = some (some l)) (hs : swapAll l e = some e') :
    Fits e' := by
  obtain ⟨v1, v2, v3, v4, v5, v6⟩ := variable_list hl
  obtain ⟨s1, s2, s3⟩ := swapAll_same hs
  have hsz : e'.size = e.size := by unfold RawEvent.size; rw [s3]
  have count : e.type = ID_INDEX ∨ e.type = THREAD_MAP ∨ e.type = STAT_CONFIG → e'.int 8 8 = e.int 8 8 := by
    intro ht
    refine int_same s3 (swapAll_other (by omega) hs fun x hx => Or.inl ?_)
    rcases ht with ht | ht | ht
    · have := v4 ht x hx; omega
    · obtain ⟨i, rfl⟩ := v6 ht x hx; simp only; omega
    · have := v5 ht x hx; omega
  constructor
  · intro off hoff
    rw [s1] at hoff
    have h := hf.str off hoff
    rcases hoff with ⟨ht, rfl⟩ | ⟨ht, rfl⟩ | ⟨ht, rfl⟩ | ⟨ht, rfl⟩ | ⟨ht, rfl⟩
    · rw [v1 (by simp [ht])] at hs; cases hs; exact h
    · rw [v1 (by simp [ht])] at hs; cases hs; exact h
    · rw [v1 (by simp [ht])] at hs; cases hs; exact h
    · have hb : bytesAt e' 16 e.payload.length = bytesAt e 16 e.payload.length := by
        refine swapAll_other (by omega) hs fun x hx => ?_
        rw [v2 ht] at hx
        simp only [List.mem_cons, List.not_mem_nil, or_false] at hx
        subst hx
        exact Or.inr (by simp)
      unfold bytesAt at hb
      rw [List.take_of_length_le (by rw [List.length_drop]; omega), List.take_of_length_le (by rw [List.length_drop]; omega)] at hb
      rw [hb]; exact h
    · rw [v1 (by simp [ht])] at hs; cases hs; exact h
  · intro c s z hc
    rw [s1] at hc
    obtain ⟨nr, h1, h2⟩ := hf.list c s z hc
    refine ⟨nr, ?_, by rw [hsz]; exact h2⟩
    rcases hc with ⟨ht, rfl, rfl, rfl⟩ | ⟨ht, rfl, rfl, rfl⟩ | ⟨ht, rfl, rfl, rfl⟩ | ⟨ht, rfl, rfl, rfl⟩
    · rw [← h1]
      refine int_same s3 (swapAll_other (by omega) hs fun x hx => Or.inl ?_)
      have := v3 ht x hx; omega
    · rw [count (Or.inl ht)]; exact h1
    · rw [count (Or.inr (Or.inl ht))]; exact h1
    · rw [count (Or.inr (Or.inr ht))]; exact h1
  · intro ht nr hnr i hi
    rw [s1] at ht
    rw [count (Or.inr (Or.inl ht))] at hnr
    refine zero_at (swapAll_other (by omega) hs fun x hx => ?_) (hf.comm ht nr hnr i hi)
    obtain ⟨j, rfl⟩ := v6 ht x hx
    simp only
    omega

/-- The integers of the fixed part are in the fixed part. -/
theorem fixed_inside {e : RawEvent} {l : List (Nat × Nat)} {f : Nat} (h : fixedFields e = some l) (hf : fixedPayloadSize e.type = some f) :
    ∀ x ∈ l, 8 ≤ x.1 ∧ x.1 + x.2 ≤ f := by
  have key : ∀ (t : Nat) (b : Bool) (l : List (Nat × Nat)) (f : Nat), fixedFields ⟨t, if b then 2 ^ 14 else 0, []⟩ = some l → fixedPayloadSize t = some f →
      ∀ x ∈ l, 8 ≤ x.1 ∧ x.1 + x.2 ≤ f := by
    intro t b l f h1 h2
    have all : ∀ t : Fin 85, ∀ b : Bool, (fixedFields ⟨t.val, if b then 2 ^ 14 else 0, []⟩).all (fun l =>
        (fixedPayloadSize t.val).all fun f => l.all fun x => decide (8 ≤ x.1 ∧ x.1 + x.2 ≤ f)) = true := by decide +kernel
    by_cases ht : t < 85
    · have := all ⟨t, ht⟩ b
      rw [show fixedFields ⟨(⟨t, ht⟩ : Fin 85).val, if b then 2 ^ 14 else 0, []⟩ = some l from h1, show fixedPayloadSize (⟨t, ht⟩ : Fin 85).val = some f from h2] at this
      simpa using this
    · exfalso
      unfold fixedPayloadSize at h2
      have ne : ∀ k, k < 85 → t ≠ k := by omega
      repeat first
        | rw [if_neg (ne _ (by decide))] at h2
        | rw [if_neg (not_or.mpr ⟨ne _ (by decide), ne _ (by decide)⟩)] at h2
      cases h2
  refine key e.type (e.misc.testBit 14) l f ?_ hf
  rw [← h]
  unfold fixedFields
  have : (if e.misc.testBit 14 = true then 2 ^ 14 else 0 : Nat).testBit 14 = e.misc.testBit 14 := by
    cases e.misc.testBit 14 <;> decide
  simp only [this]

theorem variable_inside {e : RawEvent} {f : Nat} (hf : Fits e) (hp : fixedPayloadSize e.type = some f) (hle : f ≤ e.size) (hok : e.Ok) :
    ∃ x, variableFields e = some x ∧ ∀ l, x = some l → ∀ y ∈ l, 8 ≤ y.1 ∧ y.1 + y.2 ≤ e.size := by
  have hok' : e.size < 2 ^ 16 := hok
  unfold variableFields
  by_cases c : e.type = NAMESPACES
  · obtain ⟨nr, h1, h2⟩ := hf.list 16 24 16 (Or.inl ⟨c, rfl, rfl, rfl⟩)
    rw [if_pos c, h1]
    refine ⟨_, rfl, fun l hl y hy => ?_⟩
    simp only [Option.some.injEq] at hl
    subst hl
    obtain ⟨i, hi, hy⟩ := List.mem_flatMap.mp hy
    have := List.mem_range.mp hi
    simp only [List.mem_cons, List.not_mem_nil, or_false] at hy
    rcases hy with rfl | rfl <;> simp only <;> omega
  rw [if_neg c]
  by_cases c : e.type = AUXTRACE_INFO
  · rw [if_pos c]
    have h16 : f = 16 := by rw [c] at hp; exact (Option.some.inj (show some 16 = some f from hp)).symm
    have hmax : (e.size + 2 ^ 64 - 16) % 2 ^ 64 = e.size - 16 := by omega
    rw [hmax]
    refine ⟨_, rfl, fun l hl y hy => ?_⟩
    simp only [Option.some.injEq] at hl
    subst hl
    obtain ⟨i, hi, rfl⟩ := List.mem_map.mp hy
    have := List.mem_range.mp hi
    simp only
    omega
  rw [if_neg c]
  by_cases c : e.type = ID_INDEX
  · obtain ⟨nr, h1, h2⟩ := hf.list 8 16 32 (Or.inr (Or.inl ⟨c, rfl, rfl, rfl⟩))
    rw [if_pos c, h1]
    refine ⟨_, rfl, fun l hl y hy => ?_⟩
    simp only [Option.some.injEq] at hl
    subst hl
    obtain ⟨i, hi, hy⟩ := List.mem_flatMap.mp hy
    have := List.mem_range.mp hi
    simp only [List.mem_cons, List.not_mem_nil, or_false] at hy
    rcases hy with rfl | rfl | rfl | rfl <;> simp only <;> omega
  rw [if_neg c]
  by_cases c : e.type = THREAD_MAP
  · obtain ⟨nr, h1, h2⟩ := hf.list 8 16 24 (Or.inr (Or.inr (Or.inl ⟨c, rfl, rfl, rfl⟩)))
    rw [if_pos c, h1]
    refine ⟨_, rfl, fun l hl y hy => ?_⟩
    simp only [Option.some.injEq] at hl
    subst hl
    obtain ⟨i, hi, rfl⟩ := List.mem_map.mp hy
    have := List.mem_range.mp hi
    simp only
    omega
  rw [if_neg c]
  by_cases c : e.type = STAT_CONFIG
  · obtain ⟨nr, h1, h2⟩ := hf.list 8 16 16 (Or.inr (Or.inr (Or.inr ⟨c, rfl, rfl, rfl⟩)))
    rw [if_pos c, h1]
    refine ⟨_, rfl, fun l hl y hy => ?_⟩
    simp only [Option.some.injEq] at hl
    subst hl
    obtain ⟨i, hi, hy⟩ := List.mem_flatMap.mp hy
    have := List.mem_range.mp hi
    simp only [List.mem_cons, List.not_mem_nil, or_false] at hy
    rcases hy with rfl | rfl <;> simp only <;> omega
  rw [if_neg c]
  by_cases c : e.type = CGROUP
  · rw [if_pos c]
    have h16 : f = 16 := by rw [c] at hp; exact (Option.some.inj (show some 16 = some f from hp)).symm
    refine ⟨_, rfl, fun l hl y hy => ?_⟩
    simp only [Option.some.injEq] at hl
    subst hl
    simp only [List.mem_cons, List.not_mem_nil, or_false] at hy
    subst hy
    simp only
    omega
  rw [if_neg c]
  by_cases c : e.type = TIME_CONV
  · rw [if_pos c]
    refine ⟨_, rfl, fun l hl y hy => ?_⟩
    simp only [Option.some.injEq] at hl
    subst hl
    split at hy
    · simp only [List.mem_cons, List.not_mem_nil, or_false] at hy
      rcases hy with rfl | rfl <;> simp only <;> omega
    · cases hy
  rw [if_neg c]
  split
  · refine ⟨_, rfl, fun l hl y hy => ?_⟩
    simp only [Option.some.injEq] at hl
    subst hl
    cases hy
  · exact ⟨_, rfl, fun l hl => by cases hl⟩

end Verif.Data
