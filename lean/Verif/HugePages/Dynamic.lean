import Verif.HugePages.Deduce

/-! # Mappings outside the synthesized ones are not touched (C23) -/

namespace Verif.HugePages

theorem mask_get (k : Nat) : ∀ (es : List Ev) (seen : Bool) (i : Nat), (mask k seen es)[i]? = some true →
    ∃ e, es[i]? = some e ∧ isOf k e = true ∧
      (seen = true ∨ ∃ (j : Nat) (e' : Ev), j ≤ i ∧ es[j]? = some e' ∧ isStart k e' = true) ∧
      ∃ (j : Nat) (e' : Ev), i ≤ j ∧ es[j]? = some e' ∧ isStart k e' = true
  | [], _, _, h => by simp [mask] at h
  | e :: es, seen, 0, h => by
    unfold mask at h
    simp only [List.getElem?_cons_zero, Option.some.injEq, Bool.and_eq_true, Bool.or_eq_true] at h
    obtain ⟨⟨h1, h2⟩, h3⟩ := h
    refine ⟨e, rfl, h1, ?_, ?_⟩
    · rcases h2 with h2 | h2
      · exact .inl h2
      · exact .inr ⟨0, e, Nat.le_refl _, rfl, h2⟩
    · obtain ⟨x, hx, hs⟩ := List.any_eq_true.mp h3
      obtain ⟨j, hj⟩ := List.mem_iff_getElem?.mp hx
      exact ⟨j, x, Nat.zero_le _, hj, hs⟩
  | e :: es, seen, i + 1, h => by
    unfold mask at h
    simp only [List.getElem?_cons_succ] at h
    obtain ⟨x, h1, h2, h3, j, y, h4, h5, h6⟩ := mask_get k es _ i h
    refine ⟨x, by simpa using h1, h2, ?_, j + 1, y, by omega, by simpa using h5, h6⟩
    rcases h3 with h3 | ⟨j', y', g1, g2, g3⟩
    · simp only [Bool.or_eq_true] at h3
      rcases h3 with h3 | h3
      · exact .inl h3
      · exact .inr ⟨0, e, by omega, rfl, h3⟩
    · exact .inr ⟨j' + 1, y', by omega, by simpa using g2, g3⟩

theorem scatter_get : ∀ (bs : List Bool) (es : List Ev) (r : List Item) (i : Nat), bs[i]? ≠ some true →
    (scatter bs es r)[i]? = es[i]?
  | [], es, _, _, _ => by cases es <;> simp [scatter]
  | _ :: _, [], _, _, _ => by simp [scatter]
  | b :: bs, e :: es, r, 0, h => by
    have hb : b = false := by
      cases b with
      | false => rfl
      | true => simp at h
    subst hb
    rw [scatter_false]
    rfl
  | b :: bs, e :: es, r, i + 1, h => by
    have ih := fun r => scatter_get bs es r i (by simpa using h)
    simp only [scatter]
    split <;> simp [ih]

theorem ChangedS.get {S : Nat → Prop} : ∀ {es es' : List Ev}, ChangedS S es es' → ∀ (j : Nat) (e' : Ev), es'[j]? = some e' →
    ∃ e, es[j]? = some e ∧ ∀ k, isStart k e' = isStart k e
  | [], [], _, j, e', h => by simp at h
  | a :: es, b :: es', ⟨h, _⟩, 0, e', he => by
    simp only [List.getElem?_cons_zero, Option.some.injEq] at he
    subst he
    exact ⟨a, rfl, fun k => (h.same k).2⟩
  | a :: es, b :: es', ⟨_, hs⟩, j + 1, e', he => by
    obtain ⟨e, h1, h2⟩ := ChangedS.get hs j e' (by simpa using he)
    exact ⟨e, by simpa using h1, h2⟩

/-- C23: a mapping that was recorded while the process ran, before the first or after the last of its
synthesized mappings (those with time 0), is not touched. -/
theorem deduce_dynamic : ∀ (order : List Nat) (es es' : List Ev), (∀ e ∈ es, EvOk e) → deduceHugePages order es = some es' →
    ∀ (i : Nat) (e : Ev) (m : MMap), es[i]? = some e → e.mmap = some m →
      ((∀ (j : Nat) (e' : Ev) (m' : MMap), j ≤ i → es[j]? = some e' → e'.mmap = some m' → m'.key = m.key → e'.time ≠ 0) ∨
       (∀ (j : Nat) (e' : Ev) (m' : MMap), i ≤ j → es[j]? = some e' → e'.mmap = some m' → m'.key = m.key → e'.time ≠ 0)) →
      es'[i]? = some e
  | [], es, es', _, h, i, e, m, hi, _, _ => by
    unfold deduceHugePages at h
    rw [← Option.some.inj h]
    exact hi
  | k :: order, es, es', hok, h, i, e, m, hi, hm, hdyn => by
    obtain ⟨r, -, hd, hc⟩ := deducePid_spec k hok
    unfold deduceHugePages at h
    rw [hd] at h
    have start : ∀ {k : Nat} {e : Ev}, isStart k e = true → ∃ m, e.mmap = some m ∧ m.key = k ∧ e.time = 0 := by
      intro k e hs
      unfold isStart at hs
      cases hx : e.mmap with
      | none => rw [hx] at hs; simp at hs
      | some m => rw [hx] at hs; simp only [Bool.and_eq_true, beq_iff_eq] at hs; exact ⟨m, rfl, hs.1, hs.2⟩
    have hmask : (mask k false es)[i]? ≠ some true := by
      intro hx
      obtain ⟨x, h1, h2, h3, h4⟩ := mask_get k es false i hx
      rw [hi] at h1
      have : e = x := Option.some.inj h1
      subst this
      have hk : m.key = k := by
        unfold isOf at h2
        rw [hm] at h2
        simpa using h2
      rcases hdyn with hd | hd
      · obtain ⟨j, y, g1, g2, g3⟩ := h3.resolve_left (by simp)
        obtain ⟨m', q1, q2, q3⟩ := start g3
        exact hd j y m' g1 g2 q1 (by rw [q2, hk]) q3
      · obtain ⟨j, y, g1, g2, g3⟩ := h4
        obtain ⟨m', q1, q2, q3⟩ := start g3
        exact hd j y m' g1 g2 q1 (by rw [q2, hk]) q3
    have back : ∀ (j : Nat) (e' : Ev) (m' : MMap), (scatter (mask k false es) es r)[j]? = some e' → e'.mmap = some m' →
        m'.key = m.key → e'.time = 0 → ∃ (y : Ev) (n : MMap), es[j]? = some y ∧ y.mmap = some n ∧ n.key = m.key ∧ y.time = 0 := by
      intro j e' m' h1 h2 h3 h4
      obtain ⟨y, g1, g2⟩ := hc.get j e' h1
      have := g2 m.key
      have hs : isStart m.key e' = true := by unfold isStart; rw [h2]; simp [h3, h4]
      rw [hs] at this
      obtain ⟨n, q1, q2, q3⟩ := start this.symm
      exact ⟨y, n, g1, q1, q2, q3⟩
    refine deduce_dynamic order _ es' (hc.evOk hok) h i e m (by rw [scatter_get _ _ _ _ hmask]; exact hi) hm ?_
    rcases hdyn with hd | hd
    · left
      intro j e' m' hj h1 h2 h3 h4
      obtain ⟨y, n, q1, q2, q3, q4⟩ := back j e' m' h1 h2 h3 h4
      exact hd j y n hj q1 q2 q3 q4
    · right
      intro j e' m' hj h1 h2 h3 h4
      obtain ⟨y, n, q1, q2, q3, q4⟩ := back j e' m' h1 h2 h3 h4
      exact hd j y n hj q1 q2 q3 q4

/-- A huge page mapped at run time (time 5) right before a file mapping: untouched. -/
example : deduceHugePages [7] [{ mmap := some { pid := some 7, start := 0, len := 4096, filename := Verif.ascii "//anon" }, time := 5 },
    { mmap := some { pid := some 7, start := 4096, len := 4096, pgoff := 4096, filename := Verif.ascii "/x" }, time := 6 }] =
    some [{ mmap := some { pid := some 7, start := 0, len := 4096, filename := Verif.ascii "//anon" }, time := 5 },
    { mmap := some { pid := some 7, start := 4096, len := 4096, pgoff := 4096, filename := Verif.ascii "/x" }, time := 6 }] := by
  decide +kernel

end Verif.HugePages
