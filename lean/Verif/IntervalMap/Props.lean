import Verif.IntervalMap.Lemmas

/-!
# C01, C02: properties of `IntervalMap`
-/

namespace Verif.IntervalMap

variable {V : Type}

/-- A call sequence aborts exactly when some call has an empty interval (the `CHECK_LT`s). -/
theorem run_isSome_iff (ops : List (Op V)) :
    (run ops).isSome ↔ ∀ op ∈ ops, op.wellFormed := by
  unfold run
  generalize (empty : IMap V) = m
  induction ops generalizing m with
  | nil => simp [runFrom]
  | cons op ops ih =>
    unfold runFrom
    have := step_isSome m op
    cases hs : step m op with
    | none =>
      rw [hs] at this
      simp at this
      simp [this]
    | some m1 =>
      rw [hs] at this
      simp at this
      simp [ih m1, this]

/-- **C01.** After any sequence of calls (that does not abort), `Lookup(k)` returns what the most recent
call touching `k` left there. -/
theorem C01_last_write_wins (ops : List (Op V)) (m : IMap V) (hrun : run ops = some m) (k : Nat) :
    lookup m k = specLookup ops k := by
  obtain ⟨h1, h2⟩ := runFrom_spec ops empty m sortedDisjoint_nil hrun
  rw [lookup_eq_at m h1, h2 k]
  unfold specLookup
  split
  · rename_i h; rw [h]
  · rename_i h; rw [h]; rfl

/-- The two overlapping sets, the carved hole and the final overwrite all matter here. -/
example : ∃ m, run [Op.set 0 100 'a', .set 40 60 'b', .clearInterval 50 70, .set 69 71 'c'] = some m ∧
    lookup m 45 = some 'b' ∧ lookup m 55 = none ∧ lookup m 65 = none ∧ lookup m 70 = some 'c' ∧
    lookup m 80 = some 'a' ∧ lookup m 100 = none := by
  refine ⟨_, rfl, ?_⟩; decide

/-- **C02, invariant.** After any sequence of calls the stored intervals are non-empty, sorted and
disjoint, and `Size` is their number. -/
theorem C02_sorted_disjoint (ops : List (Op V)) (m : IMap V) (hrun : run ops = some m) :
    SortedDisjoint m ∧ size m = m.length :=
  ⟨(runFrom_spec ops empty m sortedDisjoint_nil hrun).1, rfl⟩

example : ∃ m, run [Op.set 0 100 'a', .set 40 60 'b'] = some m ∧ size m = 3 := ⟨_, rfl, rfl⟩

theorem mem_dropWhile_start (m : IMap V) (h : SortedDisjoint m) (key : Nat) :
    m.dropWhile (fun e => e.start ≤ key) = m.filter (fun e => key < e.start) := by
  have := dropWhile_eq_filter_of_sorted m h (key + 1)
  simpa [Nat.lt_succ_iff, Nat.succ_le_iff] using this

/-- **C02, `FindNext` (what the code does).** `FindNext(key)` returns the stored interval with the least
start strictly greater than `key`, and fails exactly if no interval starts after `key`.
The header promises more, see `C02_findNext_violated`. -/
theorem C02_findNext_partial (ops : List (Op V)) (m : IMap V) (hrun : run ops = some m) (key : Nat) :
    match findNext m key with
    | some (s, l, v) => (⟨s, l, v⟩ : Entry V) ∈ m ∧ key < s ∧ ∀ e ∈ m, key < e.start → s ≤ e.start
    | none => ∀ e ∈ m, e.start ≤ key := by
  have h := (C02_sorted_disjoint ops m hrun).1
  unfold findNext
  rw [mem_dropWhile_start m h]
  cases hf : m.filter (fun e => decide (key < e.start)) with
  | nil =>
    simp only [List.head?_nil, Option.map_none]
    intro e he
    rw [List.filter_eq_nil_iff] at hf
    have := hf e he
    simp at this; omega
  | cons x t =>
    simp only [List.head?_cons, Option.map_some]
    have hx : x ∈ m.filter (fun e => decide (key < e.start)) := by rw [hf]; simp
    have hx' := List.mem_filter.1 hx
    refine ⟨hx'.1, by simpa using hx'.2, ?_⟩
    intro e he hk
    have hmem : e ∈ m.filter (fun e => decide (key < e.start)) := List.mem_filter.2 ⟨he, by simpa using hk⟩
    have hsort := sortedDisjoint_sublist h (List.filter_sublist (p := fun e => decide (key < e.start)))
    rw [hf] at hmem hsort
    rcases List.mem_cons.1 hmem with rfl | hmem
    · exact Nat.le_refl _
    · have h1 := hsort.head.2 e hmem
      have h2 := hsort.head.1
      omega

/-- **C02, documented contract holds between intervals.** When no stored interval contains `key`,
`FindNext` meets its documented contract. -/
theorem C02_findNext_doc_partial (ops : List (Op V)) (m : IMap V) (hrun : run ops = some m) (key : Nat)
    (hgap : lookup m key = none) : FindNextDoc m key (findNext m key) := by
  have hs := (C02_sorted_disjoint ops m hrun).1
  have hc := C02_findNext_partial ops m hrun key
  have hno : ∀ e ∈ m, ¬ (e.start ≤ key ∧ key < e.limit) := by
    rw [lookup_eq_at m hs] at hgap
    unfold at? at hgap
    rw [Option.map_eq_none_iff, List.find?_eq_none] at hgap
    intro e he
    simpa using hgap e he
  unfold FindNextDoc
  split
  · rename_i s l v heq
    rw [heq] at hc
    simp only at hc
    refine ⟨hc.1, ?_, ?_⟩
    · have := hs.1 _ hc.1; simp at this; omega
    · intro e he hk
      apply hc.2.2 e he
      have := hno e he; omega
  · rename_i heq
    rw [heq] at hc
    simp only at hc
    intro e he
    have := hc e he
    have := hno e he
    omega

example : ∃ m, run [Op.set 10 20 'a', .set 30 40 'b'] = some m ∧ lookup m 25 = none ∧
    findNext m 25 = some (30, 40, 'b') := ⟨_, rfl, by decide, by decide⟩

/-- **C02, violation.** The documented contract of `FindNext` is false of the code: with the single interval
`[10, 20)` the call `FindNext(15)` fails although `15` is inside it (also for the start `10`). -/
theorem C02_findNext_violated :
    ∃ (ops : List (Op Char)) (m : IMap Char), run ops = some m ∧
      ¬ FindNextDoc m 15 (findNext m 15) ∧ ¬ FindNextDoc m 10 (findNext m 10) := by
  refine ⟨[.set 10 20 'a'], [⟨10, 20, 'a'⟩], by decide, ?_, ?_⟩
  · simp [FindNextDoc, findNext]
  · simp [FindNextDoc, findNext]

end Verif.IntervalMap
