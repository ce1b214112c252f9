import Verif.IntervalMap.Spec
import Verif.Base.Lists

namespace Verif.IntervalMap

variable {V : Type}

/-- Extensional content: the value stored at a key, by plain search. -/
def at? (m : IMap V) (k : Nat) : Option V :=
  (m.find? (fun e => e.start ≤ k ∧ k < e.limit)).map (·.value)

theorem SortedDisjoint.tail {e : Entry V} {m : IMap V} (h : SortedDisjoint (e :: m)) :
    SortedDisjoint m :=
  ⟨fun x hx => h.1 x (List.mem_cons_of_mem _ hx), (List.pairwise_cons.1 h.2).2⟩

theorem SortedDisjoint.head {e : Entry V} {m : IMap V} (h : SortedDisjoint (e :: m)) :
    e.start < e.limit ∧ ∀ x ∈ m, e.limit ≤ x.start :=
  ⟨h.1 e (List.mem_cons_self ..), (List.pairwise_cons.1 h.2).1⟩

theorem sortedDisjoint_cons {e : Entry V} {m : IMap V} :
    SortedDisjoint (e :: m) ↔
      e.start < e.limit ∧ (∀ x ∈ m, e.limit ≤ x.start) ∧ SortedDisjoint m := by
  constructor
  · intro h; exact ⟨h.head.1, h.head.2, h.tail⟩
  · rintro ⟨h1, h2, h3⟩
    refine ⟨?_, List.pairwise_cons.2 ⟨h2, h3.2⟩⟩
    intro x hx
    rcases List.mem_cons.1 hx with rfl | hx
    · exact h1
    · exact h3.1 x hx

theorem sortedDisjoint_nil : SortedDisjoint ([] : IMap V) := ⟨by simp, by simp⟩

theorem containing_nil (k : Nat) : containing ([] : IMap V) k = none := rfl

/-- In a sorted disjoint map, `containing` is the plain search. -/
theorem containing_eq_find (m : IMap V) (h : SortedDisjoint m) (k : Nat) :
    containing m k = m.find? (fun e => e.start ≤ k ∧ k < e.limit) := by
  induction m with
  | nil => rfl
  | cons e t ih =>
    have ht := h.tail
    have hh := h.head
    have ih := ih ht
    by_cases hle : e.start ≤ k
    · unfold containing prevEntry at ih ⊢
      rw [List.takeWhile_cons_of_pos (by simpa using hle)]
      rw [List.find?_cons]
      cases hlast : (t.takeWhile (fun e => decide (e.start ≤ k))).getLast? with
      | none =>
        have hnil : t.takeWhile (fun e => decide (e.start ≤ k)) = [] := by
          simpa using hlast
        rw [hnil]
        simp only [List.getLast?_singleton]
        by_cases hk : e.limit ≤ k
        · rw [hlast] at ih
          simp only at ih
          have hd : decide (e.start ≤ k ∧ k < e.limit) = false := by
            rw [decide_eq_false_iff_not]; omega
          rw [hd, if_pos hk]
          exact ih
        · have : k < e.limit := by omega
          simp [hk, hle, this]
      | some x =>
        have hx : x ∈ t := by
          have := List.mem_of_getLast? hlast
          exact (List.takeWhile_sublist _).subset this
        have hxk : x.start ≤ k := by
          have := List.mem_of_getLast? hlast
          have := mem_takeWhile_imp this
          simpa using this
        have h1 := hh.2 x hx
        have hnk : ¬ k < e.limit := by omega
        rw [hlast] at ih
        rw [List.getLast?_cons, hlast]
        simp [hnk]
        simpa using ih
    · have hle' : k < e.start := by omega
      have hfind : (e :: t).find? (fun e => decide (e.start ≤ k ∧ k < e.limit)) = none := by
        rw [List.find?_eq_none]
        intro x hx
        rcases List.mem_cons.1 hx with rfl | hx
        · simp; omega
        · have := hh.2 x hx
          simp; omega
      rw [hfind]
      unfold containing prevEntry
      rw [List.takeWhile_cons_of_neg (by simpa using hle)]
      rfl

theorem lookup_eq_at (m : IMap V) (h : SortedDisjoint m) (k : Nat) : lookup m k = at? m k := by
  unfold lookup at?
  rw [containing_eq_find m h]

theorem at_cons (e : Entry V) (t : IMap V) (k : Nat) :
    at? (e :: t) k = if e.start ≤ k ∧ k < e.limit then some e.value else at? t k := by
  unfold at?
  rw [List.find?_cons]
  by_cases hk : e.start ≤ k ∧ k < e.limit
  · simp [hk]
  · simp only [hk, decide_false, if_false]

theorem at_append (a b : IMap V) (k : Nat) : at? (a ++ b) k = (at? a k).or (at? b k) := by
  induction a with
  | nil => simp [at?]
  | cons e t ih =>
    rw [List.cons_append, at_cons, at_cons, ih]
    by_cases h : e.start ≤ k ∧ k < e.limit <;> simp [h]

theorem at_none_of (m : IMap V) (k : Nat) (h : ∀ e ∈ m, ¬ (e.start ≤ k ∧ k < e.limit)) :
    at? m k = none := by
  unfold at?
  have : m.find? (fun e => decide (e.start ≤ k ∧ k < e.limit)) = none := by
    rw [List.find?_eq_none]
    intro x hx
    simpa using h x hx
  rw [this]; rfl

/-! ### Explicit splitting at a point

`cut m p` is the map with the interval straddling `p`, if any, cut in two. -/

/-- Structural description of splitting at `p`. -/
def cut (m : IMap V) (p : Nat) : IMap V :=
  match m with
  | [] => []
  | e :: t =>
    if e.start < p ∧ p < e.limit then ⟨e.start, p, e.value⟩ :: ⟨p, e.limit, e.value⟩ :: t
    else e :: cut t p

theorem setLimit_of_lt (m : IMap V) (s p : Nat) (h : ∀ e ∈ m, s < e.start) : setLimit m s p = m := by
  unfold setLimit
  conv => rhs; rw [← List.map_id m]
  apply List.map_congr_left
  intro e he
  have := h e he
  have : e.start ≠ s := by omega
  simp [this]

theorem insert_of_lt (m : IMap V) (s l : Nat) (v : V) (h : ∀ e ∈ m, s < e.start) :
    insert m s l v = ⟨s, l, v⟩ :: m := by
  cases m with
  | nil => rfl
  | cons e t =>
    have := h e (List.mem_cons_self ..)
    unfold insert
    have h2 : ¬ e.start < s := by omega
    simp [h2, this]

theorem cut_of_notin (m : IMap V) (p : Nat) (h : ∀ e ∈ m, ¬ (e.start < p ∧ p < e.limit)) :
    cut m p = m := by
  induction m with
  | nil => rfl
  | cons e t ih =>
    have h1 := h e (List.mem_cons_self ..)
    unfold cut
    rw [if_neg h1, ih (fun x hx => h x (List.mem_cons_of_mem _ hx))]

theorem split_containing_eq_cut (m : IMap V) (h : SortedDisjoint m) (p : Nat) :
    split m (containing m p) p = cut m p := by
  rw [containing_eq_find m h]
  induction m with
  | nil => rfl
  | cons e t ih =>
    have ht := h.tail
    have hh := h.head
    rw [List.find?_cons]
    by_cases hc : e.start ≤ p ∧ p < e.limit
    · simp only [hc, and_self, decide_true]
      unfold cut
      simp only [split]
      by_cases hs : e.start < p
      · have h1 : ¬ (p ≤ e.start ∨ p ≥ e.limit) := by omega
        rw [if_neg h1, if_pos ⟨hs, hc.2⟩]
        have hset : setLimit (e :: t) e.start p = ⟨e.start, p, e.value⟩ :: t := by
          have := setLimit_of_lt t e.start p (fun x hx => by have := hh.2 x hx; omega)
          unfold setLimit at this ⊢
          rw [List.map_cons, this]; simp
        rw [hset]
        unfold insert
        simp only [hs, if_true]
        rw [insert_of_lt]
        intro x hx
        have := hh.2 x hx; omega
      · have h1 : (p ≤ e.start ∨ p ≥ e.limit) := by omega
        rw [if_pos h1, if_neg (by omega)]
        congr 1
        rw [cut_of_notin]
        intro x hx
        have := hh.2 x hx; omega
    · simp only [hc, decide_false]
      have ih := ih ht
      unfold cut
      rw [if_neg (by omega), ← ih]
      unfold split
      cases hf : t.find? (fun e => decide (e.start ≤ p ∧ p < e.limit)) with
      | none => rfl
      | some x =>
        have hx : x ∈ t := List.mem_of_find?_eq_some hf
        have h1 := hh.2 x hx
        have hh1 := hh.1
        simp only
        by_cases hp : p ≤ x.start ∨ p ≥ x.limit
        · rw [if_pos hp, if_pos hp]
        · rw [if_neg hp, if_neg hp]
          have hset : setLimit (e :: t) x.start p = e :: setLimit t x.start p := by
            unfold setLimit
            have : e.start ≠ x.start := by omega
            simp [this]
          rw [hset]
          conv => lhs; unfold insert
          have : e.start < p := by omega
          simp [this]

theorem mem_cut {m : IMap V} {p : Nat} {x : Entry V} (hx : x ∈ cut m p) :
    ∃ e ∈ m, e.start ≤ x.start ∧ x.limit ≤ e.limit := by
  induction m with
  | nil => simp [cut] at hx
  | cons e t ih =>
    unfold cut at hx
    split at hx
    · simp only [List.mem_cons] at hx
      rcases hx with rfl | rfl | hx
      · exact ⟨e, by simp, by simp, by simp; omega⟩
      · exact ⟨e, by simp, by simp; omega, by simp⟩
      · exact ⟨x, by simp [hx], by simp, by simp⟩
    · simp only [List.mem_cons] at hx
      rcases hx with rfl | hx
      · exact ⟨x, by simp, by simp, by simp⟩
      · obtain ⟨y, hy, h1, h2⟩ := ih hx
        exact ⟨y, by simp [hy], h1, h2⟩

theorem cut_sorted (m : IMap V) (h : SortedDisjoint m) (p : Nat) : SortedDisjoint (cut m p) := by
  induction m with
  | nil => simpa [cut] using h
  | cons e t ih =>
    have ht := h.tail
    have hh := h.head
    unfold cut
    split
    · rename_i hc
      refine sortedDisjoint_cons.2 ⟨by simp; omega, ?_, sortedDisjoint_cons.2 ⟨by simp; omega, ?_, ht⟩⟩
      · intro x hx
        rcases List.mem_cons.1 hx with rfl | hx
        · simp
        · have := hh.2 x hx; simp; omega
      · intro x hx
        have := hh.2 x hx; simpa using this
    · refine sortedDisjoint_cons.2 ⟨hh.1, ?_, ih ht⟩
      intro x hx
      obtain ⟨y, hy, h1, _⟩ := mem_cut hx
      have := hh.2 y hy; omega

theorem at_cut (m : IMap V) (p k : Nat) : at? (cut m p) k = at? m k := by
  induction m with
  | nil => rfl
  | cons e t ih =>
    unfold cut
    split
    · rename_i hc
      rw [at_cons, at_cons, at_cons]
      simp only
      by_cases h1 : e.start ≤ k ∧ k < p
      · rw [if_pos h1, if_pos (by omega)]
      · by_cases h2 : p ≤ k ∧ k < e.limit
        · rw [if_neg h1, if_pos h2, if_pos (by omega)]
        · rw [if_neg h1, if_neg h2, if_neg (by omega)]
    · rw [at_cons, at_cons, ih]

/-- After a cut at `p` no interval straddles `p`. -/
theorem cut_not_straddle (m : IMap V) (h : SortedDisjoint m) (p : Nat) :
    ∀ e ∈ cut m p, ¬ (e.start < p ∧ p < e.limit) := by
  induction m with
  | nil => simp [cut]
  | cons e t ih =>
    have ht := h.tail
    have hh := h.head
    unfold cut
    split
    · rename_i hc
      intro x hx
      simp only [List.mem_cons] at hx
      rcases hx with rfl | rfl | hx
      · simp
      · simp
      · have := hh.2 x hx; omega
    · rename_i hc
      intro x hx
      rcases List.mem_cons.1 hx with rfl | hx
      · exact hc
      · exact ih ht x hx

theorem cut_preserves_not_straddle (m : IMap V) (p q : Nat)
    (h : ∀ e ∈ m, ¬ (e.start < q ∧ q < e.limit)) :
    ∀ e ∈ cut m p, ¬ (e.start < q ∧ q < e.limit) := by
  intro x hx
  obtain ⟨e, he, h1, h2⟩ := mem_cut hx
  have := h e he
  omega

theorem takeWhile_eq_filter_of_sorted (m : IMap V) (h : SortedDisjoint m) (a : Nat) :
    m.takeWhile (fun e => e.start < a) = m.filter (fun e => e.start < a) := by
  induction m with
  | nil => rfl
  | cons e t ih =>
    have hh := h.head
    by_cases hc : e.start < a
    · rw [List.takeWhile_cons_of_pos (by simpa using hc), List.filter_cons_of_pos (by simpa using hc),
        ih h.tail]
    · rw [List.takeWhile_cons_of_neg (by simpa using hc), List.filter_cons_of_neg (by simpa using hc)]
      symm
      rw [List.filter_eq_nil_iff]
      intro x hx
      have := hh.2 x hx
      simp; omega

theorem dropWhile_eq_filter_of_sorted (m : IMap V) (h : SortedDisjoint m) (a : Nat) :
    m.dropWhile (fun e => e.start < a) = m.filter (fun e => a ≤ e.start) := by
  induction m with
  | nil => rfl
  | cons e t ih =>
    have hh := h.head
    by_cases hc : e.start < a
    · rw [List.dropWhile_cons_of_pos (by simpa using hc), List.filter_cons_of_neg (by simpa using hc),
        ih h.tail]
    · rw [List.dropWhile_cons_of_neg (by simpa using hc)]
      symm
      rw [List.filter_eq_self]
      intro x hx
      rcases List.mem_cons.1 hx with rfl | hx
      · simp; omega
      · have := hh.2 x hx
        simp; omega

theorem sortedDisjoint_sublist {m n : IMap V} (h : SortedDisjoint m) (hs : List.Sublist n m) :
    SortedDisjoint n :=
  ⟨fun e he => h.1 e (hs.subset he), h.2.sublist hs⟩

theorem eraseRange_eq_filter (m : IMap V) (h : SortedDisjoint m) (a b : Nat) (hab : a ≤ b) :
    eraseRange m a b = m.filter (fun e => e.start < a ∨ b ≤ e.start) := by
  unfold eraseRange
  have hf := sortedDisjoint_sublist h (List.filter_sublist (p := fun e => decide (a ≤ e.start)))
  rw [takeWhile_eq_filter_of_sorted m h, dropWhile_eq_filter_of_sorted m h,
    dropWhile_eq_filter_of_sorted _ hf, List.filter_filter]
  clear hf
  induction m with
  | nil => rfl
  | cons e t ih =>
    have hh := h.head
    have ih := ih h.tail
    by_cases h1 : e.start < a
    · have h2 : ¬ b ≤ e.start := by omega
      rw [List.filter_cons_of_pos (by simpa using h1), List.filter_cons_of_neg (by simp; omega),
        List.filter_cons_of_pos (by simp; omega), List.cons_append, ih]
    · have ht : t.filter (fun e => decide (e.start < a)) = [] := by
        rw [List.filter_eq_nil_iff]
        intro x hx
        have := hh.2 x hx
        simp; omega
      rw [ht] at ih
      rw [List.filter_cons_of_neg (by simpa using h1), ht]
      simp only [List.nil_append] at ih ⊢
      by_cases h2 : b ≤ e.start
      · rw [List.filter_cons_of_pos (by simp; omega), List.filter_cons_of_pos (by simp; omega), ih]
      · rw [List.filter_cons_of_neg (by simp; omega), List.filter_cons_of_neg (by simp; omega), ih]

/-- `RemoveInterval` in structural form. -/
theorem removeInterval_eq (m : IMap V) (h : SortedDisjoint m) (s l : Nat) (hsl : s < l) :
    removeInterval m s l = (cut (cut m l) s).filter (fun e => e.start < s ∨ l ≤ e.start) := by
  unfold removeInterval
  rw [if_neg (by omega)]
  simp only
  rw [split_containing_eq_cut m h]
  have h1 := cut_sorted m h l
  rw [split_containing_eq_cut _ h1]
  rw [eraseRange_eq_filter _ (cut_sorted _ h1 s) _ _ (by omega)]

theorem removeInterval_sorted (m : IMap V) (h : SortedDisjoint m) (s l : Nat) (hsl : s < l) :
    SortedDisjoint (removeInterval m s l) := by
  rw [removeInterval_eq m h s l hsl]
  exact sortedDisjoint_sublist (cut_sorted _ (cut_sorted m h l) s) List.filter_sublist

/-- After `RemoveInterval` every interval lies entirely before or entirely after the hole. -/
theorem removeInterval_outside (m : IMap V) (h : SortedDisjoint m) (s l : Nat) (hsl : s < l) :
    ∀ e ∈ removeInterval m s l, e.limit ≤ s ∨ l ≤ e.start := by
  rw [removeInterval_eq m h s l hsl]
  intro e he
  have he' := List.mem_filter.1 he
  have hns := cut_not_straddle _ (cut_sorted m h l) s e he'.1
  have := he'.2
  simp at this
  omega

theorem at_filter (m : IMap V) (h : SortedDisjoint m) (s l k : Nat)
    (hs : ∀ e ∈ m, ¬ (e.start < s ∧ s < e.limit)) (hl : ∀ e ∈ m, ¬ (e.start < l ∧ l < e.limit))
    (hk : ¬ (s ≤ k ∧ k < l)) :
    at? (m.filter (fun e => e.start < s ∨ l ≤ e.start)) k = at? m k := by
  induction m with
  | nil => rfl
  | cons e t ih =>
    have ih := ih h.tail (fun x hx => hs x (List.mem_cons_of_mem _ hx))
      (fun x hx => hl x (List.mem_cons_of_mem _ hx))
    have hse := hs e (List.mem_cons_self ..)
    have hle := hl e (List.mem_cons_self ..)
    have hh := h.head
    rw [at_cons]
    by_cases hc : e.start < s ∨ l ≤ e.start
    · rw [List.filter_cons_of_pos (by simpa using hc), at_cons, ih]
    · rw [List.filter_cons_of_neg (by simpa using hc), ih, if_neg (by omega)]

theorem at_removeInterval (m : IMap V) (h : SortedDisjoint m) (s l k : Nat) (hsl : s < l) :
    at? (removeInterval m s l) k = if s ≤ k ∧ k < l then none else at? m k := by
  by_cases hk : s ≤ k ∧ k < l
  · rw [if_pos hk]
    apply at_none_of
    intro e he
    have := removeInterval_outside m h s l hsl e he
    omega
  · rw [if_neg hk, removeInterval_eq m h s l hsl]
    have h1 := cut_sorted m h l
    rw [at_filter _ (cut_sorted _ h1 s) s l k (cut_not_straddle _ h1 s)
      (cut_preserves_not_straddle _ _ _ (cut_not_straddle m h l)) hk, at_cut, at_cut]

theorem mem_insert {m : IMap V} {s l : Nat} {v : V} {x : Entry V} (hx : x ∈ insert m s l v) :
    x = ⟨s, l, v⟩ ∨ x ∈ m := by
  induction m with
  | nil => simpa [insert] using hx
  | cons e t ih =>
    unfold insert at hx
    split at hx
    · rcases List.mem_cons.1 hx with rfl | hx
      · simp
      · rcases ih hx with h | h
        · exact Or.inl h
        · exact Or.inr (List.mem_cons_of_mem _ h)
    · split at hx
      · rcases List.mem_cons.1 hx with rfl | hx
        · simp
        · exact Or.inr hx
      · exact Or.inr hx

theorem insert_sorted (m : IMap V) (h : SortedDisjoint m) (s l : Nat) (v : V) (hsl : s < l)
    (ho : ∀ e ∈ m, e.limit ≤ s ∨ l ≤ e.start) : SortedDisjoint (insert m s l v) := by
  induction m with
  | nil =>
    unfold insert
    exact sortedDisjoint_cons.2 ⟨hsl, by simp, sortedDisjoint_nil⟩
  | cons e t ih =>
    have hh := h.head
    have he := ho e (List.mem_cons_self ..)
    have ih := ih h.tail (fun x hx => ho x (List.mem_cons_of_mem _ hx))
    unfold insert
    split
    · refine sortedDisjoint_cons.2 ⟨hh.1, ?_, ih⟩
      intro x hx
      rcases mem_insert hx with rfl | hx
      · simp; omega
      · exact hh.2 x hx
    · have : s < e.start := by omega
      rw [if_pos this]
      refine sortedDisjoint_cons.2 ⟨hsl, ?_, h⟩
      intro x hx
      rcases List.mem_cons.1 hx with rfl | hx
      · simp; omega
      · have := hh.2 x hx; simp; omega

theorem at_insert (m : IMap V) (h : SortedDisjoint m) (s l k : Nat) (v : V) (hsl : s < l)
    (ho : ∀ e ∈ m, e.limit ≤ s ∨ l ≤ e.start) :
    at? (insert m s l v) k = if s ≤ k ∧ k < l then some v else at? m k := by
  induction m with
  | nil =>
    unfold insert
    rw [at_cons]
  | cons e t ih =>
    have hh := h.head
    have he := ho e (List.mem_cons_self ..)
    have ih := ih h.tail (fun x hx => ho x (List.mem_cons_of_mem _ hx))
    unfold insert
    split
    · rw [at_cons, at_cons, ih]
      by_cases h1 : s ≤ k ∧ k < l
      · rw [if_pos h1, if_pos h1, if_neg (by omega)]
      · rw [if_neg h1, if_neg h1]
    · have : s < e.start := by omega
      rw [if_pos this, at_cons]

/-- One call preserves the invariant and acts on the content as specified. -/
theorem step_spec (m m' : IMap V) (h : SortedDisjoint m) (op : Op V) (hs : step m op = some m') :
    SortedDisjoint m' ∧ ∀ k, at? m' k = if op.touches k then op.writes else at? m k := by
  cases op with
  | set s l v =>
    simp only [step, set] at hs
    split at hs
    · rename_i hsl
      cases hs
      have ho := removeInterval_outside m h s l hsl
      have hr := removeInterval_sorted m h s l hsl
      refine ⟨insert_sorted _ hr s l v hsl ho, fun k => ?_⟩
      rw [at_insert _ hr s l k v hsl ho, at_removeInterval m h s l k hsl]
      simp only [Op.touches, Op.writes, decide_eq_true_eq]
      split <;> simp_all
    · cases hs
  | clearInterval s l =>
    simp only [step, clearInterval] at hs
    split at hs
    · rename_i hsl
      cases hs
      refine ⟨removeInterval_sorted m h s l hsl, fun k => ?_⟩
      rw [at_removeInterval m h s l k hsl]
      simp only [Op.touches, Op.writes, decide_eq_true_eq]
    · cases hs
  | clear =>
    simp only [step, clear] at hs
    cases hs
    exact ⟨sortedDisjoint_nil, fun k => by simp [Op.touches, Op.writes, at?]⟩

theorem runFrom_spec (ops : List (Op V)) (m m' : IMap V) (h : SortedDisjoint m)
    (hr : runFrom m ops = some m') :
    SortedDisjoint m' ∧ ∀ k, at? m' k =
      match ops.reverse.find? (Op.touches k) with
      | some op => op.writes
      | none => at? m k := by
  induction ops generalizing m with
  | nil =>
    unfold runFrom at hr
    cases hr
    exact ⟨h, fun k => by simp⟩
  | cons op ops ih =>
    unfold runFrom at hr
    cases hs : step m op with
    | none => rw [hs] at hr; cases hr
    | some m1 =>
      rw [hs] at hr
      obtain ⟨h1, h2⟩ := step_spec m m1 h op hs
      obtain ⟨h3, h4⟩ := ih m1 h1 hr
      refine ⟨h3, fun k => ?_⟩
      rw [h4 k, List.reverse_cons, List.find?_append]
      cases List.find? (Op.touches k) ops.reverse with
      | some o => simp
      | none =>
        simp only [Option.none_or, List.find?_singleton]
        rw [h2 k]
        by_cases ht : op.touches k <;> simp [ht]

theorem step_isSome (m : IMap V) (op : Op V) : (step m op).isSome ↔ op.wellFormed := by
  cases op with
  | set s l v => unfold step set Op.wellFormed; by_cases h : s < l <;> simp [h]
  | clearInterval s l => unfold step clearInterval Op.wellFormed; by_cases h : s < l <;> simp [h]
  | clear => simp [step, Op.wellFormed]

end Verif.IntervalMap
