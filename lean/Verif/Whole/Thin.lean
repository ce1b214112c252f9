import Verif.Whole.Trail

/-! Which mapping events the steps before the converter drop. -/

namespace Verif.Whole
open Verif.Serial (Msg Body)
open Verif.Normalizer (Each Ev Callback SampleCtx MapRef)

/-- The second list is the first one without some elements whose key an element before them has. -/
inductive Thins {α : Type} (k : α → Option Nat) : List α → List α → Prop where
  | nil : Thins k [] []
  | keep {l r : List α} (x : α) : Thins k l r → Thins k (l ++ [x]) (r ++ [x])
  | drop {l r : List α} (x : α) {n : Nat} : Thins k l r → k x = some n → (∃ y ∈ r, k y = some n) → Thins k (l ++ [x]) r

theorem Thins.refl {α : Type} {k : α → Option Nat} (l : List α) : Thins k l l := by
  rw [← List.reverse_reverse l]
  induction l.reverse with
  | nil => exact .nil
  | cons x l ih => rw [List.reverse_cons]; exact .keep x ih

theorem Thins.keys {α : Type} {k : α → Option Nat} {l r : List α} (h : Thins k l r) (n : Nat) : (∃ y ∈ l, k y = some n) ↔ ∃ y ∈ r, k y = some n := by
  induction h with
  | nil => simp
  | keep x _ ih => simp only [List.mem_append, List.mem_singleton, or_and_right, exists_or, ih]
  | drop x _ hx hr ih =>
    simp only [List.mem_append, List.mem_singleton, or_and_right, exists_or, ih]
    constructor
    · rintro (h | ⟨y, rfl, hy⟩)
      · exact h
      · rw [hx] at hy; cases hy; exact hr
    · exact .inl

theorem Thins.filterMap {α β : Type} {k : α → Option Nat} {k' : β → Option Nat} {g : α → Option β} {l r : List α} (h : Thins k l r)
    (hg : ∀ x ∈ l, ∃ y, g x = some y ∧ k' y = k x) : Thins k' (l.filterMap g) (r.filterMap g) ∧ ∀ x ∈ r, x ∈ l := by
  induction h with
  | nil => exact ⟨.nil, fun _ h => h⟩
  | keep x _ ih =>
    obtain ⟨i1, i2⟩ := ih (fun y hy => hg y (List.mem_append_left _ hy))
    obtain ⟨y, h1, -⟩ := hg x (by simp)
    rw [List.filterMap_append, List.filterMap_append, List.filterMap_cons_some h1, List.filterMap_nil]
    refine ⟨.keep y i1, fun z hz => ?_⟩
    rcases List.mem_append.1 hz with hz | hz
    · exact List.mem_append_left _ (i2 z hz)
    · exact List.mem_append_right _ hz
  | drop x _ hx hr ih =>
    obtain ⟨i1, i2⟩ := ih (fun y hy => hg y (List.mem_append_left _ hy))
    obtain ⟨y, h1, h2⟩ := hg x (by simp)
    rw [List.filterMap_append, List.filterMap_cons_some h1, List.filterMap_nil]
    obtain ⟨z, hz, hzk⟩ := hr
    obtain ⟨w, w1, w2⟩ := hg z (List.mem_append_left _ (i2 z hz))
    exact ⟨.drop y i1 (h2.trans hx) ⟨w, List.mem_filterMap.2 ⟨z, hz, w1⟩, w2.trans hzk⟩, fun z hz => List.mem_append_left _ (i2 z hz)⟩

/-- What comes before an element that is not dropped. -/
theorem Thins.split {α : Type} {k : α → Option Nat} {t r : List α} (h : Thins k t r) : ∀ {l l' : List α} {x : α}, t = l ++ x :: l' → k x = none →
    ∃ r1 r2, r = r1 ++ x :: r2 ∧ Thins k l r1 := by
  induction h with
  | nil => intro l l' x he; simp at he
  | @keep l0 r0 y hy ih =>
    intro l l' x he hx
    cases hl : l'.reverse with
    | nil =>
      rw [List.reverse_eq_nil_iff.1 hl] at he
      obtain ⟨rfl, h2⟩ := List.append_inj' he rfl
      cases h2
      exact ⟨r0, [], rfl, hy⟩
    | cons z w =>
      have : l' = w.reverse ++ [z] := by rw [← List.reverse_reverse l', hl, List.reverse_cons]
      rw [this, ← List.cons_append, ← List.append_assoc] at he
      obtain ⟨h1, h2⟩ := List.append_inj' he rfl
      cases h2
      obtain ⟨r1, r2, rfl, h3⟩ := ih h1 hx
      exact ⟨r1, r2 ++ [y], by simp, h3⟩
  | @drop l0 r0 y n hy hk hr ih =>
    intro l l' x he hx
    cases hl : l'.reverse with
    | nil =>
      rw [List.reverse_eq_nil_iff.1 hl] at he
      obtain ⟨rfl, h2⟩ := List.append_inj' he rfl
      cases h2
      rw [hx] at hk
      cases hk
    | cons z w =>
      have : l' = w.reverse ++ [z] := by rw [← List.reverse_reverse l', hl, List.reverse_cons]
      rw [this, ← List.cons_append, ← List.append_assoc] at he
      obtain ⟨h1, h2⟩ := List.append_inj' he rfl
      exact ih h1 hx

/-! ## CombineMappings -/

/-- The place and the process of an event. -/
def tagOf (e : HugePages.Ev) : Nat × Option Nat := (e.other, e.mmap.map (·.key))

theorem map_set_same {α β : Type} (f : α → β) : ∀ {l : List α} {i : Nat} {a b : α}, l[i]? = some a → f b = f a → (l.set i b).map f = l.map f
  | [], _, _, _, h, _ => by cases h
  | x :: l, 0, a, b, h, he => by
    simp only [List.getElem?_cons_zero, Option.some.injEq] at h
    subst h
    rw [List.set_cons_zero, List.map_cons, List.map_cons, he]
  | x :: l, i + 1, a, b, h, he => by
    rw [List.getElem?_cons_succ] at h
    rw [List.set_cons_succ, List.map_cons, List.map_cons, map_set_same f h he]

theorem merge_tag {prev : HugePages.Ev} {p m : HugePages.MMap} (hp : prev.mmap = some p) : tagOf (HugePages.merge prev p m) = tagOf prev := by
  unfold HugePages.merge tagOf
  rw [hp]
  split <;> rfl

theorem combine_thins : ∀ (l es out : List HugePages.Ev) (f : Nat → Option Nat), Thins (·.2) (es.map tagOf) (out.map tagOf) →
    (∀ k i, f k = some i → ∃ e m, out[i]? = some e ∧ e.mmap = some m ∧ m.key = k) →
    Thins (·.2) ((es ++ l).map tagOf) ((l.foldl HugePages.combineStep (out, f)).1.map tagOf)
  | [], es, out, f, ht, _ => by rw [List.append_nil]; exact ht
  | e :: l, es, out, f, ht, hf => by
    have step : ∃ out' f', HugePages.combineStep (out, f) e = (out', f') ∧ Thins (·.2) ((es ++ [e]).map tagOf) (out'.map tagOf) ∧
        (∀ k i, f' k = some i → ∃ e m, out'[i]? = some e ∧ e.mmap = some m ∧ m.key = k) := by
      have hk : Thins (·.2) ((es ++ [e]).map tagOf) ((out ++ [e]).map tagOf) := by
        rw [List.map_append, List.map_append]
        exact .keep _ ht
      have old : ∀ k i, f k = some i → ∃ x m, (out ++ [e])[i]? = some x ∧ x.mmap = some m ∧ m.key = k := by
        intro k i hi
        obtain ⟨x, m, h1, h2, h3⟩ := hf k i hi
        refine ⟨x, m, ?_, h2, h3⟩
        rw [List.getElem?_append_left (List.getElem?_eq_some_iff.1 h1).1]
        exact h1
      unfold HugePages.combineStep
      split
      · exact ⟨_, _, rfl, hk, old⟩
      · rename_i m hm
        have add : ∀ k i, (fun k => if k = m.key then some out.length else f k) k = some i →
            ∃ x m, (out ++ [e])[i]? = some x ∧ x.mmap = some m ∧ m.key = k := by
          intro k i hi
          simp only at hi
          split at hi
          · rename_i he
            cases hi
            exact ⟨e, m, by simp, hm, he.symm⟩
          · exact old k i hi
        simp only
        split
        · exact ⟨_, _, rfl, hk, add⟩
        · rename_i i hi
          split
          · exact ⟨_, _, rfl, hk, add⟩
          · rename_i prev hprev
            split
            · exact ⟨_, _, rfl, hk, add⟩
            · rename_i p hp
              split
              · obtain ⟨x, q, h1, h2, h3⟩ := hf m.key i hi
                rw [hprev] at h1
                cases h1
                rw [hp] at h2
                cases h2
                refine ⟨_, _, rfl, ?_, fun k j hj => ?_⟩
                · rw [map_set_same tagOf hprev (merge_tag hp), List.map_append]
                  refine .drop _ ht (n := m.key) ?_ ⟨tagOf prev, List.mem_map.2 ⟨prev, List.mem_of_getElem? hprev, rfl⟩, ?_⟩
                  · unfold tagOf; rw [hm]; rfl
                  · unfold tagOf; rw [hp, ← h3]; rfl
                · obtain ⟨x, q, g1, g2, g3⟩ := hf k j hj
                  by_cases hij : i = j
                  · subst hij
                    rw [hprev] at g1
                    cases g1
                    rw [hp] at g2
                    cases g2
                    have : tagOf (HugePages.merge prev p m) = tagOf prev := merge_tag hp
                    have h2 := congrArg Prod.snd this
                    simp only [tagOf, hp, Option.map_some] at h2
                    obtain ⟨y, hy, hyk⟩ := Option.map_eq_some_iff.1 h2
                    refine ⟨_, y, ?_, hy, hyk.trans g3⟩
                    rw [List.getElem?_set, if_pos rfl, if_pos (List.getElem?_eq_some_iff.1 hprev).1]
                  · exact ⟨x, q, by rw [List.getElem?_set, if_neg hij]; exact g1, g2, g3⟩
              · exact ⟨_, _, rfl, hk, add⟩
    obtain ⟨out', f', h1, h2, h3⟩ := step
    rw [List.foldl_cons, h1]
    have := combine_thins l (es ++ [e]) out' f' h2 h3
    rw [List.append_assoc] at this
    exact this

/-! ## Messages -/

/-- An event without what may change of a mapping. -/
def bare : Ev → Ev
  | .mmap b => .mmap { pid := b.pid, start := 0, len := 0, pgoff := 0, filename := [] }
  | e => e

/-- The process of a mapping event. -/
def mapPid : Ev → Option Nat
  | .mmap b => some b.pid
  | _ => none

theorem putHuge_bare (e : HugePages.Ev) (m : Msg) : bare (normView (putHuge e m)) = bare (normView m) := by
  unfold putHuge
  split
  · rename_i h1 h2
    unfold normView
    simp only [h2]
    rfl
  · rfl

theorem bare_pid (m : Msg) (i : Nat) : mapPid (bare (normView m)) = (tagOf (combView i m)).2 := by
  unfold normView combView tagOf
  cases hb : m.body <;> simp only [hugeView, hb] <;> rfl

theorem fromHuge_bare (l : List Msg) (es : List HugePages.Ev) :
    (fromHuge l es).map (fun m => bare (normView m)) = (es.map tagOf).filterMap (fun t => (l[t.1]?).map (fun m => bare (normView m))) := by
  unfold fromHuge
  rw [List.map_filterMap, List.filterMap_map]
  congr 1
  funext e
  simp only [Function.comp, tagOf, Option.map_map]
  congr 1
  funext m
  exact putHuge_bare e m

theorem views_tag {f : Nat → Msg → HugePages.Ev} (hf : IsView f) (l : List Msg) :
    ((views f 0 l).map tagOf).filterMap (fun t => (l[t.1]?).map (fun m => bare (normView m))) = l.map (fun m => bare (normView m)) := by
  rw [← fromHuge_bare]
  unfold fromHuge
  rw [views_back f (·.other) putHuge hf.place l]
  generalize 0 = n
  induction l generalizing n with
  | nil => rfl
  | cons m l ih => simp only [views, List.map_cons, ih, putHuge_bare]

theorem combine_bare (l : List Msg) :
    Thins mapPid (l.map (fun m => bare (normView m))) ((combine l).map (fun m => bare (normView m))) := by
  have e : combine l = fromHuge l (HugePages.combineMappings (views combView 0 l)) := rfl
  rw [e, fromHuge_bare, ← views_tag combView_view l]
  refine (Thins.filterMap (k := (·.2)) ?_ ?_).1
  · have := combine_thins (views combView 0 l) [] [] (fun _ => none) .nil (fun _ _ h => by cases h)
    exact this
  · intro x hx
    obtain ⟨e, he, rfl⟩ := List.mem_map.1 hx
    obtain ⟨i, m, -, -, h3, rfl⟩ := views_mem he
    refine ⟨bare (normView m), ?_, bare_pid m i⟩
    have : (tagOf (combView i m)).1 = i := combView_view.place i m
    rw [this]
    rw [Nat.sub_zero] at h3
    rw [h3]; rfl

theorem deduce_bare {M : Machine} {l l' : List Msg} (h : deduce M l = some l') :
    l'.map (fun m => bare (normView m)) = l.map (fun m => bare (normView m)) := by
  unfold deduce at h
  obtain ⟨es', h1, rfl⟩ := Option.map_eq_some_iff.1 h
  obtain ⟨h2, -⟩ := deduce_stays _ _ _ h1
  rw [fromHuge_bare, ← views_tag hugeView_view l]
  have : ∀ {a b : List HugePages.Ev}, All₂ Stays a b → (b.map tagOf).filterMap (fun t => (l[t.1]?).map (fun m => bare (normView m))) =
      (a.map tagOf).filterMap (fun t => (l[t.1]?).map (fun m => bare (normView m))) := by
    intro a b hab
    induction hab with
    | nil => rfl
    | cons hr _ ih =>
      rw [List.map_cons, List.map_cons, List.filterMap_cons, List.filterMap_cons, ih]
      have : ∀ x, (tagOf x).1 = x.other := fun _ => rfl
      rw [this, this, hr.1]
  exact this h2

/-- What the steps before the converter leave of the events: the same ones up to the contents of mappings, without some mappings of
processes that had one before. -/
theorem prep_bare {M : Machine} {options : Nat} {i : Meta.Info} {l : List Msg} (hl : ∀ m ∈ l, Shaped m)
    {r : List Msg × Parser.Stats} (h : parseEvents M (rawOpts M options) true true true i l = some r) :
    Thins mapPid ((sortEvents i l).map (fun m => bare (normView m))) (r.1.map (fun m => bare (normView m))) := by
  rw [parseEvents_eq] at h
  simp only [if_true] at h
  obtain ⟨l2, h2, h⟩ := Option.bind_eq_some_iff.1 h
  obtain ⟨R, h4, h⟩ := Option.bind_eq_some_iff.1 h
  have hl1 : ∀ m ∈ sortEvents i l, Shaped m := fun m hm => hl m ((sort_perm i l).mem_iff.1 hm)
  have hl3 : ∀ m ∈ combine l2, Shaped m := (combine_spec l2).2 ((deduce_spec h2).2 hl1)
  have h5 : R.events = views parserView 0 (combine l2) := by
    refine Parser.parse_keep rfl rfl (fun e he => ?_) h4
    obtain ⟨k, m, hm, -, -, rfl⟩ := views_mem he
    intro ht
    obtain ⟨b, hb⟩ := (hl3 m hm).mmap ht
    simp [parserView, hb]
  have h6 : r.1 = (combine l2).map touch := by
    rw [← Option.some.inj h]
    unfold parsed
    simp only
    rw [h5, views_back parserView (·.rest) putParsed (fun _ _ => rfl)]
    rw [show (fun i m => putParsed (parserView i m) m) = fun _ m => touch m from funext fun i => funext fun m => putParsed_view i m]
    exact views_map touch 0 _
  rw [h6, List.map_map]
  have : (fun m => bare (normView m)) ∘ touch = fun m => bare (normView m) := funext fun m => by simp only [Function.comp, touch_norm]
  rw [this, ← deduce_bare h2]
  exact combine_bare l2

end Verif.Whole
