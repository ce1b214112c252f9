import Verif.Tool.Model

/-!
# Arguments of `perf_to_profile`
-/

namespace Verif.Tool

/-! ## Specification -/

/-- What a user writes: flags in one word, flags and a value for `-i` or `-o` in one word, the value in a word of its own, or a word that is none
of these. -/
inductive Item where
  | flags (fs : Bytes)
  | joined (fs : Bytes) (c : UInt8) (v : Bytes)
  | apart (fs : Bytes) (c : UInt8) (v : Bytes)
  | operand (w : Bytes)

/-- The flags are `j` and `f`, the options with a value `i` and `o`; a value in the same word is not empty, one in a word of its own can be any word. -/
def Item.Ok : Item → Prop
  | .flags fs => fs ≠ [] ∧ ∀ x ∈ fs, x = 106 ∨ x = 102
  | .joined fs c v => (∀ x ∈ fs, x = 106 ∨ x = 102) ∧ (c = 105 ∨ c = 111) ∧ v ≠ []
  | .apart fs c _ => (∀ x ∈ fs, x = 106 ∨ x = 102) ∧ (c = 105 ∨ c = 111)
  | .operand w => w = [45] ∨ w.head? ≠ some 45

/-- The words. -/
def Item.words : Item → List Bytes
  | .flags fs => [45 :: fs]
  | .joined fs c v => [45 :: (fs ++ c :: v)]
  | .apart fs c v => [45 :: (fs ++ [c]), v]
  | .operand w => [w]

/-- The letters, with their values. -/
def Item.given : Item → List (UInt8 × Option Bytes)
  | .flags fs => fs.map (fun x => (x, none))
  | .joined fs c v => fs.map (fun x => (x, none)) ++ [(c, some v)]
  | .apart fs c v => fs.map (fun x => (x, none)) ++ [(c, some v)]
  | .operand _ => []

/-- What the letters mean: the last value counts. -/
def meaning (l : List (UInt8 × Option Bytes)) : Args :=
  { input := ((l.filter (·.1 = 105)).getLast?.bind (·.2)).getD []
    output := ((l.filter (·.1 = 111)).getLast?.bind (·.2)).getD []
    overwrite := l.any (·.1 = 102)
    jit := l.any (·.1 = 106) }

/-! ## Proof -/

theorem letters_flags {fs : Bytes} (h : ∀ x ∈ fs, x = 106 ∨ x = 102) (l : Bytes) (ws : List Bytes) :
    letters takes (fs ++ l) ws = (fs.map (fun x => Got.option x none) ++ (letters takes l ws).1, (letters takes l ws).2) := by
  induction fs with
  | nil => rfl
  | cons x fs ih =>
    have ih := ih (fun y hy => h y (List.mem_cons_of_mem _ hy))
    have hx : takes x = some false := by
      unfold takes
      exact if_pos (h x List.mem_cons_self)
    rw [List.cons_append, letters, hx]
    simp only [ih, List.map_cons, List.cons_append]

theorem takes_value {c : UInt8} (h : c = 105 ∨ c = 111) : takes c = some true := by
  rcases h with rfl | rfl <;> rfl

theorem takes_true {c : UInt8} (h : takes c = some true) : c = 105 ∨ c = 111 := by
  unfold takes at h
  split at h
  · cases h
  · split at h
    · assumption
    · cases h

theorem takes_false {c : UInt8} (h : takes c = some false) : c = 106 ∨ c = 102 := by
  unfold takes at h
  split at h
  · assumption
  · split at h <;> cases h

def asGot (g : UInt8 × Option Bytes) : Got := .option g.1 g.2

/-- The words of an item are understood as it was meant. -/
theorem getopts_item {i : Item} (h : i.Ok) (rest : List Bytes) (fuel : Nat) :
    getopts takes (fuel + 1) (i.words ++ rest) = i.given.map asGot ++ getopts takes fuel rest := by
  cases i with
  | flags fs =>
    obtain ⟨hn, hf⟩ := h
    cases fs with
    | nil => exact absurd rfl hn
    | cons x fs =>
      have hx : x ≠ 45 := by
        rcases hf x List.mem_cons_self with rfl | rfl <;> decide
      show getopts takes (fuel + 1) ((45 :: x :: fs) :: rest) = _
      rw [getopts, if_neg (fun hc => hx hc.1)]
      have := letters_flags hf [] rest
      rw [List.append_nil] at this
      rw [this]
      simp [letters, Item.given, asGot, Function.comp_def]
  | joined fs c v =>
    obtain ⟨hf, hc, hv⟩ := h
    obtain ⟨x, l, hxl, hx⟩ : ∃ x l, fs ++ c :: v = x :: l ∧ x ≠ 45 := by
      cases fs with
      | nil => exact ⟨c, v, rfl, by rcases hc with rfl | rfl <;> decide⟩
      | cons x fs => exact ⟨x, fs ++ c :: v, rfl, by rcases hf x List.mem_cons_self with rfl | rfl <;> decide⟩
    show getopts takes (fuel + 1) ((45 :: (fs ++ c :: v)) :: rest) = _
    rw [hxl, getopts, if_neg (fun hc => hx hc.1), ← hxl, letters_flags hf, letters, takes_value hc]
    simp only [value, if_pos hv, Item.given, List.map_append, List.map_map, List.append_assoc]
    rfl
  | apart fs c v =>
    obtain ⟨hf, hc⟩ := h
    obtain ⟨x, l, hxl, hx⟩ : ∃ x l, fs ++ [c] = x :: l ∧ x ≠ 45 := by
      cases fs with
      | nil => exact ⟨c, [], rfl, by rcases hc with rfl | rfl <;> decide⟩
      | cons x fs => exact ⟨x, fs ++ [c], rfl, by rcases hf x List.mem_cons_self with rfl | rfl <;> decide⟩
    show getopts takes (fuel + 1) ((45 :: (fs ++ [c])) :: v :: rest) = _
    rw [hxl, getopts, if_neg (fun hc => hx hc.1), ← hxl, letters_flags hf, letters, takes_value hc]
    simp only [value, ne_eq, not_true, if_false, Item.given, List.map_append, List.map_map, List.append_assoc]
    rfl
  | operand w =>
    show getopts takes (fuel + 1) (w :: rest) = getopts takes fuel rest
    rcases h with rfl | h
    · rfl
    · match w, h with
      | [], _ => rfl
      | x :: l, h =>
        have hx : x ≠ 45 := fun hx => h (by rw [hx]; rfl)
        rw [getopts]
        intro c l' he
        exact hx (by injection he)

theorem getopts_end (rest : List Bytes) (fuel : Nat) : getopts takes fuel ([45, 45] :: rest) = [] := by
  cases fuel with
  | zero => rfl
  | succ fuel => rfl

theorem getopts_nil (fuel : Nat) : getopts takes fuel [] = [] := by cases fuel <;> rfl

theorem getopts_items {tail : List Bytes} (ht : tail = [] ∨ ∃ rest, tail = [45, 45] :: rest) : ∀ {items : List Item} (_ : ∀ i ∈ items, i.Ok)
    (fuel : Nat), (items.flatMap Item.words ++ tail).length < fuel →
    getopts takes fuel (items.flatMap Item.words ++ tail) = (items.flatMap Item.given).map asGot
  | [], _, fuel, _ => by
    rcases ht with rfl | ⟨rest, rfl⟩
    · exact getopts_nil fuel
    · exact getopts_end rest fuel
  | i :: items, h, fuel, hf => by
    cases fuel with
    | zero => omega
    | succ fuel =>
      rw [List.flatMap_cons, List.flatMap_cons, List.append_assoc, getopts_item (h i List.mem_cons_self), List.map_append,
        getopts_items ht (fun j hj => h j (List.mem_cons_of_mem _ hj)) fuel]
      rw [List.flatMap_cons, List.append_assoc, List.length_append] at hf
      have : 0 < i.words.length := by cases i <;> simp [Item.words]
      omega

/-- Letters that are all understood are flags, or flags and an option with its value. -/
theorem letters_ok : ∀ {l : Bytes} {ws : List Bytes}, l ≠ [] → (∀ g ∈ (letters takes l ws).1, ∃ c arg, g = .option c arg) →
    ∃ (fs : Bytes), (∀ x ∈ fs, x = 106 ∨ x = 102) ∧
      ((l = fs ∧ (letters takes l ws).2 = ws) ∨
       (∃ c v, (c = 105 ∨ c = 111) ∧ v ≠ [] ∧ l = fs ++ c :: v ∧ (letters takes l ws).2 = ws) ∨
       ∃ c v, (c = 105 ∨ c = 111) ∧ l = fs ++ [c] ∧ ws = v :: (letters takes l ws).2)
  | [], _, h, _ => absurd rfl h
  | x :: l, ws, _, hg => by
    rw [letters] at hg ⊢
    cases hx : takes x with
    | none =>
      rw [hx] at hg
      obtain ⟨c, arg, h⟩ := hg _ List.mem_cons_self
      cases h
    | some b =>
      rw [hx] at hg
      cases b with
      | true =>
        have hc := takes_true hx
        simp only [value] at hg ⊢
        by_cases hl : l ≠ []
        · refine ⟨[], by simp, .inr (.inl ⟨x, l, hc, hl, rfl, ?_⟩)⟩
          rw [if_pos hl]
        · rw [if_neg hl] at hg ⊢
          have hl : l = [] := Classical.not_not.1 hl
          subst hl
          cases ws with
          | nil =>
            obtain ⟨c, arg, h⟩ := hg _ List.mem_cons_self
            cases h
          | cons w ws => exact ⟨[], by simp, .inr (.inr ⟨x, w, hc, rfl, rfl⟩)⟩
      | false =>
        simp only at hg ⊢
        have hf := takes_false hx
        cases l with
        | nil => exact ⟨[x], by simpa using hf, .inl ⟨rfl, rfl⟩⟩
        | cons y l =>
          obtain ⟨fs, h1, h2⟩ := letters_ok (l := y :: l) (ws := ws) (by simp) (fun g hg' => hg g (List.mem_cons_of_mem _ hg'))
          refine ⟨x :: fs, fun z hz => ?_, ?_⟩
          · rcases List.mem_cons.1 hz with rfl | hz
            · exact hf
            · exact h1 z hz
          · rcases h2 with ⟨e1, e2⟩ | ⟨c, v, e0, e1, e2, e3⟩ | ⟨c, v, e0, e1, e2⟩
            · exact .inl ⟨by rw [e1], e2⟩
            · exact .inr (.inl ⟨c, v, e0, e1, by rw [e2]; rfl, e3⟩)
            · exact .inr (.inr ⟨c, v, e0, by rw [e1]; rfl, e2⟩)

/-- Words that are all understood are those of items, up to `--`. -/
theorem getopts_ok : ∀ (fuel : Nat) {ws : List Bytes}, ws.length < fuel → (∀ g ∈ getopts takes fuel ws, ∃ c arg, g = .option c arg) →
    ∃ (items : List Item) (tail : List Bytes), (∀ i ∈ items, i.Ok) ∧ (tail = [] ∨ ∃ rest, tail = [45, 45] :: rest) ∧
      ws = items.flatMap Item.words ++ tail
  | 0, _, h, _ => by omega
  | fuel + 1, [], _, _ => ⟨[], [], by simp, .inl rfl, rfl⟩
  | fuel + 1, w :: ws, hl, hg => by
    have hl' : ws.length < fuel := by simpa using hl
    have addItem : ∀ (i : Item) (r : List Bytes), i.Ok → w :: ws = i.words ++ r → r.length < fuel →
        (∀ g ∈ getopts takes fuel r, ∃ c arg, g = .option c arg) →
        ∃ (items : List Item) (tail : List Bytes), (∀ i ∈ items, i.Ok) ∧ (tail = [] ∨ ∃ rest, tail = [45, 45] :: rest) ∧
          w :: ws = items.flatMap Item.words ++ tail := by
      intro i r hi he hr hgr
      obtain ⟨items, tail, h1, h2, h3⟩ := getopts_ok fuel hr hgr
      refine ⟨i :: items, tail, fun j hj => ?_, h2, ?_⟩
      · rcases List.mem_cons.1 hj with rfl | hj
        · exact hi
        · exact h1 j hj
      · rw [he, h3, List.flatMap_cons, List.append_assoc]
    have operand : (w = [45] ∨ w.head? ≠ some 45) → getopts takes (fuel + 1) (w :: ws) = getopts takes fuel ws →
        ∃ (items : List Item) (tail : List Bytes), (∀ i ∈ items, i.Ok) ∧ (tail = [] ∨ ∃ rest, tail = [45, 45] :: rest) ∧
          w :: ws = items.flatMap Item.words ++ tail := by
      intro hw he
      rw [he] at hg
      exact addItem (.operand w) ws hw rfl hl' hg
    match w, hl, hg, addItem, operand with
    | [], _, _, _, operand => exact operand (.inr (by simp)) rfl
    | [x], _, _, _, operand =>
      refine operand ?_ (by rw [getopts]; intro c l' he; cases he)
      by_cases hx : x = 45
      · exact .inl (by rw [hx])
      · exact .inr (by simpa using hx)
    | x :: y :: l, _, hg, addItem, operand =>
      by_cases hx : x = 45
      · subst hx
        rw [getopts] at hg
        by_cases hy : y = 45 ∧ l = []
        · obtain ⟨rfl, rfl⟩ := hy
          exact ⟨[], [45, 45] :: ws, by simp, .inr ⟨ws, rfl⟩, rfl⟩
        · rw [if_neg hy] at hg
          obtain ⟨fs, h1, h2⟩ := letters_ok (l := y :: l) (ws := ws) (by simp) (fun g hg' => hg g (List.mem_append_left _ hg'))
          have hr : ∀ g ∈ getopts takes fuel (letters takes (y :: l) ws).2, ∃ c arg, g = .option c arg :=
            fun g hg' => hg g (List.mem_append_right _ hg')
          rcases h2 with ⟨e1, e2⟩ | ⟨c, v, e0, e1, e2, e3⟩ | ⟨c, v, e0, e1, e2⟩
          · rw [e2] at hr
            exact addItem (.flags fs) ws ⟨by rw [← e1]; simp, h1⟩ (by rw [Item.words, ← e1]; rfl) hl' hr
          · rw [e3] at hr
            exact addItem (.joined fs c v) ws ⟨h1, e0, e1⟩ (by rw [Item.words, ← e2]; rfl) hl' hr
          · refine addItem (.apart fs c v) _ ⟨h1, e0⟩ (by rw [Item.words, ← e1]; exact congrArg _ e2) ?_ hr
            have := congrArg List.length e2
            rw [List.length_cons] at this
            omega
      · refine operand (.inr (by simpa using hx)) ?_
        rw [getopts]
        intro c l' he
        exact hx (by injection he)

/-- What is stored, from what was stored before. -/
theorem store_all : ∀ {l : List (UInt8 × Option Bytes)} (_ : ∀ g ∈ l, ((g.1 = 106 ∨ g.1 = 102) ∨ ((g.1 = 105 ∨ g.1 = 111) ∧ g.2.isSome))) (a : Args),
    (l.map asGot).foldlM store a = some
      { input := ((l.filter (·.1 = 105)).getLast?.bind (·.2)).getD a.input
        output := ((l.filter (·.1 = 111)).getLast?.bind (·.2)).getD a.output
        overwrite := a.overwrite || l.any (·.1 = 102)
        jit := a.jit || l.any (·.1 = 106) }
  | [], _, a => by simp
  | (c, arg) :: l, h, a => by
    have ih := fun a => store_all (l := l) (fun g hg => h g (List.mem_cons_of_mem _ hg)) a
    have hlast : ∀ (c' : UInt8) (d : Bytes), c = c' → ∀ v, arg = some v → (∀ g ∈ l, g.1 = c' → g.2.isSome) →
        ((((c, arg) :: l).filter (·.1 = c')).getLast?.bind (·.2)).getD d = ((l.filter (·.1 = c')).getLast?.bind (·.2)).getD v := by
      intro c' d hc v hv hl
      rw [List.filter_cons_of_pos (by simpa using hc), List.getLast?_cons]
      cases hg : (l.filter (·.1 = c')).getLast? with
      | none => simp [hv]
      | some g =>
        have hm : g ∈ l.filter (·.1 = c') := List.mem_of_getLast? hg
        have := hl g (List.mem_filter.1 hm).1 (by simpa using (List.mem_filter.1 hm).2)
        obtain ⟨w, hw⟩ := Option.isSome_iff_exists.1 this
        simp [hw]
    have hskip : ∀ (c' : UInt8), c ≠ c' → ((c, arg) :: l).filter (·.1 = c') = l.filter (·.1 = c') :=
      fun c' hc => List.filter_cons_of_neg (by simpa using hc)
    have hval : ∀ (c' : UInt8), (c' = 105 ∨ c' = 111) → ∀ g ∈ l, g.1 = c' → g.2.isSome := by
      intro c' hc' g hg he
      rcases h g (List.mem_cons_of_mem _ hg) with h | h
      · rw [he] at h; rcases hc' with rfl | rfl <;> rcases h with h | h <;> exact absurd h (by decide)
      · exact h.2
    rw [List.map_cons, List.foldlM_cons]
    show (store a (.option c arg) >>= _) = _
    rcases h (c, arg) List.mem_cons_self with hc | ⟨hc, hs⟩
    · have hc : c = 106 ∨ c = 102 := hc
      rcases hc with rfl | rfl
      · show (List.foldlM store { a with jit := true } (l.map asGot)) = _
        rw [ih, hskip _ (by decide), hskip _ (by decide)]
        simp
      · show (List.foldlM store { a with overwrite := true } (l.map asGot)) = _
        rw [ih, hskip _ (by decide), hskip _ (by decide)]
        simp
    · obtain ⟨v, hv⟩ := Option.isSome_iff_exists.1 hs
      have hv : arg = some v := hv
      have hc : c = 105 ∨ c = 111 := hc
      have ha : arg.getD [] = v := by rw [hv]; rfl
      rcases hc with rfl | rfl
      · show (List.foldlM store { a with input := arg.getD [] } (l.map asGot)) = _
        rw [ih, hlast 105 _ rfl v hv (hval 105 (.inl rfl)), hskip _ (by decide)]
        simp only [ha, List.any_cons]
        rfl
      · show (List.foldlM store { a with output := arg.getD [] } (l.map asGot)) = _
        rw [ih, hlast 111 _ rfl v hv (hval 111 (.inr rfl)), hskip _ (by decide)]
        simp only [ha, List.any_cons]
        rfl

theorem store_needs : ∀ {l : List Got} {a b : Args}, l.foldlM store a = some b → ∀ g ∈ l, ∃ c arg, g = .option c arg
  | [], _, _, _, _, hg => by cases hg
  | x :: l, a, b, h, g, hg => by
    rw [List.foldlM_cons] at h
    obtain ⟨a', h1, h2⟩ := Option.bind_eq_some_iff.1 h
    rcases List.mem_cons.1 hg with rfl | hg
    · cases g with
      | option c arg => exact ⟨c, arg, rfl⟩
      | unknown c => cases h1
      | missing c => cases h1
    · exact store_needs h2 g hg

theorem given_ok {i : Item} (h : i.Ok) : ∀ g ∈ i.given, ((g.1 = 106 ∨ g.1 = 102) ∨ ((g.1 = 105 ∨ g.1 = 111) ∧ g.2.isSome)) := by
  intro g hg
  cases i with
  | flags fs =>
    obtain ⟨x, hx, rfl⟩ := List.mem_map.1 hg
    exact .inl (h.2 x hx)
  | joined fs c v =>
    rcases List.mem_append.1 hg with hg | hg
    · obtain ⟨x, hx, rfl⟩ := List.mem_map.1 hg
      exact .inl (h.1 x hx)
    · rw [List.mem_singleton.1 hg]
      exact .inr ⟨h.2.1, rfl⟩
  | apart fs c v =>
    rcases List.mem_append.1 hg with hg | hg
    · obtain ⟨x, hx, rfl⟩ := List.mem_map.1 hg
      exact .inl (h.1 x hx)
    · rw [List.mem_singleton.1 hg]
      exact .inr ⟨h.2, rfl⟩
  | operand w => cases hg

/-- C115: the arguments that are accepted, and what they mean. They are flags and options with values, in any order and grouped as usual, with other
words between them and anything after `--`; the last value of an option counts, and both options have one that is not empty. -/
theorem arguments_meaning {words : List Bytes} {a : Args} : parseArguments words = some a ↔
    ∃ (items : List Item) (tail : List Bytes), (∀ i ∈ items, i.Ok) ∧ (tail = [] ∨ ∃ rest, tail = [45, 45] :: rest) ∧
      words = items.flatMap Item.words ++ tail ∧ a = meaning (items.flatMap Item.given) ∧ a.input ≠ [] ∧ a.output ≠ [] := by
  have key : ∀ (items : List Item) (tail : List Bytes), (∀ i ∈ items, i.Ok) → (tail = [] ∨ ∃ rest, tail = [45, 45] :: rest) →
      words = items.flatMap Item.words ++ tail →
      (getopts takes (words.length + 1) words).foldlM store {} = some (meaning (items.flatMap Item.given)) := by
    intro items tail h1 h2 h3
    rw [h3, getopts_items h2 h1 _ (Nat.lt_succ_self _), store_all]
    · rfl
    · intro g hg
      obtain ⟨i, hi, hg⟩ := List.mem_flatMap.1 hg
      exact given_ok (h1 i hi) g hg
  unfold parseArguments
  constructor
  · intro h
    split at h
    · cases h
    · rename_i b hb
      obtain ⟨items, tail, h1, h2, h3⟩ := getopts_ok (words.length + 1) (Nat.lt_succ_self _) (store_needs hb)
      have := key items tail h1 h2 h3
      rw [hb] at this
      cases this
      split at h
      · rename_i hn
        cases h
        exact ⟨items, tail, h1, h2, h3, rfl, hn⟩
      · cases h
  · rintro ⟨items, tail, h1, h2, h3, rfl, h4, h5⟩
    rw [key items tail h1 h2 h3]
    exact if_pos ⟨h4, h5⟩

/-- `-fi in -o out1 x -oout2 -- -z`. -/
example : parseArguments [ascii "-fi", ascii "in", ascii "-o", ascii "out1", ascii "x", ascii "-oout2", ascii "--", ascii "-z"] =
    some { input := ascii "in", output := ascii "out2", overwrite := true } :=
  arguments_meaning.2 ⟨[.apart [102] 105 (ascii "in"), .apart [] 111 (ascii "out1"), .operand (ascii "x"), .joined [] 111 (ascii "out2")],
    [ascii "--", ascii "-z"], by
      intro i hi
      simp only [List.mem_cons, List.not_mem_nil, or_false] at hi
      rcases hi with rfl | rfl | rfl | rfl
      · exact ⟨by simp, .inl rfl⟩
      · exact ⟨by simp, .inr rfl⟩
      · exact .inr (by decide)
      · exact ⟨by simp, .inr rfl, by decide⟩, .inr ⟨[ascii "-z"], by decide⟩, by decide, by decide, by decide, by decide⟩

end Verif.Tool
