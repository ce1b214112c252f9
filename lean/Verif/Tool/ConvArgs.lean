import Verif.Tool.ConvertModel

/-!
# Arguments and formats of `perf_converter`
-/

namespace Verif.Tool

/-! ## Specification -/

/-- What a user writes: an option and its value in one word, the value in a word of its own, or a word that is neither. -/
inductive Choice where
  | joined (c : UInt8) (v : Bytes)
  | apart (c : UInt8) (v : Bytes)
  | operand (w : Bytes)

/-- The options are `i`, `I`, `o`, `O` and `v`; a value in the same word is not empty, one in a word of its own can be any word. -/
def Choice.Ok : Choice → Prop
  | .joined c v => c ∈ ascii "iIoOv" ∧ v ≠ []
  | .apart c _ => c ∈ ascii "iIoOv"
  | .operand w => w = ascii "-" ∨ w.head? ≠ (ascii "-").head?

/-- The words. -/
def Choice.words : Choice → List Bytes
  | .joined c v => [ascii "-" ++ c :: v]
  | .apart c v => [ascii "-" ++ [c], v]
  | .operand w => [w]

/-- The option with its value. -/
def Choice.given : Choice → List (UInt8 × Bytes)
  | .joined c v => [(c, v)]
  | .apart c v => [(c, v)]
  | .operand _ => []

/-- The last value of an option, if it is given. -/
def lastOf (l : List (UInt8 × Bytes)) (c default : Bytes) : Bytes := ((l.filter (fun g => [g.1] == c)).getLast?.map (·.2)).getD default

/-- Input and output: the last values count; without them the recording `perf.data` is read and text is written to `/dev/stdout`. -/
def chosen (l : List (UInt8 × Bytes)) : Spot × Spot :=
  (⟨lastOf l (ascii "i") (ascii "perf.data"), lastOf l (ascii "I") (ascii "perf")⟩,
   ⟨lastOf l (ascii "o") (ascii "/dev/stdout"), lastOf l (ascii "O") (ascii "text")⟩)

/-- What can stand behind the name of an input format, and what it asks for. -/
def suffixes : List (Bytes × ParseOpts) :=
  [([], {}), (ascii ".remap", { remap := true }), (ascii ".discard", { discard := true }),
   (ascii ".remap.discard", { remap := true, discard := true }), (ascii ".no_combine", { combine := false })]

/-- The names of the formats. -/
def formats : List Bytes := [ascii "perf", ascii "text", ascii "proto"]

/-! ## Proof -/

theorem ascii_letters : ascii "iIoOv" = [105, 73, 111, 79, 118] ∧ ascii "-" = [45] ∧ ascii "i" = [105] ∧ ascii "I" = [73] ∧ ascii "o" = [111] ∧
    ascii "O" = [79] := by decide

theorem letter_iff {c : UInt8} : c ∈ ascii "iIoOv" ↔ convTakes c = some true := by
  rw [ascii_letters.1]
  unfold convTakes
  simp only [List.mem_cons, List.not_mem_nil, or_false]
  constructor
  · intro h
    rw [if_pos]
    rcases h with h | h | h | h | h <;> simp [h]
  · intro h
    by_cases hc : c = 105 ∨ c = 111 ∨ c = 73 ∨ c = 79 ∨ c = 118
    · rcases hc with h | h | h | h | h <;> rw [h] <;> decide
    · rw [if_neg hc] at h
      cases h

theorem conv_takes (c : UInt8) : convTakes c = some true ∨ convTakes c = none := by
  unfold convTakes
  split
  · exact .inl rfl
  · exact .inr rfl

theorem letter_minus {c : UInt8} (h : convTakes c = some true) : c ≠ 45 := by
  rintro rfl
  cases h

theorem last_cons (c c' : UInt8) (v d : Bytes) (l : List (UInt8 × Bytes)) :
    lastOf ((c, v) :: l) [c'] d = if c = c' then lastOf l [c'] v else lastOf l [c'] d := by
  unfold lastOf
  by_cases h : c = c'
  · rw [if_pos h, List.filter_cons_of_pos (by simpa using h), List.getLast?_cons]
    cases (l.filter (fun g => [g.1] == [c'])).getLast? <;> rfl
  · rw [if_neg h, List.filter_cons_of_neg (by simpa using h)]

theorem conv_store : ∀ {l : List (UInt8 × Bytes)} (_ : ∀ g ∈ l, convTakes g.1 = some true) (a : Spot × Spot),
    (l.map (fun g => Got.option g.1 (some g.2))).foldlM convStore a = some
      (⟨lastOf l [105] a.1.filename, lastOf l [73] a.1.format⟩, ⟨lastOf l [111] a.2.filename, lastOf l [79] a.2.format⟩)
  | [], _, a => rfl
  | (c, v) :: l, h, a => by
    have ih := fun a => conv_store (l := l) (fun g hg => h g (List.mem_cons_of_mem _ hg)) a
    have hc := h (c, v) List.mem_cons_self
    rw [← letter_iff, ascii_letters.1] at hc
    simp only [List.mem_cons, List.not_mem_nil, or_false] at hc
    rw [List.map_cons, List.foldlM_cons]
    simp only [last_cons]
    rcases hc with rfl | rfl | rfl | rfl | rfl <;> exact ih _

theorem conv_item {i : Choice} (h : i.Ok) (rest : List Bytes) (fuel : Nat) :
    getopts convTakes (fuel + 1) (i.words ++ rest) = i.given.map (fun g => Got.option g.1 (some g.2)) ++ getopts convTakes fuel rest := by
  have e45 := ascii_letters.2.1
  cases i with
  | joined c v =>
    have hc := letter_iff.1 h.1
    show getopts convTakes (fuel + 1) ((ascii "-" ++ c :: v) :: rest) = _
    rw [e45]
    show getopts convTakes (fuel + 1) ((45 :: c :: v) :: rest) = _
    rw [getopts, if_neg (fun h => letter_minus hc h.1), letters, hc]
    simp only [value, if_pos h.2]
    rfl
  | apart c v =>
    have hc := letter_iff.1 h
    show getopts convTakes (fuel + 1) ((ascii "-" ++ [c]) :: v :: rest) = _
    rw [e45]
    show getopts convTakes (fuel + 1) ((45 :: c :: []) :: v :: rest) = _
    rw [getopts, if_neg (fun h => letter_minus hc h.1), letters, hc]
    rfl
  | operand w =>
    show getopts convTakes (fuel + 1) (w :: rest) = getopts convTakes fuel rest
    unfold Choice.Ok at h
    rw [e45] at h
    rcases h with rfl | h
    · rfl
    · match w, h with
      | [], _ => rfl
      | x :: l, h =>
        have hx : x ≠ 45 := fun hx => h (by rw [hx]; rfl)
        rw [getopts]
        intro c l' he
        exact hx (by injection he)

theorem conv_items {tail : List Bytes} (ht : tail = [] ∨ ∃ rest, tail = ascii "--" :: rest) : ∀ {items : List Choice} (_ : ∀ i ∈ items, i.Ok)
    (fuel : Nat), (items.flatMap Choice.words ++ tail).length < fuel →
    getopts convTakes fuel (items.flatMap Choice.words ++ tail) = (items.flatMap Choice.given).map (fun g => Got.option g.1 (some g.2))
  | [], _, fuel, _ => by
    have e : ascii "--" = [45, 45] := by decide
    rcases ht with rfl | ⟨rest, rfl⟩
    · cases fuel <;> rfl
    · rw [e]
      cases fuel <;> rfl
  | i :: items, h, fuel, hf => by
    cases fuel with
    | zero => omega
    | succ fuel =>
      rw [List.flatMap_cons, List.flatMap_cons, List.append_assoc, conv_item (h i List.mem_cons_self), List.map_append,
        conv_items ht (fun j hj => h j (List.mem_cons_of_mem _ hj)) fuel]
      rw [List.flatMap_cons, List.append_assoc, List.length_append] at hf
      have : 0 < i.words.length := by cases i <;> simp [Choice.words]
      omega

theorem conv_letters {c : UInt8} {l : Bytes} {ws : List Bytes} (hg : ∀ g ∈ (letters convTakes (c :: l) ws).1, ∃ c arg, g = .option c arg) :
    convTakes c = some true ∧ ((l ≠ [] ∧ (letters convTakes (c :: l) ws).2 = ws) ∨
      (l = [] ∧ ∃ v, ws = v :: (letters convTakes (c :: l) ws).2)) := by
  rw [letters] at hg ⊢
  rcases conv_takes c with hc | hc <;> rw [hc] at hg ⊢
  · refine ⟨rfl, ?_⟩
    simp only [value] at hg ⊢
    by_cases hl : l ≠ []
    · exact .inl ⟨hl, by rw [if_pos hl]⟩
    · rw [if_neg hl] at hg ⊢
      refine .inr ⟨Classical.not_not.1 hl, ?_⟩
      cases ws with
      | nil =>
        obtain ⟨c, arg, h⟩ := hg _ List.mem_cons_self
        cases h
      | cons w ws => exact ⟨w, rfl⟩
  · obtain ⟨c, arg, h⟩ := hg _ List.mem_cons_self
    cases h

theorem conv_ok : ∀ (fuel : Nat) {ws : List Bytes}, ws.length < fuel → (∀ g ∈ getopts convTakes fuel ws, ∃ c arg, g = .option c arg) →
    ∃ (items : List Choice) (tail : List Bytes), (∀ i ∈ items, i.Ok) ∧ (tail = [] ∨ ∃ rest, tail = ascii "--" :: rest) ∧
      ws = items.flatMap Choice.words ++ tail
  | 0, _, h, _ => by omega
  | fuel + 1, [], _, _ => ⟨[], [], by simp, .inl rfl, rfl⟩
  | fuel + 1, w :: ws, hl, hg => by
    have e45 := ascii_letters.2.1
    have e4 : ascii "--" = [45, 45] := by decide
    have hl' : ws.length < fuel := by simpa using hl
    have addItem : ∀ (i : Choice) (r : List Bytes), i.Ok → w :: ws = i.words ++ r → r.length < fuel →
        (∀ g ∈ getopts convTakes fuel r, ∃ c arg, g = .option c arg) →
        ∃ (items : List Choice) (tail : List Bytes), (∀ i ∈ items, i.Ok) ∧ (tail = [] ∨ ∃ rest, tail = ascii "--" :: rest) ∧
          w :: ws = items.flatMap Choice.words ++ tail := by
      intro i r hi he hr hgr
      obtain ⟨items, tail, h1, h2, h3⟩ := conv_ok fuel hr hgr
      refine ⟨i :: items, tail, fun j hj => ?_, h2, ?_⟩
      · rcases List.mem_cons.1 hj with rfl | hj
        · exact hi
        · exact h1 j hj
      · rw [he, h3, List.flatMap_cons, List.append_assoc]
    have operand : (w = [45] ∨ w.head? ≠ some 45) → getopts convTakes (fuel + 1) (w :: ws) = getopts convTakes fuel ws →
        ∃ (items : List Choice) (tail : List Bytes), (∀ i ∈ items, i.Ok) ∧ (tail = [] ∨ ∃ rest, tail = ascii "--" :: rest) ∧
          w :: ws = items.flatMap Choice.words ++ tail := by
      intro hw he
      rw [he] at hg
      exact addItem (.operand w) ws (by unfold Choice.Ok; rw [e45]; exact hw) rfl hl' hg
    match w, hl, hg, addItem, operand with
    | [], _, _, _, operand => exact operand (.inr (by simp)) rfl
    | [x], _, _, _, operand =>
      refine operand ?_ (by rw [getopts]; intro c l' he; cases he)
      by_cases hx : x = 45
      · exact .inl (by rw [hx])
      · exact .inr (by simpa using hx)
    | x :: y :: l, _, hg, addItem, operand =>
      by_cases hx : x = 45
      · subst hx
        rw [getopts] at hg
        by_cases hy : y = 45 ∧ l = []
        · obtain ⟨rfl, rfl⟩ := hy
          exact ⟨[], [45, 45] :: ws, by simp, .inr ⟨ws, by rw [e4]⟩, rfl⟩
        · rw [if_neg hy] at hg
          obtain ⟨hc, h2⟩ := conv_letters (c := y) (l := l) (ws := ws) (fun g hg' => hg g (List.mem_append_left _ hg'))
          have hr : ∀ g ∈ getopts convTakes fuel (letters convTakes (y :: l) ws).2, ∃ c arg, g = .option c arg :=
            fun g hg' => hg g (List.mem_append_right _ hg')
          rcases h2 with ⟨e1, e2⟩ | ⟨rfl, v, e2⟩
          · rw [e2] at hr
            exact addItem (.joined y l) ws ⟨letter_iff.2 hc, e1⟩ (by rw [Choice.words, e45]; rfl) hl' hr
          · refine addItem (.apart y v) _ (letter_iff.2 hc) (by rw [Choice.words, e45]; exact congrArg _ e2) ?_ hr
            have := congrArg List.length e2
            rw [List.length_cons] at this
            omega
      · refine operand (.inr (by simpa using hx)) ?_
        rw [getopts]
        intro c l' he
        exact hx (by injection he)

theorem conv_needs : ∀ {l : List Got} {a b : Spot × Spot}, l.foldlM convStore a = some b → ∀ g ∈ l, ∃ c arg, g = .option c arg
  | [], _, _, _, _, hg => by cases hg
  | x :: l, a, b, h, g, hg => by
    rw [List.foldlM_cons] at h
    obtain ⟨a', h1, h2⟩ := Option.bind_eq_some_iff.1 h
    rcases List.mem_cons.1 hg with rfl | hg
    · cases g with
      | option c arg => exact ⟨c, arg, rfl⟩
      | unknown c => cases h1
      | missing c => cases h1
    · exact conv_needs h2 g hg

/-- C119: the arguments that `perf_converter` accepts, and what they mean. They are options with values, in any order, with other words between them and
anything after `--`. -/
theorem converter_arguments {words : List Bytes} {a : Spot × Spot} : convArguments words = some a ↔
    ∃ (items : List Choice) (tail : List Bytes), (∀ i ∈ items, i.Ok) ∧ (tail = [] ∨ ∃ rest, tail = ascii "--" :: rest) ∧
      words = items.flatMap Choice.words ++ tail ∧ a = chosen (items.flatMap Choice.given) := by
  have key : ∀ (items : List Choice) (tail : List Bytes), (∀ i ∈ items, i.Ok) → (tail = [] ∨ ∃ rest, tail = ascii "--" :: rest) →
      words = items.flatMap Choice.words ++ tail → convArguments words = some (chosen (items.flatMap Choice.given)) := by
    intro items tail h1 h2 h3
    unfold convArguments
    rw [h3, conv_items h2 h1 _ (Nat.lt_succ_self _), conv_store]
    · obtain ⟨-, -, e1, e2, e3, e4⟩ := ascii_letters
      unfold chosen
      rw [e1, e2, e3, e4]
    · intro g hg
      obtain ⟨i, hi, hg⟩ := List.mem_flatMap.1 hg
      cases i with
      | joined c v => rw [List.mem_singleton.1 hg]; exact letter_iff.1 (h1 _ hi).1
      | apart c v => rw [List.mem_singleton.1 hg]; exact letter_iff.1 (h1 _ hi)
      | operand w => cases hg
  constructor
  · intro h
    obtain ⟨items, tail, h1, h2, h3⟩ := conv_ok (words.length + 1) (Nat.lt_succ_self _) (conv_needs h)
    have := key items tail h1 h2 h3
    rw [h] at this
    exact ⟨items, tail, h1, h2, h3, Option.some.inj this⟩
  · rintro ⟨items, tail, h1, h2, h3, rfl⟩
    exact key items tail h1 h2 h3

/-- `-i in x -O perf -oout -I text.remap -Oproto`. -/
example : convArguments [ascii "-i", ascii "in", ascii "x", ascii "-O", ascii "perf", ascii "-oout", ascii "-I", ascii "text.remap", ascii "-Oproto"] =
    some (⟨ascii "in", ascii "text.remap"⟩, ⟨ascii "out", ascii "proto"⟩) ∧
    convArguments [] = some (⟨ascii "perf.data", ascii "perf"⟩, ⟨ascii "/dev/stdout", ascii "text"⟩) :=
  ⟨converter_arguments.2 ⟨[.apart 105 (ascii "in"), .operand (ascii "x"), .apart 79 (ascii "perf"), .joined 111 (ascii "out"),
      .apart 73 (ascii "text.remap"), .joined 79 (ascii "proto")], [], by
      intro i hi
      simp only [List.mem_cons, List.not_mem_nil, or_false] at hi
      rcases hi with rfl | rfl | rfl | rfl | rfl | rfl <;> first | exact ⟨by decide, by decide⟩ | (show _ ∈ _; decide) | exact .inr (by decide),
      .inl rfl, by decide, by decide⟩, by decide⟩

/-! ## Formats -/

theorem takeWhile_no {p : UInt8 → Bool} : ∀ {l : Bytes}, (∀ x ∈ l, p x = true) → ∀ r, (l ++ r).takeWhile p = l ++ r.takeWhile p ∧
    (l ++ r).dropWhile p = r.dropWhile p
  | [], _, _ => ⟨rfl, rfl⟩
  | x :: l, h, r => by
    obtain ⟨h1, h2⟩ := takeWhile_no (fun y hy => h y (List.mem_cons_of_mem _ hy)) r
    rw [List.cons_append, List.takeWhile_cons, List.dropWhile_cons, if_pos (h x List.mem_cons_self), if_pos (h x List.mem_cons_self), h1, h2]
    exact ⟨rfl, rfl⟩

/-- C119: the input formats are the three names, alone or with one of the suffixes, which then says what is asked for. -/
theorem input_formats {format base : Bytes} {o : ParseOpts} (hb : base ∈ formats) :
    parseFormat format = (base, o) ↔ ∃ s ∈ suffixes, format = base ++ s.1 ∧ o = s.2 := by
  have hbase : ∀ x ∈ base, decide (x ≠ 46) = true := by
    have : ∀ b ∈ formats, ∀ x ∈ b, decide (x ≠ 46) = true := by decide
    exact this base hb
  have hne : base ≠ [] := by
    have : ∀ b ∈ formats, b ≠ [] := by decide
    exact this base hb
  have hsuf : ∀ s ∈ suffixes, s.1 ≠ [] → ∃ t, s.1 = 46 :: t := by
    intro s hs hn
    simp only [suffixes, List.mem_cons, List.not_mem_nil, or_false] at hs
    rcases hs with rfl | rfl | rfl | rfl | rfl
    · exact absurd rfl hn
    · exact ⟨_, rfl⟩
    · exact ⟨_, rfl⟩
    · exact ⟨_, rfl⟩
    · exact ⟨_, rfl⟩
  have e1 : ascii ".remap" = 46 :: ascii "remap" := by decide
  have e2 : ascii ".discard" = 46 :: ascii "discard" := by decide
  have e3 : ascii ".remap.discard" = 46 :: ascii "remap.discard" := by decide
  have e4 : ascii ".no_combine" = 46 :: ascii "no_combine" := by decide
  have hsplit : format = format.takeWhile (· ≠ 46) ++ format.dropWhile (· ≠ 46) := List.takeWhile_append_dropWhile.symm
  constructor
  · intro h
    unfold parseFormat at h
    split at h
    · cases h
      exact ⟨([], {}), by decide, by simp, rfl⟩
    · rename_i c opt hd
      have hc : c = 46 := by
        have := List.head?_dropWhile_not (fun x : UInt8 => decide (x ≠ 46)) format
        rw [hd] at this
        simpa using this
      subst hc
      rw [hd] at hsplit
      split at h
      · rename_i ho
        cases h
        exact ⟨(ascii ".remap", { remap := true }), by decide, by rw [e1, ← ho]; exact hsplit, rfl⟩
      · split at h
        · rename_i ho
          cases h
          exact ⟨(ascii ".discard", { discard := true }), by decide, by rw [e2, ← ho]; exact hsplit, rfl⟩
        · split at h
          · rename_i ho
            cases h
            exact ⟨(ascii ".remap.discard", { remap := true, discard := true }), by decide, by rw [e3, ← ho]; exact hsplit, rfl⟩
          · split at h
            · rename_i ho
              cases h
              exact ⟨(ascii ".no_combine", { combine := false }), by decide, by rw [e4, ← ho]; exact hsplit, rfl⟩
            · cases h
              exact absurd rfl hne
  · rintro ⟨s, hs, rfl, rfl⟩
    obtain ⟨h1, h2⟩ := takeWhile_no hbase s.1
    unfold parseFormat
    simp only [suffixes, List.mem_cons, List.not_mem_nil, or_false] at hs
    rw [h1, h2]
    rcases hs with rfl | rfl | rfl | rfl | rfl
    · simp
    · simp only [e1, List.dropWhile_cons, List.takeWhile_cons]
      simp
    · simp only [e2, List.dropWhile_cons, List.takeWhile_cons]
      have : ascii "discard" ≠ ascii "remap" := by decide
      simp [this]
    · simp only [e3, List.dropWhile_cons, List.takeWhile_cons]
      have t1 : ascii "remap.discard" ≠ ascii "remap" := by decide
      have t2 : ascii "remap.discard" ≠ ascii "discard" := by decide
      simp [t1, t2]
    · simp only [e4, List.dropWhile_cons, List.takeWhile_cons]
      have t1 : ascii "no_combine" ≠ ascii "remap" := by decide
      have t2 : ascii "no_combine" ≠ ascii "discard" := by decide
      have t3 : ascii "no_combine" ≠ ascii "remap.discard" := by decide
      simp [t1, t2, t3]

example : parseFormat (ascii "proto.remap.discard") = (ascii "proto", { remap := true, discard := true }) :=
  (input_formats (by decide)).2 ⟨(ascii ".remap.discard", { remap := true, discard := true }), by decide, by decide, rfl⟩

end Verif.Tool
