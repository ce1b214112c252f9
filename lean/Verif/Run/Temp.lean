/-!
# Temporary files and directories

The destructor of `ScopedTempPath`, `/repo/src/quipper/scoped_temp_path.cc`. `nftw` belongs to the C library: with `FTW_DEPTH` and `FTW_PHYS` it visits what is in a
directory before the directory, and does not follow links. Nobody else changes anything meanwhile.
-/

namespace Verif.Run

/-- The names from the root to an entry. -/
abbrev Path := List (List UInt8)

/-- What an entry is. -/
inductive Kind where
  | file
  | link (to : Path)
  | dir
deriving DecidableEq, Repr

/-- The entries of the file system. -/
abbrev Tree := List (Path × Kind)

/-- The entry with a path. -/
def Tree.look (t : Tree) (p : Path) : Option Kind := (t.find? (fun e => e.1 = p)).map (·.2)

/-- What is directly in a directory. -/
def Tree.inside (t : Tree) (p : Path) : List Path := (t.map (·.1)).filter (fun q => q ≠ [] ∧ q.dropLast = p)

/-- The entries that `nftw` visits, in order. No path is longer than `fuel` from here. -/
def walk : Nat → Tree → Path → List Path
  | 0, _, p => [p]
  | fuel + 1, t, p => if t.look p = some .dir then (t.inside p).flatMap (walk fuel t) ++ [p] else [p]

/-- `remove` in `FileDeletionCallback`, `scoped_temp_path.cc:26-31`: a directory with something in it stays, and so does what may not be removed; that is logged, and nothing else
happens. -/
def remove (denied : Path → Bool) (t : Tree) (p : Path) : Tree :=
  match t.look p with
  | none => t
  | some k =>
    if denied p = true ∨ (k = .dir ∧ t.inside p ≠ []) then t
    else t.filter (fun e => e.1 ≠ p)

/-- The most names that a path has. -/
def Tree.depth (t : Tree) : Nat := t.foldl (fun n e => max n e.1.length) 0

/-- The constructors of `ScopedTempFile` and `ScopedTempDir`, `scoped_temp_path.cc:33-64`. `mkstemp` and `mkdtemp` choose a path that is free, in a directory that is there, or fail, and
then the path stays empty; `chosen` is what they choose. The slash at the end of the path of a directory does not matter here, as the directory is not replaced by a link. -/
def create (k : Kind) (t : Tree) (chosen : Option Path) : Tree × Option Path :=
  match chosen with
  | none => (t, none)
  | some p => if p = [] ∨ t.look p ≠ none ∨ t.look p.dropLast ≠ some .dir then (t, none) else (t ++ [(p, k)], some p)

/-- `~ScopedTempPath`, `scoped_temp_path.cc:66-74`. `path` is `path_`, or `none` if that is empty because nothing could be created. -/
def destroy (denied : Path → Bool) (t : Tree) (path : Option Path) : Tree :=
  match path with
  | none => t
  | some p => match t.look p with
    | none => t
    | some _ => (walk t.depth t p).foldl (remove denied) t

/-! ## Specification -/

/-- A file system: no path is there twice, and what something is in is a directory. -/
structure Proper (t : Tree) : Prop where
  single : (t.map (·.1)).Nodup
  parents : ∀ q ∈ t.map (·.1), ∀ p, p <+: q → p ≠ q → (p, Kind.dir) ∈ t

/-! ## Lemmas -/

theorem look_of {t : Tree} (h : Proper t) {p : Path} {k : Kind} (hm : (p, k) ∈ t) : t.look p = some k := by
  have key : ∀ l : Tree, (l.map (·.1)).Nodup → (p, k) ∈ l → Tree.look l p = some k := by
    intro l
    induction l with
    | nil => intro _ h; cases h
    | cons e l ih =>
      intro hn hm
      rw [List.map_cons, List.nodup_cons] at hn
      unfold Tree.look
      rw [List.find?_cons]
      rcases List.mem_cons.1 hm with rfl | hm
      · simp
      · have : e.1 ≠ p := by
          rintro rfl
          exact hn.1 (List.mem_map_of_mem (f := fun x => x.1) hm)
        have hd : decide (e.1 = p) = false := by simpa using this
        simp only [hd]
        exact ih hn.2 hm
  exact key t h.single hm

theorem look_some_mem {t : Tree} {p : Path} {k : Kind} (h : t.look p = some k) : (p, k) ∈ t := by
  unfold Tree.look at h
  cases hf : t.find? (fun e => decide (e.1 = p)) with
  | none => rw [hf] at h; cases h
  | some e =>
    rw [hf] at h
    have h1 := List.find?_some hf
    have h2 := List.mem_of_find?_eq_some hf
    simp only [decide_eq_true_eq] at h1
    simp only [Option.map_some, Option.some.injEq] at h
    rw [← h1, ← h]
    exact h2

theorem look_none_iff {t : Tree} {p : Path} : t.look p = none ↔ p ∉ t.map (·.1) := by
  unfold Tree.look
  rw [Option.map_eq_none_iff, List.find?_eq_none, List.mem_map]
  simp only [decide_eq_true_eq]
  exact ⟨fun h ⟨e, he, hp⟩ => h e he hp, fun h e he hp => h ⟨e, he, hp⟩⟩

theorem mem_inside {t : Tree} {p q : Path} : q ∈ t.inside p ↔ q ∈ t.map (·.1) ∧ ∃ n, q = p ++ [n] := by
  unfold Tree.inside
  rw [List.mem_filter]
  simp only [decide_eq_true_eq]
  constructor
  · rintro ⟨h, h1, h2⟩
    refine ⟨h, q.getLast h1, ?_⟩
    rw [← h2]
    exact (List.dropLast_concat_getLast h1).symm
  · rintro ⟨h, n, rfl⟩
    exact ⟨h, by simp, by simp⟩

theorem depth_le {t : Tree} {q : Path} (h : q ∈ t.map (·.1)) : q.length ≤ t.depth := by
  have key : ∀ (l : Tree) (n : Nat), n ≤ l.foldl (fun n e => max n e.1.length) n ∧ ∀ e ∈ l, e.1.length ≤ l.foldl (fun n e => max n e.1.length) n := by
    intro l
    induction l with
    | nil => intro n; exact ⟨Nat.le_refl _, fun e h => nomatch h⟩
    | cons a l ih =>
      intro n
      rw [List.foldl_cons]
      have := ih (max n a.1.length)
      refine ⟨by omega, fun e he => ?_⟩
      rcases List.mem_cons.1 he with rfl | he
      · omega
      · exact this.2 e he
  obtain ⟨e, he, rfl⟩ := List.mem_map.1 h
  exact (key t 0).2 e he

/-- The next entry on the way. -/
theorem next {p r : Path} (h : p <+: r) (hne : p ≠ r) : ∃ n, p ++ [n] <+: r := by
  obtain ⟨s, rfl⟩ := h
  cases s with
  | nil => simp at hne
  | cons n s => exact ⟨n, s, by simp⟩

theorem in_tree {t : Tree} (h : Proper t) {q r : Path} (hr : r ∈ t.map (·.1)) (hp : q <+: r) : q ∈ t.map (·.1) := by
  by_cases he : q = r
  · rw [he]; exact hr
  · exact List.mem_map_of_mem (f := fun x => x.1) (h.parents r hr q hp he)

theorem mem_walk {t : Tree} (h : Proper t) : ∀ (fuel : Nat) {p r : Path}, p ∈ t.map (·.1) → (∀ q ∈ t.map (·.1), p <+: q → q.length ≤ p.length + fuel) →
    (r ∈ walk fuel t p ↔ r ∈ t.map (·.1) ∧ p <+: r)
  | 0, p, r, hp, hf => by
    rw [walk, List.mem_singleton]
    constructor
    · rintro rfl; exact ⟨hp, List.prefix_refl _⟩
    · rintro ⟨hr, hpr⟩
      exact (hpr.eq_of_length_le (hf r hr hpr)).symm
  | fuel + 1, p, r, hp, hf => by
    rw [walk]
    by_cases hd : t.look p = some .dir
    · rw [if_pos hd, List.mem_append, List.mem_singleton, List.mem_flatMap]
      have sub : ∀ c ∈ t.inside p, c ∈ t.map (·.1) ∧ (∀ q ∈ t.map (·.1), c <+: q → q.length ≤ c.length + fuel) := by
        intro c hc
        obtain ⟨h1, n, rfl⟩ := mem_inside.1 hc
        refine ⟨h1, fun q hq hcq => ?_⟩
        have := hf q hq ((List.prefix_append p [n]).trans hcq)
        simp only [List.length_append, List.length_cons, List.length_nil]
        omega
      constructor
      · rintro (⟨c, hc, hr⟩ | rfl)
        · obtain ⟨s1, s2⟩ := sub c hc
          obtain ⟨h1, h2⟩ := (mem_walk h fuel s1 s2).1 hr
          obtain ⟨-, n, rfl⟩ := mem_inside.1 hc
          exact ⟨h1, (List.prefix_append p [n]).trans h2⟩
        · exact ⟨hp, List.prefix_refl _⟩
      · rintro ⟨hr, hpr⟩
        by_cases he : p = r
        · exact Or.inr he.symm
        · left
          obtain ⟨n, hn⟩ := next hpr he
          have hc : p ++ [n] ∈ t.inside p := mem_inside.2 ⟨in_tree h hr hn, n, rfl⟩
          obtain ⟨s1, s2⟩ := sub _ hc
          exact ⟨_, hc, (mem_walk h fuel s1 s2).2 ⟨hr, hn⟩⟩
    · rw [if_neg hd, List.mem_singleton]
      constructor
      · rintro rfl; exact ⟨hp, List.prefix_refl _⟩
      · rintro ⟨hr, hpr⟩
        by_cases he : p = r
        · exact he.symm
        · exact absurd (look_of h (h.parents r hr p hpr he)) hd

/-- What is in something comes before it. -/
def Good (t : Tree) (seen : List Path) : List Path → Prop
  | [] => True
  | q :: l => (∀ r ∈ t.map (·.1), q <+: r → r ≠ q → r ∈ seen) ∧ Good t (q :: seen) l

theorem good_mono {t : Tree} : ∀ {l : List Path} {s s' : List Path}, (∀ x ∈ s, x ∈ s') → Good t s l → Good t s' l
  | [], _, _, _, _ => trivial
  | q :: l, _, _, hs, h => ⟨fun r hr h1 h2 => hs _ (h.1 r hr h1 h2), good_mono (by
      intro x hx
      rcases List.mem_cons.1 hx with rfl | hx
      · exact List.mem_cons_self
      · exact List.mem_cons_of_mem _ (hs x hx)) h.2⟩

theorem good_append {t : Tree} : ∀ {l m : List Path} {s : List Path}, Good t s l → Good t (l.reverse ++ s) m → Good t s (l ++ m)
  | [], _, _, _, h => h
  | q :: l, m, s, h, hm => ⟨h.1, good_append h.2 (by simpa using hm)⟩

theorem good_flat {t : Tree} {f : Path → List Path} : ∀ (l : List Path) {s : List Path}, (∀ c ∈ l, ∀ s, Good t s (f c)) → Good t s (l.flatMap f)
  | [], _, _ => trivial
  | c :: l, s, h => by
    rw [List.flatMap_cons]
    exact good_append (h c List.mem_cons_self s) (good_flat l (fun c hc => h c (List.mem_cons_of_mem _ hc)))

theorem good_walk {t : Tree} (h : Proper t) : ∀ (fuel : Nat) {p : Path} (s : List Path), p ∈ t.map (·.1) →
    (∀ q ∈ t.map (·.1), p <+: q → q.length ≤ p.length + fuel) → Good t s (walk fuel t p)
  | 0, p, s, hp, hf => by
    refine ⟨fun r hr hpr hne => absurd ((hpr.eq_of_length_le (hf r hr hpr)).symm) hne, trivial⟩
  | fuel + 1, p, s, hp, hf => by
    have whole := fun r => mem_walk h (fuel + 1) (r := r) hp hf
    rw [walk] at whole ⊢
    by_cases hd : t.look p = some .dir
    · rw [if_pos hd] at whole ⊢
      refine good_append (good_flat _ ?_) ⟨?_, trivial⟩
      · intro c hc s
        obtain ⟨h1, n, rfl⟩ := mem_inside.1 hc
        refine good_walk h fuel s h1 (fun q hq hcq => ?_)
        have := hf q hq ((List.prefix_append p [n]).trans hcq)
        simp only [List.length_append, List.length_cons, List.length_nil]
        omega
      · intro r hr hpr hne
        have := (whole r).2 ⟨hr, hpr⟩
        rw [List.mem_append, List.mem_singleton] at this
        rcases this with h | h
        · rw [List.mem_append, List.mem_reverse]; exact Or.inl h
        · exact absurd h hne
    · rw [if_neg hd]
      refine ⟨fun r hr hpr hne => ?_, trivial⟩
      exact absurd (look_of h (h.parents r hr p hpr (Ne.symm hne))) hd

/-- Something in it, or itself, may not be removed. -/
def Held (denied : Path → Bool) (t : Tree) (q : Path) : Prop := ∃ r ∈ t.map (·.1), q <+: r ∧ denied r = true

open Classical in
/-- What is left when some entries have been visited. -/
noncomputable def left (denied : Path → Bool) (t : Tree) (seen : List Path) : Tree := t.filter (fun e => decide (¬ (e.1 ∈ seen ∧ ¬ Held denied t e.1)))

theorem mem_left {denied : Path → Bool} {t : Tree} {seen : List Path} {q : Path} :
    q ∈ (left denied t seen).map (·.1) ↔ q ∈ t.map (·.1) ∧ (q ∈ seen → Held denied t q) := by
  unfold left
  simp only [List.mem_map, List.mem_filter, decide_eq_true_eq]
  constructor
  · rintro ⟨e, ⟨h1, h2⟩, rfl⟩
    exact ⟨⟨e, h1, rfl⟩, fun hs => Classical.not_not.1 fun hh => h2 ⟨hs, hh⟩⟩
  · rintro ⟨⟨e, h1, rfl⟩, h2⟩
    exact ⟨e, ⟨h1, fun ⟨a, b⟩ => b (h2 a)⟩, rfl⟩

theorem left_step {denied : Path → Bool} {t : Tree} (h : Proper t) {seen : List Path} {q : Path} (hq : q ∈ t.map (·.1))
    (hs : ∀ r ∈ t.map (·.1), q <+: r → r ≠ q → r ∈ seen) : remove denied (left denied t seen) q = left denied t (q :: seen) := by
  have heq : Held denied t q → left denied t (q :: seen) = left denied t seen := by
    intro hh
    unfold left
    apply List.filter_congr
    intro e he
    by_cases heq : e.1 = q
    · rw [heq]; simp [hh]
    · simp [heq]
  have sub : ∀ e ∈ left denied t seen, e ∈ t := fun e he => (List.mem_filter.1 he).1
  unfold remove
  cases hl : (left denied t seen).look q with
  | none =>
    simp only
    have hn := look_none_iff.1 hl
    rw [mem_left] at hn
    have : q ∈ seen := Classical.not_not.1 fun hx => hn ⟨hq, fun hs => absurd hs hx⟩
    unfold left
    apply List.filter_congr
    intro e he
    by_cases heq : e.1 = q
    · simp [heq, this]
    · simp [heq]
  | some k =>
    simp only
    have hm := look_some_mem hl
    have hk : t.look q = some k := look_of h (sub _ hm)
    by_cases hh : Held denied t q
    · rw [heq hh, if_pos]
      obtain ⟨r, hr, hqr, hd⟩ := hh
      by_cases he : q = r
      · left; rw [he]; exact hd
      · right
        obtain ⟨n, hn⟩ := next hqr he
        have hdir := look_of h (h.parents r hr q hqr he)
        rw [hk] at hdir
        refine ⟨by simpa using hdir, fun hx => ?_⟩
        have : q ++ [n] ∈ (left denied t seen).inside q := mem_inside.2 ⟨mem_left.2 ⟨in_tree h hr hn, fun _ => ⟨r, hr, hn, hd⟩⟩, n, rfl⟩
        rw [hx] at this
        cases this
    · rw [if_neg]
      · unfold left
        rw [List.filter_filter]
        apply List.filter_congr
        intro e he
        by_cases heq : e.1 = q
        · simp [heq, hh]
        · simp [heq]
      · rintro (hd | ⟨-, hx⟩)
        · exact hh ⟨q, hq, List.prefix_refl _, hd⟩
        · obtain ⟨c, hc⟩ := List.exists_mem_of_ne_nil _ hx
          obtain ⟨h1, n, rfl⟩ := mem_inside.1 hc
          obtain ⟨h2, h3⟩ := mem_left.1 h1
          obtain ⟨r, hr, hcr, hd⟩ := h3 (hs _ h2 (List.prefix_append _ _) (by simp))
          exact hh ⟨r, hr, (List.prefix_append _ _).trans hcr, hd⟩

theorem left_fold {denied : Path → Bool} {t : Tree} (h : Proper t) : ∀ {l : List Path} {seen : List Path}, (∀ q ∈ l, q ∈ t.map (·.1)) → Good t seen l →
    l.foldl (remove denied) (left denied t seen) = left denied t (l.reverse ++ seen)
  | [], _, _, _ => rfl
  | q :: l, seen, hm, hg => by
    rw [List.foldl_cons, left_step h (hm q List.mem_cons_self) hg.1, left_fold h (fun q hq => hm q (List.mem_cons_of_mem _ hq)) hg.2]
    simp

/-! ## Theorems -/

/-- C127: when a temporary file or directory goes away, an entry of the file system stays exactly if it is not in it, or something in it may not be removed. What stays is what it
was. -/
theorem temp_removed (denied : Path → Bool) {t : Tree} (h : Proper t) (p : Path) (e : Path × Kind) : e ∈ destroy denied t (some p) ↔
    e ∈ t ∧ (p <+: e.1 → ∃ r ∈ t.map (·.1), e.1 <+: r ∧ denied r = true) := by
  unfold destroy
  cases hl : t.look p with
  | none =>
    simp only [hl]
    constructor
    · intro he
      refine ⟨he, fun hp => ?_⟩
      have hm : e.1 ∈ t.map (·.1) := List.mem_map_of_mem (f := fun x => x.1) he
      exact absurd (in_tree h hm hp) (look_none_iff.1 hl)
    · intro he; exact he.1
  | some k =>
    simp only [hl]
    have hp : p ∈ t.map (·.1) := List.mem_map_of_mem (f := fun x => x.1) (look_some_mem hl)
    have hf : ∀ q ∈ t.map (·.1), p <+: q → q.length ≤ p.length + t.depth := fun q hq _ => by have := depth_le hq; omega
    have h0 : left denied t [] = t := by
      unfold left
      rw [List.filter_eq_self]
      intro e _
      simp
    have hw := fun r => mem_walk h t.depth (r := r) hp hf
    have := left_fold (denied := denied) h (seen := []) (fun q hq => ((hw q).1 hq).1) (good_walk h t.depth [] hp hf)
    rw [h0, List.append_nil] at this
    rw [this]
    unfold left
    rw [List.mem_filter]
    simp only [List.mem_reverse, decide_eq_true_eq]
    constructor
    · rintro ⟨he, hx⟩
      refine ⟨he, fun hp' => Classical.not_not.1 fun hh => hx ⟨?_, hh⟩⟩
      exact (hw _).2 ⟨List.mem_map_of_mem (f := fun x => x.1) he, hp'⟩
    · rintro ⟨he, hx⟩
      exact ⟨he, fun ⟨h1, h2⟩ => h2 (hx ((hw _).1 h1).2)⟩

/-- C127: so if everything may be removed, all of it is gone and everything else is there, also what links in it lead to. -/
theorem temp_gone {t : Tree} (h : Proper t) (p : Path) (e : Path × Kind) : e ∈ destroy (fun _ => false) t (some p) ↔ e ∈ t ∧ ¬ p <+: e.1 := by
  rw [temp_removed _ h]
  constructor
  · rintro ⟨h1, h2⟩
    refine ⟨h1, fun hp => ?_⟩
    obtain ⟨r, -, -, hd⟩ := h2 hp
    cases hd
  · rintro ⟨h1, h2⟩
    exact ⟨h1, fun hp => absurd hp h2⟩

/-- C127: a temporary file or directory is created where nothing was, so that a program that changes nothing else leaves the file system as it was, whatever it has put in it. -/
theorem temp_traceless {t t' : Tree} (k : Kind) (chosen : Option Path) (h : Proper t) (h' : Proper t')
    (same : ∀ e : Path × Kind, (∀ p, (create k t chosen).2 = some p → ¬ p <+: e.1) → (e ∈ t' ↔ e ∈ (create k t chosen).1)) (e : Path × Kind) :
    e ∈ destroy (fun _ => false) t' (create k t chosen).2 ↔ e ∈ t := by
  unfold create at same ⊢
  cases chosen with
  | none => exact same e (fun p hp => nomatch hp)
  | some p =>
    simp only at same ⊢
    by_cases hc : p = [] ∨ t.look p ≠ none ∨ t.look p.dropLast ≠ some .dir
    · rw [if_pos hc] at same ⊢
      exact same e (fun p hp => nomatch hp)
    · rw [if_neg hc] at same ⊢
      have hn : t.look p = none := Classical.not_not.1 fun hx => hc (Or.inr (Or.inl hx))
      rw [temp_gone h']
      constructor
      · rintro ⟨h1, h2⟩
        have := (same e (fun q hq => by rw [← Option.some.inj hq]; exact h2)).1 h1
        rcases List.mem_append.1 this with hm | hm
        · exact hm
        · rw [List.mem_singleton.1 hm] at h2
          exact absurd (List.prefix_refl _) h2
      · intro he
        have hp : ¬ p <+: e.1 := fun hp => look_none_iff.1 hn (in_tree h (List.mem_map_of_mem (f := fun x => x.1) he) hp)
        exact ⟨(same e (fun q hq => by rw [← Option.some.inj hq]; exact hp)).2 (List.mem_append_left _ he), hp⟩

/-- C127: a path that could not be created is left alone. -/
theorem temp_none (denied : Path → Bool) (t : Tree) : destroy denied t none = t := rfl

/-- A directory with a file, a link out of it, and a directory with a file. -/
def exTree : Tree :=
  [([], .dir), ([[1]], .dir), ([[1], [2]], .dir), ([[1], [2], [3]], .file), ([[1], [2], [4]], .link [[1], [9]]), ([[1], [2], [5]], .dir), ([[1], [2], [5], [6]], .file),
    ([[1], [9]], .dir), ([[1], [9], [3]], .file)]

theorem ex_proper : Proper exTree := by
  refine ⟨by decide, ?_⟩
  intro q hq p hp hne
  have key : ∀ q ∈ exTree.map (·.1), ∀ n ≤ 4, q.take n ≠ q → (q.take n, Kind.dir) ∈ exTree := by decide +kernel
  have hl : p.length ≤ 4 := by
    have h1 := hp.length_le
    have h2 : ∀ q ∈ exTree.map (·.1), q.length ≤ 4 := by decide
    have := h2 q hq
    omega
  have he : p = q.take p.length := (List.prefix_iff_eq_take.1 hp)
  rw [he]
  exact key q hq p.length hl (by rw [← he]; exact hne)

example : destroy (fun _ => false) exTree (some [[1], [2]]) = [([], .dir), ([[1]], .dir), ([[1], [9]], .dir), ([[1], [9], [3]], .file)] := by decide +kernel

example : ([[1], [2], [4]], Kind.link [[1], [9]]) ∉ destroy (fun _ => false) exTree (some [[1], [2]]) ∧ ([[1], [9], [3]], Kind.file) ∈ destroy (fun _ => false) exTree (some [[1], [2]]) :=
  ⟨fun h => ((temp_gone ex_proper _ _).1 h).2 ⟨[[4]], rfl⟩, (temp_gone ex_proper _ _).2 ⟨by decide, by decide⟩⟩

/-- A directory is created, used and removed. -/
example : create .dir [([], .dir), ([[1]], .dir), ([[1], [9]], .dir), ([[1], [9], [3]], .file)] (some [[1], [2]]) =
      ([([], .dir), ([[1]], .dir), ([[1], [9]], .dir), ([[1], [9], [3]], .file), ([[1], [2]], .dir)], some [[1], [2]]) ∧
    destroy (fun _ => false) exTree (some [[1], [2]]) = [([], .dir), ([[1]], .dir), ([[1], [9]], .dir), ([[1], [9], [3]], .file)] := by decide +kernel

/-- One file may not be removed: it stays, with the directories it is in. -/
example : (destroy (fun p => p = [[1], [2], [5], [6]]) exTree (some [[1], [2]])).map (·.1) = [[], [[1]], [[1], [2]], [[1], [2], [5]], [[1], [2], [5], [6]], [[1], [9]], [[1], [9], [3]]] := by
  decide +kernel

end Verif.Run
