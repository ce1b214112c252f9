import Verif.Normalizer.Spec
import Verif.Normalizer.Strings

/-! # Lemmas about the tables the constructor builds -/

namespace Verif.Normalizer

/-- Does the record have the name? -/
def Named (name : Bytes) (r : BuildIdRec) : Prop := nameOrMd5 r.filename r.md5 = name

theorem addBuildId_other (t : Ids) (r : BuildIdRec) (name : Bytes) (h : ¬ Named name r) :
    (addBuildId t r).byName name = t.byName name := by
  unfold addBuildId
  dsimp only
  unfold upd
  rw [if_neg (fun e => h e.symm)]

theorem addBuildId_named (t : Ids) (r : BuildIdRec) (name : Bytes) (h : Named name r) :
    (addBuildId t r).byName name = some ⟨hexOf r.hash, match t.byName name with
      | some old => if old.value ≠ hexOf r.hash then .ambiguous else if r.injected then .injected else .filename
      | none => if r.injected then .injected else .filename⟩ := by
  unfold addBuildId
  dsimp only
  unfold upd
  rw [if_pos h.symm]
  have h' : nameOrMd5 r.filename r.md5 = name := h
  rw [h']
  cases t.byName name <;> rfl

theorem fold_other (rs : List BuildIdRec) (name : Bytes) : ∀ t : Ids, (∀ r ∈ rs, ¬ Named name r) →
    (rs.foldl addBuildId t).byName name = t.byName name := by
  induction rs with
  | nil => intro t _; rfl
  | cons r rs ih =>
    intro t h
    rw [List.foldl_cons, ih _ (fun r hr => h r (List.mem_cons_of_mem _ hr)), addBuildId_other t r name (h r (by simp))]

theorem lastNamed_none {recs : List BuildIdRec} {name : Bytes} (h : lastNamed recs name = none) :
    ∀ r ∈ recs, ¬ Named name r := by
  intro r hr hn
  unfold lastNamed at h
  rw [List.find?_eq_none] at h
  have := h r (by simpa using hr)
  simp [Named] at hn
  simp [hn] at this

theorem lastNamed_some {recs : List BuildIdRec} {name : Bytes} {r : BuildIdRec} (h : lastNamed recs name = some r) :
    ∃ pre post, recs = pre ++ r :: post ∧ Named name r ∧ ∀ x ∈ post, ¬ Named name x := by
  unfold lastNamed at h
  rw [List.find?_eq_some_iff_append] at h
  obtain ⟨h1, as, bs, h2, h3⟩ := h
  refine ⟨bs.reverse, as.reverse, ?_, by simpa [Named] using h1, ?_⟩
  · have := congrArg List.reverse h2
    simpa using this
  · intro x hx
    have := h3 x (by simpa using hx)
    simpa [Named] using this

/-- The value in the table. -/
theorem table_value (recs : List BuildIdRec) (name : Bytes) :
    ((recs.foldl addBuildId {}).byName name).map (·.value) = (lastNamed recs name).map (fun r => hexOf r.hash) := by
  cases h : lastNamed recs name with
  | none =>
    rw [fold_other recs name {} (lastNamed_none h)]
    rfl
  | some r =>
    obtain ⟨pre, post, e, hn, hp⟩ := lastNamed_some h
    rw [e, List.foldl_append, List.foldl_cons, fold_other post name _ hp]
    unfold addBuildId
    dsimp only
    unfold upd
    rw [if_pos hn.symm]
    rfl

/-- The entry of the last record with a name. -/
theorem table_entry (pre post : List BuildIdRec) (r : BuildIdRec) (name : Bytes) (hn : Named name r)
    (hp : ∀ x ∈ post, ¬ Named name x) :
    ((pre ++ r :: post).foldl addBuildId {}).byName name = some ⟨hexOf r.hash,
      if (lastNamed pre name).any (fun o => o.hash != r.hash) then .ambiguous
      else if r.injected then .injected else .filename⟩ := by
  rw [List.foldl_append, List.foldl_cons, fold_other post name _ hp]
  have hv := table_value pre name
  rw [addBuildId_named _ r name hn]
  generalize (List.foldl addBuildId {} pre).byName name = old at hv ⊢
  cases hl : lastNamed pre name with
  | none =>
    rw [hl] at hv
    cases old with
    | none => rfl
    | some o => simp at hv
  | some l =>
    rw [hl] at hv
    cases old with
    | none => simp at hv
    | some o =>
      simp only [Option.map_some, Option.some.injEq] at hv
      dsimp only
      rw [hv]
      by_cases hh : l.hash = r.hash
      · simp [hh]
      · have : hexOf l.hash ≠ hexOf r.hash := fun e => hh (hexOf_inj e)
        rw [if_pos this]
        simp [hh]

theorem kernel_fold (recs : List BuildIdRec) : ∀ t : Ids,
    (recs.foldl addBuildId t).kernel = if t.kernel = [] then kernelId recs else t.kernel := by
  induction recs with
  | nil =>
    intro t
    by_cases h : t.kernel = []
    · rw [if_pos h]; exact h
    · rw [if_neg h]; rfl
  | cons r rs ih =>
    intro t
    rw [List.foldl_cons, ih]
    have hnil : hexOf r.hash = [] ↔ r.hash = [] := by
      constructor
      · intro h; exact hexOf_inj (h.trans rfl)
      · intro h; rw [h]; rfl
    have hk : (addBuildId t r).kernel =
        if r.misc % 8 = 1 ∧ (isKernelNonModuleName (nameOrMd5 r.filename r.md5) = true ∨
            ¬ (ascii ".ko").isSuffixOf (nameOrMd5 r.filename r.md5) = true) then
          if t.kernel ≠ [] ∧ t.kernel ≠ hexOf r.hash then t.kernel else hexOf r.hash
        else t.kernel := rfl
    rw [hk]
    by_cases hc : r.misc % 8 = 1 ∧ (isKernelNonModuleName (nameOrMd5 r.filename r.md5) = true ∨
            ¬ (ascii ".ko").isSuffixOf (nameOrMd5 r.filename r.md5) = true)
    · rw [if_pos hc]
      have hb : (isKernelNonModuleName (nameOrMd5 r.filename r.md5) ||
          !(ascii ".ko").isSuffixOf (nameOrMd5 r.filename r.md5)) = true := by
        rcases hc.2 with h | h
        · rw [h]; rfl
        · rw [Bool.eq_false_iff.2 h]; simp
      by_cases ht : t.kernel = []
      · have hi : (if t.kernel ≠ [] ∧ t.kernel ≠ hexOf r.hash then t.kernel else hexOf r.hash) = hexOf r.hash :=
          if_neg (fun h => h.1 ht)
        rw [hi, if_pos ht]
        by_cases hh : r.hash = []
        · rw [if_pos (hnil.2 hh)]
          unfold kernelId
          rw [List.find?_cons, hh]
          simp
        · rw [if_neg (fun h => hh (hnil.1 h))]
          unfold kernelId
          rw [List.find?_cons, hb]
          simp [hh, hc.1]
      · by_cases he : t.kernel = hexOf r.hash
        · have hi : (if t.kernel ≠ [] ∧ t.kernel ≠ hexOf r.hash then t.kernel else hexOf r.hash) = hexOf r.hash :=
            if_neg (fun h => h.2 he)
          rw [hi, if_neg (by rw [← he]; exact ht), if_neg ht, he]
        · have hi : (if t.kernel ≠ [] ∧ t.kernel ≠ hexOf r.hash then t.kernel else hexOf r.hash) = t.kernel :=
            if_pos ⟨ht, he⟩
          rw [hi, if_neg ht, if_neg ht]
    · rw [if_neg hc]
      have : kernelId (r :: rs) = kernelId rs := by
        unfold kernelId
        rw [List.find?_cons]
        have hf : (decide (r.hash ≠ [] ∧ r.misc % 8 = 1) && (isKernelNonModuleName (nameOrMd5 r.filename r.md5) ||
            !(ascii ".ko").isSuffixOf (nameOrMd5 r.filename r.md5))) = false := by
          rw [Bool.and_eq_false_iff]
          by_cases hm : r.misc % 8 = 1
          · right
            rw [Bool.eq_false_iff]
            intro hb
            apply hc
            refine ⟨hm, ?_⟩
            rw [Bool.or_eq_true] at hb
            rcases hb with h | h
            · exact Or.inl h
            · right; rw [Bool.not_eq_true'] at h; rw [h]; simp
          · left; simp [hm]
        rw [hf]
      rw [this]

theorem table_kernel (recs : List BuildIdRec) : (recs.foldl addBuildId {}).kernel = kernelId recs := by
  rw [kernel_fold]; rfl

/-! ## Event ids -/

theorem indexTable_spec (attrs : List AttrRec) : ∀ (i : Nat) (f : Nat → Option Nat) (id : Nat),
    (∀ (k : Nat) (a : AttrRec), attrs[k]? = some a → id ∉ a.ids) ∧ indexTable i attrs f id = f id ∨
    ∃ k : Nat, ∃ a : AttrRec, attrs[k]? = some a ∧ id ∈ a.ids ∧ (∀ (k' : Nat) (a' : AttrRec), k < k' → attrs[k']? = some a' → id ∉ a'.ids) ∧
      indexTable i attrs f id = some (i + k) := by
  induction attrs with
  | nil => intro i f id; left; exact ⟨fun k a h => by simp at h, rfl⟩
  | cons a t ih =>
    intro i f id
    unfold indexTable
    rcases ih (i + 1) (fun id => if id ∈ a.ids then some i else f id) id with ⟨h1, h2⟩ | ⟨k, b, h1, h2, h3, h4⟩
    · by_cases hm : id ∈ a.ids
      · right
        refine ⟨0, a, rfl, hm, ?_, by rw [h2, if_pos hm]; rfl⟩
        intro k' a' hk ha'
        obtain ⟨j, rfl⟩ : ∃ j, k' = j + 1 := ⟨k' - 1, by omega⟩
        exact h1 j a' (by simpa using ha')
      · left
        refine ⟨?_, by rw [h2, if_neg hm]⟩
        intro k a' ha'
        cases k with
        | zero => simp at ha'; rw [← ha']; exact hm
        | succ k => exact h1 k a' (by simpa using ha')
    · right
      refine ⟨k + 1, b, by simpa using h1, h2, ?_, by rw [h4]; congr 1; omega⟩
      intro k' a' hk ha'
      obtain ⟨j, rfl⟩ : ∃ j, k' = j + 1 := ⟨k' - 1, by omega⟩
      exact h3 j a' (by omega) (by simpa using ha')

/-! ## Histories -/

theorem mapped_cons (e : Ev) (es : List Ev) (pid : Nat) (hne : ∀ c p t, e ≠ .fork c p t) :
    mapped (e :: es) pid = match e.mapping with
      | some m => (m.pid == pid && m.len != 0) || mapped es pid
      | none => mapped es pid := by
  cases e <;> first | rfl | exact absurd rfl (hne _ _ _)

theorem newest_cons (e : Ev) (es : List Ev) (pid x : Nat) (hne : ∀ c p t, e ≠ .fork c p t) :
    newest (e :: es) pid x = match e.mapping with
      | some m => if m.pid = pid ∧ m.covers x then some m else newest es pid x
      | none => newest es pid x := by
  cases e <;> first | rfl | exact absurd rfl (hne _ _ _)

theorem ideal_cons (e : Ev) (es : List Ev) (pid x : Nat) (hne : ∀ c p t, e ≠ .fork c p t) :
    ideal (e :: es) pid x = if e.execs pid then none else match e.mapping with
      | some m => if m.pid = pid ∧ m.covers x then some m else ideal es pid x
      | none => ideal es pid x := by
  cases e <;> first | rfl | exact absurd rfl (hne _ _ _)

theorem unmapped_newest (es : List Ev) : ∀ pid, mapped es pid = false → ∀ x, newest es pid x = none ∧ ideal es pid x = none := by
  induction es with
  | nil => intro pid _ x; exact ⟨rfl, rfl⟩
  | cons e es ih =>
    intro pid h x
    have generic : (∀ c p t, e ≠ .fork c p t) →
        newest (e :: es) pid x = none ∧ ideal (e :: es) pid x = none := by
      intro hne
      rw [mapped_cons e es pid hne] at h
      rw [newest_cons e es pid x hne, ideal_cons e es pid x hne]
      cases he : e.mapping with
      | none =>
        rw [he] at h
        obtain ⟨a, b⟩ := ih pid h x
        exact ⟨a, by dsimp only; rw [b]; simp⟩
      | some m =>
        rw [he] at h
        dsimp only at h ⊢
        rw [Bool.or_eq_false_iff] at h
        obtain ⟨a, b⟩ := ih pid h.2 x
        have hc : ¬ (m.pid = pid ∧ m.covers x = true) := by
          rintro ⟨h1, h2⟩
          unfold MMapEv.covers at h2
          rw [decide_eq_true_eq] at h2
          have := h.1
          simp [h1, h2.1] at this
        rw [if_neg hc, if_neg hc, a, b]
        exact ⟨rfl, by simp⟩
    cases e with
    | fork c p t =>
      have hm : mapped (.fork c p t :: es) pid = (mapped es pid || (pid == c && mapped es p)) := rfl
      rw [hm, Bool.or_eq_false_iff] at h
      have hn : newest (.fork c p t :: es) pid x = if pid = c ∧ mapped es p then newest es p x else newest es pid x := rfl
      have hi : ideal (.fork c p t :: es) pid x = if pid = c then ideal es p x else ideal es pid x := rfl
      rw [hn, hi]
      by_cases hp : pid = c
      · have hz : mapped es p = false := by simpa [hp] using h.2
        rw [hz]
        simp only [Bool.false_eq_true, and_false, if_false]
        rw [if_pos hp]
        exact ⟨(ih pid h.1 x).1, (ih p hz x).2⟩
      · rw [if_neg (fun hc => hp hc.1), if_neg hp]
        exact ih pid h.1 x
    | _ => exact generic (by intro _ _ _ h'; cases h')

theorem plain_ideal (es : List Ev) : Plain es → ∀ pid x, newest es pid x = ideal es pid x := by
  induction es with
  | nil => intro _ pid x; rfl
  | cons e es ih =>
    rintro ⟨h1, h2, h3⟩ pid x
    have ih := ih h1
    have generic : (∀ c p t, e ≠ .fork c p t) → newest (e :: es) pid x = ideal (e :: es) pid x := by
      intro hne
      rw [newest_cons e es pid x hne, ideal_cons e es pid x hne]
      by_cases hx : e.execs pid = true
      · rw [if_pos hx]
        have hm : e.mapping = none := by
          cases e <;> simp only [Ev.execs, Bool.false_eq_true] at hx
          rfl
        rw [hm]
        exact (unmapped_newest es pid (h2 pid hx) x).1
      · rw [if_neg hx]
        cases e.mapping with
        | none => exact ih pid x
        | some m => dsimp only; rw [ih pid x]
    cases e with
    | fork c p t =>
      have hn : newest (.fork c p t :: es) pid x = if pid = c ∧ mapped es p then newest es p x else newest es pid x := rfl
      have hi : ideal (.fork c p t :: es) pid x = if pid = c then ideal es p x else ideal es pid x := rfl
      rw [hn, hi]
      by_cases hp : pid = c
      · rw [if_pos hp]
        by_cases hm : mapped es p = true
        · rw [if_pos ⟨hp, hm⟩]; exact ih p x
        · rw [if_neg (fun hc => hm hc.2)]
          have hz : mapped es p = false := by simpa using hm
          have hc : mapped es c = false := by
            cases hcc : mapped es c with
            | false => rfl
            | true => exact absurd (h3 c p t rfl hcc) hm
          rw [hp, (unmapped_newest es c hc x).1, (unmapped_newest es p hz x).2]
      · rw [if_neg (fun hc => hp hc.1), if_neg hp]
        exact ih pid x
    | _ => exact generic (by intro _ _ _ h'; cases h')

end Verif.Normalizer
