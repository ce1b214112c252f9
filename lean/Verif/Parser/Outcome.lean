import Verif.Parser.Loop

/-! # Lemmas about the parser: the outcome -/

namespace Verif.Parser
open Verif.AddressMapper (Req specRun specLookup specStep Piece)
open Verif.HugePages (MMap)

theorem takeWhile_get {α : Type} {p : α → Bool} : ∀ {l : List α} {i : Nat}, i < (l.takeWhile p).length →
    (l.takeWhile p)[i]? = l[i]?
  | [], i, h => by simp at h
  | a :: l, i, h => by
    by_cases hp : p a = true
    · rw [List.takeWhile_cons_of_pos hp] at h ⊢
      cases i with
      | zero => rfl
      | succ i =>
        simp only [List.getElem?_cons_succ]
        exact takeWhile_get (by simpa using h)
    · rw [List.takeWhile_cons_of_neg hp] at h; simp at h

theorem all2_len {α β : Type} {R : α → β → Prop} {as : List α} {bs : List β} (h : All₂ R as bs) : as.length = bs.length := by
  induction h with
  | nil => rfl
  | cons _ _ ih => simp [ih]

/-- Where addresses are only depends on the events before. -/
theorem locR_eq {O : Opts} {evs : List Ev} {i p : Nat} (hi : i ≤ (processed evs).length) (a : Nat) :
    locR (relevant evs) (region O (before evs i) p) a = locate O evs i p a := by
  unfold locR locate
  cases hr : region O (before evs i) p a with
  | none => rfl
  | some v =>
    obtain ⟨j, off⟩ := v
    simp only
    have hlt : j < (processed evs).length := by
      unfold region at hr
      obtain ⟨q, hq, rfl⟩ := lookup_id hr
      have := inherit_all (P := fun l => ∀ q ∈ l, q.id < (before evs i).length ∧ ∃ e, (before evs i).reverse[q.id]? = some e ∧ isMmap e = true)
        (by intro q hq; cases hq) (hist_ids O (before evs i)) p kernelPid p (rangesOf O (before evs i) p)
        (by unfold rangesOf; simp [inherit]) q hq
      have h1 := this.1
      unfold before at h1
      rw [List.length_reverse, List.length_take] at h1
      omega
    unfold nameAt
    rw [show (processed evs)[j]? = (relevant evs)[j]? from takeWhile_get hlt]

theorem reportH_eq {O : Opts} {evs : List Ev} {i : Nat} (hi : i ≤ (processed evs).length) (s : Sample) :
    reportH O (relevant evs) (before evs i) s = report O evs i s := by
  have : locR (relevant evs) (region O (before evs i) s.pid) = locate O evs i s.pid := funext (locR_eq hi)
  unfold reportH report
  rw [this]
  rfl

theorem rel_init {O : Opts} {S : Nat} (starts : Nat → Nat) : Rel O S starts [] {} := by
  refine ⟨fun p => trivial, ?_, rfl, ?_, fun _ => rfl, rfl⟩
  · intro k; rfl
  · intro e he; cases he

/-- What becomes of a processed event. -/
structure Becomes (O : Opts) (S : Nat) (evs : List Ev) (starts : Nat → Nat) (i : Nat) (e e' : Ev) (p : Parsed) : Prop where
  sample : e.type = 9 → ∀ s, e.sample = some s → p = report O evs i s ∧ ∃ τ,
    e' = { e with sample := some (replace τ s) } ∧ Translates O (region O (before evs i) s.pid) τ ∧
    (O.remap = true → ∀ A q B, rangesOf O (before evs i) s.pid = A ++ q :: B → (∀ r ∈ B, Apart r q) → ∀ a, a < 2 ^ 64 →
      q.has a = true → τ a = starts q.id + (a - q.real)) ∧
    (O.remap = true → ∀ a, a < 2 ^ 64 → region O (before evs i) s.pid a ≠ none → τ a < mmapCount evs * (S + 6 * O.page))
  mmap : isMmap e = true → p = {} ∧ e' = { e with mmap := some (if O.remap then
    { e.mmap.getD {} with start := starts i, len := (requestAt O (before evs i) e).size, pgoff := (requestAt O (before evs i) e).off }
    else e.mmap.getD {}) } ∧ (O.remap = true → starts i % O.page = (requestAt O (before evs i) e).real % O.page ∧
      starts i + (requestAt O (before evs i) e).size ≤ mmapCount evs * (S + 6 * O.page)) ∧
    accepted O (before evs i) e = true
  other : isMmap e = false → (e.type = 9 → e.sample = none) → e' = e ∧ p = {}

theorem before_len {evs : List Ev} {i : Nat} (hi : i ≤ (processed evs).length) : (before evs i).length = i := by
  unfold before; rw [List.length_reverse, List.length_take]; omega

theorem before_succ {evs : List Ev} {i : Nat} {e : Ev} (hi : (processed evs)[i]? = some e) :
    before evs (i + 1) = e :: before evs i := by
  unfold before
  rw [List.take_add_one, hi]
  simp

theorem filter_take_le {evs : List Ev} {i : Nat} : ((before evs i).filter isMmap).length ≤ mmapCount evs := by
  unfold before mmapCount
  have h : ((processed evs).take i).Sublist (processed evs) := List.take_sublist ..
  have := (h.filter isMmap).length_le
  rw [List.filter_reverse, List.length_reverse]
  exact this

theorem parse_loop {O : Opts} {S : Nat} {evs : List Ev} (h : Sensible O S evs) :
    (loop O (relevant evs) 0 {} (relevant evs) = none ∧
      ∃ i e, (processed evs)[i]? = some e ∧ isMmap e = true ∧ accepted O (before evs i) e = false) ∨
    (∃ st out starts, loop O (relevant evs) 0 {} (relevant evs) =
        some ((relevant evs).all known, st, out ++ ((relevant evs).drop (processed evs).length).map (fun e => (e, {}))) ∧
      Rel O S starts (processed evs).reverse st ∧ out.length = (processed evs).length ∧
      ∀ i e, (processed evs)[i]? = some e → ∃ x, out[i]? = some x ∧ x.1.type = e.type ∧ Becomes O S evs starts i e x.1 x.2) := by
  have hb : ∀ i, (((relevant evs).takeWhile known).take i).reverse ++ [] = before evs i := by
    intro i; rw [List.append_nil]; rfl
  have hd : (relevant evs).dropWhile known = (relevant evs).drop (processed evs).length := by
    unfold processed
    generalize relevant evs = l
    induction l with
    | nil => rfl
    | cons a l ih =>
      by_cases hp : known a = true
      · rw [List.takeWhile_cons_of_pos hp, List.dropWhile_cons_of_pos hp, ih]; rfl
      · rw [List.takeWhile_cons_of_neg hp, List.dropWhile_cons_of_neg hp]; rfl
  rcases loop_spec (evs := relevant evs) h.page (relevant evs) [] {} (fun _ => 0) rfl (rel_init _) (by
      intro i e hi hm
      rw [hb]
      exact h.ranges i e hi hm) (by
      have := h.room
      simpa [mmapCount, processed] using this) (fun e he => h.samples e he)
    with ⟨h1, i, e, h2, h3, h4⟩ | ⟨st, out, starts, h1, h2, h3, h4, h5⟩
  · left
    rw [hb] at h4
    exact ⟨h1, i, e, h2, h3, h4⟩
  · right
    have hlen := all2_len h4
    refine ⟨st, out, starts, ?_, ?_, hlen.symm, ?_⟩
    · rw [← hd]; exact h1
    · simpa [processed] using h2
    · intro i e hi
      have hlt : i < (processed evs).length := (List.getElem?_eq_some_iff.1 hi).1
      have hx : i < out.length := by rw [← hlen]; exact hlt
      refine ⟨out[i], List.getElem?_eq_getElem hx, ?_, ?_⟩
      · have : ∀ {as : List Ev} {bs : List (Ev × Parsed)}, All₂ (fun e (x : Ev × Parsed) => x.1.type = e.type) as bs → ∀ (i : Nat) a b,
            as[i]? = some a → bs[i]? = some b → b.1.type = a.type := by
          intro as bs h
          induction h with
          | nil => intro i a b h; simp at h
          | cons h1 h2 ih =>
            intro i a b ha hb
            cases i with
            | zero => simp at ha hb; subst ha; subst hb; exact h1
            | succ i => exact ih i a b (by simpa using ha) (by simpa using hb)
        exact this h4 i e out[i] hi (List.getElem?_eq_getElem hx)
      · obtain ⟨k1, k2⟩ := h5 i e out[i] hi (List.getElem?_eq_getElem hx)
        rw [hb] at k1 k2
        have hle : i ≤ (processed evs).length := Nat.le_of_lt hlt
        constructor
        · intro ht s hs
          obtain ⟨g1, τ, g2, g3, g4, g5⟩ := k1.sample ht s hs
          refine ⟨by rw [g1, reportH_eq hle], τ, g2, g3, g4, ?_⟩
          intro hr a ha hn
          exact Nat.lt_of_lt_of_le (g5 hr a ha hn) (Nat.mul_le_mul_right _ filter_take_le)
        · intro hm
          obtain ⟨g1, g2, g3⟩ := k1.mmap hm
          rw [before_len hle] at g2 g3
          refine ⟨g1, g2, fun hr => ⟨(g3 hr).1, Nat.le_trans (g3 hr).2 (Nat.mul_le_mul_right _ ?_)⟩, k2 hm⟩
          have hs : (before evs (i + 1)) = e :: before evs i := before_succ hi
          have := filter_take_le (evs := evs) (i := i + 1)
          rw [hs, List.filter_cons_of_pos hm] at this
          exact this
        · exact k1.other


/-! ## Discarding does not matter for the loop -/

theorem mapIp_discard (O : Opts) (b : Bool) : mapIp { O with discard := b } = mapIp O := rfl
theorem mapChain_discard (O : Opts) (b : Bool) (evs : List Ev) (pid x y : Nat) : ∀ (l : List Nat) (st : State),
    mapChain { O with discard := b } evs pid x y st l = mapChain O evs pid x y st l
  | [], st => rfl
  | a :: l, st => by
    simp only [mapChain, mapIp_discard]
    have ih := mapChain_discard O b evs pid x y l
    simp only [ih]
theorem mapEntries_discard (O : Opts) (b : Bool) (evs : List Ev) (pid : Nat) : ∀ (l : List Branch) (st : State),
    mapEntries { O with discard := b } evs pid st l = mapEntries O evs pid st l
  | [], st => rfl
  | a :: l, st => by
    simp only [mapEntries, mapIp_discard]
    have ih := mapEntries_discard O b evs pid l
    simp only [ih]
theorem mapSample_discard (O : Opts) (b : Bool) (evs : List Ev) (st : State) (s : Sample) :
    mapSample { O with discard := b } evs st s = mapSample O evs st s := by
  have h : ∀ pid st a, mapData { O with discard := b } evs pid st a = mapData O evs pid st a := fun pid st a => by
    cases a <;> rfl
  simp only [mapSample, mapIp_discard, mapChain_discard, mapBranches, mapEntries_discard, h]
theorem step_discard (O : Opts) (b : Bool) (evs : List Ev) (i : Nat) (st : State) (e : Ev) :
    step { O with discard := b } evs i st e = step O evs i st e := by
  have h1 : ∀ ms id k m, mapMmap { O with discard := b } ms id k m = mapMmap O ms id k m := fun _ _ _ _ => rfl
  have h2 : ∀ st f, mapFork { O with discard := b } st f = mapFork O st f := fun _ _ => rfl
  have h3 : ∀ ms p q, mapperFor { O with discard := b } ms p q = mapperFor O ms p q := fun _ _ _ => rfl
  simp only [step, mapSample_discard, h1, h2, h3]
theorem loop_discard (O : Opts) (b : Bool) (evs : List Ev) : ∀ (l : List Ev) (i : Nat) (st : State),
    loop { O with discard := b } evs i st l = loop O evs i st l
  | [], i, st => rfl
  | e :: l, i, st => by
    have ih := loop_discard O b evs l
    simp only [loop, step_discard, ih]

end Verif.Parser
