import Verif.Builder.Lemmas

/-! # Lemmas about Finalize -/

namespace Verif.Builder
open Verif.Profile

/-- Locations for a list of addresses. -/
def mkLocs (as : List Nat) : List Location := as.mapIdx (fun i a => { id := i + 1, address := a })

/-- The address map and the created locations describe the address list `as`. -/
structure LInv (st : AddrState) (as : List Nat) : Prop where
  locs : st.locs = mkLocs as
  len : st.ids.length = as.length
  map : ∀ a i, find st.ids a = some i ↔ 0 < i ∧ as[i - 1]? = some a

theorem locate_spec (st : AddrState) (as : List Nat) (a : Nat) (h : LInv st as) :
    LInv (locate st a).2 (addNew as a) ∧ 0 < (locate st a).1 ∧
    (addNew as a)[(locate st a).1 - 1]? = some a := by
  cases hf : find st.ids a with
  | some id =>
    have e : locate st a = (id, st) := by simp [locate, hf]
    rw [e]
    have hi := (h.map a id).1 hf
    have : addNew as a = as := by rw [addNew, if_pos (List.mem_of_getElem? hi.2)]
    rw [this]
    exact ⟨h, hi⟩
  | none =>
    have e : locate st a = (st.ids.length + 1, { ids := (a, st.ids.length + 1) :: st.ids
                                                 locs := st.locs ++ [{ id := st.ids.length + 1, address := a }] }) := by
      simp [locate, hf]
    rw [e]
    have hna : a ∉ as := by
      intro hm
      obtain ⟨i, hi⟩ := List.getElem?_of_mem hm
      have := (h.map a (i + 1)).2 ⟨by omega, by simpa using hi⟩
      rw [hf] at this; cases this
    have hadd : addNew as a = as ++ [a] := by rw [addNew, if_neg hna]
    rw [hadd]
    refine ⟨⟨?_, ?_, ?_⟩, by simp, ?_⟩
    · simp only [h.locs, mkLocs, h.len, List.mapIdx_append]
      simp
    · simp [h.len]
    · intro x i
      simp only [find]
      by_cases hx : a = x
      · subst hx
        rw [if_pos rfl]
        constructor
        · intro hi
          simp only [Option.some.injEq] at hi
          subst hi
          simp [h.len]
        · rintro ⟨hpos, hi⟩
          rw [List.getElem?_append] at hi
          split at hi
          · exact absurd (List.mem_of_getElem? hi) hna
          · have hl := (List.getElem?_eq_some_iff.1 hi).1
            simp only [List.length_singleton] at hl
            simp only [Option.some.injEq, h.len]
            omega
      · rw [if_neg hx, h.map]
        constructor
        · rintro ⟨hpos, hi⟩
          refine ⟨hpos, ?_⟩
          rw [List.getElem?_append_left (List.getElem?_eq_some_iff.1 hi).1]; exact hi
        · rintro ⟨hpos, hi⟩
          refine ⟨hpos, ?_⟩
          rw [List.getElem?_append] at hi
          split at hi
          · exact hi
          · have hl := (List.getElem?_eq_some_iff.1 hi).1
            simp only [List.length_singleton] at hl
            have : i - 1 - as.length = 0 := by omega
            rw [this] at hi
            simp at hi
            exact absurd hi hx
    · simp [h.len]

theorem locateAll_spec (l : List Nat) : ∀ (st : AddrState) (as : List Nat), LInv st as →
    LInv (locateAll st l).2 (l.foldl addNew as) ∧ (∀ i ∈ (locateAll st l).1, 0 < i) ∧
    (locateAll st l).1.map (fun i => (l.foldl addNew as)[i - 1]?) = l.map some := by
  induction l with
  | nil => intro st as h; exact ⟨h, by simp [locateAll], rfl⟩
  | cons a t ih =>
    intro st as h
    obtain ⟨h1, h2, h3⟩ := locate_spec st as a h
    obtain ⟨g1, g2, g3⟩ := ih _ _ h1
    simp only [locateAll, List.foldl_cons, List.map_cons]
    refine ⟨g1, ?_, ?_⟩
    · intro i hi
      rcases List.mem_cons.1 hi with e | hi
      · subst e; exact h2
      · exact g2 i hi
    · rw [g3, foldl_addNew_get _ _ _ _ h3]

theorem locateSamples_spec (ss : List Sample) : ∀ (st : AddrState) (as : List Nat), LInv st as →
    LInv (locateSamples st ss).2 ((allAddresses ss).foldl addNew as) ∧
    (∀ s ∈ (locateSamples st ss).1, ∀ i ∈ s.locationId, 0 < i) ∧
    (locateSamples st ss).1.map (fun s => s.locationId.map
      (fun i => ((allAddresses ss).foldl addNew as)[i - 1]?)) =
      ss.map (fun s => s.locationId.map some) ∧
    (locateSamples st ss).1.map (fun s => (s.value, s.label)) = ss.map (fun s => (s.value, s.label)) := by
  induction ss with
  | nil => intro st as h; exact ⟨h, by simp [locateSamples], rfl, rfl⟩
  | cons s t ih =>
    intro st as h
    obtain ⟨h1, h2, h3⟩ := locateAll_spec s.locationId st as h
    obtain ⟨g1, g2, g3, g4⟩ := ih _ _ h1
    have e : (allAddresses (s :: t)).foldl addNew as =
        (allAddresses t).foldl addNew (s.locationId.foldl addNew as) := by
      simp [allAddresses]
    rw [e]
    simp only [locateSamples, List.map_cons]
    refine ⟨g1, ?_, ?_, ?_⟩
    · intro x hx
      rcases List.mem_cons.1 hx with e | hx
      · subst e; exact h2
      · exact g2 x hx
    · rw [g3, ← h3]
      congr 1
      apply List.map_congr_left
      intro i hi
      have : (s.locationId.foldl addNew as)[i - 1]? ∈ s.locationId.map some := by
        rw [← h3]; exact List.mem_map_of_mem hi
      obtain ⟨y, _, hy⟩ := List.mem_map.1 this
      rw [← hy, foldl_addNew_get _ _ _ _ hy.symm]
    · rw [g4]

theorem LInv.empty : LInv {} [] := by
  refine ⟨rfl, rfl, ?_⟩
  intro a i; simp [find]

theorem assignMappings_sample (p : Profile) : (assignMappings p).sample = p.sample := by
  unfold assignMappings; split <;> rfl

theorem assignMapping_same (m : List (Nat × Nat × Nat)) (l : Location) :
    assignMapping m l = { l with mappingId := (assignMapping m l).mappingId } := by
  unfold assignMapping
  split
  · split
    · rfl
    · split <;> rfl
  · rfl

theorem assignMappings_location (p : Profile) :
    (assignMappings p).location.map (fun l => (l.id, l.address)) =
      p.location.map (fun l => (l.id, l.address)) := by
  unfold assignMappings
  split
  · simp only [List.map_map]
    apply List.map_congr_left
    intro l _
    simp only [Function.comp]
    rw [assignMapping_same]
  · rfl

theorem find_mkLocs (as : List Nat) (i : Nat) (h : 0 < i) :
    ((mkLocs as).map (fun l => (l.id, l.address))).find? (fun l => l.1 == i) =
      (as[i - 1]?).map (fun a => (i, a)) := by
  have gen : ∀ (as : List Nat) (off i : Nat), off < i →
      ((as.mapIdx (fun k a => ({ id := k + off + 1, address := a } : Location))).map
        (fun l => (l.id, l.address))).find? (fun l => l.1 == i) =
      (as[i - off - 1]?).map (fun a => (i, a)) := by
    intro as
    induction as with
    | nil => intro off i _; simp
    | cons a t ih =>
      intro off i hi
      simp only [List.mapIdx_cons, List.map_cons, List.find?_cons]
      by_cases e : off + 1 = i
      · subst e
        simp
      · have : ((0 + off + 1) == i) = false := by
          simp only [beq_eq_false_iff_ne]; omega
        rw [this]
        simp only
        have := ih (off + 1) i (by omega)
        have e2 : i - off - 1 = (i - (off + 1) - 1) + 1 := by omega
        rw [e2, List.getElem?_cons_succ, ← this]
        congr 3
        funext k a
        simp only [Location.mk.injEq, and_true]
        omega
  have := gen as 0 i h
  simpa [mkLocs] using this

theorem addressOf_eq (p : Profile) (i : Nat) :
    addressOf p i = ((p.location.map (fun l => (l.id, l.address))).find? (fun l => l.1 == i)).map (·.2) := by
  unfold addressOf
  rw [List.find?_map, Option.map_map]
  rfl

/-! ## Mappings -/

theorem mapInsert_keys (k : Nat) (v : Nat × Nat) (m : List (Nat × Nat × Nat))
    (h : m.Pairwise (fun a b => a.1 < b.1)) :
    (mapInsert k v m).Pairwise (fun a b => a.1 < b.1) ∧
    ∀ e, e ∈ mapInsert k v m ↔ e = (k, v) ∨ (e ∈ m ∧ e.1 ≠ k) := by
  induction m with
  | nil => simp [mapInsert]
  | cons x t ih =>
    obtain ⟨k', v'⟩ := x
    simp only [List.pairwise_cons] at h
    obtain ⟨ih1, ih2⟩ := ih h.2
    simp only [mapInsert]
    split
    · rename_i hlt
      refine ⟨?_, ?_⟩
      · simp only [List.pairwise_cons]
        refine ⟨?_, h⟩
        intro e he
        rcases List.mem_cons.1 he with rfl | he
        · exact hlt
        · have := h.1 e he; omega
      · intro e
        constructor
        · intro he
          rcases List.mem_cons.1 he with he | he
          · exact Or.inl he
          · refine Or.inr ⟨he, ?_⟩
            rcases List.mem_cons.1 he with rfl | he
            · simp only; omega
            · have := h.1 e he; omega
        · rintro (he | ⟨he, _⟩)
          · simp [he]
          · exact List.mem_cons_of_mem _ he
    · split
      · rename_i hlt heq
        subst heq
        refine ⟨List.pairwise_cons.2 ⟨h.1, h.2⟩, ?_⟩
        intro e
        constructor
        · intro he
          rcases List.mem_cons.1 he with he | he
          · exact Or.inl he
          · have := h.1 e he
            exact Or.inr ⟨List.mem_cons_of_mem _ he, by omega⟩
        · rintro (he | ⟨he, hne⟩)
          · simp [he]
          · rcases List.mem_cons.1 he with rfl | he
            · exact absurd rfl hne
            · exact List.mem_cons_of_mem _ he
      · rename_i hlt hne
        refine ⟨List.pairwise_cons.2 ⟨?_, ih1⟩, ?_⟩
        · intro e he
          rcases (ih2 e).1 he with rfl | ⟨he, _⟩
          · simp only; omega
          · exact h.1 e he
        · intro e
          constructor
          · intro he
            rcases List.mem_cons.1 he with rfl | he
            · exact Or.inr ⟨by simp, by simp only; omega⟩
            · rcases (ih2 e).1 he with rfl | ⟨he, hk⟩
              · exact Or.inl rfl
              · exact Or.inr ⟨List.mem_cons_of_mem _ he, hk⟩
          · rintro (he | ⟨he, hk⟩)
            · exact List.mem_cons_of_mem _ ((ih2 e).2 (Or.inl he))
            · rcases List.mem_cons.1 he with rfl | he
              · simp
              · exact List.mem_cons_of_mem _ ((ih2 e).2 (Or.inr ⟨he, hk⟩))

/-- The map holds, for each start address, the last mapping that starts there. -/
theorem mappingMap_spec (ms : List Mapping) : ∀ acc : List (Nat × Nat × Nat),
    acc.Pairwise (fun a b => a.1 < b.1) →
    (ms.foldl (fun m x => mapInsert x.memoryStart (x.memoryLimit, x.id) m) acc).Pairwise
      (fun a b => a.1 < b.1) ∧
    ∀ e ∈ ms.foldl (fun m x => mapInsert x.memoryStart (x.memoryLimit, x.id) m) acc,
      e ∈ acc ∨ ∃ m ∈ ms, e = (m.memoryStart, m.memoryLimit, m.id) := by
  induction ms with
  | nil => intro acc h; exact ⟨h, fun e he => Or.inl he⟩
  | cons m t ih =>
    intro acc h
    have hi := mapInsert_keys m.memoryStart (m.memoryLimit, m.id) acc h
    obtain ⟨g1, g2⟩ := ih _ hi.1
    refine ⟨g1, ?_⟩
    intro e he
    rcases g2 e he with he | ⟨m', hm', he⟩
    · rcases (hi.2 e).1 he with he | ⟨he, _⟩
      · exact Or.inr ⟨m, by simp, he⟩
      · exact Or.inl he
    · exact Or.inr ⟨m', List.mem_cons_of_mem _ hm', he⟩

/-- A mapping no other mapping shares its start with is in the map. -/
theorem mem_mappingMap (ms : List Mapping) (m : Mapping) : ∀ acc : List (Nat × Nat × Nat),
    acc.Pairwise (fun a b => a.1 < b.1) →
    (∀ x ∈ ms, x.memoryStart = m.memoryStart → (x.memoryLimit, x.id) = (m.memoryLimit, m.id)) →
    ((m.memoryStart, m.memoryLimit, m.id) ∈ acc ∨ m ∈ ms) →
    (m.memoryStart, m.memoryLimit, m.id) ∈
      ms.foldl (fun m x => mapInsert x.memoryStart (x.memoryLimit, x.id) m) acc := by
  induction ms with
  | nil => intro acc _ _ h; rcases h with h | h; exact h; cases h
  | cons x t ih =>
    intro acc hp hu h
    have hi := mapInsert_keys x.memoryStart (x.memoryLimit, x.id) acc hp
    refine ih _ hi.1 (fun y hy => hu y (List.mem_cons_of_mem _ hy)) ?_
    have key : (m.memoryStart, m.memoryLimit, m.id) ∈ acc ∨ m = x →
        (m.memoryStart, m.memoryLimit, m.id) ∈ mapInsert x.memoryStart (x.memoryLimit, x.id) acc := by
      intro h
      rw [hi.2]
      by_cases e : x.memoryStart = m.memoryStart
      · left; rw [hu x (by simp) e, e]
      · rcases h with h | h
        · right; exact ⟨h, fun e' => e e'.symm⟩
        · subst h; exact absurd rfl e
    rcases h with h | h
    · exact Or.inl (key (Or.inl h))
    · rcases List.mem_cons.1 h with h | h
      · exact Or.inl (key (Or.inr h))
      · exact Or.inr h

/-- In an ascending list the last element of the prefix up to `a` is the element with the greatest
key at most `a`. -/
theorem last_le (m : List (Nat × Nat × Nat)) (h : m.Pairwise (fun a b => a.1 < b.1)) (a : Nat)
    (e : Nat × Nat × Nat) (he : e ∈ m) (hle : e.1 ≤ a) (hnext : ∀ x ∈ m, x.1 ≤ a → x.1 ≤ e.1) :
    (m.takeWhile (fun e => decide (e.1 ≤ a))).getLast? = some e := by
  induction m with
  | nil => cases he
  | cons x t ih =>
    simp only [List.pairwise_cons] at h
    have hx : x.1 ≤ a := by
      rcases List.mem_cons.1 he with e' | he'
      · subst e'; exact hle
      · have := h.1 e he'; omega
    rw [List.takeWhile_cons_of_pos (by simpa using hx)]
    rcases List.mem_cons.1 he with e' | he'
    · subst e'
      have : t.takeWhile (fun e => decide (e.1 ≤ a)) = [] := by
        cases t with
        | nil => rfl
        | cons y t' =>
          have hy := h.1 y (by simp)
          have hn : ¬ y.1 ≤ a := by
            intro hc
            have := hnext y (by simp) hc
            omega
          simp [hn]
      rw [this]; rfl
    · have := ih h.2 he' (fun y hy => hnext y (List.mem_cons_of_mem _ hy))
      rw [List.getLast?_cons, this]; rfl

theorem last_mem (m : List (Nat × Nat × Nat)) (a : Nat) (e : Nat × Nat × Nat)
    (h : (m.takeWhile (fun e => decide (e.1 ≤ a))).getLast? = some e) : e ∈ m ∧ e.1 ≤ a := by
  have hm := List.mem_of_getLast? h
  refine ⟨(List.takeWhile_sublist _).subset hm, ?_⟩
  induction m with
  | nil => simp at hm
  | cons x t ih =>
    by_cases hx : x.1 ≤ a
    · rw [List.takeWhile_cons_of_pos (by simpa using hx)] at hm h
      rcases List.mem_cons.1 hm with e' | hm'
      · subst e'; exact hx
      · apply ih _ hm'
        rw [List.getLast?_cons] at h
        cases hh : (t.takeWhile (fun e => decide (e.1 ≤ a))).getLast? with
        | none => rw [List.getLast?_eq_none_iff] at hh; rw [hh] at hm'; cases hm'
        | some y => rw [hh] at h; simpa using h
    · rw [List.takeWhile_cons_of_neg (by simpa using hx)] at hm; cases hm

theorem assignMapping_idem (m : List (Nat × Nat × Nat)) (l : Location) :
    assignMapping m (assignMapping m l) = assignMapping m l := by
  by_cases hc : l.address ≠ 0 ∧ l.mappingId = 0
  · cases hg : (m.takeWhile (fun e => decide (e.1 ≤ l.address))).getLast? with
    | none =>
      have : assignMapping m l = l := by unfold assignMapping; rw [if_pos hc, hg]
      rw [this, this]
    | some e =>
      obtain ⟨k, limit, id⟩ := e
      by_cases hl : l.address ≤ limit
      · have e1 : assignMapping m l = { l with mappingId := id } := by
          unfold assignMapping; rw [if_pos hc, hg]; simp only; rw [if_pos hl]
        rw [e1]
        by_cases hid : id = 0
        · unfold assignMapping
          rw [if_pos ⟨hc.1, hid⟩]
          simp only [hg]
          rw [if_pos hl]
        · unfold assignMapping
          rw [if_neg (fun h => hid h.2)]
      · have : assignMapping m l = l := by
          unfold assignMapping; rw [if_pos hc, hg]; simp only; rw [if_neg hl]
        rw [this, this]
  · have : assignMapping m l = l := by unfold assignMapping; rw [if_neg hc]
    rw [this, this]

theorem createLocations_of_ne (q : Profile) (h : ¬ q.location.length = 0) : createLocations q = q := by
  unfold createLocations; rw [if_neg h]

theorem locateSamples_noop (ss : List Sample) : (∀ s ∈ ss, s.locationId = []) →
    ∀ st, locateSamples st ss = (ss, st) := by
  induction ss with
  | nil => intro _ st; rfl
  | cons s t ih =>
    intro h st
    have h1 := h s (by simp)
    simp only [locateSamples, h1, locateAll, ih (fun x hx => h x (List.mem_cons_of_mem _ hx))]
    rw [← h1]

theorem createLocations_empty (q : Profile) (hl : q.location = []) (h : ∀ s ∈ q.sample, s.locationId = []) :
    createLocations q = q := by
  unfold createLocations
  rw [if_pos (by rw [hl]; rfl), locateSamples_noop _ h]
  show { q with sample := q.sample, location := [] } = q
  rw [← hl]

end Verif.Builder
