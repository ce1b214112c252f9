import Verif.Builder.Lemmas
import Verif.Builder.ValidLemmas
import Verif.Builder.FinalizeLemmas

/-!
# Properties of the profile builder

C07 string interning, C08 function interning, C09 validity, C10 and C11 finalization, C55 finalizing
twice, C56 call stacks, C57 documentation URL.
-/

namespace Verif.Builder
open Verif.Profile

/-! ## C07 -/

/-- C07: whatever happened before, the id of a string is 0 exactly for the empty string. -/
theorem stringId_zero_iff (before : List Op) (s : List UInt8) :
    (stringId (run new before) s).1 = 0 ↔ s = [] :=
  (stringId_spec _ s (run_new before).1).2.2.1.2

/-- C07: two calls get the same id exactly when they pass the same string, however many calls are
made before and between them. -/
theorem stringId_eq_iff (before between : List Op) (s t : List UInt8) :
    (stringId (run (stringId (run new before) s).2 between) t).1 = (stringId (run new before) s).1 ↔
      t = s := by
  have h0 := run_new before
  have h1 := stringId_spec _ s h0.1
  have hf : FInv (stringId (run new before) s).2 :=
    h0.2.ext h1.2.1 h1.2.2.2.1 (by rw [h1.2.2.2.2.2.1])
  have h2 := run_spec between _ h1.1 hf
  have h3 := stringId_spec _ t h2.1
  have i1 := (h1.2.2.1.ext h2.2.2.1).ext h3.2.1
  have i2 := h3.2.2.1
  constructor
  · intro e
    rw [e] at i2
    have := i2.1.symm.trans i1.1
    simpa using this
  · intro e; subst e
    exact i2.unique h3.1 i1

/-- C07: an id stays valid: after any later calls the table entry at that id is the string. -/
theorem stringId_stays (before later : List Op) (s : List UInt8) :
    (run (stringId (run new before) s).2 later).profile.stringTable[(stringId (run new before) s).1]? =
      some s := by
  have h0 := run_new before
  have h1 := stringId_spec _ s h0.1
  have hf : FInv (stringId (run new before) s).2 :=
    h0.2.ext h1.2.1 h1.2.2.2.1 (by rw [h1.2.2.2.2.2.1])
  exact (h1.2.2.1.ext (run_spec later _ h1.1 hf).2.2.1).1

/-- C07: the string table is the empty string followed by the distinct strings asked for, in order of
first request. -/
theorem stringTable_eq (ops : List Op) (h : Op.doc [] ∉ ops) :
    (run new ops).profile.stringTable = firstUses ([] :: ops.flatMap Op.strings) := by
  rw [(run_spec ops _ SInv.new FInv.new).2.2.2.2.1 h]
  simp [firstUses_eq, new, addNew]

/-- C07: hence it has no duplicates. -/
theorem stringTable_nodup (ops : List Op) (h : Op.doc [] ∉ ops) :
    (run new ops).profile.stringTable.Nodup := by
  rw [stringTable_eq ops h]; exact firstUses_nodup _

/-- C07: the empty URL is the only way to get a duplicate, and it does give one: `SetDocURL("")`
appends a second empty string. -/
theorem stringTable_nodup_violated :
    ¬ (∀ ops : List Op, (run new ops).profile.stringTable.Nodup) := by
  intro h
  have := h [.doc []]
  revert this; decide +kernel

example : (run new [.str [97], .fn [97] [] [98] 3, .str [98]]).profile.stringTable = [[], [97], [98]] ∧
    (stringId (run new [.str [97], .fn [97] [] [98] 3]) [98]).1 = 2 := by decide +kernel

/-! ## C08 -/

/-- C08: two calls get the same function id exactly when they pass the same four values. -/
theorem functionId_eq_iff (before between : List Op) (n sn f n' sn' f' : List UInt8) (l l' : Int) :
    (functionId (run (functionId (run new before) n sn f l).2 between) n' sn' f' l').1 =
      (functionId (run new before) n sn f l).1 ↔ n' = n ∧ sn' = sn ∧ f' = f ∧ l' = l := by
  have h0 := run_new before
  obtain ⟨s1, f1, _, _, _, _, ⟨r, p1, g1, _, k1⟩, _⟩ := functionId_spec _ n sn f l h0.1 h0.2
  obtain ⟨s2, f2, e2, keep2, _, _⟩ := run_spec between _ s1 f1
  obtain ⟨s3, f3, e3, _, _, _, ⟨r', p3, g3, _, k3⟩, c3⟩ := functionId_spec _ n' sn' f' l' s2 f2
  have keep3 : ∀ (i : Nat) x, (run (functionId (run new before) n sn f l).2 between).profile.function[i]? = some x →
      (functionId (run (functionId (run new before) n sn f l).2 between) n' sn' f' l').2.profile.function[i]? = some x := by
    intro i x hi
    rcases c3 with ⟨c, _⟩ | ⟨_, g, c, _⟩
    · rw [c]; exact hi
    · rw [c, List.getElem?_append_left (List.getElem?_eq_some_iff.1 hi).1]; exact hi
  have g1' := keep3 _ _ (keep2 _ _ g1)
  have k1' := (k1.ext e2).ext e3
  constructor
  · intro e
    rw [e] at g3
    have hr : r' = r := by have := g3.symm.trans g1'; simpa using this
    subst hr
    have := k3.resolve.symm.trans k1'.resolve
    simpa using this
  · rintro ⟨rfl, rfl, rfl, rfl⟩
    obtain ⟨i, j, k, a1, a2, a3, a4, a5, a6, a7⟩ := k1'
    obtain ⟨i', j', k', b1, b2, b3, b4, b5, b6, b7⟩ := k3
    have hk : keyOf r = keyOf r' := by
      simp only [keyOf, a1, a2, a3, a4, b1, b2, b3, b4, a5.unique s3 b5, a6.unique s3 b6, a7.unique s3 b7]
    have q1 := (f3.recs _ _ g1').2.2
    have q3 := (f3.recs _ _ g3).2.2
    rw [hk, q3] at q1
    simp only [Option.some.injEq] at q1
    omega

/-- C08: an id names the record that holds it, and that record resolves to the four values, now and
after any later calls. -/
theorem functionId_stays (before later : List Op) (n sn f : List UInt8) (l : Int) :
    ∃ r, 0 < (functionId (run new before) n sn f l).1 ∧
      (run (functionId (run new before) n sn f l).2 later).profile.function[
        (functionId (run new before) n sn f l).1 - 1]? = some r ∧
      r.id = (functionId (run new before) n sn f l).1 ∧
      resolve (run (functionId (run new before) n sn f l).2 later).profile r = some (n, sn, f, l) := by
  have h0 := run_new before
  obtain ⟨s1, f1, _, _, _, _, ⟨r, p1, g1, i1, k1⟩, _⟩ := functionId_spec _ n sn f l h0.1 h0.2
  obtain ⟨s2, f2, e2, keep2, _, _⟩ := run_spec later _ s1 f1
  exact ⟨r, p1, keep2 _ _ g1, i1, (k1.ext e2).resolve⟩

/-- C08: function ids are 1, 2, 3, ... in the order of the records. -/
theorem functionIds_numbered (ops : List Op) :
    (run new ops).profile.function.map (·.id) =
      List.range' 1 (run new ops).profile.function.length := by
  apply List.ext_getElem?
  intro k
  rw [List.getElem?_map]
  cases hk : (run new ops).profile.function[k]? with
  | none =>
    rw [List.getElem?_eq_none_iff] at hk
    simp [hk]
  | some f =>
    have hl := (List.getElem?_eq_some_iff.1 hk).1
    rw [List.getElem?_range' hl]
    simp [((run_new ops).2.recs k f hk).1, Nat.add_comm]

/-- C08: the records resolve to the distinct functions asked for, in order of first request. -/
theorem functions_eq (ops : List Op) :
    (run new ops).profile.function.map (resolve (run new ops).profile) =
      (firstUses (ops.filterMap Op.function?)).map some :=
  (run_spec ops _ SInv.new FInv.new).2.2.2.2.2 [] rfl

example : (run new [.fn [97] [97] [98] 3, .str [98], .fn [97] [97] [] 3, .fn [97] [97] [98] 3]).profile.function =
    [{ id := 1, name := 1, systemName := 1, filename := 2, startLine := 3 },
     { id := 2, name := 1, systemName := 1, filename := 0, startLine := 3 }] := by decide +kernel

/-! ## C09 -/

/-- C09: `CheckValid` accepts exactly the valid profiles. -/
theorem checkValid_iff_valid (p : Profile) (h : IndicesFit p) : checkValid p = true ↔ Valid p :=
  checkValid_iff p h

/-- A profile with one mapping, location, function and sample. -/
def exampleProfile : Profile :=
  { sampleType := [⟨1, 2⟩, ⟨3, 2⟩], stringTable := [[], [97], [98], [99]], defaultSampleType := 3
    mapping := [{ id := 7, memoryStart := 4096, memoryLimit := 8192 }]
    function := [{ id := 5, name := 1 }]
    location := [{ id := 9, mappingId := 7, address := 5000, line := [{ functionId := 5 }] }]
    sample := [{ locationId := [9, 9], value := [1, 2], label := [{ key := 1, num := 4 }] }] }

example : IndicesFit exampleProfile ∧ checkValid exampleProfile = true :=
  ⟨⟨by decide, by decide⟩, by decide +kernel⟩

/-- C09: the narrowing matters: with a default sample type beyond the range of an `int` the check can
accept a profile whose default sample type is not one of its sample types. -/
theorem checkValid_narrowing_violated : ¬ (∀ p : Profile, checkValid p = true → Valid p) := by
  intro h
  have := (h { sampleType := [⟨1, 0⟩], stringTable := [[], [97]], defaultSampleType := 2 ^ 32 + 1 }
    (by decide +kernel)).defaultIndex
  revert this; decide

/-- C09: what the check does not establish: an accepted profile may hold a mapping, a function or a
location with id 0 and string indices outside the string table. -/
theorem checkValid_zero_ids_violated :
    ¬ (∀ p : Profile, IndicesFit p → checkValid p = true →
      (∀ m ∈ p.mapping, m.id ≠ 0) ∧ (∀ f ∈ p.function, f.name.toNat < p.stringTable.length)) := by
  intro h
  have := (h { sampleType := [⟨1, 0⟩], stringTable := [[], [97]], defaultSampleType := 1
               mapping := [{}] } ⟨by decide, by decide⟩ (by decide +kernel)).1
  revert this; decide

/-! ## C10 -/

/-- C10: finalizing a profile without locations gives every distinct address one location, numbered
from 1 in order of first use; every sample's location list resolves to its addresses; nothing else in
the samples or the profile changes. -/
theorem finalize_locations (b : Builder) (he : b.error = false) (hl : b.profile.location = []) :
    let p := (finalize b).2.profile
    p.location.map (·.address) = firstUses (allAddresses b.profile.sample) ∧
    p.location.map (·.id) = List.range' 1 p.location.length ∧
    p.sample.map (fun s => s.locationId.map (addressOf p)) =
      b.profile.sample.map (fun s => s.locationId.map some) ∧
    p.sample.map (fun s => (s.value, s.label)) = b.profile.sample.map (fun s => (s.value, s.label)) ∧
    p = { b.profile with sample := p.sample, location := p.location } := by
  intro p
  have hp : p = assignMappings (createLocations b.profile) := by
    show (finalize b).2.profile = _
    simp [finalize, he]
  have hc : createLocations b.profile = { b.profile with
      sample := (locateSamples {} b.profile.sample).1
      location := (locateSamples {} b.profile.sample).2.locs } := by
    simp [createLocations, hl]
  obtain ⟨h1, h2, h3, h4⟩ := locateSamples_spec b.profile.sample {} [] LInv.empty
  have hpair : p.location.map (fun l => (l.id, l.address)) =
      (mkLocs (firstUses (allAddresses b.profile.sample))).map (fun l => (l.id, l.address)) := by
    rw [hp, assignMappings_location, hc]
    simp only [h1.locs, firstUses_eq]
  have hsam : p.sample = (locateSamples {} b.profile.sample).1 := by
    rw [hp, assignMappings_sample, hc]
  refine ⟨?_, ?_, ?_, ?_, ?_⟩
  · have := congrArg (List.map Prod.snd) hpair
    simpa [mkLocs, Function.comp_def, List.mapIdx_eq_zipIdx_map] using this
  · have h' := congrArg (List.map Prod.fst) hpair
    have hlen : p.location.length = (firstUses (allAddresses b.profile.sample)).length := by
      have := congrArg List.length hpair
      simpa [mkLocs] using this
    rw [hlen]
    simp only [List.map_map, Function.comp_def] at h'
    rw [h']
    apply List.ext_getElem
    · simp [mkLocs]
    · intro i h1 h2
      simp [mkLocs]; omega
  · rw [hsam, ← h3]
    apply List.map_congr_left
    intro s hs
    apply List.map_congr_left
    intro i hi
    rw [addressOf_eq, hpair, find_mkLocs _ _ (h2 s hs i hi), firstUses_eq]
    simp [Option.map_map, Function.comp_def]
  · rw [hsam]; exact h4
  · rw [hp, hc]
    unfold assignMappings
    split <;> simp

example : (finalize { new with profile := { new.profile with
      sample := [{ locationId := [16, 32, 16], value := [1] }, { locationId := [48, 32], value := [2] }] } }).2.profile.sample =
    [{ locationId := [1, 2, 1], value := [1] }, { locationId := [3, 2], value := [2] }] := by
  decide +kernel

/-! ## C11 -/

/-- C11: Finalize changes nothing in a location but its mapping; it assigns a mapping only to a
location that has none, and only one whose range, ends included, holds the address. -/
theorem finalize_mapping_sound (b : Builder) (he : b.error = false) (k : Nat) (l : Location)
    (hl : b.profile.location[k]? = some l) :
    ∃ l', (finalize b).2.profile.location[k]? = some l' ∧ l' = { l with mappingId := l'.mappingId } ∧
      (l'.mappingId ≠ l.mappingId → l.mappingId = 0 ∧ l.address ≠ 0 ∧
        ∃ m ∈ b.profile.mapping, m.id = l'.mappingId ∧ m.memoryStart ≤ l.address ∧
          l.address ≤ m.memoryLimit) := by
  have hne : b.profile.location.length ≠ 0 := by
    have := (List.getElem?_eq_some_iff.1 hl).1; omega
  have hc : createLocations b.profile = b.profile := by simp [createLocations, hne]
  have hp : (finalize b).2.profile = assignMappings b.profile := by simp [finalize, he, hc]
  rw [hp]
  unfold assignMappings
  split
  · refine ⟨assignMapping (mappingMap b.profile.mapping) l, by simp [hl], assignMapping_same _ _, ?_⟩
    intro hch
    unfold assignMapping at hch ⊢
    split at hch
    · rename_i hcond
      rw [if_pos hcond]
      refine ⟨hcond.2, hcond.1, ?_⟩
      split at hch
      · exact absurd rfl hch
      · rename_i k' lim id hg
        split at hch
        · rename_i hle
          obtain ⟨hm, hk⟩ := last_mem _ _ _ hg
          rcases (mappingMap_spec b.profile.mapping [] List.Pairwise.nil).2 _ hm with h | ⟨m, hm, e⟩
          · cases h
          · simp only [Prod.mk.injEq] at e
            simp only [if_pos hle]
            exact ⟨m, hm, e.2.2.symm, e.1 ▸ hk, e.2.1 ▸ hle⟩
        · exact absurd rfl hch
    · exact absurd rfl hch
  · exact ⟨l, hl, rfl, fun h => absurd rfl h⟩

/-- C11: when mappings do not overlap, a location without a mapping whose address lies in the range
of one is attributed to that one. -/
theorem finalize_mapping_complete (b : Builder) (he : b.error = false) (k : Nat) (l : Location)
    (hl : b.profile.location[k]? = some l) (hd : DisjointMappings b.profile.mapping)
    (m : Mapping) (hm : m ∈ b.profile.mapping) (h0 : l.mappingId = 0) (ha : l.address ≠ 0)
    (h1 : m.memoryStart ≤ l.address) (h2 : l.address < m.memoryLimit) :
    (finalize b).2.profile.location[k]? = some { l with mappingId := m.id } := by
  have hne : b.profile.location.length ≠ 0 := by
    have := (List.getElem?_eq_some_iff.1 hl).1; omega
  have hc : createLocations b.profile = b.profile := by simp [createLocations, hne]
  have hp : (finalize b).2.profile = assignMappings b.profile := by simp [finalize, he, hc]
  have hml : 0 < b.profile.mapping.length := List.length_pos_of_mem hm
  rw [hp]
  unfold assignMappings
  rw [if_pos hml]
  simp only [List.getElem?_map, hl, Option.map_some, Option.some.injEq]
  -- two mappings either are the same or do not overlap
  have hdis : ∀ x ∈ b.profile.mapping, x = m ∨ m.memoryLimit ≤ x.memoryStart ∨ x.memoryLimit ≤ m.memoryStart := by
    intro x hx
    obtain ⟨i, hi⟩ := List.getElem?_of_mem hx
    obtain ⟨j, hj⟩ := List.getElem?_of_mem hm
    obtain ⟨hi', ei⟩ := List.getElem?_eq_some_iff.1 hi
    obtain ⟨hj', ej⟩ := List.getElem?_eq_some_iff.1 hj
    have hpw := List.pairwise_iff_getElem.1 hd.2
    rcases Nat.lt_trichotomy i j with h | h | h
    · have := hpw i j hi' hj' h
      rw [ei, ej] at this
      exact Or.inr this.symm
    · subst h; left; rw [← ei, ← ej]
    · have := hpw j i hj' hi' h
      rw [ei, ej] at this
      exact Or.inr this
  have hsp := mappingMap_spec b.profile.mapping [] List.Pairwise.nil
  have hmem : (m.memoryStart, m.memoryLimit, m.id) ∈ mappingMap b.profile.mapping := by
    refine mem_mappingMap _ m [] List.Pairwise.nil ?_ (Or.inr hm)
    intro x hx hs
    rcases hdis x hx with e | h | h
    · rw [e]
    · have := hd.1 m hm; omega
    · have := hd.1 x hx; omega
  have hlast := last_le (mappingMap b.profile.mapping) hsp.1 l.address _ hmem h1 (by
    intro x hx hxa
    rcases hsp.2 x hx with h | ⟨y, hy, e⟩
    · cases h
    · subst e
      rcases hdis y hy with e | h | h
      · subst e; exact Nat.le_refl _
      · simp only at hxa; omega
      · have := hd.1 y hy; simp only; omega)
  unfold assignMapping
  rw [if_pos ⟨ha, h0⟩, hlast]
  simp only
  rw [if_pos (by omega)]

/-- C11 for a profile that had no locations: every created location starts without a mapping. -/
theorem finalize_created_mapping (b : Builder) (he : b.error = false) (hl : b.profile.location = [])
    (l' : Location) (h : l' ∈ (finalize b).2.profile.location) :
    (l'.mappingId ≠ 0 → ∃ m ∈ b.profile.mapping, m.id = l'.mappingId ∧
      m.memoryStart ≤ l'.address ∧ l'.address ≤ m.memoryLimit) ∧
    (DisjointMappings b.profile.mapping → ∀ m ∈ b.profile.mapping, l'.address ≠ 0 →
      m.memoryStart ≤ l'.address → l'.address < m.memoryLimit → l'.mappingId = m.id) := by
  let b1 : Builder := { b with profile := createLocations b.profile }
  have e1 : (finalize b).2.profile = assignMappings (createLocations b.profile) := by simp [finalize, he]
  have hmap : b1.profile.mapping = b.profile.mapping := by
    simp only [b1, createLocations]; split <;> rfl
  have hcr : ∀ l ∈ b1.profile.location, l.mappingId = 0 := by
    obtain ⟨g1, _⟩ := locateSamples_spec b.profile.sample {} [] LInv.empty
    intro l hm
    have : b1.profile.location = (locateSamples {} b.profile.sample).2.locs := by
      simp [b1, createLocations, hl]
    rw [this, g1.locs, mkLocs] at hm
    obtain ⟨i, hi, e⟩ := List.mem_mapIdx.1 hm
    rw [← e]
  by_cases hne : b1.profile.location = []
  · have : (finalize b).2.profile.location = [] := by
      rw [e1]
      show (assignMappings b1.profile).location = []
      unfold assignMappings; split <;> simp [hne]
    rw [this] at h; cases h
  · have hfin : (finalize b).2.profile = (finalize b1).2.profile := by
      have hlen : b1.profile.location.length ≠ 0 := by simpa using hne
      have hc : createLocations b1.profile = b1.profile := by
        unfold createLocations; rw [if_neg hlen]
      have he1 : b1.error = false := he
      rw [e1]
      simp only [finalize, he1, hc]
      rfl
    obtain ⟨k, hk⟩ := List.getElem?_of_mem h
    have hlen : (finalize b1).2.profile.location.length = b1.profile.location.length := by
      rw [← hfin, e1]
      show (assignMappings b1.profile).location.length = _
      unfold assignMappings; split <;> simp
    obtain ⟨l, hlk⟩ : ∃ l, b1.profile.location[k]? = some l := by
      have := (List.getElem?_eq_some_iff.1 hk).1
      rw [hfin, hlen] at this
      exact ⟨_, List.getElem?_eq_getElem this⟩
    have hl0 := hcr l (List.mem_of_getElem? hlk)
    rw [hfin] at hk
    obtain ⟨l2, h1, h2, h3⟩ := finalize_mapping_sound b1 he k l hlk
    rw [hk] at h1
    simp only [Option.some.injEq] at h1
    subst h1
    have ha : l'.address = l.address := by rw [h2]
    refine ⟨?_, ?_⟩
    · intro hn
      obtain ⟨_, _, m, hm, q⟩ := h3 (by rw [hl0]; exact hn)
      rw [hmap] at hm
      exact ⟨m, hm, by rw [ha]; exact q⟩
    · intro hd m hm hA hB hC
      have := finalize_mapping_complete b1 he k l hlk (by rw [hmap]; exact hd) m (by rw [hmap]; exact hm) hl0
        (by rw [← ha]; exact hA) (by rw [← ha]; exact hB) (by rw [← ha]; exact hC)
      rw [hk] at this
      simp only [Option.some.injEq] at this
      rw [this]

/-- C11: the end of a range is included: an address equal to the limit of a mapping that no other
mapping contains is attributed to it. -/
theorem finalize_limit_included :
    ∃ b : Builder, b.error = false ∧ DisjointMappings b.profile.mapping ∧
      (∃ l ∈ (finalize b).2.profile.location, ∃ m ∈ b.profile.mapping,
        l.mappingId = m.id ∧ l.address = m.memoryLimit) :=
  ⟨{ profile := { mapping := [{ id := 1, memoryStart := 16, memoryLimit := 32 }]
                  sample := [{ locationId := [32] }] } },
   rfl, ⟨by decide, by decide⟩, { id := 1, mappingId := 1, address := 32 }, by decide +kernel,
   { id := 1, memoryStart := 16, memoryLimit := 32 }, by decide, rfl, rfl⟩

example : (finalize { profile :=
      { mapping := [{ id := 1, memoryStart := 16, memoryLimit := 32 }, { id := 2, memoryStart := 64, memoryLimit := 96 }]
        sample := [{ locationId := [20, 40, 64, 8] }] } }).2.profile.location.map (·.mappingId) = [1, 0, 2, 0] := by
  decide +kernel

/-! ## C55 -/

/-- C55: finalizing twice is finalizing once. -/
theorem finalize_idempotent (b : Builder) : finalize (finalize b).2 = finalize b := by
  cases he : b.error with
  | true => simp [finalize, he]
  | false =>
    have key : ∀ p : Profile, assignMappings (createLocations (assignMappings (createLocations p))) =
        assignMappings (createLocations p) := by
      intro p
      have hloc : ∀ q : Profile, (assignMappings q).location.length = q.location.length := by
        intro q; unfold assignMappings; split <;> simp
      have hmm : ∀ q : Profile, assignMappings (assignMappings q) = assignMappings q := by
        intro q
        by_cases hm : q.mapping.length > 0
        · unfold assignMappings
          simp only [hm, if_true, List.map_map]
          congr 1
          apply List.map_congr_left
          intro l _
          exact assignMapping_idem _ l
        · unfold assignMappings
          simp only [hm, if_false]
      by_cases hz : (createLocations p).location.length = 0
      · -- no locations: there are no addresses at all
        have hp0 : p.location.length = 0 := by
          apply Classical.byContradiction; intro h
          apply h
          unfold createLocations at hz
          rw [if_neg h] at hz; exact hz
        obtain ⟨g1, _, g3, g4⟩ := locateSamples_spec p.sample {} [] LInv.empty
        have hcp : createLocations p = { p with sample := (locateSamples {} p.sample).1
                                                location := (locateSamples {} p.sample).2.locs } := by
          simp [createLocations, hp0]
        have hadd : (allAddresses p.sample).foldl addNew [] = [] := by
          rw [hcp] at hz
          simp only [g1.locs, mkLocs, List.length_mapIdx] at hz
          exact List.eq_nil_of_length_eq_zero hz
        have hempty : ∀ s ∈ p.sample, s.locationId = [] := by
          intro s hs
          cases hx : s.locationId with
          | nil => rfl
          | cons a t =>
            have : a ∈ firstUses (allAddresses p.sample) := by
              rw [mem_firstUses]
              simp only [allAddresses, List.mem_flatten, List.mem_map]
              exact ⟨s.locationId, ⟨s, hs, rfl⟩, by simp [hx]⟩
            rw [firstUses_eq, hadd] at this; cases this
        have hsame : createLocations p = p :=
          createLocations_empty p (List.eq_nil_of_length_eq_zero hp0) hempty
        rw [hsame]
        have h2 : createLocations (assignMappings p) = assignMappings p :=
          createLocations_empty _ (List.eq_nil_of_length_eq_zero (by rw [hloc]; exact hp0))
            (by rw [assignMappings_sample]; exact hempty)
        rw [h2, hmm]
      · rw [createLocations_of_ne _ (by rw [hloc]; exact hz), hmm]
    simp only [finalize, he]
    simp only [Bool.false_eq_true, if_false]
    rw [key]

example : (finalize { profile := { exampleProfile with location := [] } }).1 = true ∧
    (finalize { profile := exampleProfile }).1 = true := by decide +kernel

/-! ## C56 -/

/-- C56: a call stack of 64-bit return addresses is appended frame by frame, each address moved back
by one so that it lies in the call; only the first frame of an interrupt stack is kept as it is.
Address 0 moves to the last address. -/
theorem addCallstack_eq (interrupt : Bool) (s : Sample) (stack : List Nat) (h : ∀ a ∈ stack, a < 2 ^ 64) :
    (addCallstack interrupt s stack).locationId = s.locationId ++ stack.mapIdx (fun i a =>
      if interrupt ∧ i = 0 then a else if a = 0 then 2 ^ 64 - 1 else a - 1) ∧
    (addCallstack interrupt s stack).value = s.value ∧ (addCallstack interrupt s stack).label = s.label := by
  have hsub : ∀ a < 2 ^ 64, (a + 2 ^ 64 - 1) % 2 ^ 64 = if a = 0 then 2 ^ 64 - 1 else a - 1 := by
    intro a ha; split <;> omega
  cases stack with
  | nil => simp [addCallstack]
  | cons a t =>
    refine ⟨?_, rfl, rfl⟩
    simp only [addCallstack, List.mapIdx_cons, List.append_assoc, List.singleton_append]
    congr 1
    congr 1
    · cases interrupt
      · rw [if_neg (by simp), if_neg (by simp)]
        exact hsub a (h a (by simp))
      · rw [if_pos rfl, if_pos (by simp)]
    · simp only [Nat.add_eq_zero_iff, Nat.one_ne_zero, and_false, if_false]
      rw [List.mapIdx_eq_zipIdx_map]
      have ht : ∀ (l : List Nat) (n : Nat), (∀ x ∈ l, x < 2 ^ 64) →
          l.map (fun x => (x + 2 ^ 64 - 1) % 2 ^ 64) =
          (l.zipIdx n).map (fun x => if x.1 = 0 then 2 ^ 64 - 1 else x.1 - 1) := by
        intro l
        induction l with
        | nil => intro n _; rfl
        | cons x l ih =>
          intro n hx
          simp only [List.map_cons, List.zipIdx_cons]
          rw [hsub x (hx x (by simp)), ih (n + 1) (fun y hy => hx y (List.mem_cons_of_mem _ hy))]
      exact ht t 0 (fun x hx => h x (List.mem_cons_of_mem _ hx))

example : addCallstack true { locationId := [7] } [100, 0, 9] =
    { locationId := [7, 100, 18446744073709551615, 8] } := by decide +kernel

/-! ## C57 -/

/-- C57: an accepted URL is stored as given; a rejected
one leaves the profile as it was and makes Finalize fail, now and after any later calls. -/
theorem setDocURL_spec (before : List Op) (url : List UInt8) :
    (UrlOk url → (setDocURL (run new before) url).error = (run new before).error ∧
      ∃ i : Nat, (setDocURL (run new before) url).profile.docUrl = i ∧
        (setDocURL (run new before) url).profile.stringTable[i]? = some url) ∧
    (¬ UrlOk url → (setDocURL (run new before) url).profile = (run new before).profile ∧
      ∀ later, (finalize (run (setDocURL (run new before) url) later)).1 = false) := by
  have h0 := run_new before
  constructor
  · intro hu
    obtain ⟨_, _, _, h4, _, h6, _, _⟩ := internal_spec _ url h0.1
    rw [setDocURL_ok _ _ hu]
    exact ⟨h6, _, rfl, h4⟩
  · intro hu
    rw [setDocURL_bad _ _ hu]
    refine ⟨rfl, ?_⟩
    have herr : ∀ (ops : List Op) (b : Builder), b.error = true → (run b ops).error = true := by
      have hint : ∀ (b : Builder) s, (internalStringId b s).2.error = b.error := by
        intro b s; unfold internalStringId; split <;> rfl
      have hstr : ∀ (b : Builder) s, (stringId b s).2.error = b.error := by
        intro b s; unfold stringId; split
        · rfl
        · exact hint b s
      have hfn : ∀ (b : Builder) k, (internFunction b k).2.error = b.error := by
        intro b k; unfold internFunction; split <;> rfl
      intro ops
      induction ops with
      | nil => intro b h; exact h
      | cons op ops ih =>
        intro b h
        apply ih
        cases op with
        | str s => simp only [step]; rw [hstr]; exact h
        | fn n sn f l => simp only [step, functionId]; rw [hfn, hstr, hstr, hstr]; exact h
        | doc u =>
          simp only [step]
          by_cases hu : UrlOk u
          · rw [setDocURL_ok _ _ hu]; simp only; rw [hint]; exact h
          · rw [setDocURL_bad _ _ hu]
    intro later
    have := herr later { (run new before) with error := true } rfl
    simp only [finalize, this]
    rfl

example : UrlOk (ascii "https://x") ∧ ¬ UrlOk (ascii "ftp://x") := by decide +kernel

end Verif.Builder
