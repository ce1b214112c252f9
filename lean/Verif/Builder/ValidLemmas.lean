import Verif.Builder.Model
import Verif.Builder.Spec

/-! # Lemmas about the validity check -/

namespace Verif.Builder
open Verif.Profile

theorem collectIds_some (l : List Nat) : ∀ acc : List Nat,
    (l.filter (· ≠ 0)).Nodup → (∀ x ∈ l, x ≠ 0 → x ∉ acc) →
    ∃ r, collectIds acc l = some r ∧ ∀ x, x ∈ r ↔ x ∈ acc ∨ (x ∈ l ∧ x ≠ 0) := by
  induction l with
  | nil => intro acc _ _; exact ⟨acc, rfl, by simp⟩
  | cons a t ih =>
    intro acc hn hd
    simp only [collectIds]
    by_cases ha : a = 0
    · subst ha
      rw [if_neg (by simp)]
      obtain ⟨r, h1, h2⟩ := ih acc (by simpa using hn) (fun x hx => hd x (List.mem_cons_of_mem _ hx))
      refine ⟨r, h1, fun x => ?_⟩
      rw [h2]; grind
    · rw [if_pos ha, if_neg (hd a (by simp) ha)]
      have hn' : a ∉ t.filter (· ≠ 0) ∧ (t.filter (· ≠ 0)).Nodup := by
        simpa [List.filter_cons, ha] using hn
      obtain ⟨r, h1, h2⟩ := ih (a :: acc) hn'.2 (by
        intro x hx hx0
        have hd' := hd x (List.mem_cons_of_mem _ hx) hx0
        have : x ≠ a := by
          intro e; subst e; exact hn'.1 (by simp [hx, hx0])
        simp [this, hd'])
      refine ⟨r, h1, fun x => ?_⟩
      rw [h2]; grind

theorem collectIds_of_some (l : List Nat) : ∀ acc r : List Nat, collectIds acc l = some r →
    (l.filter (· ≠ 0)).Nodup ∧ (∀ x ∈ l, x ≠ 0 → x ∉ acc) := by
  induction l with
  | nil => intro acc r _; simp
  | cons a t ih =>
    intro acc r h
    simp only [collectIds] at h
    by_cases ha : a = 0
    · subst ha
      rw [if_neg (by simp)] at h
      obtain ⟨h1, h2⟩ := ih acc r h
      refine ⟨by simpa using h1, ?_⟩
      intro x hx hx0
      rcases List.mem_cons.1 hx with e | hx
      · exact absurd e hx0
      · exact h2 x hx hx0
    · rw [if_pos ha] at h
      split at h
      · cases h
      · rename_i hna
        obtain ⟨h1, h2⟩ := ih _ r h
        refine ⟨?_, ?_⟩
        · simp only [List.filter_cons, ha, ne_eq, not_false_eq_true, decide_true, if_true,
            List.nodup_cons]
          refine ⟨?_, h1⟩
          intro hm
          have := (List.mem_filter.1 hm)
          exact h2 a this.1 ha (by simp)
        · intro x hx hx0
          rcases List.mem_cons.1 hx with e | hx
          · subst e; exact hna
          · intro hc; exact h2 x hx hx0 (List.mem_cons_of_mem _ hc)

/-- The rules for one location. -/
def LocOk (ms fs : List Nat) (l : Location) : Prop :=
  (l.mappingId ≠ 0 → l.mappingId ∈ ms) ∧ ∀ ln ∈ l.line, ln.functionId ≠ 0 → ln.functionId ∈ fs

theorem checkLocations_eq (ms fs : List Nat) (ls : List Location) : ∀ acc : List Nat,
    (∀ l ∈ ls, LocOk ms fs l) →
    checkLocations ms fs acc ls = collectIds acc (ls.map (·.id)) := by
  induction ls with
  | nil => intro acc _; rfl
  | cons l t ih =>
    intro acc h
    have hl := h l (by simp)
    have ht := fun x hx => h x (List.mem_cons_of_mem _ hx)
    simp only [checkLocations, List.map_cons, collectIds]
    have e1 : ¬ (l.mappingId ≠ 0 ∧ l.mappingId ∉ ms) := fun hc => hc.2 (hl.1 hc.1)
    have e2 : ¬ (l.line.any (fun ln => ln.functionId ≠ 0 ∧ ln.functionId ∉ fs)) = true := by
      intro hc
      obtain ⟨ln, hln, hc⟩ := List.any_eq_true.1 hc
      have hc := of_decide_eq_true hc
      exact hc.2 (hl.2 ln hln hc.1)
    rw [if_neg e1, if_neg e2]
    by_cases hid : l.id = 0
    · rw [if_neg (by simp [hid]), if_neg (by simp [hid]), if_neg (by simp [hid])]
      exact ih acc ht
    · simp only [ne_eq, hid, not_false_eq_true, true_and, if_true]
      by_cases hm : l.id ∈ acc
      · rw [if_pos hm, if_pos hm]
      · rw [if_neg hm, if_neg hm]
        exact ih _ ht

theorem checkLocations_of_some (ms fs : List Nat) (ls : List Location) : ∀ acc r : List Nat,
    checkLocations ms fs acc ls = some r → ∀ l ∈ ls, LocOk ms fs l := by
  induction ls with
  | nil => intro acc r _ l hl; cases hl
  | cons l t ih =>
    intro acc r h x hx
    simp only [checkLocations] at h
    split at h
    · cases h
    · split at h
      · cases h
      · rename_i h2
        split at h
        · cases h
        · rename_i h3
          rcases List.mem_cons.1 hx with e | hx
          · subst e
            constructor
            · intro hne
              exact Classical.byContradiction fun hc => h2 ⟨hne, hc⟩
            · intro ln hln hne
              apply Classical.byContradiction; intro hc
              exact h3 (List.any_eq_true.2 ⟨ln, hln, decide_eq_true ⟨hne, hc⟩⟩)
          · exact ih _ _ h x hx

theorem toInt32_of_fits (x : Int) (h1 : -(2 ^ 31) ≤ x) (h2 : x < 2 ^ 31) : toInt32 x = x := by
  unfold toInt32
  simp only [Int.bmod_def]
  split <;> omega

theorem collectTypes_some (l : List ValueType) : ∀ acc : List Int,
    (∀ t ∈ l, toInt32 t.type = t.type) →
    (l.map (·.type)).Nodup → (∀ t ∈ l, t.type ∉ acc) →
    ∃ r, collectTypes acc l = some r ∧ ∀ x, x ∈ r ↔ x ∈ acc ∨ ∃ t ∈ l, t.type = x := by
  induction l with
  | nil => intro acc _ _ _; exact ⟨acc, rfl, by simp⟩
  | cons a t ih =>
    intro acc hf hn hd
    simp only [collectTypes]
    have ha := hf a (by simp)
    rw [ha, if_neg (hd a (by simp))]
    simp only [List.map_cons, List.nodup_cons] at hn
    obtain ⟨r, h1, h2⟩ := ih (a.type :: acc) (fun x hx => hf x (List.mem_cons_of_mem _ hx)) hn.2 (by
      intro x hx hc
      rcases List.mem_cons.1 hc with e | hc
      · exact hn.1 (e ▸ List.mem_map_of_mem hx)
      · exact hd x (List.mem_cons_of_mem _ hx) hc)
    refine ⟨r, h1, fun x => ?_⟩
    rw [h2]; grind

theorem collectTypes_of_some (l : List ValueType) : ∀ acc r : List Int,
    (∀ t ∈ l, toInt32 t.type = t.type) → collectTypes acc l = some r →
    (l.map (·.type)).Nodup ∧ (∀ t ∈ l, t.type ∉ acc) := by
  induction l with
  | nil => intro acc r _ _; simp
  | cons a t ih =>
    intro acc r hf h
    simp only [collectTypes] at h
    rw [hf a (by simp)] at h
    split at h
    · cases h
    · rename_i hna
      obtain ⟨h1, h2⟩ := ih _ r (fun x hx => hf x (List.mem_cons_of_mem _ hx)) h
      refine ⟨?_, ?_⟩
      · simp only [List.map_cons, List.nodup_cons]
        refine ⟨?_, h1⟩
        intro hm
        obtain ⟨x, hx, e⟩ := List.mem_map.1 hm
        exact h2 x hx (by simp [e])
      · intro x hx
        rcases List.mem_cons.1 hx with e | hx
        · subst e; exact hna
        · intro hc; exact h2 x hx (List.mem_cons_of_mem _ hc)

theorem checkSample_iff (n : Nat) (ids : List Nat) (s : Sample) : checkSample n ids s = true ↔
    s.value.length = n ∧ (∀ id ∈ s.locationId, id ≠ 0 ∧ id ∈ ids) ∧
    (∀ l ∈ s.label, l.str = 0 ∨ l.num = 0) := by
  unfold checkSample
  simp only [Bool.and_eq_true, decide_eq_true_eq, List.all_eq_true, and_assoc]
  refine and_congr Iff.rfl (and_congr ?_ ?_)
  · simp
  · apply forall_congr'; intro l; apply imp_congr Iff.rfl
    by_cases h1 : l.str = 0 <;> by_cases h2 : l.num = 0 <;> simp [h1, h2]

theorem checkValid_iff (p : Profile) (hf : IndicesFit p) : checkValid p = true ↔ Valid p := by
  have hd := toInt32_of_fits p.defaultSampleType hf.1.1 hf.1.2
  have ht : ∀ t ∈ p.sampleType, toInt32 t.type = t.type :=
    fun t h => toInt32_of_fits _ (hf.2 t h).1 (hf.2 t h).2
  constructor
  · intro h
    unfold checkValid at h
    split at h
    · cases h
    rename_i ms hms
    split at h
    · cases h
    rename_i fs hfs
    split at h
    · cases h
    rename_i ls hls
    split at h
    · cases h
    rename_i hne
    simp only [hd] at h
    split at h
    · cases h
    rename_i hdi
    split at h
    · cases h
    rename_i ts hts
    split at h
    · cases h
    rename_i hdt
    have m1 := collectIds_of_some _ _ _ hms
    have f1 := collectIds_of_some _ _ _ hfs
    obtain ⟨ms', em, hmm⟩ := collectIds_some _ _ m1.1 m1.2
    obtain ⟨fs', ef, hff⟩ := collectIds_some _ _ f1.1 f1.2
    rw [hms] at em; rw [hfs] at ef
    simp only [Option.some.injEq] at em ef
    subst em; subst ef
    have l1 := checkLocations_of_some _ _ _ _ _ hls
    rw [checkLocations_eq _ _ _ _ l1] at hls
    have l2 := collectIds_of_some _ _ _ hls
    obtain ⟨ls', el, hll⟩ := collectIds_some _ _ l2.1 l2.2
    rw [hls] at el
    simp only [Option.some.injEq] at el
    subst el
    have t1 := collectTypes_of_some _ _ _ ht hts
    obtain ⟨ts', et, htt⟩ := collectTypes_some _ _ ht t1.1 t1.2
    rw [hts] at et
    simp only [Option.some.injEq] at et
    subst et
    simp only [List.all_eq_true] at h
    have hs := fun s hs => (checkSample_iff _ _ _).1 (h s hs)
    refine ⟨m1.1, f1.1, l2.1, ?_, ?_, ?_, ?_, t1.1, by omega, ?_, fun s h => (hs s h).1,
      fun s h => (hs s h).2.2⟩
    · intro l hl hne
      have := (hmm _).1 ((l1 l hl).1 hne)
      simpa [hne] using this
    · intro l hl ln hln hne
      have := (hff _).1 ((l1 l hl).2 ln hln hne)
      simpa [hne] using this
    · intro s h id hid
      obtain ⟨h0, h1⟩ := (hs s h).2.1 id hid
      have := (hll _).1 h1
      refine ⟨h0, ?_⟩
      simpa [h0] using this
    · intro e; simp [e] at hne
    · have := (htt p.defaultSampleType).1 (Classical.not_not.1 hdt)
      simpa using this
  · intro v
    obtain ⟨ms, em, hmm⟩ := collectIds_some _ [] v.mappingIds (by simp)
    obtain ⟨fs, ef, hff⟩ := collectIds_some _ [] v.functionIds (by simp)
    obtain ⟨ls, el, hll⟩ := collectIds_some _ [] v.locationIds (by simp)
    obtain ⟨ts, et, htt⟩ := collectTypes_some _ [] ht v.typesNodup (by simp)
    have hlo : ∀ l ∈ p.location, LocOk ms fs l := by
      intro l hl
      refine ⟨fun hne => ?_, fun ln hln hne => ?_⟩
      · obtain ⟨m, hm, e⟩ := v.mappingRefs l hl hne
        exact (hmm _).2 (Or.inr ⟨List.mem_map.2 ⟨m, hm, e⟩, hne⟩)
      · obtain ⟨m, hm, e⟩ := v.functionRefs l hl ln hln hne
        exact (hff _).2 (Or.inr ⟨List.mem_map.2 ⟨m, hm, e⟩, hne⟩)
    unfold checkValid
    simp only [em, ef, checkLocations_eq _ _ _ _ hlo, el]
    rw [if_neg (by simpa using v.hasType)]
    rw [hd, if_neg (by have := v.defaultIndex; omega)]
    simp only [et]
    rw [if_neg (by
      intro hc; apply hc
      exact (htt _).2 (Or.inr v.defaultType))]
    rw [List.all_eq_true]
    intro s hs
    refine (checkSample_iff _ _ _).2 ⟨v.values s hs, ?_, v.labels s hs⟩
    intro id hid
    obtain ⟨h0, l, hl, e⟩ := v.locationRefs s hs id hid
    exact ⟨h0, (hll _).2 (Or.inr ⟨List.mem_map.2 ⟨l, hl, e⟩, h0⟩)⟩

end Verif.Builder
