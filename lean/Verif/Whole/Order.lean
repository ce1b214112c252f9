import Verif.Whole.Prep2
import Verif.File.Props4

/-! The order of the records in a file. -/

namespace Verif.Whole
open Verif.Serial (Msg Body)

/-- A list in order of a key is known from its parts with equal keys. -/
theorem order_unique {α : Type} (key : α → Nat) : ∀ {r r' : List α}, r.Pairwise (fun a b => key a ≤ key b) →
    r'.Pairwise (fun a b => key a ≤ key b) → (∀ t, r.filter (fun e => key e = t) = r'.filter (fun e => key e = t)) → r = r' := by
  intro r
  induction r with
  | nil =>
    intro r' _ _ hf
    cases r' with
    | nil => rfl
    | cons a t =>
      have := hf (key a)
      simp at this
  | cons a r ih =>
    intro r' ho ho' hf
    cases r' with
    | nil => have := hf (key a); simp at this
    | cons b r' =>
      rw [List.pairwise_cons] at ho ho'
      have hab : key a = key b := by
        have h1 : b ∈ (a :: r).filter (fun e => decide (key e = key b)) := by
          rw [hf (key b)]; simp
        have h2 : a ∈ (b :: r').filter (fun e => decide (key e = key a)) := by
          rw [← hf (key a)]; simp
        have h1 := (List.mem_filter.1 h1).1
        have h2 := (List.mem_filter.1 h2).1
        have l1 : key a ≤ key b := by
          rcases List.mem_cons.1 h1 with rfl | h1
          · exact Nat.le_refl _
          · exact ho.1 b h1
        have l2 : key b ≤ key a := by
          rcases List.mem_cons.1 h2 with rfl | h2
          · exact Nat.le_refl _
          · exact ho'.1 a h2
        omega
      have hhd := hf (key a)
      rw [List.filter_cons_of_pos (by simp), List.filter_cons_of_pos (by simp [hab])] at hhd
      simp only [List.cons.injEq] at hhd
      obtain ⟨rfl, hhd⟩ := hhd
      rw [ih ho.2 ho'.2 (fun t => ?_)]
      have ht := hf t
      by_cases hat : key a = t
      · rw [List.filter_cons_of_pos (by simpa using hat), List.filter_cons_of_pos (by simpa using hat)] at ht
        simpa using ht
      · rw [List.filter_cons_of_neg (by simpa using hat), List.filter_cons_of_neg (by simpa using hat)] at ht
        exact ht

theorem back_time {l : List Msg} {e : Names.Event} (he : e ∈ views nameView 0 l) {m : Msg} (hm : l[e.rest]? = some m) :
    m.timestamp = e.time := by
  obtain ⟨i, x, -, -, h3, rfl⟩ := views_mem he
  have hr : (nameView i x).rest = i := rfl
  rw [hr] at hm
  rw [Nat.sub_zero, hm] at h3
  cases h3
  rfl

/-- The events in the order of their times; those of the same time keep their order. -/
theorem sort_stable {i : Meta.Info} (ht : ∀ a ∈ i.attrs, a.attr.sampleType.testBit 2 = true) (l : List Msg) :
    (sortEvents i l).Pairwise (fun a b => a.timestamp ≤ b.timestamp) ∧
      ∀ t, (sortEvents i l).filter (fun m => m.timestamp = t) = l.filter (fun m => m.timestamp = t) := by
  obtain ⟨-, -, -, h1, -⟩ := Names.sorted (namesData i l)
  have h1 := h1 (by
    intro t h
    obtain ⟨a, ha, rfl⟩ := List.mem_map.1 h
    exact ht a ha)
  have hmem : ∀ e ∈ (Names.maybeSortByTime (namesData i l)).events, e ∈ views nameView 0 l := fun e he => h1.perm.mem_iff.1 he
  unfold sortEvents
  constructor
  · rw [List.pairwise_filterMap]
    refine h1.order.imp_of_mem ?_
    intro a b ha hb hab m hm m' hm'
    rw [back_time (hmem a ha) hm, back_time (hmem b hb) hm']
    exact hab
  · intro t
    rw [filter_filterMap (q := fun e => decide (e.time = t)) (fun e he m hm => by rw [back_time (hmem e he) hm]), h1.stable]
    have e1 : (namesData i l).events = views nameView 0 l := rfl
    rw [e1, ← filter_filterMap (p := fun m : Msg => decide (m.timestamp = t)) (fun e he m hm => by rw [back_time he hm])]
    have hb := views_back nameView (·.rest) (fun _ m => m) (fun _ _ => rfl) l
    rw [views_map (fun m => m), List.map_id'] at hb
    simp only [Option.map_id'] at hb
    rw [hb]

theorem sort_same {i : Meta.Info} (ht : ∀ a ∈ i.attrs, a.attr.sampleType.testBit 2 = true) {l l' : List Msg}
    (h : ∀ t, l.filter (fun m => m.timestamp = t) = l'.filter (fun m => m.timestamp = t)) : sortEvents i l = sortEvents i l' := by
  obtain ⟨h1, h2⟩ := sort_stable ht l
  obtain ⟨h3, h4⟩ := sort_stable ht l'
  exact order_unique (·.timestamp) h1 h3 (fun t => by rw [h2, h4, h])

/-- The records of mappings. -/
def isMapping (m : Msg) : Bool := decide (m.type = 1) || decide (m.type = 10)

theorem miscOf_views : ∀ (l : List Msg) (n : Nat) (acc : List (Bytes × Nat)),
    Names.miscOf (views nameView n l) acc = Names.miscOf ((l.filter isMapping).map (nameView 0)) acc
  | [], _, _ => rfl
  | m :: l, n, acc => by
    have e : (nameView n m).isMmap = isMapping m := rfl
    simp only [views, Names.miscOf]
    rw [e]
    cases hm : isMapping m with
    | true =>
      rw [List.filter_cons_of_pos hm, List.map_cons, Names.miscOf]
      have e' : (nameView 0 m).isMmap = true := e.trans hm
      rw [e', miscOf_views l (n + 1)]
      rfl
    | false => rw [List.filter_cons_of_neg (by simp [hm]), miscOf_views l (n + 1)]; rfl

theorem build_same {md5 : Bytes → Nat} {ids : List (Bytes × Bytes)} {i : Meta.Info} {l l' : List Msg}
    (h : ids = [] ∨ l.filter isMapping = l'.filter isMapping) : withBuildIds md5 ids i l = withBuildIds md5 ids i l' := by
  have e : (Names.injectBuildIDs md5 ids (namesData i l)).1.buildIds = (Names.injectBuildIDs md5 ids (namesData i l')).1.buildIds ∧
      (Names.injectBuildIDs md5 ids (namesData i l)).1.mask = (Names.injectBuildIDs md5 ids (namesData i l')).1.mask := by
    have em : ids = [] ∨ Names.miscOf (namesData i l).events [] = Names.miscOf (namesData i l').events [] := by
      rcases h with h | h
      · exact .inl h
      · right
        show Names.miscOf (views nameView 0 l) [] = Names.miscOf (views nameView 0 l') []
        rw [miscOf_views, miscOf_views, h]
    unfold Names.injectBuildIDs
    have eb : (namesData i l).buildIds = (namesData i l').buildIds := rfl
    have ek : (namesData i l).mask = (namesData i l').mask := rfl
    simp only [eb, ek]
    generalize Names.updateEntries ids (namesData i l').buildIds = u
    obtain ⟨old, upd, ok⟩ := u
    cases ok with
    | false => exact ⟨rfl, rfl⟩
    | true =>
      rcases em with rfl | em
      · exact ⟨rfl, rfl⟩
      · simp only [em]; exact ⟨rfl, rfl⟩
  unfold withBuildIds Names.alternateNames
  simp only [e.1, e.2]

theorem attrs_kept (md5 : Bytes → Nat) (ids : List (Bytes × Bytes)) (i : Meta.Info) (l : List Msg) : (withBuildIds md5 ids i l).attrs = i.attrs := rfl

/-- The conversion of events of the same recording in two orders. -/
theorem convert_same {M : Machine} {ids : List (Bytes × Bytes)} {labels options : Nat} {threadTypes : List (Nat × Bytes)} {i : Meta.Info}
    (ht : ∀ a ∈ i.attrs, a.attr.sampleType.testBit 2 = true) {l l' : List Msg}
    (h : ∀ t, l.filter (fun m => m.timestamp = t) = l'.filter (fun m => m.timestamp = t))
    (hi : ids = [] ∨ l.filter isMapping = l'.filter isMapping) :
    convertRead M ids labels options threadTypes i l = convertRead M ids labels options threadTypes i l' := by
  unfold convertRead
  simp only [parseEvents_eq, if_true]
  rw [build_same (l := l) (l' := l') hi, sort_same (i := withBuildIds M.env.md5 ids i l') ht h]

/-! ## Build IDs of mappings -/

theorem mappedIds_filter (md5 : Serial.Bytes → Nat) : ∀ (l : List Msg) (named : List Serial.Bytes),
    (∀ m ∈ l, ∀ b, m.body = .mmap b → isMapping m = true) → File.mappedIds md5 named l = File.mappedIds md5 named (l.filter isMapping)
  | [], _, _ => rfl
  | m :: l, named, h => by
    have ih := fun n => mappedIds_filter md5 l n (fun x hx => h x (List.mem_cons_of_mem _ hx))
    cases hm : isMapping m with
    | true =>
      rw [List.filter_cons_of_pos hm]
      simp only [File.mappedIds]
      split
      · split
        · exact ih _
        · rw [ih]
      · exact ih _
    | false =>
      rw [List.filter_cons_of_neg (by simp [hm])]
      have : File.mappedId md5 m = none := by
        unfold File.mappedId
        split
        · rename_i p hp
          rw [h m List.mem_cons_self p hp] at hm
          cases hm
        · rfl
      simp only [File.mappedIds, this]
      exact ih _

theorem mappedIds_none (md5 : Serial.Bytes → Nat) : ∀ (l : List Msg) (named : List Serial.Bytes),
    (∀ m ∈ l, ∀ b, m.body = .mmap b → b.buildId = none) → File.mappedIds md5 named l = []
  | [], _, _ => rfl
  | m :: l, named, h => by
    have : File.mappedId md5 m = none := by
      unfold File.mappedId
      split
      · rename_i p hp
        rw [h m List.mem_cons_self p hp]
      · rfl
    simp only [File.mappedIds, this]
    exact mappedIds_none md5 l named (fun x hx => h x (List.mem_cons_of_mem _ hx))

theorem mapping_type {env : Serial.Env} {x : File.Recording} (h : File.Complete env x) :
    ∀ m ∈ x.messages, ∀ b, m.body = .mmap b → isMapping m = true := by
  intro m hm b hb
  obtain ⟨e, he, rfl⟩ := List.mem_map.1 hm
  have hk := (h.events e he).message.body
  have e1 : (File.bare e.2) = e.2 := by unfold File.bare; rw [hb]
  rw [e1, hb] at hk
  unfold isMapping
  rcases hk.2.2.2.2.2.2 with h | h
  · rw [show e.2.type = 1 from h.1]; rfl
  · rw [show e.2.type = 10 from h.1]; rfl

end Verif.Whole
