import Verif.Whole.Origin
import Verif.Parser.Keep
import Verif.Names.Props
import Verif.Base.Lists

/-! What sorting, the treatment of mappings and the parser leave of the events. -/

namespace Verif.Whole
open Verif.Serial (Msg Body)

/-! ## Views -/

theorem views_append_get {α β : Type} (f : Nat → Msg → α) (g : α → Nat) (k : α → Msg → β) (hg : ∀ i m, g (f i m) = i) (post pre : List Msg) :
    (views f pre.length post).filterMap (fun e => ((pre ++ post)[g e]?).map (k e)) =
      views (fun i m => k (f i m) m) pre.length post := by
  induction post generalizing pre with
  | nil => rfl
  | cons m l ih =>
    have h1 : (pre ++ m :: l)[g (f pre.length m)]? = some m := by rw [hg]; simp
    have h2 := ih (pre ++ [m])
    rw [List.length_append, List.length_singleton, List.append_assoc, List.singleton_append] at h2
    simp only [views]
    rw [List.filterMap_cons, h1]
    simp only [Option.map_some]
    rw [h2]

theorem views_back {α β : Type} (f : Nat → Msg → α) (g : α → Nat) (k : α → Msg → β) (hg : ∀ i m, g (f i m) = i) (l : List Msg) :
    (views f 0 l).filterMap (fun e => (l[g e]?).map (k e)) = views (fun i m => k (f i m) m) 0 l :=
  views_append_get f g k hg l []

theorem views_map {β : Type} (f : Msg → β) : ∀ (n : Nat) (l : List Msg), views (fun _ m => f m) n l = l.map f
  | _, [] => rfl
  | n, m :: l => by rw [views, views_map f (n + 1) l, List.map_cons]

theorem views_mem {α : Type} {f : Nat → Msg → α} : ∀ {n : Nat} {l : List Msg} {e : α}, e ∈ views f n l →
    ∃ i m, m ∈ l ∧ n ≤ i ∧ l[i - n]? = some m ∧ e = f i m
  | n, m :: l, e, h => by
    rcases List.mem_cons.1 h with rfl | h
    · exact ⟨n, m, List.mem_cons_self, Nat.le_refl _, by simp, rfl⟩
    · obtain ⟨i, x, h1, h2, h3, h4⟩ := views_mem h
      refine ⟨i, x, List.mem_cons_of_mem _ h1, by omega, ?_, h4⟩
      rw [show i - n = i - (n + 1) + 1 by omega, List.getElem?_cons_succ]
      exact h3

/-! ## Sorting -/

theorem sort_perm (i : Meta.Info) (l : List Msg) : (sortEvents i l).Perm l := by
  have hb := views_back nameView (·.rest) (fun _ m => m) (fun _ _ => rfl) l
  rw [views_map (fun m => m), List.map_id'] at hb
  simp only [Option.map_id'] at hb
  unfold sortEvents
  obtain ⟨-, -, -, h1, h2⟩ := Names.sorted (namesData i l)
  by_cases h : ∃ t ∈ (namesData i l).sampleTypes, t.testBit 2 = false
  · rw [h2 h]
    exact .of_eq hb
  · have h1 := h1 (fun t ht => by
      cases hb : t.testBit 2 with
      | true => rfl
      | false => exact absurd ⟨t, ht, hb⟩ h)
    have := h1.perm.filterMap (fun e => l[e.rest]?)
    exact this.trans (.of_eq hb)

/-! ## Huge pages -/

/-- A mapping in the range of its types. -/
def MapOk (m : HugePages.MMap) : Prop :=
  m.pid.getD 0 < 2 ^ 32 ∧ m.start < 2 ^ 64 ∧ m.len < 2 ^ 64 ∧ m.pgoff < 2 ^ 64 ∧
    ∀ x, m.buildId = some x → ∃ d, x = Util.rawDataToHexString d

/-- What stays of an event: everything but some members of a mapping. -/
def Stays (e e' : HugePages.Ev) : Prop :=
  e'.other = e.other ∧ (e.mmap = none → e' = e) ∧ (e.mmap ≠ none → e'.mmap ≠ none)

/-- The mapping of an event is in range. -/
def EvFine (e : HugePages.Ev) : Prop := ∀ m, e.mmap = some m → MapOk m

theorem Stays.refl (e : HugePages.Ev) : Stays e e := ⟨rfl, fun _ => rfl, fun h => h⟩

theorem Stays.trans {a b c : HugePages.Ev} (h : Stays a b) (h' : Stays b c) : Stays a c := by
  refine ⟨h'.1.trans h.1, fun hn => ?_, fun hn => h'.2.2 (h.2.2 hn)⟩
  have hb := h.2.1 hn
  rw [h'.2.1 (by rw [hb]; exact hn), hb]

theorem all₂_refl {α : Type} {R : α → α → Prop} (hr : ∀ a, R a a) : ∀ l, All₂ R l l
  | [] => .nil
  | a :: l => .cons (hr a) (all₂_refl hr l)

theorem all₂_trans {α β γ : Type} {R : α → β → Prop} {S : β → γ → Prop} {T : α → γ → Prop} (ht : ∀ a b c, R a b → S b c → T a c) :
    ∀ {l : List α} {m : List β} {n : List γ}, All₂ R l m → All₂ S m n → All₂ T l n := by
  intro l m n h
  induction h generalizing n with
  | nil => intro h'; cases h'; exact .nil
  | cons hr _ ih => intro h'; cases h' with | cons hs ht' => exact .cons (ht _ _ _ hr hs) (ih ht')

theorem scatter_stays : ∀ (bs : List Bool) (es : List HugePages.Ev) (items : List HugePages.Item),
    All₂ Stays es (HugePages.scatter bs es items)
  | [], es, items => by
    have : HugePages.scatter [] es items = es := rfl
    rw [this]
    exact all₂_refl Stays.refl es
  | _ :: _, [], items => .nil
  | b :: bs, e :: es, items => by
    unfold HugePages.scatter
    split
    · rename_i hm
      refine .cons ⟨rfl, fun h => ?_, fun _ => by simp⟩ (scatter_stays bs es _)
      rw [hm] at h; cases h
    · exact .cons (Stays.refl e) (scatter_stays bs es _)

theorem scatter_fine : ∀ (bs : List Bool) (es : List HugePages.Ev) (items : List HugePages.Item),
    (∀ e ∈ es, EvFine e) → (∀ it ∈ items, MapOk it.1) → ∀ e ∈ HugePages.scatter bs es items, EvFine e
  | [], es, items, h, _ => h
  | _ :: _, [], items, _, _ => fun _ h => by cases h
  | b :: bs, e :: es, items, h, hi => by
    unfold HugePages.scatter
    have h' : ∀ e ∈ es, EvFine e := fun x hx => h x (List.mem_cons_of_mem _ hx)
    split
    · intro x hx
      rcases List.mem_cons.1 hx with rfl | hx
      · intro m hm
        cases hm
        exact hi _ List.mem_cons_self
      · exact scatter_fine bs es _ h' (fun it hit => hi it (List.mem_cons_of_mem _ hit)) x hx
    · intro x hx
      rcases List.mem_cons.1 hx with rfl | hx
      · exact h _ List.mem_cons_self
      · exact scatter_fine bs es _ h' hi x hx

theorem gather_fine : ∀ (bs : List Bool) (es : List HugePages.Ev), (∀ e ∈ es, EvFine e) → ∀ it ∈ HugePages.gather bs es, MapOk it.1
  | [], _, _ => fun _ h => by cases h
  | _ :: _, [], _ => fun _ h => by cases h
  | b :: bs, e :: es, h => by
    have h' : ∀ e ∈ es, EvFine e := fun x hx => h x (List.mem_cons_of_mem _ hx)
    unfold HugePages.gather
    split
    · rename_i hm
      intro it hit
      rcases List.mem_cons.1 hit with rfl | hit
      · exact h _ List.mem_cons_self _ hm
      · exact gather_fine bs es h' it hit
    · exact gather_fine bs es h'

theorem add64_lt (a b : Nat) : HugePages.add64 a b < 2 ^ 64 := Nat.mod_lt _ (by decide)
theorem sub64_lt (a b : Nat) : HugePages.sub64 a b < 2 ^ 64 := Nat.mod_lt _ (by decide)

theorem updateItem_ok {next : HugePages.MMap} {pgoff : Nat} {it : HugePages.Item} (hn : MapOk next) (hp : pgoff < 2 ^ 64) (h : MapOk it.1) :
    MapOk (HugePages.updateItem next pgoff it).1 := by
  unfold HugePages.updateItem
  simp only
  split
  · refine ⟨h.1, h.2.1, h.2.2.1, ?_, fun x hx => ?_⟩
    · simp only
      split
      · exact hp
      · exact h.2.2.2.1
    · simp only at hx
      cases hb : next.buildId with
      | some y => rw [hb] at hx; exact hn.2.2.2.2 x (by rw [hb]; exact hx)
      | none => rw [hb] at hx; exact h.2.2.2.2 x hx
  · exact h

theorem updateLoop_ok {next : HugePages.MMap} (hn : MapOk next) : ∀ (l : List HugePages.Item) (pgoff : Nat), pgoff < 2 ^ 64 →
    (∀ it ∈ l, MapOk it.1) → ∀ it ∈ (HugePages.updateLoop next pgoff l).1, MapOk it.1
  | [], _, _, _ => fun _ h => by cases h
  | a :: l, pgoff, hp, h => by
    intro it hit
    simp only [HugePages.updateLoop] at hit
    rcases List.mem_cons.1 hit with rfl | hit
    · exact updateItem_ok hn hp (h _ List.mem_cons_self)
    · exact updateLoop_ok hn l _ (add64_lt _ _) (fun x hx => h x (List.mem_cons_of_mem _ hx)) it hit

theorem updateRange_ok {first last next : HugePages.MMap} {l l' : List HugePages.Item} (hn : MapOk next) (h : ∀ it ∈ l, MapOk it.1)
    (hr : HugePages.updateRange first last next l = some l') : ∀ it ∈ l', MapOk it.1 := by
  unfold HugePages.updateRange at hr
  simp only at hr
  split at hr
  · cases hr
    exact updateLoop_ok hn l _ (sub64_lt _ _) h
  · cases hr

theorem go_ok : ∀ (l : List HugePages.Item) (pre : Option HugePages.MMap) (pend l' : List HugePages.Item), (∀ it ∈ l, MapOk it.1) →
    (∀ it ∈ pend, MapOk it.1) → HugePages.go pre pend l = some l' → ∀ it ∈ l', MapOk it.1
  | [], _, pend, l', _, hp, h => by cases h; exact hp
  | a :: l, pre, pend, l', hl, hp, h => by
    have ha : MapOk a.1 := hl a List.mem_cons_self
    have hl' : ∀ it ∈ l, MapOk it.1 := fun x hx => hl x (List.mem_cons_of_mem _ hx)
    have one : ∀ it ∈ [a], MapOk it.1 := fun it hit => by rw [List.mem_singleton.1 hit]; exact ha
    have app : ∀ {x y : List HugePages.Item}, (∀ it ∈ x, MapOk it.1) → (∀ it ∈ y, MapOk it.1) → ∀ it ∈ x ++ y, MapOk it.1 :=
      fun hx hy it hit => (List.mem_append.1 hit).elim (hx it) (hy it)
    unfold HugePages.go at h
    split at h
    · split at h
      · exact go_ok l _ _ _ hl' one h
      · split at h
        · exact go_ok l _ _ _ hl' (app hp one) h
        · obtain ⟨r, h1, h2⟩ := Option.map_eq_some_iff.1 h
          rw [← h2]
          exact app hp (go_ok l _ _ _ hl' one h1)
    · split at h
      · split at h
        · split at h
          · cases h
          · rename_i hu
            obtain ⟨r, h1, h2⟩ := Option.map_eq_some_iff.1 h
            rw [← h2]
            exact app (updateRange_ok ha hp hu) (app one (go_ok l _ [] _ hl' (fun _ h => by cases h) h1))
        · obtain ⟨r, h1, h2⟩ := Option.map_eq_some_iff.1 h
          rw [← h2]
          exact app hp (app one (go_ok l _ [] _ hl' (fun _ h => by cases h) h1))
      · obtain ⟨r, h1, h2⟩ := Option.map_eq_some_iff.1 h
        rw [← h2]
        exact app one (go_ok l _ [] _ hl' (fun _ h => by cases h) h1)

theorem deduce_stays : ∀ (order : List Nat) (es es' : List HugePages.Ev), HugePages.deduceHugePages order es = some es' →
    All₂ Stays es es' ∧ ((∀ e ∈ es, EvFine e) → ∀ e ∈ es', EvFine e)
  | [], es, es', h => by cases h; exact ⟨all₂_refl Stays.refl es, fun h => h⟩
  | k :: order, es, es', h => by
    unfold HugePages.deduceHugePages at h
    obtain ⟨mid, h1, h2⟩ := Option.bind_eq_some_iff.1 h
    unfold HugePages.deducePid at h1
    obtain ⟨items, h3, h4⟩ := Option.map_eq_some_iff.1 h1
    obtain ⟨k1, k2⟩ := deduce_stays order mid es' h2
    rw [← h4] at k1 k2
    refine ⟨all₂_trans (R := Stays) (S := Stays) (T := Stays) (fun _ _ _ h h' => h.trans h') (scatter_stays _ es items) k1, fun hf => k2 ?_⟩
    exact scatter_fine _ es items hf (go_ok _ _ [] _ (gather_fine _ es hf) (fun _ h => by cases h) h3)

/-! ## Combining -/

/-- The events that are not mappings. -/
def others (es : List HugePages.Ev) : List HugePages.Ev := es.filter (fun e => e.mmap.isNone)

theorem others_set {l : List HugePages.Ev} {i : Nat} {a b : HugePages.Ev} (h : l[i]? = some a) (ha : a.mmap.isNone = false)
    (hb : b.mmap.isNone = false) : others (l.set i b) = others l := by
  induction l generalizing i with
  | nil => cases h
  | cons x l ih =>
    cases i with
    | zero =>
      simp only [List.getElem?_cons_zero, Option.some.injEq] at h
      subst h
      unfold others
      rw [List.set_cons_zero, List.filter_cons_of_neg (by simp [hb]), List.filter_cons_of_neg (by simp [ha])]
    | succ i =>
      rw [List.getElem?_cons_succ] at h
      have := ih h
      unfold others at this ⊢
      rw [List.set_cons_succ, List.filter_cons, List.filter_cons, this]

theorem mem_set {α : Type} {l : List α} {i : Nat} {x a : α} (h : x ∈ l.set i a) : x = a ∨ x ∈ l := by
  induction l generalizing i with
  | nil => simp at h
  | cons y l ih =>
    cases i with
    | zero =>
      rw [List.set_cons_zero] at h
      rcases List.mem_cons.1 h with h | h
      · exact .inl h
      · exact .inr (List.mem_cons_of_mem _ h)
    | succ i =>
      rw [List.set_cons_succ] at h
      rcases List.mem_cons.1 h with h | h
      · exact .inr (by rw [h]; exact List.mem_cons_self)
      · rcases ih h with h | h
        · exact .inl h
        · exact .inr (List.mem_cons_of_mem _ h)

/-- What holds of the events put together so far. -/
structure Combined (es out : List HugePages.Ev) : Prop where
  others : others out = others es
  from_ : ∀ e ∈ out, ∃ e0 ∈ es, Stays e0 e

theorem combine_all (Q : HugePages.Ev → Prop) (hQ : ∀ prev p m, prev.mmap = some p → Q prev → (∀ e : HugePages.Ev, e.mmap = some m → Q e →
    Q (HugePages.merge prev p m))) : ∀ (l es out : List HugePages.Ev) (f : Nat → Option Nat), Combined es out → (∀ e ∈ out, Q e) →
    (∀ e ∈ l, Q e) → Combined (es ++ l) (l.foldl HugePages.combineStep (out, f)).1 ∧
      ∀ e ∈ (l.foldl HugePages.combineStep (out, f)).1, Q e
  | [], es, out, f, hc, ho, _ => by rw [List.append_nil]; exact ⟨hc, ho⟩
  | e :: l, es, out, f, hc, ho, hl => by
    have step : ∃ out' f', HugePages.combineStep (out, f) e = (out', f') ∧ Combined (es ++ [e]) out' ∧ ∀ e ∈ out', Q e := by
      have he := hl e List.mem_cons_self
      have hadd : Combined (es ++ [e]) (out ++ [e]) ∧ ∀ x ∈ out ++ [e], Q x := by
        refine ⟨⟨?_, fun x hx => ?_⟩, fun x hx => ?_⟩
        · have := hc.others
          unfold others at this ⊢
          rw [List.filter_append, List.filter_append, this]
        · rcases List.mem_append.1 hx with hx | hx
          · obtain ⟨a, h1, h2⟩ := hc.from_ x hx
            exact ⟨a, List.mem_append.2 (.inl h1), h2⟩
          · exact ⟨x, List.mem_append.2 (.inr hx), Stays.refl x⟩
        · rcases List.mem_append.1 hx with hx | hx
          · exact ho x hx
          · rw [List.mem_singleton.1 hx]; exact he
      unfold HugePages.combineStep
      split
      · exact ⟨_, _, rfl, hadd⟩
      · rename_i m hm
        simp only
        split
        · exact ⟨_, _, rfl, hadd⟩
        · rename_i i hi
          split
          · exact ⟨_, _, rfl, hadd⟩
          · rename_i prev hprev
            split
            · exact ⟨_, _, rfl, hadd⟩
            · rename_i p hp
              split
              · have hmm : (HugePages.merge prev p m).mmap.isNone = false := by unfold HugePages.merge; split <;> rfl
                have hmo : (HugePages.merge prev p m).other = prev.other := by unfold HugePages.merge; split <;> rfl
                have hpm : prev ∈ out := List.mem_of_getElem? hprev
                refine ⟨_, _, rfl, ⟨?_, fun x hx => ?_⟩, fun x hx => ?_⟩
                · rw [others_set hprev (by rw [hp]; rfl) hmm, hc.others]
                  unfold others
                  rw [List.filter_append, List.filter_cons_of_neg (by rw [hm]; simp), List.filter_nil, List.append_nil]
                · rcases mem_set hx with rfl | hx
                  · obtain ⟨a, h1, h2⟩ := hc.from_ prev hpm
                    refine ⟨a, List.mem_append.2 (.inl h1), ⟨hmo.trans h2.1, fun hn => ?_, fun _ h => ?_⟩⟩
                    · have := h2.2.1 hn
                      rw [this] at hp
                      rw [hn] at hp
                      cases hp
                    · rw [h] at hmm; cases hmm
                  · obtain ⟨a, h1, h2⟩ := hc.from_ x hx
                    exact ⟨a, List.mem_append.2 (.inl h1), h2⟩
                · rcases mem_set hx with rfl | hx
                  · exact hQ prev p m hp (ho prev hpm) e hm he
                  · exact ho x hx
              · exact ⟨_, _, rfl, hadd⟩
    obtain ⟨out', f', h1, h2, h3⟩ := step
    rw [List.foldl_cons, h1]
    have := combine_all Q hQ l (es ++ [e]) out' f' h2 h3 (fun x hx => hl x (List.mem_cons_of_mem _ hx))
    rw [List.append_assoc] at this
    exact this

theorem combine_stays (es : List HugePages.Ev) : Combined es (HugePages.combineMappings es) := by
  have := (combine_all (fun _ => True) (fun _ _ _ _ _ _ _ _ => trivial) es [] [] (fun _ => none) ⟨rfl, fun _ h => by cases h⟩
    (fun _ _ => trivial) (fun _ _ => trivial)).1
  exact this

theorem combine_fine {es : List HugePages.Ev} (h : ∀ e ∈ es, EvFine e) : ∀ e ∈ HugePages.combineMappings es, EvFine e := by
  refine (combine_all EvFine ?_ es [] [] (fun _ => none) ⟨rfl, fun _ h => by cases h⟩ (fun _ h => by cases h) h).2
  intro prev p m hp hprev e hm he m' hm'
  have hp := hprev p hp
  have he := he m hm
  unfold HugePages.merge at hm'
  split at hm'
  · cases hm'
    refine ⟨hp.1, hp.2.1, add64_lt _ _, sub64_lt _ _, fun x hx => ?_⟩
    simp only at hx
    cases hb : m.buildId with
    | some y => rw [hb] at hx; exact he.2.2.2.2 x (by rw [hb]; exact hx)
    | none => rw [hb] at hx; exact hp.2.2.2.2 x hx
  · cases hm'
    exact ⟨hp.1, hp.2.1, add64_lt _ _, hp.2.2.2.1, hp.2.2.2.2⟩

end Verif.Whole
