import Verif.Whole.Prep

/-! What the steps before the converter leave of the events of a recording. -/

namespace Verif.Whole
open Verif.Serial (Msg Body)

/-- Is the event not a mapping? -/
def notMap (m : Msg) : Bool :=
  match m.body with
  | .mmap _ => false
  | _ => true

theorem notMap_false {m : Msg} (h : notMap m = false) : ∃ b, m.body = .mmap b := by
  unfold notMap at h
  split at h
  · exact ⟨_, by assumption⟩
  · cases h

theorem filter_filterMap {α β : Type} {g : α → Option β} {p : β → Bool} {q : α → Bool} : ∀ {l : List α},
    (∀ a ∈ l, ∀ b, g a = some b → p b = q a) → (l.filterMap g).filter p = (l.filter q).filterMap g
  | [], _ => rfl
  | a :: l, h => by
    have ih := filter_filterMap (l := l) (fun x hx => h x (List.mem_cons_of_mem _ hx))
    have ha := h a List.mem_cons_self
    cases hg : g a with
    | none =>
      rw [List.filterMap_cons_none hg, ih]
      cases hq : q a with
      | true => rw [List.filter_cons_of_pos hq, List.filterMap_cons_none hg]
      | false => rw [List.filter_cons_of_neg (by simp [hq])]
    | some b =>
      have hp := ha b hg
      rw [List.filterMap_cons_some hg]
      cases hq : q a with
      | true => rw [List.filter_cons_of_pos (hp.trans hq), List.filter_cons_of_pos hq, List.filterMap_cons_some hg, ih]
      | false => rw [List.filter_cons_of_neg (by simp [hp, hq]), List.filter_cons_of_neg (by simp [hq]), ih]

/-- The view of the events that the functions for huge pages get. -/
structure IsView (f : Nat → Msg → HugePages.Ev) : Prop where
  place : ∀ i m, (f i m).other = i
  isMap : ∀ i m, (f i m).mmap.isNone = notMap m
  fine : ∀ i m, Shaped m → EvFine (f i m)

theorem putHuge_not {e : HugePages.Ev} {m : Msg} : notMap (putHuge e m) = notMap m := by
  unfold putHuge
  split
  · rename_i h1 h2; simp only [notMap, h2]
  · rfl

theorem putHuge_same {e : HugePages.Ev} {m : Msg} (h : notMap m = true) : putHuge e m = m := by
  unfold putHuge
  unfold notMap at h
  split
  · rename_i h1 h2; rw [h2] at h; cases h
  · rfl

theorem putHuge_shaped {e : HugePages.Ev} {m : Msg} (he : EvFine e) (h : Shaped m) : Shaped (putHuge e m) := by
  unfold putHuge
  split
  · rename_i hm b h1 h2
    obtain ⟨-, h3, h4, h5, h6⟩ := he hm h1
    refine ⟨fun _ => ⟨_, rfl⟩, fun b' hb => ?_, fun k hk => ?_, fun b' hb x hx => ?_⟩
    · cases hb
      exact ⟨(h.range b h2).1, h3, h4, h5⟩
    · cases hk
    · cases hb
      exact h6 x hx
  · exact h

theorem fromHuge_spec {f : Nat → Msg → HugePages.Ev} (hf : IsView f) {l : List Msg} {es' : List HugePages.Ev}
    (hc : Combined (views f 0 l) es') : (fromHuge l es').filter notMap = l.filter notMap := by
  have key : ∀ e, (∃ e0 ∈ views f 0 l, Stays e0 e) → ∀ b, (l[e.other]?).map (putHuge e) = some b → notMap b = e.mmap.isNone := by
    rintro e ⟨e0, h0, hs⟩ b hb
    obtain ⟨m, h1, rfl⟩ := Option.map_eq_some_iff.1 hb
    obtain ⟨i, x, -, -, h3, rfl⟩ := views_mem h0
    rw [hs.1, hf.place] at h1
    rw [Nat.sub_zero, h1] at h3
    cases h3
    rw [putHuge_not, ← hf.isMap i m]
    cases hm : (f i m).mmap with
    | none => rw [hs.2.1 hm, hm]
    | some x =>
      have := hs.2.2 (by rw [hm]; simp)
      cases he : e.mmap with
      | none => exact absurd he this
      | some y => rfl
  unfold fromHuge
  rw [filter_filterMap (q := fun e => e.mmap.isNone) (fun e he b hb => key e (hc.from_ e he) b hb)]
  have ho := hc.others
  unfold others at ho
  rw [ho, ← filter_filterMap (p := notMap) (fun e he b hb => key e ⟨e, he, Stays.refl e⟩ b hb),
    views_back f (·.other) putHuge hf.place l]
  generalize 0 = n
  clear key ho hc
  induction l generalizing n with
  | nil => rfl
  | cons m l ih =>
    simp only [views]
    cases hm : notMap m with
    | true => rw [List.filter_cons_of_pos (putHuge_not.trans hm), List.filter_cons_of_pos hm, ih, putHuge_same hm]
    | false =>
      rw [List.filter_cons_of_neg (by rw [putHuge_not, hm]; simp), List.filter_cons_of_neg (by simp [hm]), ih]

theorem fromHuge_shaped {l : List Msg} {es' : List HugePages.Ev} (hl : ∀ m ∈ l, Shaped m) (he : ∀ e ∈ es', EvFine e) :
    ∀ m ∈ fromHuge l es', Shaped m := by
  intro m hm
  unfold fromHuge at hm
  obtain ⟨e, h1, h2⟩ := List.mem_filterMap.1 hm
  obtain ⟨x, h3, rfl⟩ := Option.map_eq_some_iff.1 h2
  exact putHuge_shaped (he e h1) (hl x (List.mem_of_getElem? h3))

theorem view_fine {f : Nat → Msg → HugePages.Ev} (hf : IsView f) {l : List Msg} (hl : ∀ m ∈ l, Shaped m) : ∀ e ∈ views f 0 l, EvFine e := by
  intro e he
  obtain ⟨i, m, h1, -, -, rfl⟩ := views_mem he
  exact hf.fine i m (hl m h1)

theorem combined_of {es es' : List HugePages.Ev} (h : All₂ Stays es es') : Combined es es' := by
  induction h with
  | nil => exact ⟨rfl, fun _ h => by cases h⟩
  | @cons a b _ _ hr _ ih =>
    refine ⟨?_, fun e he => ?_⟩
    · have := ih.others
      unfold others at this ⊢
      cases hm : a.mmap with
      | none =>
        have := hr.2.1 hm
        subst this
        rw [List.filter_cons_of_pos (by rw [hm]; rfl), List.filter_cons_of_pos (by rw [hm]; rfl)]
        congr 1
      | some x =>
        have hb := hr.2.2 (by rw [hm]; simp)
        rw [List.filter_cons_of_neg (by simpa using hb), List.filter_cons_of_neg (by simp [hm])]
        exact this
    · rcases List.mem_cons.1 he with rfl | he
      · exact ⟨a, List.mem_cons_self, hr⟩
      · obtain ⟨x, h1, h2⟩ := ih.from_ e he
        exact ⟨x, List.mem_cons_of_mem _ h1, h2⟩

theorem hugeMap_ok {m : Msg} (h : Shaped m) {b : Serial.MMap} (hb : m.body = .mmap b) (inode : Bool) : MapOk (hugeMap inode b) := by
  obtain ⟨h1, h2, h3, h4⟩ := h.range b hb
  exact ⟨h1, h2, h3, h4, fun x hx => h.buildId b hb x hx⟩

theorem hugeView_view : IsView hugeView := by
  refine ⟨fun _ _ => rfl, fun i m => ?_, fun i m hm x hx => ?_⟩
  · obtain ⟨type, misc, size, body, time⟩ := m
    cases body <;> rfl
  · unfold hugeView at hx
    simp only at hx
    split at hx
    · rename_i b hb
      cases hx
      exact hugeMap_ok hm hb _
    · cases hx

/-- The view that `combine` uses. -/
def combView (i : Nat) (m : Msg) : HugePages.Ev :=
  match m.body with
  | .mmap _ => { hugeView i m with mmap := some (hugeMap true m.body.getMmap) }
  | _ => hugeView i m

theorem combView_view : IsView combView := by
  refine ⟨fun i m => ?_, fun i m => ?_, fun i m hm x hx => ?_⟩
  · unfold combView
    split <;> rfl
  · unfold combView
    split
    · rename_i b hb
      simp only [notMap, hb]
      rfl
    · exact hugeView_view.isMap i m
  · unfold combView at hx
    split at hx
    · rename_i b hb
      cases hx
      rw [hb]
      exact hugeMap_ok hm hb true
    · exact hugeView_view.fine i m hm x hx

theorem deduce_spec {M : Machine} {l l' : List Msg} (h : deduce M l = some l') :
    l'.filter notMap = l.filter notMap ∧ ((∀ m ∈ l, Shaped m) → ∀ m ∈ l', Shaped m) := by
  unfold deduce at h
  obtain ⟨es', h1, rfl⟩ := Option.map_eq_some_iff.1 h
  obtain ⟨h2, h3⟩ := deduce_stays _ _ _ h1
  exact ⟨fromHuge_spec hugeView_view (combined_of h2), fun hl => fromHuge_shaped hl (h3 (view_fine hugeView_view hl))⟩

theorem combine_spec (l : List Msg) : (combine l).filter notMap = l.filter notMap ∧ ((∀ m ∈ l, Shaped m) → ∀ m ∈ combine l, Shaped m) := by
  have e : combine l = fromHuge l (HugePages.combineMappings (views combView 0 l)) := rfl
  rw [e]
  exact ⟨fromHuge_spec combView_view (combine_stays _), fun hl => fromHuge_shaped hl (combine_fine (view_fine combView_view hl))⟩

/-! ## The parser -/

theorem putBranches_same : ∀ (l : List Serial.Branch), putBranches (l.map parserBranch) l = l
  | [] => rfl
  | b :: l => by simp only [List.map_cons, putBranches, putBranches_same l]; rfl

/-- What the parser does to an event if it does not remap: a sample without an address gets the address zero. -/
def touch (m : Msg) : Msg :=
  match m.body with
  | .sample s => { m with body := .sample { s with ip := some (s.ip.getD 0) } }
  | _ => m

theorem putParsed_view (i : Nat) (m : Msg) : putParsed (parserView i m) m = touch m := by
  obtain ⟨type, misc, size, body, time⟩ := m
  cases body <;> try rfl
  simp only [putParsed, parserView, touch, putBranches_same]

theorem touch_norm (m : Msg) : normView (touch m) = normView m := by
  obtain ⟨type, misc, size, body, time⟩ := m
  cases body <;> rfl

theorem touch_not (m : Msg) : notMap (touch m) = notMap m := by
  obtain ⟨type, misc, size, body, time⟩ := m
  cases body <;> rfl

theorem touch_shaped {m : Msg} (h : Shaped m) : Shaped (touch m) := by
  obtain ⟨type, misc, size, body, time⟩ := m
  cases body <;> try exact h
  refine ⟨fun ht => ?_, fun b hb => (by cases hb), fun k hk => (by cases hk), fun b hb => (by cases hb)⟩
  obtain ⟨b, hb⟩ := h.mmap ht
  cases hb

/-- The result of the parser. -/
def parsed (events : List Msg) (R : Parser.Result) : List Msg × Parser.Stats :=
  (R.events.filterMap (fun e => (events[e.rest]?).map (putParsed e)), R.stats)

theorem parseEvents_eq (M : Machine) (O : Parser.Opts) (sort huge comb : Bool) (i : Meta.Info) (l : List Msg) :
    parseEvents M O sort huge comb i l =
      (if huge = true then deduce M (if sort = true then sortEvents i l else l) else some (if sort = true then sortEvents i l else l)).bind
        (fun l2 => (Parser.parse O (views parserView 0 (if comb = true then combine l2 else l2))).bind
          (fun R => some (parsed (if comb = true then combine l2 else l2) R))) := by
  cases huge <;> rfl

/-- What the steps before the converter leave of the events. -/
theorem prep_spec {M : Machine} {O : Parser.Opts} (hr : O.remap = false) (hd : O.discard = false) {sort huge comb : Bool} {i : Meta.Info}
    {l : List Msg} (hl : ∀ m ∈ l, Shaped m) {r : List Msg × Parser.Stats} (h : parseEvents M O sort huge comb i l = some r) :
    (r.1.filter notMap).map normView = ((if sort then sortEvents i l else l).filter notMap).map normView ∧ ∀ m ∈ r.1, Shaped m := by
  rw [parseEvents_eq] at h
  obtain ⟨l1, h1⟩ : ∃ x, x = if sort = true then sortEvents i l else l := ⟨_, rfl⟩
  rw [← h1] at h ⊢
  have hl1 : ∀ m ∈ l1, Shaped m := by
    rw [h1]
    split
    · exact fun m hm => hl m ((sort_perm i l).mem_iff.1 hm)
    · exact hl
  obtain ⟨l2, h2, h⟩ := Option.bind_eq_some_iff.1 h
  have hl2 : l2.filter notMap = l1.filter notMap ∧ ∀ m ∈ l2, Shaped m := by
    split at h2
    · have := deduce_spec h2
      exact ⟨this.1, this.2 hl1⟩
    · cases h2; exact ⟨rfl, hl1⟩
  obtain ⟨l3, h3⟩ : ∃ x, x = if comb = true then combine l2 else l2 := ⟨_, rfl⟩
  rw [← h3] at h
  have hl3 : l3.filter notMap = l1.filter notMap ∧ ∀ m ∈ l3, Shaped m := by
    rw [h3]
    split
    · have := combine_spec l2
      exact ⟨this.1.trans hl2.1, this.2 hl2.2⟩
    · exact hl2
  obtain ⟨R, h4, h⟩ := Option.bind_eq_some_iff.1 h
  have h5 : R.events = views parserView 0 l3 := by
    refine Parser.parse_keep hr hd (fun e he => ?_) h4
    obtain ⟨k, m, hm, -, -, rfl⟩ := views_mem he
    intro ht
    obtain ⟨b, hb⟩ := (hl3.2 m hm).mmap ht
    simp [parserView, hb]
  have h6 : r.1 = l3.map touch := by
    rw [← Option.some.inj h]
    unfold parsed
    simp only
    rw [h5, views_back parserView (·.rest) putParsed (fun _ _ => rfl) l3]
    rw [show (fun i m => putParsed (parserView i m) m) = fun _ m => touch m from funext fun i => funext fun m => putParsed_view i m]
    exact views_map touch 0 l3
  rw [h6]
  refine ⟨?_, fun m hm => ?_⟩
  · rw [← hl3.1, List.filter_map, List.map_map]
    have : notMap ∘ touch = notMap := funext touch_not
    rw [this]
    exact List.map_congr_left fun m _ => touch_norm m
  · obtain ⟨x, hx, rfl⟩ := List.mem_map.1 hm
    exact touch_shaped (hl3.2 x hx)

end Verif.Whole
