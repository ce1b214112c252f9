import Verif.HugePages.DeduceLemmas

/-! # Deducing huge pages (C23, C63) -/

namespace Verif.HugePages
open Verif.Buffer

/-- A change of an event of one of the processes `S`. -/
def ChangeS (S : Nat → Prop) (later : List Ev) (e e' : Ev) : Prop :=
  e' = e ∨ ∃ m m' n ne, e.mmap = some m ∧ e'.mmap = some m' ∧ ne ∈ later ∧ ne.mmap = some n ∧
    isHugePage m = true ∧ isHugePage n = false ∧ n.key = m.key ∧ S m.key ∧ Relabelled m n m' ∧
    e'.time = e.time ∧ e'.other = e.other ∧
    e'.size < 2 ^ 32 ∧ (e'.size + nameBytes m.filename) % 2 ^ 32 = (e.size + nameBytes m'.filename) % 2 ^ 32

def ChangedS (S : Nat → Prop) : List Ev → List Ev → Prop
  | [], [] => True
  | e :: es, e' :: es' => ChangeS S es e e' ∧ ChangedS S es es'
  | _, _ => False

theorem ChangedS.refl {S : Nat → Prop} : ∀ es, ChangedS S es es
  | [] => trivial
  | _ :: es => ⟨.inl rfl, ChangedS.refl es⟩

theorem ChangedS.changed {S : Nat → Prop} : ∀ {es es'}, ChangedS S es es' → Changed es es'
  | [], [], _ => trivial
  | e :: es, e' :: es', ⟨h, hs⟩ => by
    refine ⟨?_, ChangedS.changed hs⟩
    rcases h with h | ⟨m, m', n, ne, h1, h2, h3, h4, h5, h6, h7, -, h8⟩
    · exact .inl h
    · refine .inr ⟨m, m', n, ne, h1, h2, h3, h4, (isHugePage_iff m).mp h5, ?_, h7, h8⟩
      intro h
      rw [(isHugePage_iff n).mpr h] at h6
      cases h6

/-- Process, time and the fact that it is a mapping do not change. -/
theorem ChangeS.same {S : Nat → Prop} {later : List Ev} {e e' : Ev} (h : ChangeS S later e e') (k : Nat) :
    isOf k e' = isOf k e ∧ isStart k e' = isStart k e := by
  rcases h with rfl | ⟨m, m', n, ne, h1, h2, -, -, -, -, -, -, h8, ht, -⟩
  · exact ⟨rfl, rfl⟩
  · unfold isOf isStart
    rw [h1, h2]
    have : m'.key = m.key := by unfold MMap.key; rw [h8.pid]
    simp only [this, ht]
    exact ⟨trivial, trivial⟩

theorem ChangedS.mem_back {S : Nat → Prop} {k : Nat} (hk : ¬ S k) : ∀ {es cur : List Ev}, ChangedS S es cur →
    ∀ e ∈ cur, isOf k e = true → e ∈ es
  | [], [], _, e, h, _ => h
  | a :: es, b :: cur, ⟨h, hs⟩, e, hm, ho => by
    rcases List.mem_cons.mp hm with he | hm
    · subst he
      rcases h with rfl | ⟨m, m', n, ne, h1, h2, -, -, -, -, -, hS, h8, -⟩
      · exact List.mem_cons_self ..
      · exfalso
        unfold isOf at ho
        rw [h2] at ho
        have : m'.key = m.key := by unfold MMap.key; rw [h8.pid]
        simp only [beq_iff_eq] at ho
        rw [this] at ho
        exact hk (ho ▸ hS)
    · exact List.mem_cons_of_mem _ (ChangedS.mem_back hk hs e hm ho)

theorem ChangeS.trans {S : Nat → Prop} {k : Nat} (hk : ¬ S k) {es cur : List Ev} {e c e' : Ev}
    (h : ChangeS S es e c) (hs : ChangedS S es cur) (g : ChangeS (· = k) cur c e') :
    ChangeS (fun j => S j ∨ j = k) es e e' := by
  rcases g with rfl | ⟨m, m', n, ne, g1, g2, g3, g4, g5, g6, g7, gS, g8⟩
  · rcases h with rfl | ⟨m, m', n, ne, h1, h2, h3, h4, h5, h6, h7, hS, h8⟩
    · exact .inl rfl
    · exact .inr ⟨m, m', n, ne, h1, h2, h3, h4, h5, h6, h7, .inl hS, h8⟩
  · have hne : ne ∈ es := ChangedS.mem_back hk hs ne g3 (by
      unfold isOf; rw [g4]; simp only [beq_iff_eq]; rw [g7, gS])
    rcases h with rfl | ⟨o, o', n', ne', h1, h2, -, -, -, -, -, hS, h8, -⟩
    · exact .inr ⟨m, m', n, ne, g1, g2, hne, g4, g5, g6, g7, .inr gS, g8⟩
    · exfalso
      rw [g1] at h2
      have : m = o' := Option.some.inj h2
      subst this
      have : m.key = o.key := by unfold MMap.key; rw [h8.pid]
      exact hk (by rw [← gS, this]; exact hS)

theorem ChangedS.trans {S : Nat → Prop} {k : Nat} (hk : ¬ S k) {es cur es' : List Ev} (hs : ChangedS S es cur)
    (gs : ChangedS (· = k) cur es') : ChangedS (fun j => S j ∨ j = k) es es' := by
  induction es generalizing cur es' with
  | nil =>
    cases cur with
    | cons _ _ => exact hs.elim
    | nil => cases es' with
      | cons _ _ => exact gs.elim
      | nil => trivial
  | cons e es ih =>
    cases cur with
    | nil => exact hs.elim
    | cons c cur => cases es' with
      | nil => exact gs.elim
      | cons e' es' => exact ⟨ChangeS.trans hk hs.1 hs.2 gs.1, ih hs.2 gs.2⟩

theorem ChangedS.evOk {S : Nat → Prop} : ∀ {es es' : List Ev}, ChangedS S es es' → (∀ e ∈ es, EvOk e) →
    ∀ e ∈ es', EvOk e
  | [], [], _, h, e, he => h e he
  | a :: es, b :: es', ⟨h, hs⟩, hok, e, hm => by
    rcases List.mem_cons.mp hm with he | hm
    · subst he
      rcases h with rfl | ⟨m, m', n, ne, h1, h2, h3, h4, -, -, -, -, h8, -, -, h9, -⟩
      · exact hok e (List.mem_cons_self ..)
      · intro x hx
        rw [h2] at hx
        have : m' = x := Option.some.inj hx
        subst this
        obtain ⟨o1, o2, o3, o4, o5⟩ := hok a (List.mem_cons_self ..) m h1
        obtain ⟨-, -, -, p4, -⟩ := hok ne (List.mem_cons_of_mem _ h3) n h4
        refine ⟨by rw [h8.start]; exact o1, by rw [h8.len]; exact o2, ?_, by rw [h8.filename]; exact p4, h9⟩
        have := h8.pgoff
        by_cases hz : m.pgoff = 0
        · rw [if_pos hz] at this; exact this.1
        · rw [if_neg hz] at this; rw [this]; exact o3
    · exact ChangedS.evOk hs (fun x hx => hok x (List.mem_cons_of_mem _ hx)) e hm

/-- The mask has an entry for every event and selects only events of the process. -/
def AllOf (k : Nat) : List Bool → List Ev → Prop
  | b :: bs, e :: es => (b = true → isOf k e = true) ∧ AllOf k bs es
  | [], [] => True
  | _, _ => False

theorem mask_allOf (k : Nat) : ∀ (es : List Ev) (seen : Bool), AllOf k (mask k seen es) es
  | [], _ => trivial
  | e :: es, seen => by
    refine ⟨fun h => ?_, mask_allOf k es _⟩
    simp only [Bool.and_eq_true] at h
    exact h.1.1

theorem gather_mem {k : Nat} : ∀ {bs : List Bool} {es : List Ev}, AllOf k bs es → ∀ it ∈ gather bs es,
    ∃ e ∈ es, e.mmap = some it.1 ∧ e.size = it.2 ∧ it.1.key = k
  | [], [], _, it, h => by simp [gather] at h
  | b :: bs, e :: es, ⟨h, hs⟩, it, hm => by
    have rest : it ∈ gather bs es → ∃ e' ∈ e :: es, e'.mmap = some it.1 ∧ e'.size = it.2 ∧ it.1.key = k := fun hm => by
      obtain ⟨e', h1, h2⟩ := gather_mem hs it hm
      exact ⟨e', List.mem_cons_of_mem _ h1, h2⟩
    simp only [gather] at hm
    cases b with
    | false => exact rest hm
    | true =>
      cases he : e.mmap with
      | none => rw [he] at hm; exact rest hm
      | some m =>
        rw [he] at hm
        rcases List.mem_cons.mp hm with hi | hm
        · subst hi
          refine ⟨e, List.mem_cons_self .., he, rfl, ?_⟩
          have := h rfl
          unfold isOf at this
          rw [he] at this
          simpa using this
        · exact rest hm

theorem scatter_changed {k : Nat} : ∀ {bs : List Bool} {es : List Ev} {r : List Item}, AllOf k bs es →
    ItemsChanged (gather bs es) r → ChangedS (· = k) es (scatter bs es r)
  | [], [], _, _, _ => by simp [scatter, ChangedS]
  | b :: bs, e :: es, r, ⟨h, hs⟩, hr => by
    simp only [gather] at hr
    simp only [scatter]
    cases b with
    | false => exact ⟨.inl rfl, scatter_changed hs hr⟩
    | true =>
      cases he : e.mmap with
      | none => rw [he] at hr; exact ⟨.inl rfl, scatter_changed hs hr⟩
      | some m =>
        rw [he] at hr
        simp only at hr
        cases r with
        | nil => exact hr.elim
        | cons x r =>
          obtain ⟨h1, h2⟩ := hr
          refine ⟨?_, scatter_changed hs h2⟩
          rcases h1 with rfl | ⟨n, hn, hh, hnh, hrel, hsz, hnm⟩
          · left
            rw [← he]
          · right
            obtain ⟨ne, hne, e1, -, hk⟩ := gather_mem hs n hn
            have hmk : m.key = k := by
              have := h rfl
              unfold isOf at this
              rw [he] at this
              simpa using this
            exact ⟨m, x.1, n.1, ne, he, rfl, hne, e1, hh, hnh, by rw [hk, hmk], hmk, hrel, rfl, rfl, hsz, hnm⟩

theorem deducePid_spec (k : Nat) {es : List Ev} (hok : ∀ e ∈ es, EvOk e) :
    ∃ r, go none [] (gather (mask k false es) es) = some r ∧
      deducePid k es = some (scatter (mask k false es) es r) ∧
      ChangedS (· = k) es (scatter (mask k false es) es r) := by
  have ha := mask_allOf k es false
  obtain ⟨r, hr, hc⟩ := go_spec (gather (mask k false es) es) none [] (fun it hit => by
    obtain ⟨e, he, h1, h2, -⟩ := gather_mem ha it hit
    have := hok e he it.1 h1
    unfold ItemOk
    rw [← h2]
    exact this) (by simp) trivial
  refine ⟨r, hr, ?_, scatter_changed ha (by simpa using hc)⟩
  unfold deducePid
  rw [hr]
  rfl

theorem deduce_changedS : ∀ (order : List Nat) {S : Nat → Prop} {es cur : List Ev}, order.Nodup → (∀ k ∈ order, ¬ S k) →
    (∀ e ∈ es, EvOk e) → ChangedS S es cur →
    ∃ es' S', deduceHugePages order cur = some es' ∧ ChangedS S' es es'
  | [], S, es, cur, _, _, _, h => ⟨cur, S, rfl, h⟩
  | k :: order, S, es, cur, hn, hS, hok, h => by
    obtain ⟨r, -, hd, hc⟩ := deducePid_spec k (h.evOk hok)
    have hk : ¬ S k := hS k (List.mem_cons_self ..)
    have hn' := List.nodup_cons.mp hn
    obtain ⟨es', S', h1, h2⟩ := deduce_changedS order (S := fun j => S j ∨ j = k) hn'.2 (fun j hj => by
      rintro (h | rfl)
      · exact hS j (List.mem_cons_of_mem _ hj) h
      · exact hn'.1 hj) hok (ChangedS.trans hk h hc)
    refine ⟨es', S', ?_, h2⟩
    unfold deduceHugePages
    rw [hd]
    exact h1

/-- C23: deducing huge pages never aborts, whatever the events and whatever order the hash map has. The
events stay in number and order, and each of them is what it was, or it is a mapping of a huge page that got
the name, the identity and, if it had none, the matching file offset of a later file mapping of the same
process; its process, addresses, protection and flags are unchanged. -/
theorem deduce_relabels (order : List Nat) (es : List Ev) (hn : order.Nodup) (hok : ∀ e ∈ es, EvOk e) :
    ∃ es', deduceHugePages order es = some es' ∧ es'.length = es.length ∧ Changed es es' := by
  obtain ⟨es', S', h1, h2⟩ := deduce_changedS order (S := fun _ => False) (es := es) (cur := es) hn (by simp) hok
    (ChangedS.refl es)
  refine ⟨es', h1, ?_, h2.changed⟩
  have len : ∀ {es es' : List Ev}, ChangedS S' es es' → es'.length = es.length := by
    intro es
    induction es with
    | nil => intro es' h; cases es' with
      | nil => rfl
      | cons _ _ => exact h.elim
    | cons e es ih => intro es' h; cases es' with
      | nil => exact h.elim
      | cons _ _ => simp [ih h.2]
  exact len h2

/-! ## C63 -/

theorem mask_congr {S : Nat → Prop} (k : Nat) : ∀ {es es' : List Ev}, ChangedS S es es' → ∀ seen,
    mask k seen es' = mask k seen es
  | [], [], _, _ => rfl
  | e :: es, e' :: es', ⟨h, hs⟩, seen => by
    have any : ∀ {l l' : List Ev}, ChangedS S l l' → l'.any (isStart k) = l.any (isStart k) := by
      intro l
      induction l with
      | nil => intro l' h; cases l' with
        | nil => rfl
        | cons _ _ => exact h.elim
      | cons a l ih => intro l' h; cases l' with
        | nil => exact h.elim
        | cons b l' => simp only [List.any_cons]; rw [ih h.2, (h.1.same k).2]
    unfold mask
    rw [mask_congr k hs, (h.same k).1, (h.same k).2]
    rw [any (l := e :: es) (l' := e' :: es') ⟨h, hs⟩]

theorem gather_congr {j k : Nat} (hjk : j ≠ k) : ∀ {bs : List Bool} {es es' : List Ev}, AllOf j bs es →
    ChangedS (· = k) es es' → gather bs es' = gather bs es
  | [], [], [], _, _ => rfl
  | b :: bs, e :: es, e' :: es', ⟨h, hs⟩, ⟨g, gs⟩ => by
    have ih := gather_congr hjk hs gs
    rcases g with rfl | ⟨m, m', n, ne, h1, h2, -, -, -, -, -, hS, -⟩
    · simp only [gather, ih]
    · cases b with
      | false => simp only [gather, ih]
      | true =>
        exfalso
        have := h rfl
        unfold isOf at this
        rw [h1] at this
        simp only [beq_iff_eq] at this
        exact hjk (this.symm.trans hS)

theorem scatter_false (bs : List Bool) (e : Ev) (es : List Ev) (r : List Item) :
    scatter (false :: bs) (e :: es) r = e :: scatter bs es r := by simp only [scatter]

theorem scatter_none (b : Bool) (bs : List Bool) (e : Ev) (es : List Ev) (r : List Item) (h : e.mmap = none) :
    scatter (b :: bs) (e :: es) r = e :: scatter bs es r := by simp only [scatter, h]

theorem scatter_nil (b : Bool) (bs : List Bool) (e : Ev) (es : List Ev) :
    scatter (b :: bs) (e :: es) [] = e :: scatter bs es [] := by
  cases b <;> cases h : e.mmap <;> simp only [scatter, h]

theorem scatter_cons (bs : List Bool) (e : Ev) (es : List Ev) (it : Item) (r : List Item) {m : MMap} (h : e.mmap = some m) :
    scatter (true :: bs) (e :: es) (it :: r) = { e with mmap := some it.1, size := it.2 } :: scatter bs es r := by
  simp only [scatter, h]

theorem scatter_comm {j k : Nat} (hjk : j ≠ k) {bs cs : List Bool} {es : List Ev} {r q : List Item}
    (h : AllOf j bs es) (g : AllOf k cs es) :
    scatter bs (scatter cs es q) r = scatter cs (scatter bs es r) q := by
  induction es generalizing bs cs r q with
  | nil =>
    cases bs with
    | cons _ _ => exact h.elim
    | nil => cases cs with
      | cons _ _ => exact g.elim
      | nil => simp [scatter]
  | cons e es ih =>
    cases bs with
    | nil => exact h.elim
    | cons b bs => cases cs with
      | nil => exact g.elim
      | cons c cs =>
        obtain ⟨h, hs⟩ := h
        obtain ⟨g, gs⟩ := g
        cases he : e.mmap with
        | none =>
          rw [scatter_none c _ _ _ _ he, scatter_none b _ _ _ _ he, scatter_none b _ _ _ _ he, scatter_none c _ _ _ _ he,
            ih hs gs]
        | some m =>
          cases b with
          | false =>
            cases c with
            | false => rw [scatter_false, scatter_false, scatter_false, scatter_false, ih hs gs]
            | true =>
              cases q with
              | nil => rw [scatter_nil, scatter_false, scatter_false, scatter_nil, ih hs gs]
              | cons it q =>
                rw [scatter_cons _ _ _ _ _ he, scatter_false, scatter_false, scatter_cons _ _ _ _ _ he, ih hs gs]
          | true =>
            cases c with
            | false =>
              cases r with
              | nil => rw [scatter_nil, scatter_false, scatter_false, scatter_nil, ih hs gs]
              | cons it r =>
                rw [scatter_cons _ _ _ _ _ he, scatter_false, scatter_false, scatter_cons _ _ _ _ _ he, ih hs gs]
            | true =>
              exfalso
              have h1 := h rfl
              have h2 := g rfl
              unfold isOf at h1 h2
              rw [he] at h1 h2
              simp only [beq_iff_eq] at h1 h2
              exact hjk (h1.symm.trans h2)

theorem deducePid_comm {j k : Nat} (hjk : j ≠ k) {es : List Ev} (hok : ∀ e ∈ es, EvOk e) :
    (deducePid j es).bind (deducePid k) = (deducePid k es).bind (deducePid j) := by
  obtain ⟨r, hr, hd, hc⟩ := deducePid_spec j hok
  obtain ⟨q, hq, hd', hc'⟩ := deducePid_spec k hok
  rw [hd, hd']
  show deducePid k _ = deducePid j _
  unfold deducePid
  rw [mask_congr k hc, mask_congr j hc', gather_congr (Ne.symm hjk) (mask_allOf k es false) hc,
    gather_congr hjk (mask_allOf j es false) hc', hr, hq]
  simp only [Option.map_some, Option.some.injEq]
  exact scatter_comm (Ne.symm hjk) (mask_allOf k es false) (mask_allOf j es false)

/-- C63: the result does not depend on the order in which the hash map delivers the processes. -/
theorem deduce_order {order order' : List Nat} (hp : order.Perm order') (hn : order.Nodup) :
    ∀ (es : List Ev), (∀ e ∈ es, EvOk e) → deduceHugePages order es = deduceHugePages order' es := by
  induction hp with
  | nil => exact fun _ _ => rfl
  | cons k hp ih =>
    intro es hok
    have hn' := List.nodup_cons.mp hn
    obtain ⟨r, -, hd, hc⟩ := deducePid_spec k hok
    unfold deduceHugePages
    rw [hd]
    exact ih hn'.2 _ (hc.evOk hok)
  | swap k j l =>
    intro es hok
    have hjk : j ≠ k := by
      have := List.nodup_cons.mp hn
      intro e; exact this.1 (by rw [e]; exact List.mem_cons_self ..)
    have h := congrArg (fun x => x.bind (deduceHugePages l)) (deducePid_comm hjk hok)
    simp only [Option.bind_assoc] at h
    simpa only [deduceHugePages] using h
  | trans h1 _ ih1 ih2 =>
    intro es hok
    rw [ih1 hn es hok, ih2 (h1.nodup_iff.mp hn) es hok]

/-! ## Examples -/

/-- An executable whose text was moved to anonymous huge pages, between two events of another process. -/
def exEvents : List Ev :=
  [ { mmap := some { pid := some 7, start := 0x400000, len := 0x1000, pgoff := 0, filename := ascii "/bin/x" }, size := 80 },
    { mmap := some { pid := some 8, start := 0, len := 5, filename := ascii "/a" } , size := 80 },
    { mmap := some { pid := some 7, start := 0x401000, len := 0x200000, pgoff := 0, filename := ascii "//anon" }, size := 80 },
    { other := 3 },
    { mmap := some { pid := some 7, start := 0x601000, len := 0x1000, pgoff := 0x201000, filename := ascii "/bin/x", buildId := some (ascii "ab") }, size := 80 } ]

instance (e : Ev) : Decidable (EvOk e) := by
  unfold EvOk
  cases h : e.mmap with
  | none => exact isTrue (by simp)
  | some m =>
    exact decidable_of_iff (m.start < 2 ^ 64 ∧ m.len < 2 ^ 64 ∧ m.pgoff < 2 ^ 64 ∧ m.filename.length < 2 ^ 32 ∧ e.size < 2 ^ 32)
      (by simp)

example : (∀ e ∈ exEvents, EvOk e) ∧ (deduceHugePages [7, 8] exEvents).map (·[2]?) =
    some (some { mmap := some { pid := some 7, start := 0x401000, len := 0x200000, pgoff := 0x1000, filename := ascii "/bin/x", buildId := some (ascii "ab") }, size := 80 }) := by decide +kernel

example : deduceHugePages [7, 8] exEvents = deduceHugePages [8, 7] exEvents :=
  deduce_order (List.Perm.swap ..) (by decide) exEvents (by decide +kernel)

end Verif.HugePages
