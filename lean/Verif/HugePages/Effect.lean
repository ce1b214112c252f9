import Verif.HugePages.Deduce

/-! # Huge pages between two mappings of a file are recognised (C23) -/

namespace Verif.HugePages
open Verif.Buffer

theorem Runs.le {x e : Nat} {hs : List MMap} (h : Runs x hs e) : x ≤ e := by
  induction hs generalizing x with
  | nil => exact Nat.le_of_eq h
  | cons a hs ih => have := ih h.2; omega

theorem Runs.start_le {x e : Nat} {hs : List MMap} (h : Runs x hs e) : ∀ m ∈ hs, x ≤ m.start ∧ m.start + m.len ≤ e := by
  induction hs generalizing x with
  | nil => simp
  | cons a hs ih =>
    intro m hm
    rcases List.mem_cons.mp hm with rfl | hm
    · have := h.2.le; have := h.1; omega
    · have := ih h.2 m hm; omega

theorem add64_of_lt {a b : Nat} (h : a + b < 2 ^ 64) : add64 a b = a + b := by
  unfold add64; exact Nat.mod_eq_of_lt h

theorem updateLoop_runs (n : MMap) {hs : List Item} : ∀ {x e p : Nat}, Runs x (hs.map (·.1)) e → p + (e - x) < 2 ^ 64 →
    updateLoop n p hs = (hs.map (fun it => updateItem n (p + (it.1.start - x)) it), p + (e - x)) := by
  induction hs with
  | nil =>
    intro x e p h hb
    have : x = e := h
    subst this
    simp [updateLoop]
  | cons it hs ih =>
    intro x e p h hb
    simp only [List.map_cons, Runs] at h
    obtain ⟨h1, h2⟩ := h
    have hle := Runs.le h2
    have hle2 := Runs.start_le h2
    have hx : add64 p it.1.len = p + it.1.len := add64_of_lt (by omega)
    unfold updateLoop
    rw [hx, ih h2 (by omega)]
    simp only [List.map_cons, Prod.mk.injEq, List.cons.injEq]
    refine ⟨⟨?_, ?_⟩, by omega⟩
    · rw [h1]; simp
    · apply List.map_congr_left
      intro y hy
      have := (hle2 y.1 (List.mem_map_of_mem hy)).1
      congr 1
      omega

/-- The pending range grows over adjacent huge mappings of the same name. -/
theorem go_runs (pre : Option MMap) (f : List UInt8) (k : Nat) (n : Item) (l : List Item) :
    ∀ (hs pend : List Item) (last : Item) (x e : Nat), pend.getLast? = some last → last.1.start + last.1.len = x →
    last.1.filename = f → last.1.pgoff = 0 → last.1.pid.getD 0 = k →
    Runs x (hs.map (·.1)) e → e < 2 ^ 64 →
    (∀ h ∈ hs, h.1.filename = f ∧ h.1.pgoff = 0 ∧ h.1.pid.getD 0 = k ∧ isHugePage h.1 = true) →
    go pre pend (hs ++ n :: l) = go pre (pend ++ hs) (n :: l)
  | [], pend, _, _, _, _, _, _, _, _, _, _, _ => by simp
  | h :: hs, pend, last, x, e, h1, h2, h3, h4, h5, h6, h7, h8 => by
    obtain ⟨a1, a2, a3, a4⟩ := h8 h (List.mem_cons_self ..)
    obtain ⟨b1, b2⟩ := h6
    have hle := Runs.le b2
    have hext : extendsRange last.1 h.1 = true := by
      unfold extendsRange vmaContiguous
      rw [h3, a1, h4, a2, h5, a3, b1, ← h2, add64_of_lt (by omega)]
      simp
    rw [List.cons_append, go, if_pos a4, h1]
    simp only
    rw [if_pos hext, go_runs pre f k n l hs (pend ++ [h]) h (x + h.1.len) e (by simp) (by rw [b1]) a1 a2 a3 b2 h7
      (fun y hy => h8 y (List.mem_cons_of_mem _ hy))]
    simp

theorem getLast?_runs {hs : List MMap} {x e : Nat} (h : Runs x hs e) (last : MMap) (hl : hs.getLast? = some last) :
    last.start + last.len = e := by
  induction hs generalizing x with
  | nil => simp at hl
  | cons a hs ih =>
    obtain ⟨h1, h2⟩ := h
    cases hs with
    | nil =>
      have : a = last := by simpa using hl
      subst this
      have : x + a.len = e := h2
      omega
    | cons b hs => exact ih h2 (by simpa using hl)

/-- A mapping that is not huge ends everything pending, and the rest goes on from it. -/
theorem go_append (a : Item) (ha : isHugePage a.1 = false) (rest : List Item) : ∀ (l : List Item) (pre : Option MMap)
    (pend : List Item), (go pre pend (l ++ a :: rest)).isSome →
    ∃ r, go pre pend (l ++ a :: rest) = (go (some a.1) [] rest).map (fun t => r ++ a :: t) ∧
      (go pre pend (l ++ a :: rest)).isSome ∧
      ∀ rest', (go pre pend (l ++ a :: rest')) = (go (some a.1) [] rest').map (fun t => r ++ a :: t)
  | [], pre, pend, h => by
    simp only [List.nil_append] at *
    have key : ∃ r, ∀ rest', go pre pend (a :: rest') = (go (some a.1) [] rest').map (fun t => r ++ a :: t) := by
      simp only [go, ha, Bool.false_eq_true, if_false] at h ⊢
      cases hd : pend.head? with
      | none =>
        refine ⟨[], fun rest' => ?_⟩
        cases hl : pend.getLast? <;> simp
      | some first =>
        cases hl : pend.getLast? with
        | none => exact ⟨[], fun rest' => by simp⟩
        | some last =>
          rw [hd, hl] at h
          simp only at h ⊢
          by_cases hs : shouldUpdate pre first.1 last.1 a.1 = true
          · rw [if_pos hs] at h
            cases hu : updateRange first.1 last.1 a.1 pend with
            | none => rw [hu] at h; simp at h
            | some p => exact ⟨p, fun rest' => by rw [if_pos hs]⟩
          · exact ⟨pend, fun rest' => by rw [if_neg hs]⟩
    obtain ⟨r, hr⟩ := key
    exact ⟨r, hr rest, h, hr⟩
  | it :: l, pre, pend, h => by
    have key : ∃ r, ∀ rest', go pre pend (it :: l ++ a :: rest') = (go (some a.1) [] rest').map (fun t => r ++ a :: t) := by
      simp only [List.cons_append, go] at h ⊢
      by_cases hi : isHugePage it.1 = true
      · simp only [if_pos hi] at h ⊢
        cases hl : pend.getLast? with
        | none =>
          rw [hl] at h
          obtain ⟨r, -, -, hr⟩ := go_append a ha rest l pre [it] h
          exact ⟨r, hr⟩
        | some last =>
          rw [hl] at h
          simp only at h ⊢
          by_cases he : extendsRange last.1 it.1 = true
          · rw [if_pos he] at h
            obtain ⟨r, -, -, hr⟩ := go_append a ha rest l pre (pend ++ [it]) h
            exact ⟨r, fun rest' => by rw [if_pos he]; exact hr rest'⟩
          · rw [if_neg he, Option.isSome_map] at h
            obtain ⟨r, -, -, hr⟩ := go_append a ha rest l none [it] h
            refine ⟨pend ++ r, fun rest' => ?_⟩
            rw [if_neg he, hr rest', Option.map_map]
            congr 1
            funext t
            simp
      · simp only [if_neg hi] at h ⊢
        cases hd : pend.head? with
        | none =>
          rw [hd] at h
          simp only [Option.isSome_map] at h
          obtain ⟨r, -, -, hr⟩ := go_append a ha rest l (some it.1) [] h
          refine ⟨it :: r, fun rest' => ?_⟩
          simp only [hr rest', Option.map_map]
          rfl
        | some first =>
          cases hl : pend.getLast? with
          | none =>
            rw [hd, hl] at h
            simp only [Option.isSome_map] at h
            obtain ⟨r, -, -, hr⟩ := go_append a ha rest l (some it.1) [] h
            refine ⟨it :: r, fun rest' => ?_⟩
            simp only [hr rest', Option.map_map]
            rfl
          | some last =>
            rw [hd, hl] at h
            simp only at h ⊢
            by_cases hs : shouldUpdate pre first.1 last.1 it.1 = true
            · rw [if_pos hs] at h
              cases hu : updateRange first.1 last.1 it.1 pend with
              | none => rw [hu] at h; simp at h
              | some p =>
                rw [hu] at h
                simp only [Option.isSome_map] at h
                obtain ⟨r, -, -, hr⟩ := go_append a ha rest l (some it.1) [] h
                refine ⟨p ++ it :: r, fun rest' => ?_⟩
                rw [if_pos hs]
                simp only [hr rest', Option.map_map]
                congr 1
                funext t
                simp
            · rw [if_neg hs, Option.isSome_map] at h
              obtain ⟨r, -, -, hr⟩ := go_append a ha rest l (some it.1) [] h
              refine ⟨pend ++ it :: r, fun rest' => ?_⟩
              rw [if_neg hs]
              simp only [hr rest', Option.map_map]
              congr 1
              funext t
              simp
    obtain ⟨r, hr⟩ := key
    exact ⟨r, hr rest, h, hr⟩

theorem go_fills (a n : MMap) (hs : List Item) (sz : Nat) (l : List Item) (hf : Fills a n (hs.map (·.1))) :
    go (some a) [] (hs ++ (n, sz) :: l) =
      (go (some n) [] l).map (fun t => hs.map (fun it => (between a n it.1, newSize it.2 it.1.filename n.filename)) ++ (n, sz) :: t) := by
  obtain ⟨file, notHuge, ⟨f, hff, hname⟩, hne, noOff, ⟨p, pa, pn, ph⟩, runs, off, bs, bp⟩ := hf
  have hhuge : ∀ h ∈ hs, isHugePage h.1 = true := fun h hh =>
    (isHugePage_iff _).mpr (by rw [hname h.1 (List.mem_map_of_mem hh)]; exact hff)
  have hnn : isHugePage n = false := by
    cases hc : isHugePage n with
    | false => rfl
    | true => exact absurd (file ▸ (isHugePage_iff n).mp hc) notHuge
  cases hs with
  | nil => simp at hne
  | cons h0 hs =>
    have hrun2 := runs
    simp only [List.map_cons, Runs] at runs
    obtain ⟨r1, r2⟩ := runs
    have hb := Runs.le r2
    have m0 : h0.1 ∈ (h0 :: hs).map (·.1) := by simp
    have step1 : go (some a) [] (h0 :: hs ++ (n, sz) :: l) = go (some a) (h0 :: hs) ((n, sz) :: l) := by
      rw [List.cons_append, go, if_pos (hhuge h0 (List.mem_cons_self ..))]
      simp only [List.getLast?_nil]
      rw [go_runs (some a) f (p.getD 0) (n, sz) l hs [h0] h0 (a.start + a.len + h0.1.len) n.start (by simp) (by omega)
        (hname _ m0) (noOff _ m0) (by rw [ph _ m0]) r2 bs]
      · rfl
      · intro y hy
        have my : y.1 ∈ (h0 :: hs).map (·.1) := List.mem_map_of_mem (List.mem_cons_of_mem _ hy)
        exact ⟨hname _ my, noOff _ my, by rw [ph _ my], hhuge y (List.mem_cons_of_mem _ hy)⟩
    rw [step1]
    obtain ⟨last, hlast⟩ : ∃ last, (h0 :: hs).getLast? = some last :=
      ⟨_, List.getLast?_eq_some_getLast (by simp)⟩
    have hlm : last ∈ h0 :: hs := List.mem_of_getLast? hlast
    have hlm' : last.1 ∈ (h0 :: hs).map (·.1) := List.mem_map_of_mem hlm
    have hend : last.1.start + last.1.len = n.start :=
      getLast?_runs hrun2 last.1 (by rw [List.getLast?_map, hlast]; rfl)
    have hst := (Runs.start_le hrun2 last.1 hlm').1
    have hlen : rangeLength h0.1 last.1 = n.start - (a.start + a.len) := by
      unfold rangeLength add64 sub64
      rw [r1]
      omega
    have hva : vmaContiguous last.1 n = true := by
      unfold vmaContiguous
      rw [ph _ hlm', pn, add64_of_lt (by omega), hend]
      simp
    have hstart : startPgoff (some a) h0.1 n = a.pgoff + a.len := by
      unfold startPgoff
      have c : (vmaContiguous a h0.1 && equivalentFile a h0.1 && equivalentFile a n) = true := by
        unfold vmaContiguous equivalentFile
        rw [pa, ph _ m0, add64_of_lt (by omega), r1, hhuge h0 (List.mem_cons_self ..), file]
        simp
      simp only [c, if_true]
      exact add64_of_lt (by omega)
    have hsub : sub64 n.pgoff (n.start - (a.start + a.len)) = a.pgoff + a.len := by
      unfold sub64; omega
    have hshould : shouldUpdate (some a) h0.1 last.1 n = true := by
      unfold shouldUpdate
      rw [hstart, hlen, hva, hsub]
      simp only [Bool.true_and, Bool.and_eq_true, decide_eq_true_eq, beq_self_eq_true, and_true]
      refine ⟨?_, by omega⟩
      unfold equivalentFile
      rw [hhuge last hlm]
      simp
    have hupd : updateRange h0.1 last.1 n (h0 :: hs) =
        some ((h0 :: hs).map (fun it => (between a n it.1, newSize it.2 it.1.filename n.filename))) := by
      unfold updateRange
      simp only [hlen, hsub]
      rw [updateLoop_runs n (x := a.start + a.len) (e := n.start) hrun2 (by omega)]
      simp only
      rw [if_pos (by rw [add64_of_lt (by omega)])]
      congr 1
      apply List.map_congr_left
      intro it hit
      have mit : it.1 ∈ (h0 :: hs).map (·.1) := List.mem_map_of_mem hit
      have h1 := (Runs.start_le hrun2 it.1 mit).1
      unfold updateItem between
      simp only [hhuge it hit, noOff it.1 mit, Bool.true_or, if_true, beq_self_eq_true]
      congr 2
      omega
    rw [go]
    simp only [hnn, Bool.false_eq_true, if_false, hlast, List.head?_cons, hshould, if_true, hupd]

theorem gather_all (k : Nat) : ∀ (es : List Ev) (seen : Bool), (∀ e ∈ es, isOf k e = true → e.time = 0) →
    gather (mask k seen es) es = mapsOf k es
  | [], _, _ => rfl
  | e :: es, seen, h => by
    have ih := gather_all k es (seen || isStart k e) (fun x hx => h x (List.mem_cons_of_mem _ hx))
    have h0 := h e (List.mem_cons_self ..)
    unfold mask gather mapsOf
    cases hm : e.mmap with
    | none =>
      have ho : isOf k e = false := by unfold isOf; rw [hm]
      simp only [ho, Bool.false_and, hm, List.filterMap_cons, Option.bind_none]
      exact ih
    | some m =>
      by_cases hk : m.key = k
      · have ho : isOf k e = true := by unfold isOf; rw [hm]; simp [hk]
        have hst : isStart k e = true := by unfold isStart; rw [hm]; simp [hk, h0 ho]
        simp only [ho, hst, Bool.or_true, Bool.true_and, List.any_cons, Bool.true_or, hm, List.filterMap_cons, Option.bind_some, hk,
          if_true]
        rw [hst, Bool.or_true] at ih
        rw [ih]
        rfl
      · have ho : isOf k e = false := by unfold isOf; rw [hm]; simp [hk]
        simp only [ho, Bool.false_and, List.filterMap_cons, hm, Option.bind_some, hk, if_false]
        exact ih

theorem mapsOf_scatter (k : Nat) : ∀ (es : List Ev) (seen : Bool) (r : List Item),
    (∀ e ∈ es, isOf k e = true → e.time = 0) → r.length = (mapsOf k es).length → (∀ it ∈ r, it.1.key = k) →
    mapsOf k (scatter (mask k seen es) es r) = r
  | [], _, r, _, hl, _ => by
    have : r = [] := by simpa [mapsOf] using hl
    subst this
    rfl
  | e :: es, seen, r, h, hl, hr => by
    have ih := fun r => mapsOf_scatter k es (seen || isStart k e) r (fun x hx => h x (List.mem_cons_of_mem _ hx))
    have h0 := h e (List.mem_cons_self ..)
    unfold mask
    cases hm : e.mmap with
    | none =>
      rw [scatter_none _ _ _ _ _ hm]
      have c : mapsOf k (e :: es) = mapsOf k es := by unfold mapsOf; simp [hm]
      have c2 : ∀ x, mapsOf k (e :: x) = mapsOf k x := by intro x; unfold mapsOf; simp [hm]
      rw [c2]
      exact ih r (by rw [← c]; exact hl) hr
    | some m =>
      by_cases hk : m.key = k
      · have ho : isOf k e = true := by unfold isOf; rw [hm]; simp [hk]
        have hst : isStart k e = true := by unfold isStart; rw [hm]; simp [hk, h0 ho]
        have c : mapsOf k (e :: es) = (m, e.size) :: mapsOf k es := by unfold mapsOf; simp [hm, hk]
        rw [c] at hl
        cases r with
        | nil => simp at hl
        | cons it r =>
          simp only [ho, hst, Bool.or_true, Bool.true_and, List.any_cons, Bool.true_or]
          rw [scatter_cons _ _ _ _ _ hm]
          have c2 : ∀ x, mapsOf k ({ e with mmap := some it.1, size := it.2 } :: x) = it :: mapsOf k x := by
            intro x; unfold mapsOf; simp [hr it (List.mem_cons_self ..)]
          rw [c2]
          have := ih r (by simpa using hl) (fun x hx => hr x (List.mem_cons_of_mem _ hx))
          rw [hst, Bool.or_true] at this
          rw [this]
      · have ho : isOf k e = false := by unfold isOf; rw [hm]; simp [hk]
        have c : ∀ x, mapsOf k (e :: x) = mapsOf k x := by intro x; unfold mapsOf; simp [hm, hk]
        simp only [ho, Bool.false_and]
        rw [scatter_false, c]
        exact ih r (by rw [← c]; exact hl) hr

/-- What `deducePid` of another process leaves alone. -/
theorem mapsOf_other {j k : Nat} (hjk : j ≠ k) {es es' : List Ev} (h : ChangedS (· = j) es es') :
    mapsOf k es' = mapsOf k es := by
  induction es generalizing es' with
  | nil => cases es' with
    | nil => rfl
    | cons _ _ => exact h.elim
  | cons e es ih => cases es' with
    | nil => exact h.elim
    | cons e' es' =>
      obtain ⟨h1, h2⟩ := h
      have := ih h2
      have c : ∀ (e : Ev) x, mapsOf k (e :: x) = mapsOf k [e] ++ mapsOf k x := by
        intro e x; unfold mapsOf; simp only [List.filterMap_cons]
        cases e.mmap.bind fun m => if m.key = k then some (m, e.size) else none <;> simp
      rw [c e, c e', this]
      congr 1
      rcases h1 with rfl | ⟨m, m', n, ne, g1, g2, -, -, -, -, -, hS, h8, -⟩
      · rfl
      · have k1 : m'.key = m.key := by unfold MMap.key; rw [h8.pid]
        have : m.key ≠ k := fun h => hjk (by rw [← hS, h])
        unfold mapsOf
        simp [g1, g2, k1, this]

theorem timesOk_changed {S : Nat → Prop} {k : Nat} {es es' : List Ev} (h : ChangedS S es es')
    (ht : ∀ e ∈ es, isOf k e = true → e.time = 0) : ∀ e ∈ es', isOf k e = true → e.time = 0 := by
  induction es generalizing es' with
  | nil => cases es' with
    | nil => exact ht
    | cons _ _ => exact h.elim
  | cons a es ih => cases es' with
    | nil => exact h.elim
    | cons b es' =>
      intro e he ho
      rcases List.mem_cons.mp he with hb | he
      · subst hb
        have hs := (h.1.same k).1
        have := ht a (List.mem_cons_self ..) (by rw [← hs]; exact ho)
        rcases h.1 with rfl | ⟨_, _, _, _, _, _, _, _, _, _, _, _, _, htt, _⟩
        · exact this
        · rw [htt]; exact this
      · exact ih h.2 (fun x hx => ht x (List.mem_cons_of_mem _ hx)) e he ho

theorem deducePid_maps {k : Nat} {es : List Ev} (hok : ∀ e ∈ es, EvOk e) (ht : ∀ e ∈ es, isOf k e = true → e.time = 0) :
    ∃ es', deducePid k es = some es' ∧ ChangedS (· = k) es es' ∧ go none [] (mapsOf k es) = some (mapsOf k es') := by
  obtain ⟨r, hr, hd, hc⟩ := deducePid_spec k hok
  refine ⟨_, hd, hc, ?_⟩
  have hg := gather_all k es false ht
  rw [hg] at hr
  rw [hr]
  obtain ⟨r', hr', hch⟩ := go_spec (mapsOf k es) none [] (fun it hit => by
    rw [← hg] at hit
    obtain ⟨e, he, h1, h2, -⟩ := gather_mem (mask_allOf k es false) it hit
    have := hok e he it.1 h1
    unfold ItemOk
    rw [← h2]
    exact this) (by simp) trivial
  rw [hr] at hr'
  have : r = r' := Option.some.inj hr'
  subst this
  have facts : ∀ {l r : List Item}, ItemsChanged l r → r.length = l.length ∧ ((∀ it ∈ l, it.1.key = k) → ∀ it ∈ r, it.1.key = k) := by
    intro l
    induction l with
    | nil => intro r h; cases r with
      | nil => exact ⟨rfl, fun h => h⟩
      | cons _ _ => exact h.elim
    | cons a l ih => intro r h; cases r with
      | nil => exact h.elim
      | cons b r =>
        obtain ⟨h1, h2⟩ := h
        obtain ⟨i1, i2⟩ := ih h2
        refine ⟨by simp [i1], fun hk it hit => ?_⟩
        rcases List.mem_cons.mp hit with rfl | hit
        · have hak := hk a (List.mem_cons_self ..)
          rcases h1 with rfl | ⟨n, -, -, -, hrel, -⟩
          · exact hak
          · unfold MMap.key at hak ⊢; rw [hrel.pid]; exact hak
        · exact i2 (fun x hx => hk x (List.mem_cons_of_mem _ hx)) it hit
  obtain ⟨f1, f2⟩ := facts (by simpa using hch)
  rw [mapsOf_scatter k es false r ht f1 (f2 ?_)]
  intro it hit
  rw [← hg] at hit
  obtain ⟨e, he, h1, h2, h3⟩ := gather_mem (mask_allOf k es false) it hit
  exact h3

theorem deduce_maps : ∀ (order : List Nat) (k : Nat) (es : List Ev), order.Nodup → (∀ e ∈ es, EvOk e) →
    (∀ e ∈ es, isOf k e = true → e.time = 0) →
    ∃ es', deduceHugePages order es = some es' ∧
      if k ∈ order then go none [] (mapsOf k es) = some (mapsOf k es') else mapsOf k es' = mapsOf k es
  | [], k, es, _, _, _ => ⟨es, rfl, by simp⟩
  | j :: order, k, es, hn, hok, ht => by
    have hn' := List.nodup_cons.mp hn
    by_cases hjk : j = k
    · subst hjk
      obtain ⟨es1, h1, h2, h3⟩ := deducePid_maps hok ht
      obtain ⟨es', h4, h5⟩ := deduce_maps order j es1 hn'.2 (h2.evOk hok) (timesOk_changed h2 ht)
      rw [if_neg hn'.1] at h5
      refine ⟨es', by unfold deduceHugePages; rw [h1]; exact h4, ?_⟩
      rw [if_pos (List.mem_cons_self ..), h3, h5]
    · obtain ⟨r, -, h1, h2⟩ := deducePid_spec j hok
      obtain ⟨es', h4, h5⟩ := deduce_maps order k _ hn'.2 (h2.evOk hok) (timesOk_changed h2 ht)
      refine ⟨es', by unfold deduceHugePages; rw [h1]; exact h4, ?_⟩
      rw [mapsOf_other hjk h2] at h5
      have : (k ∈ j :: order) ↔ k ∈ order := by
        simp only [List.mem_cons]
        exact ⟨fun h => h.resolve_left (Ne.symm hjk), .inr⟩
      simp only [this]
      exact h5

/-- C23: huge pages that fill the gap between two synthesized mappings `a` and `n` of one file, whose offsets
fit, are recognised as a part of this file, wherever the three stand in the process and among the events: each
of them gets the name and identity of the file, and the offset that continues that of `a`. The mappings around
them stay. -/
theorem deduce_fills (order : List Nat) (k : Nat) (es : List Ev) (hn : order.Nodup) (hk : k ∈ order)
    (hok : ∀ e ∈ es, EvOk e) (ht : ∀ e ∈ es, ∀ m, e.mmap = some m → m.key = k → e.time = 0)
    (l1 l2 hs : List Item) (a n : Item) (hm : mapsOf k es = l1 ++ a :: (hs ++ n :: l2))
    (hf : Fills a.1 n.1 (hs.map (·.1))) :
    ∃ es' l1' l2', deduceHugePages order es = some es' ∧
      mapsOf k es' = l1' ++ a :: (hs.map (fun h => (between a.1 n.1 h.1, newSize h.2 h.1.filename n.1.filename)) ++ n :: l2') ∧
      l1'.length = l1.length := by
  have ht' : ∀ e ∈ es, isOf k e = true → e.time = 0 := by
    intro e he ho
    unfold isOf at ho
    cases hx : e.mmap with
    | none => rw [hx] at ho; simp at ho
    | some m => rw [hx] at ho; exact ht e he m hx (by simpa using ho)
  obtain ⟨es', h1, h2⟩ := deduce_maps order k es hn hok ht'
  rw [if_pos hk, hm] at h2
  have hna : isHugePage a.1 = false := by
    cases hc : isHugePage a.1 with
    | false => rfl
    | true => exact absurd ((isHugePage_iff _).mp hc) hf.notHuge
  obtain ⟨r, e1, -, -⟩ := go_append a hna (hs ++ n :: l2) l1 none [] (by rw [h2]; rfl)
  rw [e1, go_fills a.1 n.1 hs n.2 l2 hf, Option.map_map] at h2
  cases hg : go (some n.1) [] l2 with
  | none => rw [hg] at h2; simp at h2
  | some l2' =>
    rw [hg] at h2
    simp only [Option.map_some, Function.comp, Option.some.injEq] at h2
    refine ⟨es', r, l2', h1, h2.symm, ?_⟩
    obtain ⟨es'', h3, -, h4⟩ := deduce_relabels order es hn hok
    rw [h1] at h3
    have : es' = es'' := Option.some.inj h3
    subst this
    -- lengths of the parts agree, because nothing after `a` changes in number
    have len : ∀ {es es' : List Ev}, Changed es es' → (mapsOf k es').length = (mapsOf k es).length := by
      intro es
      induction es with
      | nil => intro es' h; cases es' with
        | nil => rfl
        | cons _ _ => exact h.elim
      | cons e es ih => intro es' h; cases es' with
        | nil => exact h.elim
        | cons e' es' =>
          have := ih h.2
          rcases h.1 with rfl | ⟨m, m', n, ne, g1, g2, -, -, -, -, -, h8, -⟩
          · unfold mapsOf at this ⊢
            simp only [List.filterMap_cons]
            cases e'.mmap.bind fun m => if m.key = k then some (m, e'.size) else none <;> simp [this]
          · have k1 : m'.key = m.key := by unfold MMap.key; rw [h8.pid]
            unfold mapsOf at this ⊢
            simp only [List.filterMap_cons, g1, g2, Option.bind_some, k1]
            by_cases hkk : m.key = k <;> simp [hkk, this]
    have l := len h4
    have l2len : l2'.length = l2.length := by
      obtain ⟨q, hq, hch⟩ := go_spec l2 (some n.1) [] (fun it hit => by
        have hit' : it ∈ gather (mask k false es) es := by
          rw [gather_all k es false ht', hm]
          simp [hit]
        obtain ⟨e, he, g1, g2, -⟩ := gather_mem (mask_allOf k es false) it hit'
        have := hok e he it.1 g1
        unfold ItemOk
        rw [← g2]
        exact this) (by simp) trivial
      rw [hg] at hq
      have : l2' = q := Option.some.inj hq
      subst this
      have lenI : ∀ {l r : List Item}, ItemsChanged l r → r.length = l.length := by
        intro l
        induction l with
        | nil => intro r h; cases r with
          | nil => rfl
          | cons _ _ => exact h.elim
        | cons a l ih => intro r h; cases r with
          | nil => exact h.elim
          | cons b r => simp [ih h.2]
      exact lenI (by simpa using hch)
    rw [← h2, hm] at l
    simp only [List.length_append, List.length_cons, List.length_map, l2len] at l
    omega

/-- `exEvents` contains such huge pages. -/
example : ∃ hs a n, mapsOf 7 exEvents = [] ++ a :: (hs ++ n :: []) ∧ Fills a.1 n.1 (hs.map (·.1)) ∧
    hs.map (fun h => (between a.1 n.1 h.1).pgoff) = [0x1000] := by
  refine ⟨[({ pid := some 7, start := 0x401000, len := 0x200000, filename := ascii "//anon" }, 80)],
    ({ pid := some 7, start := 0x400000, len := 0x1000, filename := ascii "/bin/x" }, 80),
    ({ pid := some 7, start := 0x601000, len := 0x1000, pgoff := 0x201000, filename := ascii "/bin/x", buildId := some (ascii "ab") }, 80),
    by decide +kernel, ⟨rfl, ?_, ⟨ascii "//anon", .inl rfl, by simp⟩, by simp, by simp, ⟨some 7, by simp⟩, by simp [Runs], by simp,
      by simp⟩, by decide +kernel⟩
  intro h
  have := (isHugePage_iff { filename := ascii "/bin/x" }).mpr h
  revert this
  decide +kernel

end Verif.HugePages
