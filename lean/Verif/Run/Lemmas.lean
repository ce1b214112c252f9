import Verif.Run.Model

/-!
# Lemmas on descriptors and on reading
-/

namespace Verif.Run

/-- No number is there twice. -/
def Single (t : Table) : Prop := (t.map (·.fd)).Nodup

theorem look_cons (s : Slot) (t : Table) (x : Nat) : Table.look (s :: t) x = if x = s.fd then some s else t.look x := by
  unfold Table.look
  rw [List.find?_cons]
  by_cases h : x = s.fd
  · subst h; simp
  · rw [if_neg h]
    have : decide (s.fd = x) = false := by simpa using fun e => h e.symm
    rw [this]

theorem look_fd {t : Table} {x : Nat} {s : Slot} (h : t.look x = some s) : s.fd = x := by
  simpa using List.find?_some h

theorem look_mem {t : Table} {x : Nat} {s : Slot} (h : t.look x = some s) : s ∈ t := List.mem_of_find?_eq_some h

theorem look_of_mem : ∀ {t : Table} {s : Slot}, Single t → s ∈ t → t.look s.fd = some s
  | a :: t, s, hs, hm => by
    rw [look_cons]
    simp only [Single, List.map_cons, List.nodup_cons] at hs
    rcases List.mem_cons.1 hm with rfl | hm
    · simp
    · rw [if_neg, look_of_mem hs.2 hm]
      intro e
      exact hs.1 (e ▸ List.mem_map_of_mem hm)

theorem look_none {t : Table} {x : Nat} : t.look x = none ↔ x ∉ t.map (·.fd) := by
  unfold Table.look
  simp [List.find?_eq_none]

/-- The descriptors without one. -/
def without (fd : Nat) (t : Table) : Table := t.filter (fun s => s.fd ≠ fd)

theorem look_without (fd : Nat) (x : Nat) : ∀ t : Table, (without fd t).look x = if x = fd then none else t.look x
  | [] => by simp [without, Table.look]
  | s :: t => by
    have ih := look_without fd x t
    unfold without at ih ⊢
    rw [List.filter_cons]
    by_cases h : s.fd = fd
    · rw [if_neg (by simpa using h), ih, look_cons]
      by_cases hx : x = fd
      · simp [hx]
      · rw [if_neg hx, if_neg hx, if_neg (by omega)]
    · rw [if_pos (by simpa using h), look_cons, look_cons, ih]
      by_cases hx : x = s.fd
      · rw [if_pos hx, if_neg (by omega), if_pos hx]
      · rw [if_neg hx, if_neg hx]

theorem single_filter {f : Slot → Bool} {t : Table} (h : Single t) : Single (t.filter f) :=
  List.Nodup.sublist (List.Sublist.map _ List.filter_sublist) h

theorem length_without {fd : Nat} {t : Table} : (without fd t).length ≤ t.length := List.length_filter_le _ _

theorem length_without_of {fd : Nat} {t : Table} (h : (t.look fd).isSome) : (without fd t).length < t.length := by
  obtain ⟨s, hs⟩ := Option.isSome_iff_exists.1 h
  unfold without
  exact List.length_filter_lt_length_iff_exists.2 ⟨s, look_mem hs, by simpa using look_fd hs⟩

theorem single_cons {s : Slot} {t : Table} (h : Single t) (hs : t.look s.fd = none) : Single (s :: t) := by
  unfold Single
  rw [List.map_cons, List.nodup_cons]
  exact ⟨look_none.1 hs, h⟩

theorem close_eq {fd : Nat} {t : Table} (h : (t.look fd).isSome) : closeFd fd t = some (without fd t) := if_pos h

theorem lowest_le (t : Table) : lowest t ≤ t.length ∧ t.look (lowest t) = none := by
  unfold lowest
  cases h : (List.range (t.length + 1)).find? (fun n => (t.look n).isNone) with
  | some x =>
    have h1 := List.find?_some h
    have h2 := List.mem_range.1 (List.mem_of_find?_eq_some h)
    simp only [Option.isNone_iff_eq_none] at h1
    exact ⟨by simp; omega, h1⟩
  | none =>
    exfalso
    rw [List.find?_eq_none] at h
    have hsub : List.range (t.length + 1) ⊆ t.map (·.fd) := by
      intro x hx
      have := h x hx
      rw [Option.isNone_iff_eq_none, look_none, Classical.not_not] at this
      exact this
    have := (List.nodup_range (n := t.length + 1)).length_le_of_subset hsub
    rw [List.length_range, List.length_map] at this
    omega

theorem open_spec {max : Nat} {to : End} {t : Table} (hm : t.length < max) (hs : Single t) :
    ∃ n, openTo max to t = some (n, { fd := n, to } :: t) ∧ t.look n = none ∧ Single ({ fd := n, to } :: t) := by
  have h := lowest_le t
  exact ⟨lowest t, if_pos (by omega), h.2, single_cons hs h.2⟩

theorem dup_spec {a b : Nat} {t : Table} {s : Slot} (ha : t.look a = some s) (hab : a ≠ b) (hs : Single t) :
    dup2 a b t = some ({ fd := b, to := s.to } :: without b t) ∧ Single ({ fd := b, to := s.to } :: without b t) := by
  refine ⟨?_, single_cons (single_filter hs) ?_⟩
  · unfold dup2
    rw [ha]
    exact if_neg hab
  · rw [look_without]; simp

/-- The descriptors with one marked to be closed by `exec`. -/
def marked (fd : Nat) (t : Table) : Table := t.map (fun s => if s.fd = fd then { s with cloexec := true } else s)

theorem look_marked (fd x : Nat) : ∀ t : Table, (marked fd t).look x = (t.look x).map (fun s => if s.fd = fd then { s with cloexec := true } else s)
  | [] => rfl
  | s :: t => by
    have ih := look_marked fd x t
    unfold marked at ih ⊢
    rw [List.map_cons, look_cons, look_cons, ih]
    have : (if s.fd = fd then { s with cloexec := true } else s).fd = s.fd := by split <;> rfl
    rw [this]
    split <;> rfl

theorem single_marked {fd : Nat} {t : Table} (h : Single t) : Single (marked fd t) := by
  unfold Single marked
  rw [List.map_map]
  have : ((fun s : Slot => s.fd) ∘ fun s : Slot => if s.fd = fd then { s with cloexec := true } else s) = fun s => s.fd := by
    funext s
    simp only [Function.comp]
    split <;> rfl
  rw [this]
  exact h

theorem look_exec {t : Table} (hs : Single t) (x : Nat) : (onExec t).look x = (t.look x).filter (fun s => !s.cloexec) := by
  cases h : t.look x with
  | none =>
    rw [look_none] at h
    show (onExec t).look x = none
    rw [look_none]
    intro hm
    obtain ⟨s, hm2, rfl⟩ := List.mem_map.1 hm
    exact h (List.mem_map_of_mem (List.mem_filter.1 hm2).1)
  | some s =>
    have hx := look_fd h
    cases hc : s.cloexec with
    | true =>
      have : (onExec t).look x = none := by
        rw [look_none]
        intro hm
        obtain ⟨s', hm, he⟩ := List.mem_map.1 hm
        obtain ⟨h1, h2⟩ := List.mem_filter.1 hm
        have := look_of_mem hs h1
        rw [show s'.fd = x from he, h] at this
        cases this
        simp [hc] at h2
      rw [this]
      simp [Option.filter, hc]
    | false =>
      have : (onExec t).look s.fd = some s := look_of_mem (single_filter hs) (List.mem_filter.2 ⟨look_mem h, by simp [hc]⟩)
      rw [hx] at this
      rw [this]
      simp [Option.filter, hc]

/-- The descriptors of the child. -/
theorem child_spec {max : Nat} {p : Pipes} {t : Table} (hs : Single t) (hm : t.length < max + 1)
    (h1 : (t.look 1).isSome) (h2 : (t.look 2).isSome) (e1 : p.err.1 ≠ 1) (e2 : p.err.1 ≠ 2) (he : (t.look p.err.1).isSome)
    (ho : ∀ o, p.out = some o → o.1 ≠ 1 ∧ o.1 ≠ 2 ∧ o.2 ≠ 1 ∧ o.2 ≠ 2 ∧ o.1 ≠ p.err.1 ∧ o.2 ≠ p.err.1 ∧ o.1 ≠ o.2 ∧ (t.look o.1).isSome ∧
      (t.look o.2).map (·.to) = some .outWrite) :
    ∃ c, child max p t = some c ∧ Single c ∧ ∀ x, c.look x =
      if x = 2 then some { fd := 2, to := .null }
      else if x = 1 then some { fd := 1, to := if p.out.isSome then .outWrite else .null }
      else if x = p.err.1 ∨ (∃ o, p.out = some o ∧ x = o.1) then none else t.look x := by
  unfold child
  simp only
  rw [close_eq he, Option.getD_some]
  have q1 := length_without_of he
  have s1 : Single (without p.err.1 t) := single_filter hs
  cases hp : p.out with
  | none =>
    simp only
    obtain ⟨n, ho, hn, s2⟩ := open_spec (to := .null) (max := max) (t := without p.err.1 t) (by omega) s1
    rw [ho]
    simp only
    rw [look_without] at hn
    have n1 : n ≠ 1 := by
      rintro rfl
      rw [if_neg (Ne.symm e1)] at hn
      rw [hn] at h1
      simp at h1
    have n2 : n ≠ 2 := by
      rintro rfl
      rw [if_neg (Ne.symm e2)] at hn
      rw [hn] at h2
      simp at h2
    have l1 : Table.look (({ fd := n, to := .null } : Slot) :: without p.err.1 t) n = some { fd := n, to := .null } := by rw [look_cons]; simp
    obtain ⟨d1, s3⟩ := dup_spec l1 n1 s2
    rw [d1]
    simp only
    have l2 : Table.look (({ fd := 1, to := End.null } : Slot) :: without 1 (({ fd := n, to := .null } : Slot) :: without p.err.1 t)) n = some { fd := n, to := .null } := by
      rw [look_cons, if_neg n1, look_without, if_neg n1, l1]
    obtain ⟨d2, s4⟩ := dup_spec l2 n2 s3
    rw [d2]
    simp only
    rw [close_eq (by rw [look_cons, if_neg n2, look_without, if_neg n2, l2]; rfl)]
    refine ⟨_, rfl, single_filter s4, fun x => ?_⟩
    simp only [look_without, look_cons]
    by_cases x2 : x = 2
    · subst x2; simp [Ne.symm n2]
    · by_cases x1 : x = 1
      · subst x1; simp [Ne.symm n1]
      · simp only [if_neg x2, if_neg x1]
        by_cases xn : x = n
        · subst xn
          rw [if_pos rfl]
          split
          · rfl
          · rename_i hne
            rw [if_neg (fun h => hne (Or.inl h))] at hn
            exact hn.symm
        · simp only [if_neg xn]
          by_cases xe : x = p.err.1 <;> simp [xe]
  | some o =>
    obtain ⟨o1, o2, o3, o4, o5, o6, o7, o8, o9⟩ := ho o hp
    simp only
    rw [close_eq (by rw [look_without, if_neg o5]; exact o8)]
    simp only
    have s1' : Single (without o.1 (without p.err.1 t)) := single_filter s1
    have q2 : (without o.1 (without p.err.1 t)).length ≤ (without p.err.1 t).length := length_without
    obtain ⟨n, ho, hn, s2⟩ := open_spec (to := .null) (max := max) (t := without o.1 (without p.err.1 t)) (by omega) s1'
    rw [ho]
    simp only
    rw [look_without, look_without] at hn
    have n1 : n ≠ 1 := by
      rintro rfl
      rw [if_neg (Ne.symm o1), if_neg (Ne.symm e1)] at hn
      rw [hn] at h1
      simp at h1
    have n2 : n ≠ 2 := by
      rintro rfl
      rw [if_neg (Ne.symm o2), if_neg (Ne.symm e2)] at hn
      rw [hn] at h2
      simp at h2
    have nw : n ≠ o.2 := by
      rintro rfl
      rw [if_neg (Ne.symm o7), if_neg o6] at hn
      rw [hn] at o9
      simp at o9
    have l1 : Table.look (({ fd := n, to := .null } : Slot) :: without o.1 (without p.err.1 t)) n = some { fd := n, to := .null } := by rw [look_cons]; simp
    obtain ⟨w, hw⟩ : ∃ w, t.look o.2 = some w := by
      cases h : t.look o.2 with
      | none => rw [h] at o9; simp at o9
      | some w => exact ⟨w, rfl⟩
    have hwt : w.to = .outWrite := by rw [hw] at o9; simpa using o9
    have lw : Table.look (({ fd := n, to := .null } : Slot) :: without o.1 (without p.err.1 t)) o.2 = some w := by
      rw [look_cons, if_neg (Ne.symm nw), look_without, if_neg (Ne.symm o7), look_without, if_neg o6, hw]
    obtain ⟨d1, s3⟩ := dup_spec lw o3 s2
    rw [d1]
    simp only
    have l2 : Table.look (({ fd := 1, to := w.to } : Slot) :: without 1 (({ fd := n, to := .null } : Slot) :: without o.1 (without p.err.1 t))) n = some { fd := n, to := .null } := by
      rw [look_cons, if_neg n1, look_without, if_neg n1, l1]
    obtain ⟨d2, s4⟩ := dup_spec l2 n2 s3
    rw [d2]
    simp only
    rw [close_eq (by rw [look_cons, if_neg n2, look_without, if_neg n2, l2]; rfl)]
    refine ⟨_, rfl, single_filter s4, fun x => ?_⟩
    simp only [look_without, look_cons]
    by_cases x2 : x = 2
    · subst x2; simp [Ne.symm n2]
    · by_cases x1 : x = 1
      · subst x1; simp [Ne.symm n1, hwt]
      · simp only [if_neg x2, if_neg x1, Option.some.injEq, exists_eq_left']
        by_cases xn : x = n
        · subst xn
          rw [if_pos rfl]
          split
          · rfl
          · rename_i hne
            rw [if_neg (fun h => hne (Or.inr h)), if_neg (fun h => hne (Or.inl h))] at hn
            exact hn.symm
        · simp only [if_neg xn]
          by_cases xe : x = p.err.1
          · simp [xe]
          · by_cases xo : x = o.1
            · simp [xo]
            · simp [xe, xo]

/-! ## Reading -/

theorem resize_length (n : Nat) (b : Bytes) : (resize n b).length = n := by
  simp [resize]; omega

theorem resize_take {n : Nat} (m : Nat) (b : Bytes) (h : n ≤ b.length) (hm : n ≤ m) : (resize m b).take n = b.take n := by
  unfold resize
  rw [List.take_append_of_le_length (by simp; omega), List.take_take, Nat.min_eq_left hm]

theorem resize_shorter {n : Nat} {b : Bytes} (h : n ≤ b.length) : resize n b = b.take n := by
  unfold resize
  rw [Nat.sub_eq_zero_of_le h]
  simp

theorem readLoop_spec : ∀ (fuel : Nat) (sched : List (Option Nat)) (piped out : Bytes) (off : Nat), off ≤ out.length →
    sched.length + piped.length < fuel → readLoop fuel sched piped out off = out.take off ++ piped
  | 0, _, _, _, _, _, hf => by omega
  | fuel + 1, sched, piped, out, off, ho, hf => by
    have key : ∀ (n : Nat) (sched : List (Option Nat)), n ≤ piped.length → n ≤ 4096 → (n = 0 → piped = []) → sched.length + (piped.length - n) < fuel →
        (if n > 0 then readLoop fuel sched (piped.drop n) (storeAt off (piped.take n) (resize (off + 4096) out)) (off + n) else resize off (resize (off + 4096) out)) =
          out.take off ++ piped := by
      intro n sched hn h4 h0 hf
      have hr := resize_length (off + 4096) out
      by_cases hz : n > 0
      · have hl : (storeAt off (piped.take n) (resize (off + 4096) out)).length = off + 4096 := by
          simp [storeAt, hr]
          omega
        rw [if_pos hz, readLoop_spec fuel sched _ _ _ (by omega) (by simp; omega)]
        unfold storeAt
        rw [List.append_assoc, List.take_append, List.take_append]
        rw [resize_take _ _ ho (by omega)]
        have e1 : (out.take off).length = off := by simp; omega
        have e2 : (piped.take n).length = n := by simp; omega
        rw [e1, e2, show off + n - off = n by omega, Nat.sub_self, List.take_zero, List.append_nil]
        rw [List.take_of_length_le (by omega : (out.take off).length ≤ off + n), List.take_of_length_le (by omega : (piped.take n).length ≤ n)]
        rw [List.append_assoc, List.take_append_drop]
      · rw [if_neg hz, h0 (by omega), List.append_nil]
        have : resize off (resize (off + 4096) out) = (resize (off + 4096) out).take off := resize_shorter (by omega)
        rw [this, resize_take _ _ ho (by omega)]
    unfold readLoop
    simp only
    match sched, hf with
    | none :: sched, hf =>
      simp only
      simp only [List.length_cons] at hf
      rw [readLoop_spec fuel sched piped _ off (by rw [resize_length]; omega) (by omega), resize_take _ _ ho (by omega)]
    | some k :: sched, hf =>
      simp only [List.length_cons] at hf
      refine key _ sched (by omega) (by omega) ?_ (by omega)
      intro h
      exact List.length_eq_zero_iff.1 (by omega)
    | [], hf =>
      simp only [List.length_nil] at hf
      by_cases hp : piped.length = 0
      · have hp' := List.length_eq_zero_iff.1 hp
        subst hp'
        have := key 0 [] (by simp) (by omega) (fun _ => rfl)
        simp only [List.length_nil, Nat.min_zero]
        rw [if_neg (by omega)]
        have hr : resize off (resize (off + 4096) out) = (resize (off + 4096) out).take off := resize_shorter (by rw [resize_length]; omega)
        rw [hr, resize_take _ _ ho (by omega), List.append_nil]
      · refine key _ [] (by omega) (by omega) ?_ (by simp; omega)
        intro h
        exact List.length_eq_zero_iff.1 (by omega)

theorem readFromFd_spec (sched : List (Option Nat)) (piped old : Bytes) : readFromFd sched piped old = old ++ piped := by
  unfold readFromFd
  rw [readLoop_spec _ _ _ _ _ (Nat.le_refl _) (by omega), List.take_length]

end Verif.Run
