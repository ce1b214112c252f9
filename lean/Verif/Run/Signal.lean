/-!
# Interrupts while a command runs

`SigintHandler` of `/repo/src/quipper/run_command.cc` and the places where `RunCommand` uses it. The program and the child take their steps in any order, and at any
time an interrupt (SIGINT) can be sent to the program.
-/

namespace Verif.Run

/-- What a process does with an interrupt: it ends, nothing, or it hands the interrupt to the group of the child (`HandleSignal`, `run_command.cc:140-149`). -/
inductive Disp where
  | default
  | ignore
  | forward
deriving DecidableEq, Repr

/-- A call of `RunCommand`. `at'` counts the steps of the program: 1 after the constructor, 2 after `fork`, 3 when the handler is set, 4 when interrupts are let through, 5 after the
destructor. `kid` counts those of the child: 1 after `fork`, 2 when it has a group of its own, 3 when interrupts are let through, 4 after `exec`, 5 when it is over. `told` says whether
an interrupt has come to the child and was not ignored. -/
structure Call where
  disp : Disp
  blocked : Bool := false
  pending : Bool := false
  dead : Bool := false
  at' : Nat := 0
  kid : Nat := 0
  kidDisp : Disp := .default
  kidPending : Bool := false
  told : Bool := false
deriving DecidableEq, Repr

/-- An interrupt that the child does not hold back: it is ignored, or it ends the child if the command is not there yet, or it is given to the command. -/
def Call.toKid (s : Call) : Call :=
  if s.kidDisp = .ignore then s
  else if s.kid = 3 then { s with told := true, kid := 5 }
  else { s with told := true }

/-- An interrupt for the group of the child: there is no such group before the child has made it, nor when the child is over. -/
def Call.toGroup (s : Call) : Call :=
  if s.kid = 2 then { s with kidPending := true }
  else if s.kid = 3 ∨ s.kid = 4 then s.toKid
  else s

/-- An interrupt that the program does not hold back. -/
def Call.deliver (s : Call) : Call :=
  match s.disp with
  | .default => { s with dead := true }
  | .ignore => s
  | .forward => s.toGroup

/-- Whose turn it is. -/
inductive Turn where
  | program
  | child
  | interrupt
deriving DecidableEq, Repr

/-- The next step. The program: the constructor, `run_command.cc:56-68`; `fork`, `run_command.cc:195`; the handler, `run_command.cc:77-84`; letting interrupts through,
`run_command.cc:102-105`; the destructor after `waitpid`, `run_command.cc:108-122`. The child: `setpgid`, `run_command.cc:85-93`; letting interrupts through; `exec`,
`run_command.cc:224`, which keeps what is ignored; the end. -/
def Call.step (s : Call) : Turn → Call
  | .program =>
    if s.dead then s
    else match s.at' with
      | 0 => { s with blocked := true, at' := 1 }
      | 1 => { s with kid := 1, kidDisp := s.disp, at' := 2 }
      | 2 => { s with disp := .forward, at' := 3 }
      | 3 => if s.pending then ({ s with blocked := false, pending := false, at' := 4 } : Call).deliver else { s with blocked := false, at' := 4 }
      | 4 => if s.kid = 5 then { s with disp := .ignore, at' := 5 } else s
      | _ => s
  | .child =>
    match s.kid with
    | 1 => { s with kid := 2 }
    | 2 => if s.kidPending then ({ s with kid := 3, kidPending := false } : Call).toKid else { s with kid := 3 }
    | 3 => { s with kid := 4 }
    | 4 => { s with kid := 5 }
    | _ => s
  | .interrupt => if s.blocked then { s with pending := true } else s.deliver

/-- Any sequence of steps. -/
def Call.run (s : Call) : List Turn → Call
  | [] => s
  | x :: l => (s.step x).run l

/-! ## What holds of every schedule -/

/-- The child has its group, and is not over, whenever the program lets interrupts through. -/
def Orderly (s : Call) : List Turn → Prop
  | [] => True
  | x :: l => (x = .program → s.at' = 3 → 2 ≤ s.kid ∧ s.kid ≤ 4) ∧ Orderly (s.step x) l

/-- What is so in a call that is under way. -/
structure Under (d : Disp) (s : Call) : Prop where
  alive : s.dead = false
  from1 : 1 ≤ s.at'
  upto5 : s.at' ≤ 5
  block : s.blocked = true ↔ s.at' ≤ 3
  disp : s.disp = if s.at' ≤ 2 then d else if s.at' ≤ 4 then .forward else .ignore
  kid0 : s.kid = 0 ↔ s.at' = 1
  kidD : s.kid ≠ 0 → s.kidDisp = d
  kid5 : s.kid ≤ 5
  over : s.at' = 5 → s.kid = 5
  kidP : s.kidPending = true → s.kid = 2
  pend : s.pending = true → s.at' ≤ 3

theorem under_kid {d : Disp} {s : Call} (h : Under d s) (hk : s.kid = 3 ∨ s.kid = 4) : Under d s.toKid := by
  unfold Call.toKid
  split
  · exact h
  · split
    · exact ⟨h.alive, h.from1, h.upto5, h.block, h.disp, ⟨fun e => (by cases e), fun e => (by have := h.kid0.2 e; omega)⟩, fun _ => h.kidD (by omega), Nat.le_refl _, fun _ => rfl,
        fun e => (by have := h.kidP e; omega), h.pend⟩
    · exact ⟨h.alive, h.from1, h.upto5, h.block, h.disp, h.kid0, h.kidD, h.kid5, h.over, h.kidP, h.pend⟩

theorem under_group {d : Disp} {s : Call} (h : Under d s) : Under d s.toGroup := by
  unfold Call.toGroup
  split
  · rename_i h2
    exact ⟨h.alive, h.from1, h.upto5, h.block, h.disp, h.kid0, h.kidD, h.kid5, h.over, fun _ => h2, h.pend⟩
  · split
    · rename_i h3
      exact under_kid h h3
    · exact h

theorem under_deliver {d : Disp} {s : Call} (h : Under d s) (h4 : 4 ≤ s.at') : Under d s.deliver := by
  unfold Call.deliver
  have hd := h.disp
  rw [if_neg (by omega)] at hd
  by_cases h5 : s.at' ≤ 4
  · rw [if_pos h5] at hd
    rw [hd]
    exact under_group h
  · rw [if_neg h5] at hd
    rw [hd]
    exact h

theorem under_step {d : Disp} {s : Call} (h : Under d s) (x : Turn) : Under d (s.step x) := by
  obtain ⟨h1, h2, h3, h4, h5, h6, h7, h8, h9, h10, h11⟩ := id h
  cases x with
  | program =>
    unfold Call.step
    simp only
    rw [if_neg (show ¬ s.dead = true by rw [h1]; decide)]
    have hc : s.at' = 1 ∨ s.at' = 2 ∨ s.at' = 3 ∨ s.at' = 4 ∨ s.at' = 5 := by omega
    rcases hc with e | e | e | e | e
    · rw [e]
      simp only
      rw [if_pos (by omega)] at h5
      exact ⟨h1, by simp, by simp, ⟨fun _ => by simp, fun _ => h4.2 (by omega)⟩, by simp [h5], ⟨fun x => (by cases x), fun x => (by cases x)⟩, fun _ => h5, by simp, fun x => (by cases x),
        fun x => (by have := h10 x; have := h6.2 e; omega), fun _ => by simp⟩
    · rw [e]
      simp only
      exact ⟨h1, by simp, by simp, ⟨fun _ => by simp, fun _ => h4.2 (by omega)⟩, by simp, ⟨fun x => (by have := h6.1 x; omega), fun x => (by cases x)⟩, h7, h8, fun x => (by cases x),
        h10, fun _ => by simp⟩
    · rw [e]
      simp only
      have u : Under d { s with blocked := false, pending := false, at' := 4 } :=
        ⟨h1, by simp, by simp, by simp, by simp [h5, e], ⟨fun x => (by have := h6.1 x; omega), fun x => (by cases x)⟩, h7, h8, fun x => (by cases x), h10, fun x => (by cases x)⟩
      by_cases hp : s.pending = true
      · rw [if_pos hp]
        exact under_deliver u (Nat.le_refl 4)
      · rw [if_neg hp]
        exact ⟨h1, by simp, by simp, by simp, by simp [h5, e], ⟨fun x => (by have := h6.1 x; omega), fun x => (by cases x)⟩, h7, h8, fun x => (by cases x), h10, fun x => (by exact absurd x hp)⟩
    · rw [e]
      simp only
      split
      · rename_i hk
        refine ⟨h1, by simp, by simp, ⟨fun x => ?_, fun x => by simp at x⟩, by simp, ⟨fun x => ?_, fun x => (by cases x)⟩, h7, h8, fun _ => hk, h10, fun x => ?_⟩
        · have := h4.1 x; omega
        · have : s.kid = 0 := x
          omega
        · have := h11 x; omega
      · exact h
    · rw [e]
      exact h
  | child =>
    unfold Call.step
    simp only
    have hc : s.kid = 0 ∨ s.kid = 1 ∨ s.kid = 2 ∨ s.kid = 3 ∨ s.kid = 4 ∨ s.kid = 5 := by omega
    rcases hc with e | e | e | e | e | e
    · rw [e]; exact h
    · rw [e]
      exact ⟨h1, h2, h3, h4, h5, ⟨fun x => (by cases x), fun x => (by have := h6.2 x; omega)⟩, fun _ => h7 (by omega), by simp, fun x => (by have := h9 x; omega), fun _ => rfl, h11⟩
    · rw [e]
      simp only
      have u : Under d { s with kid := 3, kidPending := false } :=
        ⟨h1, h2, h3, h4, h5, ⟨fun x => (by cases x), fun x => (by have := h6.2 x; omega)⟩, fun _ => h7 (by omega), by simp, fun x => (by have := h9 x; omega), fun x => (by cases x), h11⟩
      by_cases hp : s.kidPending = true
      · rw [if_pos hp]
        exact under_kid u (Or.inl rfl)
      · rw [if_neg hp]
        exact ⟨h1, h2, h3, h4, h5, ⟨fun x => (by cases x), fun x => (by have := h6.2 x; omega)⟩, fun _ => h7 (by omega), by simp, fun x => (by have := h9 x; omega), fun x => (by exact absurd x hp), h11⟩
    · rw [e]
      exact ⟨h1, h2, h3, h4, h5, ⟨fun x => (by cases x), fun x => (by have := h6.2 x; omega)⟩, fun _ => h7 (by omega), by simp, fun x => (by have := h9 x; omega), fun x => (by have := h10 x; omega), h11⟩
    · rw [e]
      exact ⟨h1, h2, h3, h4, h5, ⟨fun x => (by cases x), fun x => (by have := h6.2 x; omega)⟩, fun _ => h7 (by omega), by simp, fun _ => rfl, fun x => (by have := h10 x; omega), h11⟩
    · rw [e]; exact h
  | interrupt =>
    unfold Call.step
    simp only
    by_cases hb : s.blocked = true
    · rw [if_pos hb]
      exact ⟨h1, h2, h3, h4, h5, h6, h7, h8, h9, h10, fun _ => h4.1 hb⟩
    · rw [if_neg hb]
      refine under_deliver h ?_
      have : ¬ s.at' ≤ 3 := fun x => hb (h4.2 x)
      omega

theorem under_run {d : Disp} : ∀ (l : List Turn) {s : Call}, Under d s → Under d (s.run l)
  | [], _, h => h
  | x :: l, _, h => under_run l (under_step h x)

/-- A call begins. -/
def begun (d : Disp) : Call := ({ disp := d } : Call).step .program

theorem under_begun (d : Disp) : Under d (begun d) := by
  refine ⟨rfl, (by decide : 1 ≤ 1), (by decide : 1 ≤ 5), ?_, rfl, ?_, ?_, (by decide : 0 ≤ 5), ?_, ?_, ?_⟩
  · exact ⟨fun _ => (by decide : (1 : Nat) ≤ 3), fun _ => rfl⟩
  · exact ⟨fun _ => rfl, fun _ => rfl⟩
  · intro x; exact absurd rfl x
  · intro x; cases (show (1 : Nat) = 5 from x)
  · intro x; cases (show false = true from x)
  · intro x; cases (show false = true from x)

/-- C125: no interrupt ends the program while a command is run, nor after it, in whatever order everything happens, and whatever the program did with interrupts
before. -/
theorem program_survives (d : Disp) (l : List Turn) : ((begun d).run l).dead = false := (under_run l (under_begun d)).alive

/-- C125: after the first command, interrupts do nothing to the program. -/
theorem ignored_after (d : Disp) (l : List Turn) (h : ((begun d).run l).at' = 5) : ((begun d).run l).disp = .ignore := by
  have := (under_run l (under_begun d)).disp
  rw [h] at this
  exact this

/-- An interrupt is on its way to the child or has been there. -/
def Coming (s : Call) : Prop := s.told = true ∨ (s.pending = true ∧ s.at' ≤ 3) ∨ (s.kidPending = true ∧ s.kid = 2)

theorem kid_told {s : Call} (hd : s.kidDisp = .default) : s.toKid.told = true := by
  unfold Call.toKid
  rw [if_neg (by rw [hd]; decide)]
  split <;> rfl

theorem kid_keeps {s : Call} (h : s.told = true) : s.toKid.told = true := by
  unfold Call.toKid
  split
  · exact h
  · split <;> rfl

theorem group_coming {s : Call} (hd : s.kidDisp = .default) (h2 : 2 ≤ s.kid) (h4 : s.kid ≤ 4) : Coming s.toGroup := by
  unfold Call.toGroup
  split
  · rename_i h
    exact Or.inr (Or.inr ⟨rfl, h⟩)
  · rw [if_pos (by omega)]
    exact Or.inl (kid_told hd)

theorem coming_step {s : Call} (u : Under .default s) (hc : Coming s) (x : Turn) (ho : x = .program → s.at' = 3 → 2 ≤ s.kid ∧ s.kid ≤ 4) : Coming (s.step x) := by
  obtain ⟨h1, h2, h3, h4, h5, h6, h7, h8, h9, h10, h11⟩ := id u
  cases x with
  | program =>
    unfold Call.step
    simp only
    rw [if_neg (show ¬ s.dead = true by rw [h1]; decide)]
    have hcase : s.at' = 1 ∨ s.at' = 2 ∨ s.at' = 3 ∨ s.at' = 4 ∨ s.at' = 5 := by omega
    rcases hcase with e | e | e | e | e
    · rw [e]
      rcases hc with hc | ⟨hc, -⟩ | ⟨hc, hk⟩
      · exact Or.inl hc
      · exact Or.inr (Or.inl ⟨hc, by simp⟩)
      · have := h6.2 e; omega
    · rw [e]
      rcases hc with hc | ⟨hc, -⟩ | hc
      · exact Or.inl hc
      · exact Or.inr (Or.inl ⟨hc, by simp⟩)
      · exact Or.inr (Or.inr hc)
    · rw [e]
      simp only
      obtain ⟨k2, k4⟩ := ho rfl e
      have hd : s.disp = .forward := by rw [h5, e]; rfl
      by_cases hp : s.pending = true
      · rw [if_pos hp]
        unfold Call.deliver
        simp only [hd]
        exact group_coming (h7 (by omega)) k2 k4
      · rw [if_neg hp]
        rcases hc with hc | ⟨hc, -⟩ | hc
        · exact Or.inl hc
        · exact absurd hc hp
        · exact Or.inr (Or.inr hc)
    · rw [e]
      simp only
      rcases hc with hc | ⟨hc, hk⟩ | ⟨hc, hk⟩
      · split
        · exact Or.inl hc
        · exact Or.inl hc
      · omega
      · rw [if_neg (by omega)]
        exact Or.inr (Or.inr ⟨hc, hk⟩)
    · rw [e]; exact hc
  | child =>
    unfold Call.step
    simp only
    have hcase : s.kid = 0 ∨ s.kid = 1 ∨ s.kid = 2 ∨ s.kid = 3 ∨ s.kid = 4 ∨ s.kid = 5 := by omega
    have other : s.kid ≠ 2 → ∀ k, Coming { s with kid := k } := by
      intro hk k
      rcases hc with hc | hc | ⟨-, hk'⟩
      · exact Or.inl hc
      · exact Or.inr (Or.inl hc)
      · exact absurd hk' hk
    rcases hcase with e | e | e | e | e | e
    · rw [e]; exact hc
    · rw [e]; exact other (by omega) 2
    · rw [e]
      simp only
      by_cases hp : s.kidPending = true
      · rw [if_pos hp]
        exact Or.inl (kid_told (h7 (by omega)))
      · rw [if_neg hp]
        rcases hc with hc | hc | ⟨hc, -⟩
        · exact Or.inl hc
        · exact Or.inr (Or.inl hc)
        · exact absurd hc hp
    · rw [e]; exact other (by omega) 4
    · rw [e]; exact other (by omega) 5
    · rw [e]; exact hc
  | interrupt =>
    unfold Call.step
    simp only
    by_cases hb : s.blocked = true
    · rw [if_pos hb]
      exact Or.inr (Or.inl ⟨rfl, h4.1 hb⟩)
    · rw [if_neg hb]
      have hn : ¬ s.at' ≤ 3 := fun x => hb (h4.2 x)
      unfold Call.deliver
      rw [if_neg (by omega)] at h5
      by_cases h5' : s.at' ≤ 4
      · rw [if_pos h5'] at h5
        rw [h5]
        show Coming s.toGroup
        unfold Call.toGroup
        split
        · rename_i hk
          exact Or.inr (Or.inr ⟨rfl, hk⟩)
        · split
          · rename_i hk
            exact Or.inl (kid_told (h7 (by omega)))
          · exact hc
      · rw [if_neg h5'] at h5
        rw [h5]
        exact hc

theorem coming_run : ∀ (l : List Turn) {s : Call}, Under .default s → Coming s → Orderly s l → Coming (s.run l)
  | [], _, _, hc, _ => hc
  | x :: l, _, u, hc, ho => coming_run l (under_step u x) (coming_step u hc x ho.1) ho.2

/-- C125: an interrupt that comes at any time between the beginning of a call and the end of the command reaches the command, in whatever order everything happens, if the
child has its group before the program lets interrupts through, and the command is not over by then; and if interrupts are not ignored when the call begins. -/
theorem interrupt_reaches_partial {before after : List Turn} (hk : ((begun .default).run before).kid ≠ 5)
    (ho : Orderly (begun .default) (before ++ .interrupt :: after)) (hend : ((begun .default).run (before ++ .interrupt :: after)).at' = 5) :
    ((begun .default).run (before ++ .interrupt :: after)).told = true := by
  have split_run : ∀ (l m : List Turn) (s : Call), s.run (l ++ m) = (s.run l).run m := by
    intro l
    induction l with
    | nil => intro m s; rfl
    | cons x l ih => intro m s; exact ih m (s.step x)
  have split_ord : ∀ (l m : List Turn) (s : Call), Orderly s (l ++ m) → Orderly s l ∧ Orderly (s.run l) m := by
    intro l
    induction l with
    | nil => intro m s h; exact ⟨trivial, h⟩
    | cons x l ih => intro m s h; exact ⟨⟨h.1, (ih m _ h.2).1⟩, (ih m _ h.2).2⟩
  obtain ⟨o1, -, o3⟩ := split_ord before (.interrupt :: after) _ ho
  -- the group is there when interrupts are let through
  have hgroup : ∀ (l : List Turn) (s : Call), Under .default s → Orderly s l → (4 ≤ s.at' → 2 ≤ s.kid) → 4 ≤ (s.run l).at' → 2 ≤ (s.run l).kid := by
    intro l
    induction l with
    | nil => intro s _ _ h; exact h
    | cons x l ih =>
      intro s u o h
      refine ih (s.step x) (under_step u x) o.2 ?_
      have kk : s.kid ≤ (s.step x).kid := by
        have tk : s.kid ≤ s.toKid.kid := by
          unfold Call.toKid
          have := u.kid5
          split
          · exact Nat.le_refl _
          · split
            · exact u.kid5
            · exact Nat.le_refl _
        have tg : ∀ s : Call, s.kid ≤ 5 → s.kid ≤ s.deliver.kid := by
          intro s h5
          unfold Call.deliver Call.toGroup Call.toKid
          cases s.disp with
          | default => exact Nat.le_refl _
          | ignore => exact Nat.le_refl _
          | forward =>
            simp only
            split
            · exact Nat.le_refl _
            · split
              · split
                · exact Nat.le_refl _
                · split
                  · exact h5
                  · exact Nat.le_refl _
              · exact Nat.le_refl _
        cases x with
        | program =>
          unfold Call.step
          simp only
          rw [if_neg (show ¬ s.dead = true by rw [u.alive]; decide)]
          have hcase : s.at' = 1 ∨ s.at' = 2 ∨ s.at' = 3 ∨ s.at' = 4 ∨ s.at' = 5 := by have := u.from1; have := u.upto5; omega
          rcases hcase with e | e | e | e | e
          · rw [e]; have := u.kid0.2 e; simp; omega
          · rw [e]; exact Nat.le_refl _
          · rw [e]
            simp only
            split
            · exact tg { s with blocked := false, pending := false, at' := 4 } u.kid5
            · exact Nat.le_refl _
          · rw [e]; simp only; split <;> exact Nat.le_refl _
          · rw [e]; exact Nat.le_refl _
        | child =>
          unfold Call.step
          simp only
          have hcase : s.kid = 0 ∨ s.kid = 1 ∨ s.kid = 2 ∨ s.kid = 3 ∨ s.kid = 4 ∨ s.kid = 5 := by have := u.kid5; omega
          rcases hcase with e | e | e | e | e | e
          · rw [e]; simp
          · rw [e]; simp
          · rw [e]
            simp only
            split
            · unfold Call.toKid
              split
              · simp
              · split
                · simp
                · simp
            · simp
          · rw [e]; simp
          · rw [e]; simp
          · rw [e]; simp only; omega
        | interrupt =>
          unfold Call.step
          simp only
          split
          · exact Nat.le_refl _
          · exact tg _ u.kid5
      intro h4
      by_cases h4' : 4 ≤ s.at'
      · have := h h4'; omega
      · -- the step is the one that lets interrupts through
        have ux := under_step u x
        cases x with
        | program =>
          have : s.at' = 3 := by
            unfold Call.step at h4
            simp only at h4
            rw [if_neg (show ¬ s.dead = true by rw [u.alive]; decide)] at h4
            have hcase : s.at' = 1 ∨ s.at' = 2 ∨ s.at' = 3 := by have := u.from1; omega
            rcases hcase with e | e | e
            · rw [e] at h4; exact absurd h4 (by simp)
            · rw [e] at h4; exact absurd h4 (by simp)
            · exact e
          have := (o.1 rfl this).1
          omega
        | child =>
          exfalso
          have : (s.step .child).at' = s.at' := by
            unfold Call.step Call.toKid
            simp only
            split
            · rfl
            · split
              · split
                · rfl
                · split <;> rfl
              · rfl
            · rfl
            · rfl
            · rfl
          omega
        | interrupt =>
          exfalso
          have hb : s.blocked = true := u.block.2 (by omega)
          have : (s.step .interrupt).at' = s.at' := by
            unfold Call.step
            simp only [hb, if_true]
          omega
  have ub := under_begun .default
  have us := under_run before ub
  have hg := hgroup before _ ub o1 (fun h => absurd h (by decide))
  have hcoming : Coming (((begun .default).run before).step .interrupt) := by
    unfold Call.step
    simp only
    by_cases hb : ((begun .default).run before).blocked = true
    · rw [if_pos hb]
      exact Or.inr (Or.inl ⟨rfl, us.block.1 hb⟩)
    · rw [if_neg hb]
      have hn : ¬ ((begun .default).run before).at' ≤ 3 := fun x => hb (us.block.2 x)
      have hd := us.disp
      rw [if_neg (by omega)] at hd
      have h5 : ((begun .default).run before).at' ≤ 4 := by
        have := us.upto5
        have := us.over
        omega
      rw [if_pos h5] at hd
      unfold Call.deliver
      rw [hd]
      have hg2 := hg (by omega)
      have := us.kid5
      exact group_coming (us.kidD (by omega)) hg2 (by omega)
  have uf := under_run (before ++ .interrupt :: after) ub
  have hfin := coming_run after (under_step us .interrupt) hcoming o3
  rw [split_run] at hend uf ⊢
  change (((begun .default).run before).step .interrupt |>.run after).at' = 5 at hend
  change Under .default (((begun .default).run before).step .interrupt |>.run after) at uf
  change (((begun .default).run before).step .interrupt |>.run after).told = true
  rcases hfin with h | ⟨-, h⟩ | ⟨-, h⟩
  · exact h
  · omega
  · have := uf.over hend
    omega

/-- The interrupt comes after `fork`; the child makes its group, and then interrupts are let through. -/
def exTurns : List Turn := [.program, .interrupt, .child, .program, .program, .child, .program]

example : ((begun .default).run exTurns).told = true ∧ ((begun .default).run exTurns).at' = 5 := by decide

example : ((begun .default).run exTurns).told = true :=
  interrupt_reaches_partial (before := [.program]) (after := [.child, .program, .program, .child, .program]) (by decide)
    ⟨by decide, by decide, by decide, by decide, by decide, by decide, by decide, trivial⟩ (by decide)

/-- C125 fails if the child is slow: an interrupt that comes when the program lets interrupts through but the child has no group yet is lost, and the command runs to its end. -/
theorem interrupt_lost_violated : let s := (begun .default).run [.program, .program, .program, .interrupt, .child, .child, .child, .child, .program]
    s.at' = 5 ∧ s.told = false ∧ s.dead = false := by decide

/-- C125 fails for the second command, like `perf inject` after `perf record`: it is started ignoring interrupts, so that interrupts sent while it runs do nothing. -/
theorem second_violated : ((begun .default).run [.program, .child, .program, .child, .program, .child, .child, .program]).disp = .ignore ∧
    let s := (begun .ignore).run [.program, .child, .child, .child, .program, .program, .interrupt, .child, .program]
    s.at' = 5 ∧ s.told = false := by decide

/-- However the second command goes, interrupts do nothing to it. -/
theorem second_never (l : List Turn) : ((begun .ignore).run l).told = false := by
  have key : ∀ (l : List Turn) (s : Call), Under .ignore s → s.told = false → (s.run l).told = false := by
    intro l
    induction l with
    | nil => intro s _ h; exact h
    | cons x l ih =>
      intro s u h
      refine ih _ (under_step u x) ?_
      have tk : ∀ s : Call, s.kidDisp = .ignore → s.told = false → s.toKid.told = false := by
        intro s hs ht
        unfold Call.toKid
        rw [if_pos hs]
        exact ht
      have td : ∀ s : Call, (s.kid ≠ 0 → s.kidDisp = .ignore) → s.told = false → s.deliver.told = false := by
        intro s hs ht
        unfold Call.deliver Call.toGroup
        split
        · exact ht
        · exact ht
        · split
          · exact ht
          · split
            · exact tk s (hs (by omega)) ht
            · exact ht
      cases x with
      | program =>
        unfold Call.step
        simp only
        split
        · exact h
        · split
          · exact h
          · exact h
          · exact h
          · split
            · exact td _ u.kidD h
            · exact h
          · split <;> exact h
          · exact h
      | child =>
        unfold Call.step
        simp only
        split
        · exact h
        · rename_i hk
          split
          · exact tk _ (u.kidD (by omega)) h
          · exact h
        · exact h
        · exact h
        · exact h
      | interrupt =>
        unfold Call.step
        simp only
        split
        · exact h
        · exact td _ u.kidD h
  exact key l _ (under_begun .ignore) (by decide)

end Verif.Run
