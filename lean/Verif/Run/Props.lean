import Verif.Run.Lemmas
import Verif.Run.Spec

/-!
# Running a command
-/

namespace Verif.Run

theorem same_of_look {t t' : Table} (h : Single t) (h' : Single t') (he : ∀ x, t.look x = t'.look x) : Same t t' := by
  intro s
  constructor
  · intro hm
    have := look_of_mem h hm
    rw [he] at this
    exact look_mem this
  · intro hm
    have := look_of_mem h' hm
    rw [← he] at this
    exact look_mem this

theorem some_of_mem {t : Table} {x : Nat} (h : x ∈ t.map (·.fd)) : (t.look x).isSome := by
  cases hl : t.look x with
  | none => exact absurd h (look_none.1 hl)
  | some _ => rfl

theorem pipe_spec {max : Nat} {r w : End} {t : Table} (hm : t.length + 1 < max) (hs : Single t) :
    ∃ a b, pipe max r w t = some ((a, b), { fd := b, to := w } :: { fd := a, to := r } :: t) ∧ t.look a = none ∧ t.look b = none ∧ a ≠ b ∧
      Single ({ fd := b, to := w } :: { fd := a, to := r } :: t) := by
  obtain ⟨a, h1, h2, h3⟩ := open_spec (to := r) (max := max) (t := t) (by omega) hs
  obtain ⟨b, h4, h5, h6⟩ := open_spec (to := w) (max := max) (t := { fd := a, to := r } :: t) (by simpa using hm) h3
  rw [look_cons] at h5
  have hab : b ≠ a := by
    rintro rfl
    simp at h5
  rw [if_neg hab] at h5
  refine ⟨a, b, ?_, h2, h5, Ne.symm hab, h6⟩
  unfold pipe
  rw [h1]
  simp only
  rw [h4]

/-- What a call comes to, in terms of the descriptors of the child. -/
theorem run_stage {S : System} {t : Table} (h : Usual S.max t) (hf : S.fork = true) (output : Option Bytes) :
    ∃ (c tE tF : Table) (e : Nat), Single c ∧ c.look 1 = some { fd := 1, to := if output.isSome then .outWrite else .null } ∧
      c.look 2 = some { fd := 2, to := .null } ∧ (∀ x, x ≠ 1 → x ≠ 2 → (t.look x).isSome → c.look x = t.look x) ∧
      c.look e = some ⟨e, .errWrite, true⟩ ∧ (∀ x s, c.look x = some s → s.to = .errWrite → x = e) ∧
      Same t tF ∧ (output = none → tE = tF) ∧
      runCommand S output t =
        (let r : Bytes × Bytes × Ended := match S.exec with
          | none => (flow (onExec c) .outWrite S.writes, flow (onExec c) .errWrite S.writes, S.ended)
          | some n => (flow c .outWrite [(e, toLE 4 n)], flow c .errWrite [(e, toLE 4 n)], .exited 1)
        if r.2.1 ≠ [] then .returned (-1) (some (leNat (r.2.1.take 4))) output tE
        else .returned (exitStatus r.2.2) (some 0) (output.map (fun old => readFromFd S.sched r.1 old)) tF) := by
  obtain ⟨hs, h1, h2, hown, hroom⟩ := h
  have h1 := some_of_mem h1
  have h2 := some_of_mem h2
  have notErr : ∀ x s, t.look x = some s → s.to ≠ .errWrite := by
    intro x s hx he
    obtain ⟨k, hk⟩ := hown s (look_mem hx)
    rw [hk] at he
    cases he
  have ne_of : ∀ {a b : Nat}, t.look a = none → (t.look b).isSome → a ≠ b := by
    rintro a b ha hb rfl
    rw [ha] at hb
    simp at hb
  cases output with
  | none =>
    obtain ⟨a, b, p1, p2, p3, p4, p5⟩ := pipe_spec (r := .errRead) (w := .errWrite) (max := S.max) (t := t) (by omega) hs
    have a1 := ne_of p2 h1
    have a2 := ne_of p2 h2
    have b1 := ne_of p3 h1
    have b2 := ne_of p3 h2
    obtain ⟨tt, htt⟩ : ∃ tt : Table, tt = { fd := b, to := .errWrite } :: { fd := a, to := .errRead } :: t := ⟨_, rfl⟩
    have ltt : ∀ x, tt.look x = if x = b then some { fd := b, to := .errWrite } else if x = a then some { fd := a, to := .errRead } else t.look x := by
      intro x; rw [htt, look_cons, look_cons]
    rw [← htt] at p1 p5
    have hc : closeOnExec b tt = some (marked b tt) := if_pos (by rw [ltt, if_pos rfl]; rfl)
    obtain ⟨m, hm⟩ : ∃ m, m = marked b tt := ⟨_, rfl⟩
    have sm : Single m := hm ▸ single_marked p5
    have lm : ∀ x, m.look x = if x = b then some ⟨b, .errWrite, true⟩ else if x = a then some { fd := a, to := .errRead } else t.look x := by
      intro x
      rw [hm, look_marked, ltt]
      by_cases hb : x = b
      · simp [hb]
      · rw [if_neg hb, if_neg hb]
        by_cases ha : x = a
        · simp [ha, p4]
        · rw [if_neg ha]
          cases hx : t.look x with
          | none => rfl
          | some s =>
            have := look_fd hx
            rw [Option.map_some, if_neg (by omega)]
    have hlen : m.length = t.length + 2 := by rw [hm, marked, List.length_map, htt]; simp
    obtain ⟨c, c1, c2, c3⟩ := child_spec (max := S.max) (p := ⟨none, (a, b)⟩) (t := m) sm (by omega)
      (by rw [lm, if_neg (Ne.symm b1), if_neg (Ne.symm a1)]; exact h1) (by rw [lm, if_neg (Ne.symm b2), if_neg (Ne.symm a2)]; exact h2) a1 a2
      (by rw [lm, if_neg p4, if_pos rfl]; rfl) (by intro o ho; cases ho)
    simp only [Option.isSome_none, Bool.false_eq_true, if_false, reduceCtorEq, false_and, exists_false, or_false] at c3
    have k1 : closeFd b m = some (without b m) := close_eq (by rw [lm, if_pos rfl]; rfl)
    have k2 : closeFd a (without b m) = some (without a (without b m)) := close_eq (by rw [look_without, if_neg p4, lm, if_neg p4, if_pos rfl]; rfl)
    have same : Same t (without a (without b m)) := same_of_look hs (single_filter (single_filter sm)) (by
      intro x
      rw [look_without, look_without, lm]
      by_cases ha : x = a
      · rw [if_pos ha, ha, p2]
      · rw [if_neg ha]
        by_cases hb : x = b
        · rw [if_pos hb, hb, p3]
        · rw [if_neg hb, if_neg hb, if_neg ha])
    refine ⟨c, without a (without b m), without a (without b m), b, c2, ?_, ?_, ?_, ?_, ?_, same, fun _ => rfl, ?_⟩
    · rw [c3]; simp
    · rw [c3]; simp
    · intro x x1 x2 hx
      rw [c3, if_neg x2, if_neg x1, lm]
      rw [if_neg (fun e => (ne_of p2 hx) e.symm), if_neg (fun e => (ne_of p3 hx) e.symm), if_neg (fun e => (ne_of p2 hx) e.symm)]
    · rw [c3, if_neg b2, if_neg b1, if_neg (Ne.symm p4), lm, if_pos rfl]
    · intro x s hx hse
      rw [c3] at hx
      by_cases x2 : x = 2
      · rw [if_pos x2] at hx; cases hx; cases hse
      · rw [if_neg x2] at hx
        by_cases x1 : x = 1
        · rw [if_pos x1] at hx; cases hx; cases hse
        · rw [if_neg x1] at hx
          by_cases xa : x = a
          · rw [if_pos xa] at hx; cases hx
          · rw [if_neg xa, lm] at hx
            by_cases xb : x = b
            · exact xb
            · rw [if_neg xb, if_neg xa] at hx
              exact absurd hse (notErr _ _ hx)
    · unfold runCommand
      simp only
      rw [p1]
      simp only
      rw [hc, ← hm]
      simp only [hf, Bool.true_eq_false, if_false]
      unfold childDoes
      rw [c1]
      simp only
      rw [k1]
      simp only
      rw [k2]
      cases S.exec <;> rfl
  | some old =>
    obtain ⟨u, v, q1, q2, q3, q4, q5⟩ := pipe_spec (r := .outRead) (w := .outWrite) (max := S.max) (t := t) (by omega) hs
    have u1 := ne_of q2 h1
    have u2 := ne_of q2 h2
    have v1 := ne_of q3 h1
    have v2 := ne_of q3 h2
    obtain ⟨t0, ht0⟩ : ∃ tt : Table, tt = { fd := v, to := .outWrite } :: { fd := u, to := .outRead } :: t := ⟨_, rfl⟩
    have lt0 : ∀ x, t0.look x = if x = v then some { fd := v, to := .outWrite } else if x = u then some { fd := u, to := .outRead } else t.look x := by
      intro x; rw [ht0, look_cons, look_cons]
    have len0 : t0.length = t.length + 2 := by rw [ht0]; simp
    rw [← ht0] at q1 q5
    obtain ⟨a, b, p1, p2, p3, p4, p5⟩ := pipe_spec (r := .errRead) (w := .errWrite) (max := S.max) (t := t0) (by omega) q5
    have ne0 : ∀ {a b : Nat}, t0.look a = none → (t0.look b).isSome → a ≠ b := by
      rintro a b ha hb rfl
      rw [ha] at hb
      simp at hb
    have o1 : (t0.look 1).isSome := by rw [lt0, if_neg (Ne.symm v1), if_neg (Ne.symm u1)]; exact h1
    have o2 : (t0.look 2).isSome := by rw [lt0, if_neg (Ne.symm v2), if_neg (Ne.symm u2)]; exact h2
    have ou : (t0.look u).isSome := by rw [lt0, if_neg q4, if_pos rfl]; rfl
    have ov : (t0.look v).isSome := by rw [lt0, if_pos rfl]; rfl
    have a1 := ne0 p2 o1
    have a2 := ne0 p2 o2
    have b1 := ne0 p3 o1
    have b2 := ne0 p3 o2
    have au := ne0 p2 ou
    have av := ne0 p2 ov
    have bu := ne0 p3 ou
    have bv := ne0 p3 ov
    have pa : t.look a = none := by rw [lt0, if_neg av, if_neg au] at p2; exact p2
    have pb : t.look b = none := by rw [lt0, if_neg bv, if_neg bu] at p3; exact p3
    obtain ⟨tt, htt⟩ : ∃ tt : Table, tt = { fd := b, to := .errWrite } :: { fd := a, to := .errRead } :: t0 := ⟨_, rfl⟩
    have ltt : ∀ x, tt.look x = if x = b then some { fd := b, to := .errWrite } else if x = a then some { fd := a, to := .errRead } else t0.look x := by
      intro x; rw [htt, look_cons, look_cons]
    rw [← htt] at p1 p5
    have hc : closeOnExec b tt = some (marked b tt) := if_pos (by rw [ltt, if_pos rfl]; rfl)
    obtain ⟨m, hm⟩ : ∃ m, m = marked b tt := ⟨_, rfl⟩
    have sm : Single m := hm ▸ single_marked p5
    have lm : ∀ x, m.look x = if x = b then some ⟨b, .errWrite, true⟩ else if x = a then some { fd := a, to := .errRead } else t0.look x := by
      intro x
      rw [hm, look_marked, ltt]
      by_cases hb : x = b
      · simp [hb]
      · rw [if_neg hb, if_neg hb]
        by_cases ha : x = a
        · simp [ha, p4]
        · rw [if_neg ha]
          cases hx : t0.look x with
          | none => rfl
          | some s =>
            have := look_fd hx
            rw [Option.map_some, if_neg (by omega)]
    have hlen : m.length = t.length + 4 := by rw [hm, marked, List.length_map, htt]; simp; omega
    obtain ⟨c, c1, c2, c3⟩ := child_spec (max := S.max) (p := ⟨some (u, v), (a, b)⟩) (t := m) sm (by omega)
      (by rw [lm, if_neg (Ne.symm b1), if_neg (Ne.symm a1)]; exact o1) (by rw [lm, if_neg (Ne.symm b2), if_neg (Ne.symm a2)]; exact o2) a1 a2
      (by rw [lm, if_neg p4, if_pos rfl]; rfl) (by
        intro o ho
        cases ho
        refine ⟨u1, u2, v1, v2, Ne.symm au, Ne.symm av, q4, ?_, ?_⟩
        · show (m.look u).isSome
          rw [lm, if_neg (Ne.symm bu), if_neg (Ne.symm au)]; exact ou
        · show (m.look v).map _ = _
          rw [lm, if_neg (Ne.symm bv), if_neg (Ne.symm av), lt0, if_pos rfl]; rfl)
    simp only [Option.isSome_some, if_true, Option.some.injEq, exists_eq_left'] at c3
    have k1 : closeFd b m = some (without b m) := close_eq (by rw [lm, if_pos rfl]; rfl)
    have k2 : closeFd v (without b m) = some (without v (without b m)) := close_eq (by
      rw [look_without, if_neg (Ne.symm bv), lm, if_neg (Ne.symm bv), if_neg (Ne.symm av)]; exact ov)
    have k3 : closeFd a (without v (without b m)) = some (without a (without v (without b m))) := close_eq (by
      rw [look_without, if_neg av, look_without, if_neg p4, lm, if_neg p4, if_pos rfl]; rfl)
    have k4 : closeFd u (without a (without v (without b m))) = some (without u (without a (without v (without b m)))) := close_eq (by
      rw [look_without, if_neg (Ne.symm au), look_without, if_neg q4, look_without, if_neg (Ne.symm bu), lm, if_neg (Ne.symm bu), if_neg (Ne.symm au)]
      exact ou)
    have same : Same t (without u (without a (without v (without b m)))) :=
      same_of_look hs (single_filter (single_filter (single_filter (single_filter sm)))) (by
        intro x
        rw [look_without, look_without, look_without, look_without, lm, lt0]
        by_cases hu : x = u
        · rw [if_pos hu, hu, q2]
        · rw [if_neg hu]
          by_cases ha : x = a
          · rw [if_pos ha, ha, pa]
          · rw [if_neg ha]
            by_cases hv : x = v
            · rw [if_pos hv, hv, q3]
            · rw [if_neg hv]
              by_cases hb : x = b
              · rw [if_pos hb, hb, pb]
              · rw [if_neg hb, if_neg hb, if_neg ha, if_neg hv, if_neg hu])
    refine ⟨c, without a (without v (without b m)), without u (without a (without v (without b m))), b, c2, ?_, ?_, ?_, ?_, ?_, same, nofun, ?_⟩
    · rw [c3]; simp
    · rw [c3]; simp
    · intro x x1 x2 hx
      have xa : x ≠ a := fun e => (ne_of pa hx) e.symm
      have xb : x ≠ b := fun e => (ne_of pb hx) e.symm
      have xu : x ≠ u := fun e => (ne_of q2 hx) e.symm
      have xv : x ≠ v := fun e => (ne_of q3 hx) e.symm
      rw [c3, if_neg x2, if_neg x1, if_neg (by rintro (h | h) <;> contradiction), lm, if_neg xb, if_neg xa, lt0, if_neg xv, if_neg xu]
    · rw [c3, if_neg b2, if_neg b1, if_neg (by rintro (h | h); exact p4 h.symm; exact bu h), lm, if_pos rfl]
    · intro x s hx hse
      rw [c3] at hx
      by_cases x2 : x = 2
      · rw [if_pos x2] at hx; cases hx; cases hse
      · rw [if_neg x2] at hx
        by_cases x1 : x = 1
        · rw [if_pos x1] at hx; cases hx; cases hse
        · rw [if_neg x1] at hx
          by_cases xa : x = a ∨ x = u
          · rw [if_pos xa] at hx; cases hx
          · rw [if_neg xa, lm] at hx
            by_cases xb : x = b
            · exact xb
            · rw [if_neg xb, if_neg (fun h => xa (Or.inl h)), lt0] at hx
              by_cases xv : x = v
              · rw [if_pos xv] at hx; cases hx; cases hse
              · rw [if_neg xv, if_neg (fun h => xa (Or.inr h))] at hx
                exact absurd hse (notErr _ _ hx)
    · unfold runCommand
      simp only
      rw [q1]
      simp only [Option.map_some]
      rw [p1]
      simp only
      rw [hc, ← hm]
      simp only [hf, Bool.true_eq_false, if_false]
      unfold childDoes
      rw [c1]
      simp only
      rw [k1]
      simp only
      rw [k2]
      simp only
      rw [k3]
      simp only
      rw [k4]
      cases S.exec <;> rfl

/-- C124: a command that can be run: the output is what was there before and what the command prints, whichever way it comes; nothing that it writes elsewhere gets into it. The status is that of the
command, and the same descriptors are open as before. -/
theorem command_ran {S : System} {t : Table} (h : Usual S.max t) (hf : S.fork = true) (he : S.exec = none)
    (hw : ∀ w ∈ S.writes, w.1 ∈ t.map (·.fd)) (output : Option Bytes) :
    ∃ t', runCommand S output t = .returned (exitStatus S.ended) (some 0) (output.map (· ++ printed S.writes)) t' ∧ Same t t' := by
  obtain ⟨c, tE, tF, e, c0, c1, c2, c3, c4, c5, c6, -, hr⟩ := run_stage h hf output
  have errs : flow (onExec c) .errWrite S.writes = [] := by
    unfold flow
    rw [List.flatMap_eq_nil_iff]
    intro w _
    rw [if_neg]
    rw [look_exec c0]
    intro hx
    cases hl : c.look w.1 with
    | none => rw [hl] at hx; simp at hx
    | some s =>
      rw [hl] at hx
      cases hcl : s.cloexec with
      | true => simp [Option.filter, hcl] at hx
      | false =>
        simp only [Option.filter, hcl, Bool.not_false, if_true, Option.map_some, Option.some.injEq] at hx
        have := c5 _ _ hl hx
        rw [this, c4] at hl
        cases hl
        cases hcl
  rw [he] at hr
  simp only [errs, ne_eq, not_true_eq_false, if_false] at hr
  refine ⟨tF, ?_, c6⟩
  rw [hr]
  congr 1
  cases output with
  | none => rfl
  | some old =>
    simp only [Option.map_some, Option.some.injEq]
    rw [readFromFd_spec]
    congr 1
    unfold flow printed
    have : ∀ w ∈ S.writes, (if ((onExec c).look w.1).map (·.to) = some .outWrite then w.2 else []) = if w.1 = 1 then w.2 else [] := by
      intro w hm
      rw [look_exec c0]
      by_cases w1 : w.1 = 1
      · rw [if_pos w1, if_pos]
        rw [w1, c1]
        rfl
      · rw [if_neg w1, if_neg]
        by_cases w2 : w.1 = 2
        · rw [w2, c2]
          simp [Option.filter]
        · rw [c3 _ w1 w2 (some_of_mem (hw w hm))]
          intro hx
          cases hl : t.look w.1 with
          | none => rw [hl] at hx; simp at hx
          | some s =>
            rw [hl] at hx
            obtain ⟨k, hk⟩ := h.own s (look_mem hl)
            cases hcl : s.cloexec <;> simp [Option.filter, hcl, hk] at hx
    rw [List.flatMap_def, List.flatMap_def, List.map_congr_left this]

/-- C124: a command that cannot be run: -1 is returned with the error, and the output is left as it is. If no output was asked for, the same
descriptors are open as before. -/
theorem command_missing_partial {S : System} {t : Table} (h : Usual S.max t) (hf : S.fork = true) {n : Nat} (he : S.exec = some n) (hn : n < 2 ^ 32)
    (output : Option Bytes) : ∃ t', runCommand S output t = .returned (-1) (some n) output t' ∧ (output = none → Same t t') := by
  obtain ⟨c, tE, tF, e, -, -, -, -, c4, -, c6, c7, hr⟩ := run_stage h hf output
  have errs : flow c .errWrite [(e, toLE 4 n)] = toLE 4 n := by
    unfold flow
    rw [List.flatMap_cons, List.flatMap_nil, List.append_nil, if_pos]
    rw [c4]
    rfl
  rw [he] at hr
  simp only [errs] at hr
  have hl : (toLE 4 n).length = 4 := by simp
  rw [if_pos (by intro hx; rw [hx] at hl; cases hl), List.take_of_length_le (by omega), leNat_toLE_of_lt (by omega)] at hr
  exact ⟨tE, hr, fun ho => c7 ho ▸ c6⟩

/-- C124: the status is the one promised if the command exits. -/
theorem status_partial (c : Nat) : exitStatus (.exited c) = promised (.exited c) := rfl

/-- A program with four descriptors and with room, one of which `exec` closes. -/
def exTable : Table := [⟨0, .file 0, false⟩, ⟨1, .file 1, false⟩, ⟨2, .file 2, false⟩, ⟨5, .file 3, true⟩]

theorem ex_usual : Usual 16 exTable := ⟨by decide, by decide, by decide, by
  intro s hs
  simp only [exTable, List.mem_cons, List.not_mem_nil, or_false] at hs
  rcases hs with rfl | rfl | rfl | rfl <;> exact ⟨_, rfl⟩, by decide⟩

/-- A command that writes to both, interrupted reads, and pieces. -/
def exSystem : System :=
  { max := 16, fork := true, exec := none, writes := [(1, [65, 66, 67]), (2, [88]), (1, [68])], ended := .exited 3, sched := [none, some 0, none, some 1] }

example : runCommand exSystem (some [64]) exTable = .returned 3 (some 0) (some [64, 65, 66, 67, 68]) exTable ∧ printed exSystem.writes = [65, 66, 67, 68] := by
  constructor <;> decide +kernel

example : ∃ t', runCommand exSystem (some [64]) exTable = .returned 3 (some 0) (some [64, 65, 66, 67, 68]) t' ∧ Same exTable t' :=
  command_ran (S := exSystem) ex_usual rfl rfl (by decide) (some [64])

example : runCommand { exSystem with exec := some 2 } none exTable = .returned (-1) (some 2) none exTable := by decide +kernel

/-- C124 fails if a command that cannot be run is to have its output read: a descriptor stays open each time. It stays open as well, with another one, if there is room for only one
pipe. -/
theorem descriptor_left_violated : (∃ t', runCommand { exSystem with exec := some 2 } (some []) exTable = .returned (-1) (some 2) (some []) t' ∧
      t' = ⟨3, .outRead, false⟩ :: exTable) ∧
    ∃ t', runCommand { exSystem with max := 6 } (some []) exTable = .returned (-1) none (some []) t' ∧ t'.length = exTable.length + 2 := by
  constructor
  · exact ⟨_, by decide +kernel, rfl⟩
  · exact ⟨⟨4, .outWrite, false⟩ :: ⟨3, .outRead, false⟩ :: exTable, by decide +kernel, rfl⟩

/-- C124 fails if the program has no standard output and no standard error, as a daemon has none: what the command prints is lost and what it writes to its standard error is
taken for it. And a command that cannot be run seems to have been run. -/
theorem daemon_violated : runCommand exSystem (some []) [⟨0, .file 0, false⟩] = .returned 3 (some 0) (some [88]) [⟨0, .file 0, false⟩] ∧
    runCommand { exSystem with exec := some 2 } none [⟨0, .file 0, false⟩] = .returned 1 (some 0) none [⟨0, .file 0, false⟩] := by
  constructor <;> decide +kernel

/-- C124 fails for commands that are killed: 0 stands for two of the signals, a number below -1 for most of the others. -/
theorem status_violated : exitStatus (.signaled 15) = 0 ∧ promised (.signaled 15) = -1 ∧ exitStatus (.signaled 9) = -9 ∧
    ∀ s, s ≠ 1 → exitStatus (.signaled s) ≠ promised (.signaled s) := by
  refine ⟨rfl, rfl, rfl, fun s hs => ?_⟩
  show (if s = 15 ∨ s = 2 then (0 : Int) else -s) ≠ -1
  split <;> omega

/-- C124 fails if there can be no more processes: the program ends. -/
theorem fork_violated : runCommand { exSystem with fork := false } none exTable = .ended := by decide +kernel

end Verif.Run
