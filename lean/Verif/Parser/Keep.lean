import Verif.Parser.Model

/-!
# Parsing without remapping changes nothing

For C83, without any condition on the recording.
-/

namespace Verif.Parser
open Verif.HugePages (MMap)

theorem mapIp_keep {O : Opts} (hr : O.remap = false) {evs : List Ev} {pid : Nat} {st st' : State} {ip : Nat} {f : Found}
    (h : mapIp O evs pid st ip = some (st', f)) : f.addr = ip := by
  unfold mapIp at h
  simp only [hr, Bool.false_eq_true, if_false] at h
  split at h
  · cases h
  · split at h
    · cases h
    · cases h; rfl
    · split at h
      · cases h
      · split at h
        · cases h; rfl
        · cases h

theorem mapChain_keep {O : Opts} (hr : O.remap = false) {evs : List Ev} {pid ip : Nat} : ∀ (l : List Nat) (st : State)
    (r : State × List Nat × List At × Bool), mapChain O evs pid ip ip st l = some r → r.2.1 = l
  | [], st, r, h => by cases h; rfl
  | e :: t, st, r, h => by
    simp only [mapChain] at h
    split at h
    · obtain ⟨r', h1, h2⟩ := Option.map_eq_some_iff.1 h
      rw [← h2]; simp only; rw [mapChain_keep hr t _ _ h1]
    · split at h
      · obtain ⟨r', h1, h2⟩ := Option.map_eq_some_iff.1 h
        rename_i he
        rw [← h2]; simp only; rw [mapChain_keep hr t _ _ h1, he]
      · split at h
        · cases h
        · rename_i hm
          obtain ⟨r', h1, h2⟩ := Option.map_eq_some_iff.1 h
          rw [← h2]; simp only; rw [mapChain_keep hr t _ _ h1, mapIp_keep hr hm]

theorem mapEntries_keep {O : Opts} (hr : O.remap = false) {evs : List Ev} {pid : Nat} : ∀ (l : List Branch) (st : State)
    (r : State × List Branch × List PBranch × Bool), mapEntries O evs pid st l = some r → r.2.1 = l
  | [], st, r, h => by cases h; rfl
  | b :: t, st, r, h => by
    simp only [mapEntries] at h
    split at h
    · cases h
    · rename_i hm
      split at h
      · cases h
      · rename_i hm'
        obtain ⟨r', h1, h2⟩ := Option.map_eq_some_iff.1 h
        rw [← h2]; simp only; rw [mapEntries_keep hr t _ _ h1, mapIp_keep hr hm, mapIp_keep hr hm']

theorem mapBranches_keep {O : Opts} (hr : O.remap = false) {evs : List Ev} {pid : Nat} {st : State} {bs : List Branch}
    {r : State × List Branch × List PBranch × Bool} (h : mapBranches O evs pid st bs = some r) : r.2.1 = bs := by
  unfold mapBranches at h
  simp only at h
  split at h
  · cases h; rfl
  · obtain ⟨r', h1, h2⟩ := Option.map_eq_some_iff.1 h
    rw [← h2]; simp only; rw [mapEntries_keep hr _ _ _ h1, List.takeWhile_append_dropWhile]

theorem mapData_keep {O : Opts} (hr : O.remap = false) {evs : List Ev} {pid : Nat} {st : State} {a : Option Nat}
    {r : State × Option Nat × At} (h : mapData O evs pid st a = some r) : r.2.1 = a := by
  cases a with
  | none => cases h; rfl
  | some a =>
    simp only [mapData] at h
    split at h
    · cases h; rfl
    · obtain ⟨r', h1, h2⟩ := Option.map_eq_some_iff.1 h
      rw [← h2]; simp only; rw [mapIp_keep hr (f := r'.2) (st' := r'.1) h1]

theorem mapSample_keep {O : Opts} (hr : O.remap = false) {evs : List Ev} {st : State} {s : Sample}
    {r : State × Sample × Parsed} (h : mapSample O evs st s = some r) : r.2.1 = s := by
  unfold mapSample at h
  split at h
  · cases h
  · rename_i hm
    have e1 := mapIp_keep hr hm
    split at h
    · cases h
    · rename_i hd
      have e2 := mapData_keep hr hd
      split at h
      · cases h
      · rename_i hc
        rw [e1] at hc
        have e3 := mapChain_keep hr _ _ _ hc
        split at h
        · cases h
        · rename_i hb
          have e4 := mapBranches_keep hr hb
          cases h
          simp only at e2 e3 e4 ⊢
          rw [e1, e2, e3, e4]

theorem mapMmap_keep {O : Opts} (hr : O.remap = false) {ms : Nat → Option Mapper} {id : Nat} {k : Bool} {m : MMap}
    {r : (Nat → Option Mapper) × MMap} (h : mapMmap O ms id k m = some r) : r.2 = m := by
  unfold mapMmap at h
  simp only [hr, Bool.false_eq_true, if_false] at h
  split at h
  · cases h
  · split at h
    · cases h; rfl
    · cases h

/-- An event that is a mapping has the payload of one. -/
def Whole (e : Ev) : Prop := e.type = 1 ∨ e.type = 10 → e.mmap ≠ none

theorem step_keep {O : Opts} (hr : O.remap = false) {evs : List Ev} {i : Nat} {st : State} {e : Ev} (hw : Whole e)
    {r : State × Ev × Parsed} (h : step O evs i st e = some (some r)) : r.2.1 = e := by
  unfold step at h
  simp only at h
  split at h
  · cases h; rfl
  · split at h
    · split at h
      · cases h; rfl
      · rename_i s hs
        obtain ⟨r', h1, h2⟩ := Option.map_eq_some_iff.1 h
        cases h2
        simp only
        rw [mapSample_keep hr h1, ← hs]
    · split at h
      · rename_i hm
        obtain ⟨r', h1, h2⟩ := Option.map_eq_some_iff.1 h
        cases h2
        simp only
        rw [mapMmap_keep hr h1]
        have := hw hm
        cases he : e.mmap with
        | none => exact absurd he this
        | some m => simp only [Option.getD_some]; rw [← he]
      · split at h
        · obtain ⟨r', h1, h2⟩ := Option.map_eq_some_iff.1 h
          cases h2; rfl
        · split at h
          · cases h; rfl
          · split at h
            · obtain ⟨r', h1, h2⟩ := Option.map_eq_some_iff.1 h
              cases h2; rfl
            · split at h
              · cases h; rfl
              · split at h
                · cases h; rfl
                · cases h

theorem loop_keep {O : Opts} (hr : O.remap = false) {evs : List Ev} : ∀ (l : List Ev) (i : Nat) (st : State)
    (r : Bool × State × List (Ev × Parsed)), (∀ e ∈ l, Whole e) → loop O evs i st l = some r → r.2.2.map (·.1) = l
  | [], i, st, r, _, h => by cases h; rfl
  | e :: t, i, st, r, hw, h => by
    simp only [loop] at h
    split at h
    · cases h
    · cases h
      simp only [List.map_map]
      exact List.map_id' (e :: t)
    · rename_i hs
      obtain ⟨r', h1, h2⟩ := Option.map_eq_some_iff.1 h
      cases h2
      simp only [List.map_cons]
      have e1 := step_keep hr (hw e List.mem_cons_self) hs
      simp only at e1
      rw [loop_keep hr t _ _ _ (fun x hx => hw x (List.mem_cons_of_mem _ hx)) h1, e1]

theorem putBack_keep : ∀ (l : List Ev), putBack l (l.filter (fun e => e.type ≠ 68)) = l
  | [] => rfl
  | e :: t => by
    by_cases h : e.type = 68
    · rw [List.filter_cons_of_neg (by simpa using h)]
      simp only [putBack, h, if_true]
      rw [putBack_keep t]
    · rw [List.filter_cons_of_pos (by simpa using h)]
      simp only [putBack, h, if_false]
      rw [putBack_keep t]

/-- Without remapping and without discarding, the events stay as they are. -/
theorem parse_keep {O : Opts} (hr : O.remap = false) (hd : O.discard = false) {evs : List Ev} (hw : ∀ e ∈ evs, Whole e)
    {R : Result} (h : parse O evs = some R) : R.events = evs := by
  unfold parse at h
  simp only [hd, Bool.false_eq_true, if_false] at h
  split at h
  · cases h
  · rename_i hl
    have := loop_keep hr _ _ _ _ (fun e he => hw e (List.mem_filter.1 he).1) hl
    cases h
    simp only at this ⊢
    rw [this]
    exact putBack_keep evs

end Verif.Parser
