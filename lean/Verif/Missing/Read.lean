import Verif.Missing.Walk
import Verif.Whole.Kind

/-!
# What is read has names without NUL and threads of 32 bits
-/

namespace Verif.Missing
open Verif.Buffer Verif.Event Verif.Sample Verif.Attr Verif.Text Verif.Meta Verif.Serial Verif.Data Verif.File Verif.Whole

/-- A message with such a name or such a thread, if any. -/
structure Neat (m : Msg) : Prop where
  name : ∀ b, m.body = .mmap b → (0 : UInt8) ∉ b.filename
  tid : ∀ s, m.body = .sample s → s.tid.getD 0 < 2 ^ 32

theorem cstr_plain {e : RawEvent} {off : Nat} {s : Serial.Bytes} (h : cstr e off = some s) : (0 : UInt8) ∉ s := by
  unfold cstr at h
  split at h
  · simp only at h
    split at h
    · cases h
      intro hc
      have := List.all_takeWhile (p := fun x : UInt8 => x ≠ 0) (l := e.payload.drop (off - 8))
      have := List.all_eq_true.1 this 0 hc
      simp at this
    · cases h
  · cases h

theorem readMMap_plain {env : Serial.Env} {e : RawEvent} {m : Serial.MMap} (h : readMMap env e = some m) : (0 : UInt8) ∉ m.filename := by
  unfold readMMap at h
  simp only [Option.bind_eq_bind, Option.bind_eq_some_iff] at h
  obtain ⟨a, h1, b, -, c, h3, d, h4, f, h5, g, hg, h⟩ := h
  cases h
  exact cstr_plain hg

theorem readMMap2_plain {env : Serial.Env} {e : RawEvent} {m : Serial.MMap} (h : readMMap2 env e = some (some m)) : (0 : UInt8) ∉ m.filename := by
  unfold readMMap2 at h
  simp only [Option.bind_eq_bind, Option.bind_eq_some_iff] at h
  obtain ⟨a, h1, b, -, c, h3, d, h4, f, h5, h⟩ := h
  split at h
  · rw [Option.bind_eq_some_iff] at h
    obtain ⟨n, -, h⟩ := h
    split at h
    · cases h
    · simp only [Option.bind_eq_some_iff] at h
      obtain ⟨x, hx, p, -, q, -, r, hr, h⟩ := h
      cases h
      exact cstr_plain hr
  · simp only [Option.bind_eq_some_iff] at h
    obtain ⟨_, -, _, -, _, -, _, -, p, -, q, -, r, hr, h⟩ := h
    cases h
    exact cstr_plain hr

theorem ends_u32 : Ends u32 fun v => v < 2 ^ 32 := ends_int (n := 4) (by omega)

/-- The thread of a sample as it is read. -/
def Narrow (s : Sample.Sample) : Prop := s.tid < 2 ^ 32

theorem narrow_fields {a : Sample.Attr} {isSample : Bool} {f : Nat} {s : Sample.Sample} (h : Narrow s) : Ends (readFields a isSample f s) Narrow := by
  unfold readFields
  refine Ends.next fun _ => Ends.next fun _ => Ends.next fun _ => Ends.bind (Ends.opt ends_u32 h) fun tid ht => Ends.next fun _ =>
    Ends.next fun _ => Ends.next fun _ => Ends.next fun _ => Ends.next fun _ => Ends.next fun _ =>
    Ends.next fun _ => Ends.next fun _ => ?_
  refine Ends.bind (Q := Narrow) (Ends.opt ?_ ht) fun s1 h1 => ?_
  · split
    · unfold readGroupReadInfo
      exact Ends.next fun _ => Ends.next fun _ => Ends.next fun _ => Ends.ite (fun _ => Ends.abort) fun _ => Ends.guard (Ends.next fun _ => Ends.pure ht)
    · unfold readReadInfo
      exact Ends.next fun _ => Ends.next fun _ => Ends.next fun _ => Ends.next fun _ => Ends.next fun _ => Ends.pure ht
  refine Ends.bind (Q := Narrow) (Ends.opt ?_ h1) fun s2 h2 => Ends.bind (Q := Narrow) (Ends.opt ?_ h2) fun s3 h3 =>
    Ends.bind (Q := Narrow) (Ends.opt ?_ h3) fun s4 h4 => ?_
  · unfold readCallchain
    exact Ends.ite (fun _ => Ends.abort) fun _ => Ends.next fun n => Ends.guard (Ends.next fun l => Ends.pure h1)
  · unfold readRawData
    exact Ends.next fun _ => Ends.next fun _ => Ends.guard (Ends.next fun _ => Ends.next fun _ => Ends.pure h2)
  · unfold readBranchStack
    exact Ends.ite (fun _ => Ends.abort) fun _ => Ends.next fun n => Ends.next fun hw => Ends.guard (Ends.next fun l => Ends.pure h3)
  exact Ends.ite (fun _ => Ends.fail) fun _ => Ends.ite (fun _ => Ends.fail) fun _ => Ends.next fun _ => Ends.next fun _ => Ends.next fun _ =>
    Ends.ite (fun _ => Ends.fail) fun _ => Ends.next fun _ => Ends.next fun _ => Ends.next fun _ => Ends.next fun _ =>
    Ends.ite (fun _ => Ends.fail) fun _ => Ends.pure h4

theorem narrow_info {e : RawEvent} {header : List UInt8} {a : Sample.Attr} {cross : Bool} {s s' : Sample.Sample} (hs : Narrow s)
    (h : readPerfSampleInfo e header a cross s = some (some s')) : Narrow s' := by
  unfold readPerfSampleInfo at h
  split at h
  · cases h
  · split at h
    · cases h
    · cases h
    · rename_i s1 n hd
      split at h
      · cases h
        unfold readPerfSampleFromData at hd
        split at hd
        · cases hd
        · split at hd
          · cases hd
          · simp only at hd
            split at hd
            · cases hd
            · split at hd
              · cases hd; exact hs
              · split at hd
                · cases hd
                · split at hd
                  · cases hd
                  · cases hd
                  · rename_i hf
                    cases hd
                    exact narrow_fields hs _ _ _ hf
      · cases h

theorem readSample_narrow {ser : Attr.Ser} {e : RawEvent} {m : SampleEvent} (h : readSample ser e = some (some m)) : m.tid.getD 0 < 2 ^ 32 := by
  unfold readSample at h
  split at h
  · cases h
  · cases h
  · rename_i s st hi
    have hs : Narrow s := by
      unfold readInfoAndType at hi
      split at hi
      · cases hi
      · cases hi
      · split at hi
        · cases hi
        · cases hi
        · rename_i hp
          cases hi
          exact narrow_info (by unfold Narrow; decide) hp
    split at h
    · cases h
    · split at h
      · cases h
      · simp only at h
        cases h
        simp only [setIf]
        split
        · exact hs
        · exact Nat.two_pow_pos 32

theorem Neat.other {m : Msg} (hm : ∀ b, m.body ≠ .mmap b) (hs : ∀ s, m.body ≠ .sample s) : Neat m :=
  ⟨fun b h => absurd h (hm b), fun s h => absurd h (hs s)⟩

theorem readBody_neat {env : Serial.Env} {ser : Attr.Ser} {e : RawEvent} {b : Body} (h : readBody env ser e = some (some b)) :
    (∀ m, b = .mmap m → (0 : UInt8) ∉ m.filename) ∧ ∀ s, b = .sample s → s.tid.getD 0 < 2 ^ 32 := by
  have other : (∀ m, b ≠ .mmap m) → (∀ s, b ≠ .sample s) →
      (∀ m, b = .mmap m → (0 : UInt8) ∉ m.filename) ∧ ∀ s, b = .sample s → s.tid.getD 0 < 2 ^ 32 :=
    fun hm hs => ⟨fun m h => absurd h (hm m), fun s h => absurd h (hs s)⟩
  have hw : ∀ {α : Type} {x : Option α} {f : α → SampleInfo → Body}, withInfo ser e x f = some (some b) →
      (∀ a i m, f a i ≠ .mmap m) → (∀ a i k, f a i ≠ .sample k) →
      (∀ m, b = .mmap m → (0 : UInt8) ∉ m.filename) ∧ ∀ s, b = .sample s → s.tid.getD 0 < 2 ^ 32 := by
    intro α x f h hm hk
    obtain ⟨a, i, -, rfl⟩ := withInfo_ok h
    exact other (hm a i) (hk a i)
  have hp : ∀ {α : Type} {x : Option α} {f : α → Body}, plain x f = some (some b) →
      (∀ a m, f a ≠ .mmap m) → (∀ a k, f a ≠ .sample k) →
      (∀ m, b = .mmap m → (0 : UInt8) ∉ m.filename) ∧ ∀ s, b = .sample s → s.tid.getD 0 < 2 ^ 32 := by
    intro α x f h hm hk
    obtain ⟨a, -, rfl⟩ := plain_ok h
    exact other (hm a) (hk a)
  unfold readBody at h
  rcases either h with ⟨-, h⟩ | ⟨-, h⟩
  · obtain ⟨s, hs, h2⟩ := Option.map_eq_some_iff.1 h
    obtain ⟨s', rfl, h3⟩ := Option.map_eq_some_iff.1 h2
    subst h3
    exact ⟨fun _ h => (by cases h), fun s h => by cases h; exact readSample_narrow hs⟩
  rcases either h with ⟨-, h⟩ | ⟨-, h⟩
  · obtain ⟨a, i, hx, rfl⟩ := withInfo_ok h
    exact ⟨fun m hm => (by cases hm; have := readMMap_plain hx; exact this), fun _ h => by cases h⟩
  rcases either h with ⟨-, h⟩ | ⟨-, h⟩
  · cases hx : readMMap2 env e with
    | none => rw [hx] at h; cases h
    | some y =>
      cases y with
      | none => rw [hx] at h; cases h
      | some m =>
        rw [hx] at h
        obtain ⟨a, i, ha, rfl⟩ := withInfo_ok h
        cases ha
        exact ⟨fun m hm => (by cases hm; have := readMMap2_plain hx; exact this), fun _ h => by cases h⟩
  rcases either h with ⟨-, h⟩ | ⟨-, h⟩
  · exact hw h (fun _ _ _ h => by cases h) (fun _ _ _ h => by cases h)
  rcases either h with ⟨-, h⟩ | ⟨-, h⟩
  · exact hw h (fun _ _ _ h => by cases h) (fun _ _ _ h => by cases h)
  rcases either h with ⟨-, h⟩ | ⟨-, h⟩
  · exact hw h (fun _ _ _ h => by cases h) (fun _ _ _ h => by cases h)
  rcases either h with ⟨-, h⟩ | ⟨-, h⟩
  · exact hw h (fun _ _ _ h => by cases h) (fun _ _ _ h => by cases h)
  rcases either h with ⟨-, h⟩ | ⟨-, h⟩
  · exact hw h (fun _ _ _ h => by cases h) (fun _ _ _ h => by cases h)
  rcases either h with ⟨-, h⟩ | ⟨-, h⟩
  · exact hw h (fun _ _ _ h => by cases h) (fun _ _ _ h => by cases h)
  rcases either h with ⟨-, h⟩ | ⟨-, h⟩
  · exact hw h (fun _ _ _ h => by cases h) (fun _ _ _ h => by cases h)
  rcases either h with ⟨-, h⟩ | ⟨-, h⟩
  · exact hw h (fun _ _ _ h => by cases h) (fun _ _ _ h => by cases h)
  rcases either h with ⟨-, h⟩ | ⟨-, h⟩
  · exact hw h (fun _ _ _ h => by cases h) (fun _ _ _ h => by cases h)
  rcases either h with ⟨-, h⟩ | ⟨-, h⟩
  · exact hw h (fun _ _ _ h => by cases h) (fun _ _ _ h => by cases h)
  rcases either h with ⟨-, h⟩ | ⟨-, h⟩
  · exact hw h (fun _ _ _ h => by cases h) (fun _ _ _ h => by cases h)
  rcases either h with ⟨-, h⟩ | ⟨-, h⟩
  · exact hw h (fun _ _ _ h => by cases h) (fun _ _ _ h => by cases h)
  rcases either h with ⟨-, h⟩ | ⟨-, h⟩
  · exact hw h (fun _ _ _ h => by cases h) (fun _ _ _ h => by cases h)
  rcases either h with ⟨-, h⟩ | ⟨-, h⟩
  · exact hp h (fun _ _ h => by cases h) (fun _ _ h => by cases h)
  rcases either h with ⟨-, h⟩ | ⟨-, h⟩
  · exact hp h (fun _ _ h => by cases h) (fun _ _ h => by cases h)
  rcases either h with ⟨-, h⟩ | ⟨-, h⟩
  · exact hp h (fun _ _ h => by cases h) (fun _ _ h => by cases h)
  rcases either h with ⟨-, h⟩ | ⟨-, h⟩
  · exact hp h (fun _ _ h => by cases h) (fun _ _ h => by cases h)
  rcases either h with ⟨-, h⟩ | ⟨-, h⟩
  · exact hp h (fun _ _ h => by cases h) (fun _ _ h => by cases h)
  rcases either h with ⟨-, h⟩ | ⟨-, h⟩
  · exact hp h (fun _ _ h => by cases h) (fun _ _ h => by cases h)
  rcases either h with ⟨-, h⟩ | ⟨-, h⟩
  · exact hp h (fun _ _ h => by cases h) (fun _ _ h => by cases h)
  rcases either h with ⟨-, h⟩ | ⟨-, h⟩
  · exact hp h (fun _ _ h => by cases h) (fun _ _ h => by cases h)
  rcases either h with ⟨-, h⟩ | ⟨-, h⟩
  · exact hp h (fun _ _ h => by cases h) (fun _ _ h => by cases h)
  cases h
  exact other (fun _ h => by cases h) (fun _ h => by cases h)

theorem neat_from : FromEvents Neat := by
  refine ⟨fun {env ser e m} he _ h => ?_, fun _ _ hm => ⟨fun _ h => (by cases h), fun _ h => by cases h⟩⟩
  unfold serialize at h
  split at h
  · cases h
  · cases h
  · rename_i hb
    obtain ⟨k1, k2⟩ := readBody_neat hb
    cases h
    exact ⟨k1, k2⟩

/-! ## Huge pages and pieces -/

/-- A mapping with such a name. -/
def Clean (m : HugePages.MMap) : Prop := (0 : UInt8) ∉ m.filename

/-- An event with such a mapping, if any. -/
def EvClean (e : HugePages.Ev) : Prop := ∀ m, e.mmap = some m → Clean m

theorem updateLoop_clean {next : HugePages.MMap} (hn : Clean next) : ∀ (l : List HugePages.Item) (pgoff : Nat),
    (∀ it ∈ l, Clean it.1) → ∀ it ∈ (HugePages.updateLoop next pgoff l).1, Clean it.1
  | [], _, _ => fun _ h => by cases h
  | a :: l, pgoff, h => by
    intro it hit
    simp only [HugePages.updateLoop] at hit
    rcases List.mem_cons.1 hit with rfl | hit
    · unfold HugePages.updateItem
      simp only
      split
      · exact hn
      · exact h _ List.mem_cons_self
    · exact updateLoop_clean hn l _ (fun x hx => h x (List.mem_cons_of_mem _ hx)) it hit

theorem updateRange_clean {first last next : HugePages.MMap} {l l' : List HugePages.Item} (hn : Clean next) (h : ∀ it ∈ l, Clean it.1)
    (hr : HugePages.updateRange first last next l = some l') : ∀ it ∈ l', Clean it.1 := by
  unfold HugePages.updateRange at hr
  simp only at hr
  split at hr
  · cases hr
    exact updateLoop_clean hn l _ h
  · cases hr

theorem go_clean : ∀ (l : List HugePages.Item) (pre : Option HugePages.MMap) (pend l' : List HugePages.Item), (∀ it ∈ l, Clean it.1) →
    (∀ it ∈ pend, Clean it.1) → HugePages.go pre pend l = some l' → ∀ it ∈ l', Clean it.1
  | [], _, pend, l', _, hp, h => by cases h; exact hp
  | a :: l, pre, pend, l', hl, hp, h => by
    have ha : Clean a.1 := hl a List.mem_cons_self
    have hl' : ∀ it ∈ l, Clean it.1 := fun x hx => hl x (List.mem_cons_of_mem _ hx)
    have one : ∀ it ∈ [a], Clean it.1 := fun it hit => by rw [List.mem_singleton.1 hit]; exact ha
    have app : ∀ {x y : List HugePages.Item}, (∀ it ∈ x, Clean it.1) → (∀ it ∈ y, Clean it.1) → ∀ it ∈ x ++ y, Clean it.1 :=
      fun hx hy it hit => (List.mem_append.1 hit).elim (hx it) (hy it)
    unfold HugePages.go at h
    split at h
    · split at h
      · exact go_clean l _ _ _ hl' one h
      · split at h
        · exact go_clean l _ _ _ hl' (app hp one) h
        · obtain ⟨r, h1, h2⟩ := Option.map_eq_some_iff.1 h
          rw [← h2]
          exact app hp (go_clean l _ _ _ hl' one h1)
    · split at h
      · split at h
        · split at h
          · cases h
          · rename_i hu
            obtain ⟨r, h1, h2⟩ := Option.map_eq_some_iff.1 h
            rw [← h2]
            exact app (updateRange_clean ha hp hu) (app one (go_clean l _ [] _ hl' (fun _ h => by cases h) h1))
        · obtain ⟨r, h1, h2⟩ := Option.map_eq_some_iff.1 h
          rw [← h2]
          exact app hp (app one (go_clean l _ [] _ hl' (fun _ h => by cases h) h1))
      · obtain ⟨r, h1, h2⟩ := Option.map_eq_some_iff.1 h
        rw [← h2]
        exact app one (go_clean l _ [] _ hl' (fun _ h => by cases h) h1)

theorem scatter_clean : ∀ (bs : List Bool) (es : List HugePages.Ev) (items : List HugePages.Item),
    (∀ e ∈ es, EvClean e) → (∀ it ∈ items, Clean it.1) → ∀ e ∈ HugePages.scatter bs es items, EvClean e
  | [], es, items, h, _ => h
  | _ :: _, [], items, _, _ => fun _ h => by cases h
  | b :: bs, e :: es, items, h, hi => by
    unfold HugePages.scatter
    have h' : ∀ e ∈ es, EvClean e := fun x hx => h x (List.mem_cons_of_mem _ hx)
    split
    · intro x hx
      rcases List.mem_cons.1 hx with rfl | hx
      · intro m hm
        cases hm
        exact hi _ List.mem_cons_self
      · exact scatter_clean bs es _ h' (fun it hit => hi it (List.mem_cons_of_mem _ hit)) x hx
    · intro x hx
      rcases List.mem_cons.1 hx with rfl | hx
      · exact h _ List.mem_cons_self
      · exact scatter_clean bs es _ h' hi x hx

theorem gather_clean : ∀ (bs : List Bool) (es : List HugePages.Ev), (∀ e ∈ es, EvClean e) → ∀ it ∈ HugePages.gather bs es, Clean it.1
  | [], _, _ => fun _ h => by cases h
  | _ :: _, [], _ => fun _ h => by cases h
  | b :: bs, e :: es, h => by
    have h' : ∀ e ∈ es, EvClean e := fun x hx => h x (List.mem_cons_of_mem _ hx)
    unfold HugePages.gather
    split
    · rename_i hm
      intro it hit
      rcases List.mem_cons.1 hit with rfl | hit
      · exact h _ List.mem_cons_self _ hm
      · exact gather_clean bs es h' it hit
    · exact gather_clean bs es h'

theorem deduce_clean : ∀ (order : List Nat) (es es' : List HugePages.Ev), HugePages.deduceHugePages order es = some es' →
    (∀ e ∈ es, EvClean e) → ∀ e ∈ es', EvClean e
  | [], es, es', h => by cases h; exact fun h => h
  | k :: order, es, es', h => by
    unfold HugePages.deduceHugePages at h
    obtain ⟨mid, h1, h2⟩ := Option.bind_eq_some_iff.1 h
    unfold HugePages.deducePid at h1
    obtain ⟨items, h3, h4⟩ := Option.map_eq_some_iff.1 h1
    have k2 := deduce_clean order mid es' h2
    rw [← h4] at k2
    exact fun hf => k2 (scatter_clean _ es items hf (go_clean _ _ [] _ (gather_clean _ es hf) (fun _ h => by cases h) h3))

theorem combine_clean {es : List HugePages.Ev} (h : ∀ e ∈ es, EvClean e) : ∀ e ∈ HugePages.combineMappings es, EvClean e := by
  refine (combine_all EvClean ?_ es [] [] (fun _ => none) ⟨rfl, fun _ h => by cases h⟩ (fun _ h => by cases h) h).2
  intro prev p m hp hprev e hm he m' hm'
  have hp := hprev p hp
  have he := he m hm
  unfold HugePages.merge at hm'
  split at hm'
  · cases hm'; exact he
  · cases hm'; exact hp

theorem from_neat {l : List Msg} {es : List HugePages.Ev} (hl : ∀ m ∈ l, Neat m) (he : ∀ e ∈ es, EvClean e) : ∀ m ∈ fromHuge l es, Neat m := by
  intro m hm
  unfold fromHuge at hm
  obtain ⟨e, h1, h2⟩ := List.mem_filterMap.1 hm
  obtain ⟨x, h3, rfl⟩ := Option.map_eq_some_iff.1 h2
  have hx := hl x (List.mem_of_getElem? h3)
  unfold putHuge
  split
  · rename_i h b hh hb
    exact ⟨fun b' hb' => (by cases hb'; exact he e h1 h hh), fun s hs => by cases hs⟩
  · exact hx

theorem huge_clean {l : List Msg} (hl : ∀ m ∈ l, Neat m) : ∀ e ∈ views hugeView 0 l, EvClean e := by
  intro e he
  obtain ⟨i, m, h1, -, -, rfl⟩ := views_mem he
  intro h hh
  unfold hugeView at hh
  simp only at hh
  split at hh
  · rename_i b hb
    cases hh
    exact (hl m h1).name b hb
  · cases hh

theorem comb_clean {l : List Msg} (hl : ∀ m ∈ l, Neat m) : ∀ e ∈ views combView 0 l, EvClean e := by
  intro e he
  obtain ⟨i, m, h1, -, -, rfl⟩ := views_mem he
  intro h hh
  unfold combView at hh
  split at hh
  · rename_i b hb
    cases hh
    have := (hl m h1).name b hb
    rw [hb]
    exact this
  · rename_i hb
    have hn : (hugeView i m).mmap = none := by
      unfold hugeView
      simp only
    rw [hn] at hh
    cases hh

theorem deduce_neat {M : Machine} {l l' : List Msg} (h : deduce M l = some l') (hl : ∀ m ∈ l, Neat m) : ∀ m ∈ l', Neat m := by
  unfold deduce at h
  obtain ⟨es', h1, rfl⟩ := Option.map_eq_some_iff.1 h
  exact from_neat hl (deduce_clean _ _ _ h1 (huge_clean hl))

theorem combine_neat {l : List Msg} (hl : ∀ m ∈ l, Neat m) : ∀ m ∈ combine l, Neat m := by
  have e : combine l = fromHuge l (HugePages.combineMappings (views combView 0 l)) := rfl
  rw [e]
  exact from_neat hl (combine_clean (comb_clean hl))

end Verif.Missing
