import Verif.Missing.Props

/-!
# What the parser notes about samples
-/

namespace Verif.Missing
open Verif.Parser (Ev Parsed State Opts At Found PBranch Branch Sample mapIp mapData mapChain mapEntries mapBranches mapSample step loop)

variable {O : Opts} {evs : List Ev}

theorem mapIp_files {pid : Nat} {st st' : State} {ip : Nat} {f : Found} (h : mapIp O evs pid st ip = some (st', f)) :
    st'.files = st.files ∧ ∀ n, f.loc.name = some n → n ∈ st.files := by
  unfold mapIp at h
  split at h
  · cases h
  · split at h
    · cases h
    · cases h
      exact ⟨rfl, fun n hn => by cases hn⟩
    · split at h
      · cases h
      · simp only at h
        split at h
        · rename_i hmem
          cases h
          exact ⟨rfl, fun n hn => by cases hn; exact hmem⟩
        · cases h

theorem mapData_files {pid : Nat} {st st' : State} {a a' : Option Nat} {l : At} (h : mapData O evs pid st a = some (st', a', l)) :
    st'.files = st.files ∧ ∀ n, l.name = some n → n ∈ st.files := by
  unfold mapData at h
  split at h
  · cases h
    exact ⟨rfl, fun n hn => by cases hn⟩
  · split at h
    · cases h
      exact ⟨rfl, fun n hn => by cases hn⟩
    · obtain ⟨⟨s, f⟩, h1, h2⟩ := Option.map_eq_some_iff.1 h
      obtain ⟨k1, k2⟩ := mapIp_files h1
      cases h2
      exact ⟨k1, k2⟩

theorem mapChain_files {pid orig ip : Nat} : ∀ {c : List Nat} {st : State} {r}, mapChain O evs pid orig ip st c = some r →
    r.1.files = st.files ∧ ∀ l ∈ r.2.2.1, ∀ n, l.name = some n → n ∈ st.files
  | [], st, r, h => by
    cases h
    exact ⟨rfl, fun l hl => by cases hl⟩
  | e :: t, st, r, h => by
    rw [mapChain] at h
    by_cases h1 : e ≥ 2 ^ 64 - 4095
    · rw [if_pos h1] at h
      obtain ⟨r', h2, rfl⟩ := Option.map_eq_some_iff.1 h
      have := mapChain_files h2
      exact this
    · rw [if_neg h1] at h
      by_cases h2 : e = orig
      · rw [if_pos h2] at h
        obtain ⟨r', h3, rfl⟩ := Option.map_eq_some_iff.1 h
        have := mapChain_files h3
        exact this
      · rw [if_neg h2] at h
        split at h
        · cases h
        · rename_i st1 f hf
          obtain ⟨r', h3, rfl⟩ := Option.map_eq_some_iff.1 h
          obtain ⟨k1, k2⟩ := mapIp_files hf
          obtain ⟨j1, j2⟩ := mapChain_files h3
          refine ⟨j1.trans k1, fun l hl n hn => ?_⟩
          rcases List.mem_cons.1 hl with rfl | hl
          · exact k2 n hn
          · rw [← k1]; exact j2 l hl n hn

/-- The places of branches. -/
def ends (l : List PBranch) : List At := l.flatMap (fun b => [b.src, b.dst])

theorem mapEntries_files {pid : Nat} : ∀ {c : List Branch} {st : State} {r}, mapEntries O evs pid st c = some r →
    r.1.files = st.files ∧ ∀ l ∈ ends r.2.2.1, ∀ n, l.name = some n → n ∈ st.files
  | [], st, r, h => by
    cases h
    exact ⟨rfl, fun l hl => by cases hl⟩
  | b :: t, st, r, h => by
    rw [mapEntries] at h
    split at h
    · cases h
    · rename_i st1 f hf
      split at h
      · cases h
      · rename_i st2 g hg
        obtain ⟨r', h3, rfl⟩ := Option.map_eq_some_iff.1 h
        obtain ⟨k1, k2⟩ := mapIp_files hf
        obtain ⟨i1, i2⟩ := mapIp_files hg
        obtain ⟨j1, j2⟩ := mapEntries_files h3
        refine ⟨j1.trans (i1.trans k1), fun l hl n hn => ?_⟩
        unfold ends at hl
        rw [List.flatMap_cons] at hl
        rcases List.mem_append.1 hl with hl | hl
        · rcases List.mem_cons.1 hl with rfl | hl
          · exact k2 n hn
          · rcases List.mem_cons.1 hl with rfl | hl
            · rw [← k1]; exact i2 n hn
            · cases hl
        · rw [← k1, ← i1]; exact j2 l hl n hn

theorem mapBranches_files {pid : Nat} {c : List Branch} {st : State} {r} (h : mapBranches O evs pid st c = some r) :
    r.1.files = st.files ∧ ∀ l ∈ ends r.2.2.1, ∀ n, l.name = some n → n ∈ st.files := by
  unfold mapBranches at h
  simp only at h
  split at h
  · cases h
    exact ⟨rfl, fun l hl => by cases hl⟩
  · obtain ⟨r', h3, rfl⟩ := Option.map_eq_some_iff.1 h
    have := mapEntries_files h3
    exact this

theorem mapSample_files {st : State} {s : Sample} {r} (h : mapSample O evs st s = some r) :
    r.1.files = st.files ∧ (∀ n ∈ named r.2.2, n ∈ st.files) ∧ r.2.1.pid = s.pid ∧ r.2.1.tid = s.tid := by
  unfold mapSample at h
  split at h
  · cases h
  · rename_i st1 f h1
    split at h
    · cases h
    · rename_i st2 addr data h2
      split at h
      · cases h
      · rename_i st3 chain locs ok1 h3
        split at h
        · cases h
        · rename_i st4 bs pbs ok2 h4
          cases h
          obtain ⟨a1, a2⟩ := mapIp_files h1
          obtain ⟨b1, b2⟩ := mapData_files h2
          obtain ⟨c1, c2⟩ := mapChain_files h3
          obtain ⟨d1, d2⟩ := mapBranches_files h4
          simp only at c1 c2 d1 d2
          refine ⟨d1.trans (c1.trans (b1.trans a1)), fun n hn => ?_, rfl, rfl⟩
          unfold named at hn
          obtain ⟨l, hl, hln⟩ := List.mem_filterMap.1 hn
          rcases List.mem_cons.1 hl with rfl | hl
          · exact a2 n hln
          · rcases List.mem_cons.1 hl with rfl | hl
            · rw [← a1]; exact b2 n hln
            · rcases List.mem_append.1 hl with hl | hl
              · rw [← a1, ← b1]; exact c2 l hl n hln
              · rw [← a1, ← b1, ← c1]; exact d2 l hl n hln

theorem step_files {i : Nat} {st st' : State} {e e' : Ev} {p : Parsed} (h : step O evs i st e = some (some (st', e', p))) :
    (∀ n ∈ st'.files, n ∈ st.files ∨ isMap e' = true ∧ fileOf e' = n) ∧ (∀ n ∈ named p, n ∈ st.files ∧ ∃ s, e'.sample = some s) ∧
    (∀ s', e'.sample = some s' → ∃ s, e.sample = some s ∧ s'.tid = s.tid) ∧ fileOf e' = fileOf e := by
  have none' : ∀ n ∈ named {}, n ∈ st.files ∧ ∃ s, e'.sample = some s := fun n hn => by cases hn
  unfold step at h
  simp only at h
  split at h
  · cases h
    exact ⟨fun n hn => .inl hn, none', fun s' hs => ⟨s', hs, rfl⟩, rfl⟩
  · split at h
    · split at h
      · cases h
        exact ⟨fun n hn => .inl hn, none', fun s' hs => ⟨s', hs, rfl⟩, rfl⟩
      · rename_i s hs
        obtain ⟨r, h1, h2⟩ := Option.map_eq_some_iff.1 h
        obtain ⟨k1, k2, k3, k4⟩ := mapSample_files h1
        cases h2
        exact ⟨fun n hn => .inl (by rw [k1] at hn; exact hn), fun n hn => ⟨k2 n hn, _, rfl⟩, fun s' hs' => ⟨s, hs, by cases hs'; exact k4⟩, rfl⟩
    · split at h
      · rename_i ht
        obtain ⟨r, h1, h2⟩ := Option.map_eq_some_iff.1 h
        have hf : r.2.filename = (e.mmap.getD {}).filename := by
          unfold Parser.mapMmap at h1
          simp only at h1
          split at h1
          · cases h1
          · split at h1
            · split at h1
              · split at h1
                · split at h1
                  · cases h1
                  · cases h1; rfl
                · cases h1
              · cases h1; rfl
            · cases h1
        cases h2
        refine ⟨fun n hn => ?_, none', fun s' hs => ⟨s', hs, rfl⟩, hf⟩
        simp only at hn
        split at hn
        · exact .inl hn
        · rcases List.mem_cons.1 hn with rfl | hn
          · refine .inr ⟨?_, hf⟩
            unfold isMap
            rcases ht with ht | ht <;> simp [ht]
          · exact .inl hn
      · split at h
        · obtain ⟨r, h1, h2⟩ := Option.map_eq_some_iff.1 h
          unfold Parser.mapFork at h1
          simp only at h1
          cases h2
          split at h1
          · cases h1
            exact ⟨fun n hn => .inl hn, none', fun s' hs => ⟨s', hs, rfl⟩, rfl⟩
          · obtain ⟨r', -, h3⟩ := Option.map_eq_some_iff.1 h1
            cases h3
            exact ⟨fun n hn => .inl hn, none', fun s' hs => ⟨s', hs, rfl⟩, rfl⟩
        · split at h
          · cases h
            exact ⟨fun n hn => .inl hn, none', fun s' hs => ⟨s', hs, rfl⟩, rfl⟩
          · split at h
            · obtain ⟨r, h1, h2⟩ := Option.map_eq_some_iff.1 h
              cases h2
              exact ⟨fun n hn => .inl hn, none', fun s' hs => ⟨s', hs, rfl⟩, rfl⟩
            · split at h
              · cases h
                exact ⟨fun n hn => .inl hn, none', fun s' hs => ⟨s', hs, rfl⟩, rfl⟩
              · split at h
                · cases h
                  exact ⟨fun n hn => .inl hn, none', fun s' hs => ⟨s', hs, rfl⟩, rfl⟩
                · cases h

/-- What the loop notes. -/
theorem loop_files : ∀ {l : List Ev} {i : Nat} {st : State} {c : Bool} {st' : State} {out : List (Ev × Parsed)},
    loop O evs i st l = some (c, st', out) →
    (∀ x ∈ out, ∀ n ∈ named x.2, (n ∈ st.files ∨ ∃ y ∈ out, isMap y.1 = true ∧ fileOf y.1 = n) ∧ ∃ s, x.1.sample = some s) ∧
    (∀ x ∈ out, ∀ s', x.1.sample = some s' → ∃ e ∈ l, ∃ s, e.sample = some s ∧ s'.tid = s.tid) ∧
    (∀ x ∈ out, ∃ e ∈ l, fileOf x.1 = fileOf e)
  | [], _, _, _, _, _, h => by
    cases h
    exact ⟨fun x hx => (by cases hx), fun x hx => (by cases hx), fun x hx => (by cases hx)⟩
  | e :: l, i, st, c, st', out, h => by
    rw [loop] at h
    split at h
    · cases h
    · cases h
      refine ⟨fun x hx n hn => ?_, fun x hx s' hs => ?_, fun x hx => ?_⟩
      · obtain ⟨y, -, rfl⟩ := List.mem_map.1 hx
        cases hn
      · obtain ⟨y, hy, rfl⟩ := List.mem_map.1 hx
        exact ⟨y, hy, s', hs, rfl⟩
      · obtain ⟨y, hy, rfl⟩ := List.mem_map.1 hx
        exact ⟨y, hy, rfl⟩
    · rename_i st1 e' p hs
      obtain ⟨r, h1, h2⟩ := Option.map_eq_some_iff.1 h
      cases h2
      obtain ⟨a1, a2, a3, a4⟩ := step_files hs
      obtain ⟨b1, b2, b3⟩ := loop_files h1
      refine ⟨fun x hx n hn => ?_, fun x hx s' hs' => ?_, fun x hx => ?_⟩
      · rcases List.mem_cons.1 hx with rfl | hx
        · exact ⟨.inl (a2 n hn).1, (a2 n hn).2⟩
        · obtain ⟨k1, k2⟩ := b1 x hx n hn
          refine ⟨?_, k2⟩
          rcases k1 with k1 | ⟨y, hy, k1⟩
          · rcases a1 n k1 with k1 | k1
            · exact .inl k1
            · exact .inr ⟨_, List.mem_cons_self, k1⟩
          · exact .inr ⟨y, List.mem_cons_of_mem _ hy, k1⟩
      · rcases List.mem_cons.1 hx with rfl | hx
        · obtain ⟨s, h3, h4⟩ := a3 s' hs'
          exact ⟨e, List.mem_cons_self, s, h3, h4⟩
        · obtain ⟨e0, h3, h4⟩ := b2 x hx s' hs'
          exact ⟨e0, List.mem_cons_of_mem _ h3, h4⟩
      · rcases List.mem_cons.1 hx with rfl | hx
        · exact ⟨e, List.mem_cons_self, a4⟩
        · obtain ⟨e0, h3, h4⟩ := b3 x hx
          exact ⟨e0, List.mem_cons_of_mem _ h3, h4⟩

end Verif.Missing
