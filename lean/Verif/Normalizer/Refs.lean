import Verif.Normalizer.Props

/-! # The mappings in the callbacks are the mappings the normalizer owns -/

namespace Verif.Normalizer
open Verif.IntervalMap

/-- The mappings a callback carries. -/
def Callback.refs : Callback → List MapRef
  | .comm _ _ => []
  | .mmap _ m => [m]
  | .sample c => c.main.toList ++ c.sampleMap.toList ++ c.addrMap.toList ++ c.callchain.filterMap (·.mapping) ++
      c.branchStack.flatMap (fun b => b.from_.mapping.toList ++ b.to.mapping.toList)

/-- A mapping is the owned one with that pointer; it may have been without a name at the time. -/
def Agrees (o : List Mapping) (x : MapRef) : Prop :=
  ∃ r, o[x.ptr]? = some r ∧ r.start = x.mapping.start ∧ r.limit = x.mapping.limit ∧
    r.fileOffset = x.mapping.fileOffset ∧ r.md5 = x.mapping.md5 ∧ r.buildId = x.mapping.buildId ∧
    (r.filename = x.mapping.filename ∨ (x.mapping.filename = [] ∧ x.mapping.start = 0x400000))

theorem Agrees.grow {a b : List Mapping} (h : Grow a b) {x : MapRef} (hx : Agrees a x) : Agrees b x := by
  obtain ⟨r, h1, h2, h3, h4, h5, h6, h7⟩ := hx
  obtain ⟨r', g1, g2, g3, g4, g5, g6, g7⟩ := h _ _ h1
  refine ⟨r', g1, g2.trans h2, g3.trans h3, g4.trans h4, g5.trans h5, g6.trans h6, ?_⟩
  rcases h7 with e | e
  · rw [← e, ← h2]; exact g7
  · exact .inr e

theorem agrees_ref {st : State} {p : Nat} {x : MapRef} (h : st.ref p = some x) : Agrees st.owned x := by
  unfold State.ref at h
  obtain ⟨r, h1, h2⟩ := Option.map_eq_some_iff.1 h
  subst h2
  exact ⟨r, h1, rfl, rfl, rfl, rfl, rfl, .inl rfl⟩

/-- The owned mappings do not end before they start. -/
def Ranges (o : List Mapping) : Prop := ∀ r ∈ o, r.start < r.limit

/-- A step keeps the owned mappings and reports only owned ones. -/
structure RefStep (st st' : State) (cbs : List Callback) : Prop where
  grow : Grow st.owned st'.owned
  ranges : Ranges st.owned → Ranges st'.owned
  refs : ∀ cb ∈ cbs, ∀ x ∈ cb.refs, Agrees st'.owned x

theorem RefStep.same {st st' : State} (h : st'.owned = st.owned) : RefStep st st' [] :=
  ⟨by rw [h]; exact Grow.refl _, by rw [h]; exact id, by intro cb h; cases h⟩

theorem RefStep.trans {a b c : State} {x y : List Callback} (h : RefStep a b x) (h' : RefStep b c y) : RefStep a c (x ++ y) := by
  refine ⟨h.grow.trans h'.grow, fun e => h'.ranges (h.ranges e), ?_⟩
  intro cb hcb r hr
  rcases List.mem_append.1 hcb with e | e
  · exact (h.refs cb e r hr).grow h'.grow
  · exact h'.refs cb e r hr

theorem renameOld_refs (st : State) (m : MMapEv) (mp : Mapping) :
    Grow st.owned (renameOld st m mp).owned ∧ (Ranges st.owned → Ranges (renameOld st m mp).owned) := by
  unfold renameOld
  split
  · exact ⟨Grow.refl _, id⟩
  · split
    · exact ⟨Grow.refl _, id⟩
    · rename_i o om ho
      split
      · rename_i hc
        refine ⟨Grow.set _ _ _ _ ho hc.2.1 hc.1, ?_⟩
        intro h r hr
        rcases List.mem_or_eq_of_mem_set hr with e | e
        · exact h r e
        · subst e; exact h om (List.mem_of_getElem? ho)
      · exact ⟨Grow.refl _, id⟩

theorem kernelGuess_owned (st : State) (m : MMapEv) (p : Nat) : (kernelGuess st m p).owned = st.owned := by
  unfold kernelGuess; split <;> rfl

theorem guessMain_refs {st st' : State} {m : MMapEv} {mp : Mapping} {p : Nat} (h : guessMain st m mp p = some st') :
    Grow st.owned st'.owned ∧ (Ranges st.owned → Ranges st'.owned) := by
  have hr := renameOld_refs st m mp
  unfold guessMain at h
  split at h
  · cases h; exact ⟨Grow.refl _, id⟩
  · simp only at h
    split at h
    · cases h; rw [kernelGuess_owned]; exact hr
    · split at h
      · cases h
      · cases h; exact hr
      · cases h; rw [kernelGuess_owned]; exact hr

theorem updateMmap_refs {cfg : Config} {st st' : State} {m : MMapEv} {cbs : List Callback}
    (h : updateMmap cfg st m = some (st', cbs)) : RefStep st st' cbs := by
  unfold updateMmap at h
  split at h
  · cases h; exact .same rfl
  · split at h
    · cases h
    · rename_i bid _
      simp only at h
      split at h
      · cases h
      · rename_i im him
        obtain ⟨s, h1, h2⟩ := Option.map_eq_some_iff.1 h
        cases h2
        obtain ⟨g1, g2⟩ := guessMain_refs h1
        have hlt : (mkMapping bid m).start < (mkMapping bid m).limit := by
          unfold IntervalMap.set at him
          split at him
          · assumption
          · cases him
        refine ⟨(Grow.append _ _).trans g1, ?_, ?_⟩
        · intro hr
          apply g2
          intro r hr'
          simp only [List.mem_append, List.mem_singleton] at hr'
          rcases hr' with e | e
          · exact hr r e
          · subst e; exact hlt
        · intro cb hcb x hx
          rw [List.mem_singleton] at hcb
          subst hcb
          rw [Callback.refs, List.mem_singleton] at hx
          subst hx
          exact Agrees.grow g1 ⟨mkMapping bid m, by simp, rfl, rfl, rfl, rfl, rfl, .inl rfl⟩

theorem getOrAddFake_refs (st : State) (comm : Bytes) (bid : BuildId) (md5 start : Nat) (hs : start + 1 < 2 ^ 64) :
    RefStep st (getOrAddFake st comm bid md5 start).1 [] := by
  unfold getOrAddFake
  split
  · exact .same rfl
  · refine ⟨Grow.append _ _, ?_, by intro cb h; cases h⟩
    intro h r hr
    simp only [List.mem_append, List.mem_singleton] at hr
    rcases hr with e | e
    · exact h r e
    · subst e; simp only; rw [Nat.mod_eq_of_lt hs]; omega

theorem mainMapping_refs (st : State) (pid : Nat) (ctx : ACtx) : RefStep st (mainMapping st pid ctx).1 [] := by
  unfold mainMapping
  split
  · exact .same rfl
  · split
    · split
      · exact getOrAddFake_refs _ _ _ _ _ (by decide)
      · split <;> exact .same rfl
    · exact .same rfl

theorem getMapping_refs {st : State} {pid ip : Nat} {ctx : ACtx} {o : Option MapRef} (h : getMapping st pid ip ctx = some o) :
    ∀ x ∈ o.toList, Agrees st.owned x := by
  intro x hx
  unfold getMapping at h
  split at h
  · cases h; cases hx
  · split at h
    · cases h; cases hx
    · simp only at h
      unfold checkFound at h
      split at h
      · cases h; cases hx
      · split at h
        · cases h
        · rename_i r hr
          split at h
          · cases h
            simp only [Option.toList_some, List.mem_singleton] at hx
            subst hx
            exact agrees_ref hr
          · cases h

theorem normChain_refs {st : State} {pid : Nat} (ips : List Nat) : ∀ {ctx : ACtx} {ls : List Loc},
    normChain st pid ctx ips = some ls → ∀ l ∈ ls, ∀ x ∈ l.mapping.toList, Agrees st.owned x := by
  induction ips with
  | nil => intro ctx ls h; cases h; intro l hl; cases hl
  | cons ip t ih =>
    intro ctx ls h
    unfold normChain at h
    simp only at h
    split at h
    · obtain ⟨r, h1, rfl⟩ := Option.map_eq_some_iff.1 h
      intro l hl
      rcases List.mem_cons.1 hl with e | e
      · subst e; intro x hx; cases hx
      · exact ih h1 l e
    · split at h
      · cases h
      · rename_i m hm
        obtain ⟨r, h1, rfl⟩ := Option.map_eq_some_iff.1 h
        intro l hl
        rcases List.mem_cons.1 hl with e | e
        · subst e; exact getMapping_refs hm
        · exact ih h1 l e

theorem normBranches_refs {st : State} {pid : Nat} (bs : List BranchEv) : ∀ {ls : List BranchPair},
    normBranches st pid bs = some ls → ∀ l ∈ ls, ∀ x ∈ l.from_.mapping.toList ++ l.to.mapping.toList, Agrees st.owned x := by
  induction bs with
  | nil => intro ls h; cases h; intro l hl; cases hl
  | cons b t ih =>
    intro ls h
    unfold normBranches at h
    split at h
    · cases h
    · rename_i f hf
      split at h
      · cases h
      · rename_i to hto
        obtain ⟨r, h1, rfl⟩ := Option.map_eq_some_iff.1 h
        intro l hl
        rcases List.mem_cons.1 hl with e | e
        · subst e
          intro x hx
          rcases List.mem_append.1 hx with hx | hx
          · exact getMapping_refs hf x hx
          · exact getMapping_refs hto x hx
        · exact ih h1 l e

theorem handleSample_refs {cfg : Config} {st st' : State} {misc : Option Nat} {s : SampleEv} {spe : Option Spe.Record}
    {cbs : List Callback} (h : handleSample cfg st misc s spe = some (st', cbs)) : RefStep st st' cbs := by
  unfold handleSample at h
  split at h
  · cases h; exact .same rfl
  · rename_i idx _
    simp only at h
    split at h
    · cases h
    · rename_i sm hsm
      split at h
      · cases h
      · rename_i am ham
        have hmm := mainMapping_refs st (s.pid.getD 0) (contextFromHeader misc)
        split at h
        · cases h
        · rename_i chain hch
          split at h
          · cases h
          · rename_i brs hbr
            split at h
            · cases h
            · rename_i sb hsb
              cases h
              refine ⟨hmm.grow, hmm.ranges, ?_⟩
              intro cb hcb x hx
              rw [List.mem_singleton] at hcb
              subst hcb
              have hsm' : ∀ x ∈ sm.toList, Agrees (mainMapping st (s.pid.getD 0) (contextFromHeader misc)).1.owned x :=
                fun x hx => (getMapping_refs hsm x hx).grow hmm.grow
              simp only [Callback.refs, List.mem_append] at hx
              rcases hx with (((hx | hx) | hx) | hx) | hx
              · cases hb : (mainMapping st (s.pid.getD 0) (contextFromHeader misc)).2 with
                | none => rw [hb] at hx; cases hx
                | some p =>
                  rw [hb] at hx
                  simp only [Option.bind_some] at hx
                  exact agrees_ref (Option.mem_toList.1 hx)
              · exact hsm' x hx
              · refine Agrees.grow hmm.grow ?_
                unfold addrMapping at ham
                split at ham
                · exact getMapping_refs ham x hx
                · cases ham; cases hx
              · obtain ⟨l, h1, h2⟩ := List.mem_filterMap.1 hx
                exact normChain_refs _ hch l h1 x (by rw [h2]; simp)
              · obtain ⟨l, h1, h2⟩ := List.mem_flatMap.1 hx
                rcases List.mem_append.1 h1 with h1 | h1
                · exact normBranches_refs _ hbr l h1 x h2
                · unfold speBranch at hsb
                  split at hsb
                  · cases hsb; cases h1
                  · split at hsb
                    · split at hsb
                      · cases hsb
                      · rename_i to hto
                        cases hsb
                        rw [List.mem_singleton] at h1
                        subst h1
                        rcases List.mem_append.1 h2 with h2 | h2
                        · exact hsm' x h2
                        · exact getMapping_refs hto x h2
                    · cases hsb; cases h1

theorem handleRecords_refs {cfg : Config} (rs : List Spe.Record) : ∀ {st st' : State} {cbs : List Callback},
    handleRecords cfg st rs = some (st', cbs) → RefStep st st' cbs := by
  induction rs with
  | nil => intro st st' cbs h; cases h; exact .same rfl
  | cons r t ih =>
    intro st st' cbs h
    unfold handleRecords at h
    split at h
    · cases h
    · rename_i st1 cb h1
      obtain ⟨x, h2, h3⟩ := Option.map_eq_some_iff.1 h
      cases h3
      exact (handleSample_refs h1).trans (ih h2)

theorem handleLost_refs (cfg : Config) (st : State) (l : LostEv) :
    RefStep st (handleLost cfg st l).1 (handleLost cfg st l).2 := by
  unfold handleLost
  split
  · exact .same rfl
  · have hf := getOrAddFake_refs st (ascii "[lost]") ⟨[], .missing⟩ cfg.lostMd5 (9 * 2 ^ 60) (by decide)
    refine ⟨hf.grow, hf.ranges, ?_⟩
    intro cb hcb x hx
    simp only at hcb
    obtain ⟨-, rfl⟩ := List.mem_replicate.1 hcb
    simp only [Callback.refs, Option.toList_none, List.nil_append, List.append_nil, List.filterMap_nil, List.flatMap_nil] at hx
    exact agrees_ref (Option.mem_toList.1 hx)

theorem step_refs {cfg : Config} {st st' : State} {e : Ev} {cbs : List Callback} (h : step cfg st e = some (st', cbs)) :
    RefStep st st' cbs := by
  cases e with
  | mmap m =>
    rw [step, Option.map_eq_some_iff] at h
    obtain ⟨⟨a, b⟩, h1, h2⟩ := h
    cases h2
    have := updateMmap_refs h1
    exact ⟨this.grow, this.ranges, this.refs⟩
  | comm misc c =>
    rw [step] at h
    cases h
    refine ⟨?_, ?_, ?_⟩
    · intro p r hr; refine ⟨r, ?_, rfl, rfl, rfl, rfl, rfl, .inl rfl⟩
      split <;> split <;> exact hr
    · split <;> split <;> exact id
    · intro cb hcb x hx
      rw [List.mem_singleton] at hcb
      subst hcb; cases hx
  | fork pid ppid _ =>
    rw [step] at h; cases h
    apply RefStep.same
    unfold updateFork; split <;> rfl
  | cgroup id path => rw [step] at h; cases h; exact .same rfl
  | lostSamples l =>
    rw [step] at h
    cases hu : cfg.useLostSample with
    | true => rw [hu] at h; simp only [if_true, Option.some.injEq] at h; have := handleLost_refs cfg st l; rw [h] at this; exact this
    | false => rw [hu] at h; cases h; exact .same rfl
  | lost l =>
    rw [step] at h
    cases hu : cfg.useLostSample with
    | false => rw [hu] at h; simp only [Bool.false_eq_true, if_false, Option.some.injEq] at h; have := handleLost_refs cfg st l; rw [h] at this; exact this
    | true => rw [hu] at h; cases h; exact .same rfl
  | sample misc s => exact handleSample_refs h
  | auxtrace data =>
    rw [step] at h
    split at h
    · unfold handleSpe at h
      split at h
      · cases h; exact .same rfl
      · split at h
        · cases h
        · exact handleRecords_refs _ h
    · cases h; exact .same rfl
  | ksymbol type flags addr len name =>
    rw [step] at h
    split at h
    · exact updateMmap_refs h
    · cases h; exact .same rfl
  | auxtraceInfo _ => cases h; exact .same rfl
  | other => cases h; exact .same rfl

theorem run_refs {cfg : Config} (es : List Ev) : ∀ {st st' : State} {cbs : List Callback},
    runFrom cfg st es = some (st', cbs) → RefStep st st' cbs := by
  induction es with
  | nil => intro st st' cbs h; cases h; exact .same rfl
  | cons e t ih =>
    intro st st' cbs h
    unfold runFrom at h
    split at h
    · cases h
    · rename_i st1 cb h1
      obtain ⟨x, h2, h3⟩ := Option.map_eq_some_iff.1 h
      cases h3
      exact (step_refs h1).trans (ih h2)

/-- Whatever the history, there is one list of mappings, none of them empty, such that every mapping handed to the
handler is the one at its pointer, up to a name it got later. -/
theorem process_refs {inp : Input} {cbs : List Callback} (h : process inp = some cbs) :
    ∃ o, Ranges o ∧ ∀ cb ∈ cbs, ∀ x ∈ cb.refs, Agrees o x := by
  unfold process at h
  cases hc : mkConfig inp with
  | none => rw [hc] at h; cases h
  | some cfg =>
    rw [hc] at h
    cases hr : runFrom cfg {} inp.events with
    | none => simp [hr] at h
    | some r =>
      simp [hr] at h
      subst h
      have := run_refs inp.events (cbs := r.2) (st' := r.1) hr
      exact ⟨r.1.owned, this.ranges (by intro r hr; cases hr), this.refs⟩

end Verif.Normalizer
