import Verif.Converter.Inv
import Verif.Builder.FinalizeLemmas

/-! # From the state of the converter to the profiles -/

namespace Verif.Converter
open Verif.Profile Verif.Builder
open Verif.Normalizer (Bytes Source MapRef Loc BranchPair SampleEv SampleCtx Callback ACtx AttrRec
  contextFromHeader nameOrMd5 upd)

theorem locateSamples_values (ss : List Sample) : ∀ st, (locateSamples st ss).1.map (·.value) = ss.map (·.value) := by
  induction ss with
  | nil => intro st; rfl
  | cons s t ih =>
    intro st
    simp only [locateSamples, List.map_cons, ih]

theorem finalize_values (b : Builder) :
    (finalize b).2.profile.sample.map (·.value) = b.profile.sample.map (·.value) := by
  unfold finalize
  split
  · rfl
  · show (assignMappings (createLocations b.profile)).sample.map _ = _
    have h1 : ∀ p, (assignMappings p).sample = p.sample := by
      intro p; unfold assignMappings; split <;> rfl
    rw [h1]
    unfold createLocations
    split
    · exact locateSamples_values _ _
    · rfl

theorem finalize_id {b : Builder} (hb : BOk b) (hl : b.profile.location ≠ []) : (finalize b).2.profile = b.profile := by
  unfold finalize
  rw [if_neg (by rw [hb.err]; simp)]
  show assignMappings (createLocations b.profile) = b.profile
  rw [createLocations_of_ne _ (by intro e; exact hl (List.length_eq_zero_iff.1 e))]
  unfold assignMappings
  split
  · have : b.profile.location.map (assignMapping (mappingMap b.profile.mapping)) = b.profile.location := by
      rw [List.map_congr_left (g := id)]
      · simp
      · intro l hm
        obtain ⟨i, hi⟩ := List.getElem?_of_mem hm
        obtain ⟨-, -, h3, -⟩ := hb.loc i l hi
        unfold assignMapping
        rw [if_neg]
        · rfl
        · rintro ⟨h4, h5⟩; exact h4 (h3 h5)
    simp only [this]
  · rfl

theorem profiles_get {st : State} {i : Nat} {p : ProcessProfile} : (profiles st)[i]? = some p ↔
    ∃ b m, st.builders[i]? = some b ∧ st.metas[i]? = some m ∧
      p = { pid := m.pid, data := (finalize b).2.profile, minNs := m.minNs, maxNs := m.maxNs, stats := st.stats m.pid } := by
  unfold profiles
  rw [List.getElem?_map]
  constructor
  · intro h
    cases hz : (st.builders.zip st.metas)[i]? with
    | none => rw [hz] at h; cases h
    | some bm =>
      rw [hz] at h
      obtain ⟨h1, h2⟩ := List.getElem?_zip_eq_some.1 hz
      simp only [Option.map_some, Option.some.injEq] at h
      exact ⟨bm.1, bm.2, h1, h2, h.symm⟩
  · rintro ⟨b, m, h1, h2, rfl⟩
    have : (st.builders.zip st.metas)[i]? = some (b, m) := List.getElem?_zip_eq_some.2 ⟨h1, h2⟩
    rw [this]; rfl

theorem run_append {S : Setup} (c1 : List Callback) : ∀ (st : State) (L : Log) (c2 : List Callback),
    run S st L (c1 ++ c2) = (run S st L c1).bind (fun r => run S r.1 r.2 c2) := by
  induction c1 with
  | nil => intro st L c2; rfl
  | cons cb t ih =>
    intro st L c2
    rw [List.cons_append, run, run]
    cases step S st cb with
    | none => rfl
    | some r => exact ih r.1 _ c2

theorem run_suffix {S : Setup} (cbs : List Callback) : ∀ {st st' : State} {L L' : Log},
    run S st L cbs = some (st', L') → ∃ A, L' = A ++ L ∧ A.length = cbs.length := by
  induction cbs with
  | nil =>
    intro st st' L L' h
    simp only [run, Option.some.injEq, Prod.mk.injEq] at h
    exact ⟨[], h.2.symm, rfl⟩
  | cons cb t ih =>
    intro st st' L L' h
    rw [run] at h
    split at h
    · cases h
    · rename_i st1 o hs
      obtain ⟨A, h1, h2⟩ := ih h
      exact ⟨A ++ [(cb, o)], by rw [h1]; simp, by simp [h2]⟩

/-- The state at any point of the log. -/
theorem run_at {S : Setup} {cbs : List Callback} {st' : State} {A X : Log} (h : run S {} [] cbs = some (st', A ++ X)) :
    ∃ st c1 c2, cbs = c1 ++ c2 ∧ run S {} [] c1 = some (st, X) ∧ run S st X c2 = some (st', A ++ X) := by
  have e : cbs = cbs.take X.length ++ cbs.drop X.length := (List.take_append_drop _ _).symm
  rw [e, run_append] at h
  cases hr : run S {} [] (cbs.take X.length) with
  | none => rw [hr] at h; cases h
  | some r =>
    rw [hr] at h
    obtain ⟨A1, h1, h2⟩ := run_suffix _ hr
    obtain ⟨A2, h3, h4⟩ := run_suffix _ (show run S r.1 r.2 _ = some (st', A ++ X) from h)
    obtain ⟨A3, h5, h6⟩ := run_suffix cbs (st := {}) (L := []) (st' := st') (L' := A ++ X) (by rw [e, run_append, hr]; exact h)
    have hlen : r.2.length = X.length := by
      rw [h1]
      have : (A ++ X).length = cbs.length := by rw [h5]; simpa using h6
      simp only [List.length_append] at this
      simp [h2]; omega
    have : r.2 = X := (List.append_inj_right' h3 hlen.symm).symm
    obtain ⟨st1, X1⟩ := r
    simp only at this
    subst this
    exact ⟨st1, _, _, e, hr, h⟩

theorem step_grows {G} {S : Setup} {st st' : State} {L : Log} {cb : Callback} {o : Option Slot} (h0 : Inv0 S st L)
    (h : Inv G S st L) (hg : ∀ c, cb = .sample c → ∀ x : MapRef, (c.main = some x ∨ ∃ f ∈ frames S c, f.2 = some x) → G x.ptr x.mapping)
    (hs : step S st cb = some (st', o)) (j : Nat) (b : Builder) (hb : st.builders[j]? = some b) :
    ∃ b', st'.builders[j]? = some b' ∧ BExt b b' := by
  cases cb with
  | comm c x =>
    rw [step] at hs
    simp only [Option.some.injEq, Prod.mk.injEq] at hs
    obtain ⟨rfl, rfl⟩ := hs
    exact ⟨b, hb, BExt.refl b⟩
  | mmap pid m =>
    rw [step] at hs
    split at hs
    · cases hs
    · simp only [Option.some.injEq, Prod.mk.injEq] at hs
      obtain ⟨rfl, rfl⟩ := hs
      exact ⟨b, hb, BExt.refl b⟩
  | sample c =>
    rw [step] at hs
    split at hs
    · cases ht : takeSample S st c with
      | none => rw [ht] at hs; cases hs
      | some r =>
        rw [ht] at hs
        simp only [Option.map_some, Option.some.injEq, Prod.mk.injEq] at hs
        obtain ⟨rfl, rfl⟩ := hs
        obtain ⟨b', h1, h2, -⟩ := (takeSample_taken h0 (h.ready _) (hg c rfl) ht).grows hb (fun bi b hb => (h.bok bi b hb).1)
        exact ⟨b', h1, h2⟩
    · simp only [Option.some.injEq, Prod.mk.injEq] at hs
      obtain ⟨rfl, rfl⟩ := hs
      exact ⟨b, hb, BExt.refl b⟩

theorem run_grows {G} {S : Setup} (cbs : List Callback) : ∀ {st st' : State} {L L' : Log}, Inv0 S st L → Inv G S st L →
    Sane S (cbs.reverse ++ hist L) →
    (∀ c, .sample c ∈ cbs → ∀ x : MapRef, (c.main = some x ∨ ∃ f ∈ frames S c, f.2 = some x) → G x.ptr x.mapping) →
    run S st L cbs = some (st', L') → ∀ (j : Nat) b, st.builders[j]? = some b → ∃ b', st'.builders[j]? = some b' ∧ BExt b b' := by
  induction cbs with
  | nil =>
    intro st st' L L' h0 h _ _ hr j b hb
    simp only [run, Option.some.injEq, Prod.mk.injEq] at hr
    obtain ⟨rfl, rfl⟩ := hr; exact ⟨b, hb, BExt.refl b⟩
  | cons cb t ih =>
    intro st st' L L' h0 h hsane hg hr j b hb
    rw [run] at hr
    split at hr
    · cases hr
    · rename_i st1 o hs
      rw [List.reverse_cons, List.append_assoc] at hsane
      have hg1 : ∀ c, cb = .sample c → ∀ x : MapRef, (c.main = some x ∨ ∃ f ∈ frames S c, f.2 = some x) → G x.ptr x.mapping := by
        intro c e; exact hg c (by rw [e]; simp)
      obtain ⟨b1, h1, h2⟩ := step_grows h0 h hg1 hs j b hb
      obtain ⟨b2, h3, h4⟩ := ih (step_inv0 h0 hs) (step_inv h0 h hsane.drop hg1 hs) (by rw [hist_cons]; exact hsane)
        (fun c e => hg c (List.mem_cons_of_mem _ e)) hr j b1 h1
      exact ⟨b2, h3, h2.trans h4⟩

theorem known_refs (S : Setup) (cbs : List Callback) : ∀ c, .sample c ∈ cbs → ∀ x : MapRef,
    (c.main = some x ∨ ∃ f ∈ frames S c, f.2 = some x) → Known S cbs x.ptr x.mapping :=
  fun c hc x hx => ⟨c, hc, x, hx, rfl, rfl⟩

theorem Sane.reverse {S : Setup} {h : List Callback} (hs : Sane S h) : Sane S h.reverse := by
  rcases hs with hs | hs
  · exact .inl hs
  · exact .inr (by unfold execs at hs ⊢; rw [List.any_reverse]; exact hs)

theorem convert_state {S : Setup} {cbs : List Callback} {ps : List ProcessProfile} {L : Log}
    (h : convert S cbs = some (ps, L)) :
    ∃ st, run S {} [] cbs = some (st, L) ∧ ps = profiles st ∧ Inv0 S st L ∧ hist L = cbs.reverse := by
  unfold convert at h
  cases hr : run S {} [] cbs with
  | none => rw [hr] at h; cases h
  | some r =>
    rw [hr] at h
    simp only [Option.map_some, Option.some.injEq, Prod.mk.injEq] at h
    obtain ⟨rfl, rfl⟩ := h
    obtain ⟨h1, h2⟩ := run_inv0 cbs (inv0_init S) hr
    exact ⟨r.1, rfl, rfl, h1, by rw [h2]; simp [hist]⟩

theorem run_known {S : Setup} {cbs : List Callback} {st : State} {L : Log} (hr : run S {} [] cbs = some (st, L))
    (hs : Sane S cbs) : Inv (Known S cbs) S st L :=
  run_inv cbs (inv0_init S) (inv_init _ S) (by simpa [hist] using hs.reverse) (known_refs S cbs) hr

/-- The state just after a log entry, and what it grows into. -/
theorem at_entry {S : Setup} {cbs : List Callback} {st' : State} {A X : Log} (hs : Sane S cbs)
    (h : run S {} [] cbs = some (st', A ++ X)) :
    ∃ st, Inv0 S st X ∧ Inv (Known S cbs) S st X ∧
      ∀ (j : Nat) b, st.builders[j]? = some b → ∃ b', st'.builders[j]? = some b' ∧ BExt b b' := by
  obtain ⟨st, c1, c2, e, h1, h2⟩ := run_at h
  obtain ⟨h3, h4⟩ := run_inv0 c1 (inv0_init S) h1
  have hrev : Sane S (c2.reverse ++ hist X) := by
    have := hs.reverse
    rw [e, List.reverse_append] at this
    rw [h4]; simpa [hist] using this
  have h5 : Inv (Known S cbs) S st X := by
    refine run_inv c1 (inv0_init S) (inv_init _ S) ?_ ?_ h1
    · rw [show c1.reverse ++ hist [] = hist X from h4.symm]; exact hrev.drop
    · intro c hc; exact known_refs S cbs c (by rw [e]; exact List.mem_append_left _ hc)
  exact ⟨st, h3, h5, run_grows c2 h3 h5 hrev (fun c hc => known_refs S cbs c (by rw [e]; exact List.mem_append_right _ hc)) h2⟩

end Verif.Converter
