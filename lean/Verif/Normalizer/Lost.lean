import Verif.Normalizer.Run

/-! # The mapping of lost samples -/

namespace Verif.Normalizer
open Verif.IntervalMap

/-- The command name is that of the mapping of lost samples. -/
def NamedLost (cfg : Config) (c : CommEv) : Prop := c.comm = ascii "[lost]" ∧ c.md5 = cfg.lostMd5

/-- No command is named `[lost]`, and the mapping of lost samples is where their address is. -/
structure LostInv (cfg : Config) (st : State) : Prop where
  comms : ∀ pid c, st.comms pid = some c → ¬ NamedLost cfg c
  lost : ∀ b p, st.fakes (ascii "[lost]", b, cfg.lostMd5) = some p →
    ∃ r : Mapping, st.owned[p]? = some r ∧ r.start = 9 * 2 ^ 60 ∧ r.limit = 9 * 2 ^ 60 + 1

theorem LostInv.grow {cfg : Config} {st st' : State} (h : LostInv cfg st) (hg : Grow st.owned st'.owned)
    (hf : st'.fakes = st.fakes) (hc : st'.comms = st.comms) : LostInv cfg st' := by
  constructor
  · rw [hc]; exact h.comms
  · intro b p hp
    rw [hf] at hp
    obtain ⟨r, h1, h2, h3⟩ := h.lost b p hp
    obtain ⟨r', g1, g2, g3, -⟩ := hg p r h1
    exact ⟨r', g1, g2.trans h2, g3.trans h3⟩

theorem kernelGuess_comms (st : State) (m : MMapEv) (p : Nat) : (kernelGuess st m p).comms = st.comms := by
  unfold kernelGuess; split <;> rfl

theorem renameOld_comms (st : State) (m : MMapEv) (mp : Mapping) : (renameOld st m mp).comms = st.comms := by
  unfold renameOld
  split
  · rfl
  · split
    · rfl
    · split <;> rfl

theorem guessMain_comms {st st' : State} {m : MMapEv} {mp : Mapping} {p : Nat} (h : guessMain st m mp p = some st') :
    st'.comms = st.comms := by
  unfold guessMain at h
  split at h
  · cases h; rfl
  · dsimp only at h
    split at h
    · cases h; rw [kernelGuess_comms, renameOld_comms]
    · split at h
      · cases h
      · cases h; exact renameOld_comms _ _ _
      · cases h; rw [kernelGuess_comms, renameOld_comms]

theorem updateMmap_comms {cfg : Config} {st st' : State} {cbs : List Callback} {m : MMapEv}
    (hs : updateMmap cfg st m = some (st', cbs)) : st'.comms = st.comms := by
  unfold updateMmap at hs
  split at hs
  · cases hs; rfl
  · split at hs
    · cases hs
    · dsimp only at hs
      split at hs
      · cases hs
      · rename_i im _
        rw [Option.map_eq_some_iff] at hs
        obtain ⟨s, h1, h2⟩ := hs
        cases h2
        exact (guessMain_comms h1).trans rfl

theorem getOrAddFake_lost {cfg : Config} {st : State} (h : LostInv cfg st) (comm : Bytes) (bid : BuildId) (md5 start : Nat)
    (hn : (comm = ascii "[lost]" ∧ md5 = cfg.lostMd5) → start = 9 * 2 ^ 60) :
    LostInv cfg (getOrAddFake st comm bid md5 start).1 := by
  unfold getOrAddFake
  cases hf : st.fakes (comm, bid.value, md5) with
  | some p => exact h
  | none =>
    dsimp only
    refine ⟨h.comms, ?_⟩
    intro b p hp
    dsimp only at hp
    unfold upd at hp
    split at hp
    · rename_i heq
      simp only [Prod.mk.injEq] at heq
      cases hp
      have := hn ⟨heq.1.symm, heq.2.2.symm⟩
      exact ⟨_, by simp; rfl, this, by rw [this]⟩
    · obtain ⟨r, h1, h2⟩ := h.lost b p hp
      have hp' : p < st.owned.length := by
        rcases Nat.lt_or_ge p st.owned.length with h' | h'
        · exact h'
        · rw [List.getElem?_eq_none_iff.2 h'] at h1; cases h1
      exact ⟨r, by dsimp only; rw [List.getElem?_append_left hp', h1], h2⟩

theorem mainMapping_lost {cfg : Config} {st : State} (h : LostInv cfg st) (pid : Nat) (ctx : ACtx) :
    LostInv cfg (mainMapping st pid ctx).1 := by
  unfold mainMapping
  split
  · exact h
  · split
    · split
      · rename_i c hc
        exact getOrAddFake_lost h _ _ _ _ (fun hn => absurd hn (h.comms pid c hc))
      · split <;> exact h
    · exact h

theorem handleSample_lost {cfg : Config} {st st' : State} {misc : Option Nat} {s : SampleEv} {spe : Option Spe.Record}
    {cbs : List Callback} (h : LostInv cfg st) (hs : handleSample cfg st misc s spe = some (st', cbs)) :
    LostInv cfg st' := by
  rcases handleSample_state _ _ _ _ _ _ _ hs with rfl | rfl
  · exact h
  · exact mainMapping_lost h _ _

theorem handleRecords_lost {cfg : Config} (rs : List Spe.Record) : ∀ {st st' : State} {cbs : List Callback}, LostInv cfg st →
    handleRecords cfg st rs = some (st', cbs) → LostInv cfg st' := by
  induction rs with
  | nil => intro st st' cbs h hs; cases hs; exact h
  | cons r rs ih =>
    intro st st' cbs h hs
    rw [handleRecords] at hs
    split at hs
    · cases hs
    · rename_i st1 cb h1
      rw [Option.map_eq_some_iff] at hs
      obtain ⟨⟨a, b⟩, h2, h3⟩ := hs
      cases h3
      exact ih (handleSample_lost h h1) h2

/-- The mapping of the lost samples of a state. -/
theorem handleLost_lost {cfg : Config} {st : State} (h : LostInv cfg st) (l : LostEv) :
    LostInv cfg (handleLost cfg st l).1 ∧
    ∀ c, .sample c ∈ (handleLost cfg st l).2 → ∃ r, c.sampleMap = some r ∧
      r.mapping.start ≤ c.sample.ip ∧ c.sample.ip < r.mapping.limit := by
  unfold handleLost
  cases eventIndexFor cfg (some l.id) with
  | none => exact ⟨h, fun c hc => by cases hc⟩
  | some idx =>
    dsimp only
    have hi := getOrAddFake_lost h (ascii "[lost]") ⟨[], .missing⟩ cfg.lostMd5 (9 * 2 ^ 60) (fun _ => rfl)
    refine ⟨hi, ?_⟩
    intro c hc
    rw [List.mem_replicate] at hc
    have hc := hc.2
    injection hc with hc
    rw [hc]
    dsimp only
    have hk : (getOrAddFake st (ascii "[lost]") ⟨[], .missing⟩ cfg.lostMd5 (9 * 2 ^ 60)).1.fakes
        (ascii "[lost]", [], cfg.lostMd5) =
        some (getOrAddFake st (ascii "[lost]") ⟨[], .missing⟩ cfg.lostMd5 (9 * 2 ^ 60)).2 := by
      unfold getOrAddFake
      cases hf : st.fakes (ascii "[lost]", [], cfg.lostMd5) with
      | some p => exact hf
      | none => simp [upd]
    obtain ⟨x, h1, h2, h3⟩ := hi.lost _ _ hk
    unfold State.ref
    rw [h1]
    refine ⟨_, rfl, ?_⟩
    dsimp only
    rw [h2, h3]
    omega

theorem step_lost {cfg : Config} {es : List Ev} {st st' : State} {cbs : List Callback} (hi : Inv2 cfg es st)
    (h : LostInv cfg st) (e : Ev) (ht : e.Typed) (hn : ∀ misc c, e = .comm misc c → ¬ NamedLost cfg c)
    (hs : step cfg st e = some (st', cbs)) : LostInv cfg st' := by
  cases e with
  | mmap m =>
    rw [step, Option.map_eq_some_iff] at hs
    obtain ⟨⟨a, b⟩, h1, h2⟩ := hs
    cases h2
    obtain ⟨g1, g2, -, -⟩ := updateMmap_frame m (ht m rfl) hi.inv h1
    have := h.grow g1 g2 (updateMmap_comms h1)
    exact ⟨this.comms, this.lost⟩
  | comm misc c =>
    rw [step] at hs
    cases hs
    constructor
    · intro pid c' hc'
      have key : ∀ s1 : State, s1.comms = st.comms → (if c.pid = c.tid then
          ({ s1 with comms := upd s1.comms c.pid (some c) } : State) else s1).comms pid = some c' →
          ¬ NamedLost cfg c' := by
        intro s1 h1 h2
        split at h2
        · dsimp only at h2
          unfold upd at h2
          split at h2
          · cases h2; exact hn misc c rfl
          · rw [h1] at h2; exact h.comms pid c' h2
        · rw [h1] at h2; exact h.comms pid c' h2
      refine key _ ?_ hc'
      split <;> rfl
    · intro b p hp
      apply h.lost b p |> fun f => ?_
      have e1 : ∀ s1 : State, s1.fakes = st.fakes ∧ s1.owned = st.owned →
          (if c.pid = c.tid then ({ s1 with comms := upd s1.comms c.pid (some c) } : State) else s1).fakes = st.fakes ∧
          (if c.pid = c.tid then ({ s1 with comms := upd s1.comms c.pid (some c) } : State) else s1).owned = st.owned := by
        intro s1 h1
        split <;> exact h1
      have e2 := e1 (if isExecComm cfg st misc c then { st with execs := upd st.execs c.pid none } else st)
        (by split <;> exact ⟨rfl, rfl⟩)
      rw [e2.1] at hp
      rw [e2.2]
      exact h.lost b p hp
  | fork pid ppid tid =>
    rw [step] at hs
    cases hs
    unfold updateFork
    split
    · exact h
    · refine ⟨?_, h.lost⟩
      intro q c hc
      dsimp only at hc
      cases hv : st.comms ppid with
      | some v =>
        simp only [inherit, hv] at hc
        unfold upd at hc
        split at hc
        · cases hc; exact h.comms _ _ hv
        · exact h.comms _ _ hc
      | none => simp only [inherit, hv] at hc; exact h.comms _ _ hc
  | cgroup id path => rw [step] at hs; cases hs; exact ⟨h.comms, h.lost⟩
  | lostSamples l =>
    rw [step] at hs
    split at hs
    · injection hs with hs; rw [← show _ = st' from congrArg Prod.fst hs]; exact (handleLost_lost h l).1
    · cases hs; exact h
  | lost l =>
    rw [step] at hs
    split at hs
    · cases hs; exact h
    · injection hs with hs; rw [← show _ = st' from congrArg Prod.fst hs]; exact (handleLost_lost h l).1
  | sample misc s => rw [step] at hs; exact handleSample_lost h hs
  | auxtraceInfo t => rw [step] at hs; cases hs; exact h
  | auxtrace data =>
    rw [step] at hs
    split at hs
    · cases data with
      | none => cases hs; exact h
      | some data =>
        rw [handleSpe] at hs
        split at hs
        · cases hs
        · exact handleRecords_lost _ h hs
    · cases hs; exact h
  | ksymbol type flags addr len name =>
    rw [step] at hs
    split at hs
    · rename_i hk
      obtain ⟨g1, g2, -, -⟩ := updateMmap_frame _ (ht _ (by rw [Ev.mapping, if_pos hk])) hi.inv hs
      exact h.grow g1 g2 (updateMmap_comms hs)
    · cases hs; exact h
  | other => rw [step] at hs; cases hs; exact h

/-- A sample reported as lost comes from a lost event. -/
theorem step_lost_sample {cfg : Config} {es : List Ev} {st st' : State} {cbs : List Callback} (hi : Inv2 cfg es st)
    (h : LostInv cfg st) (e : Ev) (ht : e.Typed) (hs : step cfg st e = some (st', cbs)) (c : SampleCtx)
    (hc : .sample c ∈ cbs) (hl : c.lost = true) : ∃ r, c.sampleMap = some r ∧
      r.mapping.start ≤ c.sample.ip ∧ c.sample.ip < r.mapping.limit := by
  have hr := (step_ok hi e ht hs).2
  have rep : ∀ {hm s rc idx}, Reported cfg es hm s rc idx c → False := by
    intro hm s rc idx h0; have := h0.lost; rw [hl] at this; cases this
  have mm : ∀ {m}, ReportsMmap cfg m cbs → False := by
    intro m h0
    unfold ReportsMmap at h0
    split at h0
    · subst h0; cases hc
    · obtain ⟨r, rfl, -⟩ := h0; simp at hc
  have nil : cbs = [] → False := by intro h0; subst h0; cases hc
  cases e with
  | mmap m => rw [Reports] at hr; exact (mm hr).elim
  | comm misc c' => rw [Reports] at hr; obtain ⟨b, rfl, -⟩ := hr; simp at hc
  | fork => exact (nil hr).elim
  | cgroup => exact (nil hr).elim
  | lostSamples l =>
    rw [step] at hs
    split at hs
    · injection hs with hs; rw [← show _ = cbs from congrArg Prod.snd hs] at hc; exact (handleLost_lost h l).2 c hc
    · cases hs; cases hc
  | lost l =>
    rw [step] at hs
    split at hs
    · cases hs; cases hc
    · injection hs with hs; rw [← show _ = cbs from congrArg Prod.snd hs] at hc; exact (handleLost_lost h l).2 c hc
  | sample misc s =>
    rw [Reports] at hr
    unfold ReportsSample at hr
    split at hr
    · exact (nil hr).elim
    · obtain ⟨c', rfl, h0⟩ := hr
      simp at hc
      subst hc
      exact (rep h0).elim
  | auxtraceInfo => exact (nil hr).elim
  | auxtrace data =>
    rw [Reports] at hr
    split at hr
    · cases data with
      | none => exact (nil hr).elim
      | some data =>
        rw [ReportsTrace] at hr
        obtain ⟨rs, d, -, hr⟩ := hr
        obtain ⟨r, -, c', e, h0⟩ := hr.left _ hc
        injection e with e
        subst e
        exact (rep h0).elim
    · exact (nil hr).elim
  | ksymbol =>
    rw [Reports] at hr
    split at hr
    · exact (mm hr).elim
    · exact (nil hr).elim
  | other => exact (nil hr).elim

theorem run_lost {cfg : Config} (es : List Ev) : ∀ {past : List Ev} {st st' : State} {cbs : List Callback},
    Inv2 cfg past st → LostInv cfg st → (∀ e ∈ es, e.Typed) → (∀ misc c, .comm misc c ∈ es → ¬ NamedLost cfg c) →
    runFrom cfg st es = some (st', cbs) → ∀ c, .sample c ∈ cbs → c.lost = true → ∃ r, c.sampleMap = some r ∧
      r.mapping.start ≤ c.sample.ip ∧ c.sample.ip < r.mapping.limit := by
  induction es with
  | nil => intro past st st' cbs _ _ _ _ hr c hc; cases hr; cases hc
  | cons e es ih =>
    intro past st st' cbs hi hl ht hn hr c hc
    unfold runFrom at hr
    split at hr
    · cases hr
    · rename_i st1 cb h1
      rw [Option.map_eq_some_iff] at hr
      obtain ⟨⟨a, b⟩, h2, h3⟩ := hr
      cases h3
      have ht1 := ht e (by simp)
      rcases List.mem_append.1 hc with hc | hc
      · exact step_lost_sample hi hl e ht1 h1 c hc
      · exact ih (step_ok hi e ht1 h1).1 (step_lost hi hl e ht1 (fun m c0 he => hn m c0 (by simp [he])) h1)
          (fun e he => ht e (List.mem_cons_of_mem _ he)) (fun m c0 he => hn m c0 (List.mem_cons_of_mem _ he)) h2 c hc

end Verif.Normalizer
