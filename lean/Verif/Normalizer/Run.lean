import Verif.Normalizer.Lemmas
import Verif.Spe.Props

/-! # One event, and a whole history -/

namespace Verif.Normalizer
open Verif.IntervalMap

/-- The fake mappings. -/
structure FakeInv (st : State) : Prop where
  fakes : ∀ c b m p, st.fakes (c, b, m) = some p → ∃ r, st.owned[p]? = some r ∧ r.filename = c ∧ r.buildId.value = b ∧
    r.start ≠ 0x400000

/-- The invariant with the other tables. -/
structure Inv2 (cfg : Config) (es : List Ev) (st : State) : Prop where
  inv : Inv cfg.ids es st
  fake : FakeInv st
  had : ∀ pid, st.hadMmap pid = hadMmapEvent es pid

theorem inv2_init (cfg : Config) : Inv2 cfg [] {} := ⟨inv_init _, ⟨fun _ _ _ _ h => by cases h⟩, fun _ => rfl⟩

theorem FakeInv.grow {st st' : State} (h : FakeInv st) (hg : Grow st.owned st'.owned) (hf : st'.fakes = st.fakes) :
    FakeInv st' := by
  constructor
  intro c b m p hp
  rw [hf] at hp
  obtain ⟨r, h1, h2, h3, h4⟩ := h.fakes c b m p hp
  obtain ⟨r', g1, g2, g3, g4, g5, g6, g7⟩ := hg p r h1
  refine ⟨r', g1, ?_, by rw [g6, h3], by rw [g2]; exact h4⟩
  rcases g7 with e | e
  · rw [e, h2]
  · exact absurd e.2 h4

theorem updateMmap_frame {cfg : Config} {es : List Ev} {st st' : State} {cbs : List Callback} (m : MMapEv)
    (ht : m.Typed) (h : Inv cfg.ids es st) (hs : updateMmap cfg st m = some (st', cbs)) :
    Grow st.owned st'.owned ∧ st'.fakes = st.fakes ∧ st'.hadMmap = st.hadMmap ∧ ReportsMmap cfg m cbs := by
  unfold updateMmap at hs
  unfold ReportsMmap
  by_cases hl : m.len = 0
  · rw [if_pos hl] at hs
    rw [if_pos hl]
    cases hs
    exact ⟨Grow.refl _, rfl, rfl, rfl⟩
  · rw [if_neg hl] at hs
    rw [if_neg hl]
    cases hb : getBuildId cfg.ids m with
    | none => rw [hb] at hs; cases hs
    | some bid =>
      rw [hb] at hs
      dsimp only at hs
      cases hset : set ((st.maps m.pid).getD []) (mkMapping bid m).start (mkMapping bid m).limit st.owned.length with
      | none => rw [hset] at hs; cases hs
      | some im =>
        rw [hset] at hs
        dsimp only at hs
        generalize hst1 : ({ st with owned := st.owned ++ [mkMapping bid m], maps := upd st.maps m.pid (some im) } : State)
          = st1 at hs
        cases hg : guessMain st1 m (mkMapping bid m) st.owned.length with
        | none => rw [hg] at hs; cases hs
        | some s2 =>
          rw [hg] at hs
          simp only [Option.map_some, Option.some.injEq, Prod.mk.injEq] at hs
          obtain ⟨e1, e2⟩ := hs
          subst e1
          have hlt : (mkMapping bid m).start < (mkMapping bid m).limit := by
            simp only [IntervalMap.set] at hset
            split at hset
            · assumption
            · cases hset
          have hnw : m.start + m.len < 2 ^ 64 := by
            rcases (fits_iff bid m ht hl).1 hlt with h' | h'
            · exact absurd h' hl
            · exact h'.1
          have ho : st1.owned = st.owned ++ [mkMapping bid m] := by rw [← hst1]
          have hex : st1.execs = st.execs := by rw [← hst1]
          have hlen : st1.owned.length = st.owned.length + 1 := by rw [ho]; simp
          obtain ⟨k1, k2, k3, k4, k5, k6, k7⟩ := guessMain_spec st1 s2 m _ _ (by omega)
            (by intro pid q hq; rw [hex] at hq; have := h.execs pid q hq; omega) hg
          refine ⟨Grow.trans (by rw [ho]; exact Grow.append _ _) k2, by rw [k3, ← hst1], by rw [k6, ← hst1], ?_⟩
          exact ⟨⟨st.owned.length, mkMapping bid m⟩, e2.symm, describes_mk cfg.ids m bid hnw hb, rfl⟩

theorem updateMmap_total {cfg : Config} {st : State} (m : MMapEv) (ht : m.Typed)
    (hb : m.len ≠ 0 → ∃ bid, getBuildId cfg.ids m = some bid) :
    (∃ r, updateMmap cfg st m = some r) ↔ m.Fits := by
  unfold updateMmap
  by_cases hl : m.len = 0
  · rw [if_pos hl]
    exact ⟨fun _ => Or.inl hl, fun _ => ⟨_, rfl⟩⟩
  · rw [if_neg hl]
    obtain ⟨bid, hb⟩ := hb hl
    rw [hb, ← fits_iff bid m ht hl]
    dsimp only
    simp only [IntervalMap.set]
    constructor
    · rintro ⟨r, hr⟩
      by_cases hlt : (mkMapping bid m).start < (mkMapping bid m).limit
      · exact hlt
      · rw [if_neg hlt] at hr; cases hr
    · intro hlt
      rw [if_pos hlt]
      dsimp only
      obtain ⟨s, hs⟩ := guessMain_total _ m (mkMapping bid m) st.owned.length
      rw [hs]
      exact ⟨_, rfl⟩

theorem getOrAddFake_fake {st : State} (h : FakeInv st) (comm : Bytes) (bid : BuildId) (md5 start : Nat)
    (hs : start ≠ 0x400000) :
    FakeInv (getOrAddFake st comm bid md5 start).1 ∧ (getOrAddFake st comm bid md5 start).1.hadMmap = st.hadMmap ∧
    ∃ r, (getOrAddFake st comm bid md5 start).1.ref (getOrAddFake st comm bid md5 start).2 = some r ∧
      r.mapping.filename = comm ∧ r.mapping.buildId.value = bid.value ∧ r.mapping.start ≠ 0x400000 := by
  unfold getOrAddFake
  cases hf : st.fakes (comm, bid.value, md5) with
  | some p =>
    obtain ⟨r, h1, h2, h3, h4⟩ := h.fakes _ _ _ p hf
    exact ⟨h, rfl, ⟨p, r⟩, by simp [State.ref, h1], h2, h3, h4⟩
  | none =>
    dsimp only
    refine ⟨⟨?_⟩, rfl, ⟨⟨st.owned.length, _⟩, by simp [State.ref]; rfl, rfl, rfl, hs⟩⟩
    intro c b m p hp
    dsimp only at hp
    unfold upd at hp
    split at hp
    · rename_i heq
      simp only [Prod.mk.injEq] at heq
      cases hp
      exact ⟨_, by simp; rfl, heq.1.symm, heq.2.1.symm, hs⟩
    · obtain ⟨r, h1, h2, h3, h4⟩ := h.fakes c b m p hp
      have hp' : p < st.owned.length := by
        rcases Nat.lt_or_ge p st.owned.length with h' | h'
        · exact h'
        · rw [List.getElem?_eq_none_iff.2 h'] at h1; cases h1
      exact ⟨r, by rw [List.getElem?_append_left hp', h1], h2, h3, h4⟩

theorem mainMapping_fake {st : State} (h : FakeInv st) (pid : Nat) (ctx : ACtx) :
    FakeInv (mainMapping st pid ctx).1 ∧ (mainMapping st pid ctx).1.hadMmap = st.hadMmap := by
  unfold mainMapping
  split
  · exact ⟨h, rfl⟩
  · split
    · split
      · exact ⟨(getOrAddFake_fake h _ _ _ _ (by decide)).1, (getOrAddFake_fake h _ _ _ _ (by decide)).2.1⟩
      · split
        · exact ⟨h, rfl⟩
        · exact ⟨h, rfl⟩
    · exact ⟨h, rfl⟩

theorem handleSample_state (cfg : Config) (st st' : State) (misc : Option Nat) (s : SampleEv) (spe : Option Spe.Record)
    (cbs : List Callback) (h : handleSample cfg st misc s spe = some (st', cbs)) :
    st' = st ∨ st' = (mainMapping st (s.pid.getD 0) (contextFromHeader misc)).1 := by
  unfold handleSample at h
  split at h
  · cases h; exact Or.inl rfl
  · dsimp only at h
    repeat (split at h; · cases h)
    cases h
    exact Or.inr rfl

theorem handleSample_inv2 {cfg : Config} {es : List Ev} {st : State} (h : Inv2 cfg es st) (misc : Option Nat)
    (s : SampleEv) (spe : Option Spe.Record) :
    ∃ st' cbs, handleSample cfg st misc s spe = some (st', cbs) ∧ Inv2 cfg es st' ∧
      match (if spe.isSome then some 0 else eventIndexFor cfg s.id) with
      | none => cbs = []
      | some idx => ∃ c, cbs = [.sample c] ∧ Reported cfg es misc s spe idx c := by
  obtain ⟨st', cbs, h1, h2, h3⟩ := handleSample_spec h.inv misc s spe
  refine ⟨st', cbs, h1, ?_, h3⟩
  have hm := mainMapping_fake h.fake (s.pid.getD 0) (contextFromHeader misc)
  rcases handleSample_state cfg st st' misc s spe cbs h1 with e | e
  · exact ⟨h2, by rw [e]; exact h.fake, by rw [e]; exact h.had⟩
  · exact ⟨h2, by rw [e]; exact hm.1, by rw [e, hm.2]; exact h.had⟩

theorem handleLost_spec {cfg : Config} {es : List Ev} {st : State} (h : Inv2 cfg es st) (l : LostEv) :
    Inv2 cfg es (handleLost cfg st l).1 ∧ ReportsLost cfg l (handleLost cfg st l).2 := by
  unfold handleLost ReportsLost
  cases eventIndexFor cfg (some l.id) with
  | none => exact ⟨h, rfl⟩
  | some idx =>
    dsimp only
    obtain ⟨f1, f2, r, f3, f4, f5, -⟩ := getOrAddFake_fake h.fake (ascii "[lost]") ⟨[], .missing⟩ cfg.lostMd5 (9 * 2 ^ 60)
      (by decide)
    refine ⟨⟨(getOrAddFake_spec h.inv _ _ _ _).1, f1, by rw [f2]; exact h.had⟩, r, ?_, f4, f5⟩
    rw [f3]

theorem handleRecords_spec {cfg : Config} {es : List Ev} (rs : List Spe.Record) : ∀ {st : State}, Inv2 cfg es st →
    ∃ st' cbs, handleRecords cfg st rs = some (st', cbs) ∧ Inv2 cfg es st' ∧
      All₂ (fun cb r => ∃ c, cb = .sample c ∧ Reported cfg es none (speSample cfg r) (some r) 0 c) cbs rs := by
  induction rs with
  | nil => intro st h; exact ⟨st, [], rfl, h, All₂.nil⟩
  | cons r rs ih =>
    intro st h
    obtain ⟨st1, cb, h1, h2, h3⟩ := handleSample_inv2 h none (speSample cfg r) (some r)
    obtain ⟨c, h4, h5⟩ := h3
    obtain ⟨st2, cbs, g1, g2, g3⟩ := ih h2
    unfold handleRecords
    rw [h1]
    dsimp only
    rw [g1]
    refine ⟨st2, cb ++ cbs, rfl, g2, ?_⟩
    rw [h4]
    exact All₂.cons ⟨c, rfl, h5⟩ g3

/-- History lemmas for events without mappings. -/
theorem Inv2.skip {cfg : Config} {es : List Ev} {st : State} (h : Inv2 cfg es st) (e : Ev)
    (hm : ∀ pid, mapped (e :: es) pid = mapped es pid)
    (hn : ∀ pid x, newest (e :: es) pid x = newest es pid x)
    (hc : ∀ id, cgroupPath (e :: es) id = cgroupPath es id)
    (hh : ∀ pid, hadMmapEvent (e :: es) pid = hadMmapEvent es pid) : Inv2 cfg (e :: es) st :=
  ⟨h.inv.skip e hm hn hc, h.fake, fun pid => by rw [hh]; exact h.had pid⟩

theorem had_cons (e : Ev) (es : List Ev) (pid : Nat) : hadMmapEvent (e :: es) pid =
    ((match e with | .mmap m => m.pid == pid | _ => false) || hadMmapEvent es pid) := rfl

/-- One event: the invariant is kept, and the report is right. -/
theorem step_ok {cfg : Config} {es : List Ev} {st st' : State} {cbs : List Callback} (h : Inv2 cfg es st) (e : Ev)
    (ht : e.Typed) (hs : step cfg st e = some (st', cbs)) : Inv2 cfg (e :: es) st' ∧ Reports cfg es e cbs := by
  cases e with
  | mmap m =>
    rw [step] at hs
    cases hu : updateMmap cfg st m with
    | none => rw [hu] at hs; cases hs
    | some r =>
      rw [hu] at hs
      obtain ⟨s1, c1⟩ := r
      simp only [Option.map_some, Option.some.injEq, Prod.mk.injEq] at hs
      obtain ⟨e1, e2⟩ := hs
      have hi := updateMmap_inv m (.mmap m) rfl (ht m rfl) h.inv hu
      obtain ⟨f1, f2, f3, f4⟩ := updateMmap_frame m (ht m rfl) h.inv hu
      rw [← e2]
      refine ⟨?_, f4⟩
      rw [← e1]
      refine ⟨hi.keep rfl (Grow.refl _) hi.execs hi.fakes rfl, ⟨fun c b m' p hp => (h.fake.grow f1 f2).fakes c b m' p hp⟩, ?_⟩
      intro pid
      rw [had_cons, ← h.had]
      dsimp only
      unfold upd
      by_cases hp : pid = m.pid
      · simp [hp]
      · rw [if_neg hp, f3]
        simp [show ¬ m.pid = pid from fun e => hp e.symm]
  | ksymbol type flags addr len name =>
    rw [step] at hs
    rw [Reports]
    by_cases hc : type = 1 ∧ flags = 0
    · rw [if_pos hc] at hs
      rw [if_pos hc]
      have he : (Ev.ksymbol type flags addr len name).mapping = some
          { pid := 2 ^ 32 - 1, start := addr, len := len, pgoff := 0, filename := name } := by
        unfold Ev.mapping; exact if_pos hc
      have hi := updateMmap_inv _ (.ksymbol type flags addr len name) he (ht _ he) h.inv hs
      obtain ⟨f1, f2, f3, f4⟩ := updateMmap_frame _ (ht _ he) h.inv hs
      refine ⟨⟨hi, h.fake.grow f1 f2, ?_⟩, f4⟩
      intro pid
      rw [had_cons, ← h.had, f3]
      rfl
    · rw [if_neg hc] at hs
      rw [if_neg hc]
      cases hs
      have he : (Ev.ksymbol type flags addr len name).mapping = none := by unfold Ev.mapping; exact if_neg hc
      refine ⟨h.skip _ (fun pid => ?_) (fun pid x => ?_) (fun _ => rfl) (fun _ => rfl), rfl⟩
      · rw [mapped]
        · rw [he]
        · intro _ _ _ h; cases h
      · rw [newest]
        · rw [he]
        · intro _ _ _ h; cases h
  | comm misc c =>
    rw [step] at hs
    simp only [Option.some.injEq, Prod.mk.injEq] at hs
    obtain ⟨e1, e2⟩ := hs
    have hsk := h.skip (.comm misc c) (fun _ => rfl) (fun _ _ => rfl) (fun _ => rfl) (fun _ => rfl)
    constructor
    · have hi : Inv2 cfg (.comm misc c :: es)
          (if isExecComm cfg st misc c then { st with execs := upd st.execs c.pid none } else st) := by
        split
        · refine ⟨hsk.inv.keep rfl (Grow.refl _) ?_ hsk.inv.fakes rfl, ⟨hsk.fake.fakes⟩, hsk.had⟩
          intro pid p hp
          dsimp only at hp
          unfold upd at hp
          split at hp
          · cases hp
          · exact hsk.inv.execs pid p hp
        · exact hsk
      rw [← e1]
      split
      · exact ⟨hi.inv.keep rfl (Grow.refl _) hi.inv.execs hi.inv.fakes rfl, ⟨hi.fake.fakes⟩, hi.had⟩
      · exact hi
    · refine ⟨_, e2.symm, ?_⟩
      unfold isExecComm ExecComm
      rw [h.had]
      simp [or_assoc]
  | fork pid ppid tid =>
    rw [step] at hs
    simp only [Option.some.injEq, Prod.mk.injEq] at hs
    obtain ⟨e1, e2⟩ := hs
    refine ⟨?_, e2.symm⟩
    rw [← e1]
    refine ⟨updateFork_inv h.inv pid ppid tid, ?_, ?_⟩
    · constructor
      intro c b m p hp
      unfold updateFork at hp ⊢
      split at hp
      · rename_i hc; rw [if_pos hc]; exact h.fake.fakes c b m p hp
      · rename_i hc; rw [if_neg hc]; exact h.fake.fakes c b m p hp
    · intro q
      rw [had_cons, ← h.had]
      unfold updateFork
      split <;> rfl
  | cgroup id path =>
    rw [step] at hs
    simp only [Option.some.injEq, Prod.mk.injEq] at hs
    obtain ⟨e1, e2⟩ := hs
    refine ⟨?_, e2.symm⟩
    rw [← e1]
    have hm : ∀ pid, mapped (.cgroup id path :: es) pid = mapped es pid := fun _ => rfl
    have hn : ∀ pid x, newest (.cgroup id path :: es) pid x = newest es pid x := fun _ _ => rfl
    refine ⟨⟨?_, ?_, h.inv.execs, h.inv.fakes, ?_⟩, ⟨h.fake.fakes⟩, h.had⟩
    · intro pid hp
      rw [hm]
      refine ⟨(h.inv.none_ pid hp).1, fun x => ?_⟩
      rw [hn]; exact (h.inv.none_ pid hp).2 x
    · intro pid im hp
      rw [hm]
      refine ⟨(h.inv.some_ pid im hp).1, (h.inv.some_ pid im hp).2.1, fun x => ?_⟩
      rw [hn]; exact (h.inv.some_ pid im hp).2.2 x
    · intro i
      have hc : cgroupPath (.cgroup id path :: es) i = (cgroupPath es i).or (if id = i then some path else none) := rfl
      rw [hc, ← h.inv.cgroups i]
      dsimp only
      by_cases hsome : (st.cgroups id).isSome
      · rw [if_pos hsome]
        by_cases hi : id = i
        · subst hi
          obtain ⟨v, hv⟩ := Option.isSome_iff_exists.1 hsome
          rw [hv]; simp
        · rw [if_neg hi]; simp
      · rw [if_neg hsome]
        unfold upd
        by_cases hi : i = id
        · subst hi
          rw [if_pos rfl, if_pos rfl]
          have : st.cgroups i = none := by simpa using hsome
          rw [this]; rfl
        · rw [if_neg hi, if_neg (fun e => hi e.symm)]; simp
  | lostSamples l =>
    rw [step] at hs
    rw [Reports]
    have hsk := fun (st : State) (h : Inv2 cfg es st) =>
      h.skip (.lostSamples l) (fun _ => rfl) (fun _ _ => rfl) (fun _ => rfl) (fun _ => rfl)
    split at hs
    · rename_i hu
      rw [if_pos hu]
      obtain ⟨a, b⟩ := handleLost_spec h l
      simp only [Option.some.injEq] at hs
      rw [hs] at a b
      exact ⟨hsk _ a, b⟩
    · rename_i hu
      rw [if_neg hu]
      cases hs
      exact ⟨hsk _ h, rfl⟩
  | lost l =>
    rw [step] at hs
    rw [Reports]
    have hsk := fun (st : State) (h : Inv2 cfg es st) =>
      h.skip (.lost l) (fun _ => rfl) (fun _ _ => rfl) (fun _ => rfl) (fun _ => rfl)
    split at hs
    · rename_i hu
      rw [if_pos hu]
      cases hs
      exact ⟨hsk _ h, rfl⟩
    · rename_i hu
      rw [if_neg hu]
      obtain ⟨a, b⟩ := handleLost_spec h l
      simp only [Option.some.injEq] at hs
      rw [hs] at a b
      exact ⟨hsk _ a, b⟩
  | sample misc s =>
    rw [step] at hs
    obtain ⟨s1, c1, h1, h2, h3⟩ := handleSample_inv2 h misc s none
    rw [h1] at hs
    cases hs
    exact ⟨h2.skip _ (fun _ => rfl) (fun _ _ => rfl) (fun _ => rfl) (fun _ => rfl), h3⟩
  | auxtraceInfo t =>
    rw [step] at hs
    cases hs
    exact ⟨h.skip _ (fun _ => rfl) (fun _ _ => rfl) (fun _ => rfl) (fun _ => rfl), rfl⟩
  | auxtrace data =>
    rw [step] at hs
    rw [Reports]
    have hsk := fun (st : State) (h : Inv2 cfg es st) =>
      h.skip (.auxtrace data) (fun _ => rfl) (fun _ _ => rfl) (fun _ => rfl) (fun _ => rfl)
    by_cases hp : cfg.hasSpe = true
    · rw [if_pos hp] at hs
      rw [if_pos hp]
      cases data with
      | none =>
        simp only [handleSpe] at hs
        cases hs
        exact ⟨hsk _ h, rfl⟩
      | some d =>
        simp only [handleSpe] at hs
        cases hd : Spe.decodeAll (d.length + 1) { buf := d, base := cfg.traceBase } {} with
        | none => rw [hd] at hs; cases hs
        | some x =>
          rw [hd] at hs
          dsimp only at hs
          obtain ⟨s1, c1, g1, g2, g3⟩ := handleRecords_spec x.1 h
          rw [g1] at hs
          cases hs
          refine ⟨hsk _ g2, x.1, x.2, hd, ?_⟩
          have : ∀ r : Spe.Record, speSample cfg r = recordSample cfg r := by
            intro r
            unfold speSample recordSample
            by_cases hz : r.context.id = 0 <;> simp [hz]
          simpa only [this] using g3
    · rw [if_neg hp] at hs
      rw [if_neg hp]
      cases hs
      exact ⟨hsk _ h, rfl⟩
  | other =>
    rw [step] at hs
    cases hs
    exact ⟨h.skip _ (fun _ => rfl) (fun _ _ => rfl) (fun _ => rfl) (fun _ => rfl), rfl⟩

theorem run_ok {cfg : Config} (es : List Ev) : ∀ {past : List Ev} {st st' : State} {cbs : List Callback},
    Inv2 cfg past st → (∀ e ∈ es, e.Typed) → runFrom cfg st es = some (st', cbs) →
    Inv2 cfg (es.reverse ++ past) st' ∧ ReportsAll cfg past es cbs := by
  induction es with
  | nil => intro past st st' cbs h _ hr; cases hr; exact ⟨h, rfl⟩
  | cons e es ih =>
    intro past st st' cbs h ht hr
    unfold runFrom at hr
    cases hs : step cfg st e with
    | none => rw [hs] at hr; cases hr
    | some x =>
      obtain ⟨st1, cb⟩ := x
      rw [hs] at hr
      dsimp only at hr
      cases hr2 : runFrom cfg st1 es with
      | none => rw [hr2] at hr; cases hr
      | some y =>
        rw [hr2] at hr
        cases hr
        obtain ⟨a, b⟩ := step_ok h e (ht e (by simp)) hs
        obtain ⟨c, d⟩ := ih a (fun e he => ht e (List.mem_cons_of_mem _ he)) hr2
        refine ⟨by simpa using c, cb, y.2, rfl, b, d⟩

/-- An event aborts the normalizer exactly when its mapping does not fit. -/
theorem step_total {cfg : Config} {es : List Ev} {st : State} (h : Inv2 cfg es st) (e : Ev) (ht : e.Typed)
    (hb : ∀ m, e.mapping = some m → m.len ≠ 0 → ∃ bid, getBuildId cfg.ids m = some bid) :
    (∃ r, step cfg st e = some r) ↔ ∀ m, e.mapping = some m → m.Fits := by
  cases e with
  | mmap m =>
    have := updateMmap_total (cfg := cfg) (st := st) m (ht m rfl) (hb m rfl)
    constructor
    · rintro ⟨r, hr⟩ m' hm'
      cases hm'
      rw [step] at hr
      cases hu : updateMmap cfg st m with
      | none => rw [hu] at hr; cases hr
      | some x => exact this.1 ⟨x, hu⟩
    · intro hf
      obtain ⟨x, hx⟩ := this.2 (hf m rfl)
      rw [step]
      rw [hx]
      exact ⟨_, rfl⟩
  | ksymbol type flags addr len name =>
    rw [step]
    by_cases hc : type = 1 ∧ flags = 0
    · rw [if_pos hc]
      have he : (Ev.ksymbol type flags addr len name).mapping = some
          { pid := 2 ^ 32 - 1, start := addr, len := len, pgoff := 0, filename := name } := by
        unfold Ev.mapping; exact if_pos hc
      rw [updateMmap_total _ (ht _ he) (hb _ he)]
      constructor
      · intro hf m hm
        rw [he] at hm
        cases hm
        exact hf
      · intro hf
        exact hf _ he
    · rw [if_neg hc]
      have he : (Ev.ksymbol type flags addr len name).mapping = none := by unfold Ev.mapping; exact if_neg hc
      exact ⟨fun _ m hm => by (rw [he] at hm; cases hm), fun _ => ⟨_, rfl⟩⟩
  | comm misc c => exact ⟨fun _ m hm => (by cases hm), fun _ => ⟨_, rfl⟩⟩
  | fork pid ppid tid => exact ⟨fun _ m hm => (by cases hm), fun _ => ⟨_, rfl⟩⟩
  | cgroup id path => exact ⟨fun _ m hm => (by cases hm), fun _ => ⟨_, rfl⟩⟩
  | lostSamples l => exact ⟨fun _ m hm => (by cases hm), fun _ => ⟨_, rfl⟩⟩
  | lost l => exact ⟨fun _ m hm => (by cases hm), fun _ => ⟨_, rfl⟩⟩
  | sample misc s =>
    obtain ⟨s1, c1, h1, -⟩ := handleSample_inv2 h misc s none
    exact ⟨fun _ m hm => (by cases hm), fun _ => ⟨_, h1⟩⟩
  | auxtraceInfo t => exact ⟨fun _ m hm => (by cases hm), fun _ => ⟨_, rfl⟩⟩
  | auxtrace data =>
    refine ⟨fun _ m hm => (by cases hm), fun _ => ?_⟩
    rw [step]
    split
    · unfold handleSpe
      cases data with
      | none => exact ⟨_, rfl⟩
      | some d =>
        dsimp only
        obtain ⟨rs, d', h1, -⟩ := Spe.decodeAll_terminates d cfg.traceBase false {}
        have := h1 0
        unfold Spe.start at this
        rw [this]
        dsimp only
        obtain ⟨s1, c1, g1, -⟩ := handleRecords_spec rs h
        exact ⟨_, g1⟩
    · exact ⟨_, rfl⟩
  | other => exact ⟨fun _ m hm => (by cases hm), fun _ => ⟨_, rfl⟩⟩

theorem run_total {cfg : Config} (es : List Ev) : ∀ {past : List Ev} {st : State}, Inv2 cfg past st →
    (∀ e ∈ es, e.Typed) →
    (∀ e ∈ es, ∀ m, e.mapping = some m → m.len ≠ 0 → ∃ bid, getBuildId cfg.ids m = some bid) →
    ((∃ r, runFrom cfg st es = some r) ↔ ∀ e ∈ es, ∀ m, e.mapping = some m → m.Fits) := by
  induction es with
  | nil => intro past st _ _ _; exact ⟨fun _ e he => (by cases he), fun _ => ⟨_, rfl⟩⟩
  | cons e es ih =>
    intro past st h ht hb
    have hst := step_total h e (ht e (by simp)) (hb e (by simp))
    unfold runFrom
    cases hs : step cfg st e with
    | none =>
      constructor
      · rintro ⟨r, hr⟩; cases hr
      · intro hf
        obtain ⟨r, hr⟩ := hst.2 (hf e (by simp))
        rw [hs] at hr; cases hr
    | some x =>
      obtain ⟨st1, cb⟩ := x
      dsimp only
      have ih' := ih (step_ok h e (ht e (by simp)) hs).1 (fun e he => ht e (List.mem_cons_of_mem _ he))
        (fun e he => hb e (List.mem_cons_of_mem _ he))
      constructor
      · rintro ⟨r, hr⟩ e' he'
        rcases List.mem_cons.1 he' with e1 | he1
        · rw [e1]; exact hst.1 ⟨_, hs⟩
        · cases hr2 : runFrom cfg st1 es with
          | none => rw [hr2] at hr; cases hr
          | some y => exact ih'.1 ⟨y, hr2⟩ e' he1
      · intro hf
        obtain ⟨y, hy⟩ := ih'.2 (fun e he => hf e (List.mem_cons_of_mem _ he))
        rw [hy]
        exact ⟨_, rfl⟩

end Verif.Normalizer
