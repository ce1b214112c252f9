import Verif.Whole.Thin
import Verif.Whole.LabelSpec
import Verif.Whole.Props4
import Verif.Converter.Props2

/-!
# The labels of samples
-/

namespace Verif.Whole
open Verif.Serial (Msg Body)
open Verif.Normalizer (Each Ev Callback SampleCtx MapRef)

/-- The samples that an event leads to if it is no trace data: one, or lost ones. -/
theorem told_kind {cfg : Normalizer.Config} {past : List Ev} {e : Ev} {x : List Callback} (hspe : cfg.hasSpe = false ∨ ∀ a, e ≠ .auxtrace a)
    (h : Told cfg past e x) {c : SampleCtx} (hc : .sample c ∈ x) :
    (∃ misc s idx, e = .sample misc s ∧ Normalizer.Reported cfg past misc s none idx c) ∨
    (c.sampleMap ≠ none ∧ c.sample.ip = lostAddress) := by
  obtain ⟨h, -⟩ := h
  have nil : x ≠ [] := by rintro rfl; cases hc
  have mm : ∀ b, Normalizer.ReportsMmap cfg b x → False := by
    intro b hb
    unfold Normalizer.ReportsMmap at hb
    split at hb
    · exact nil hb
    · obtain ⟨r, rfl, -⟩ := hb
      cases List.mem_singleton.1 hc
  have lost : ∀ l, Normalizer.ReportsLost cfg l x → (c.sampleMap ≠ none ∧ c.sample.ip = lostAddress) := by
    intro l hl
    unfold Normalizer.ReportsLost at hl
    split at hl
    · exact absurd hl nil
    · obtain ⟨r, rfl, hr, -⟩ := hl
      have := List.eq_of_mem_replicate hc
      injection this with this
      subst this
      exact ⟨by simp, by show 0x9000000000000000 = lostAddress; decide⟩
  cases e with
  | mmap b => exact (mm _ h).elim
  | ksymbol t f a n nm =>
    unfold Normalizer.Reports at h
    simp only at h
    split at h
    · exact (mm _ h).elim
    · exact absurd h nil
  | comm misc d =>
    obtain ⟨q, rfl, -⟩ := h
    cases List.mem_singleton.1 hc
  | lostSamples l =>
    unfold Normalizer.Reports at h
    simp only at h
    split at h
    · exact .inr (lost _ h)
    · exact absurd h nil
  | lost l =>
    unfold Normalizer.Reports at h
    simp only at h
    split at h
    · exact absurd h nil
    · exact .inr (lost _ h)
  | sample misc s =>
    have h : Normalizer.ReportsSample cfg past misc s x := h
    unfold Normalizer.ReportsSample at h
    split at h
    · exact absurd h nil
    · rename_i idx hi
      obtain ⟨c', rfl, hr⟩ := h
      cases List.mem_singleton.1 hc
      exact .inl ⟨misc, s, idx, rfl, hr⟩
  | auxtrace a =>
    unfold Normalizer.Reports at h
    rcases hspe with hspe | hspe
    · simp only [hspe] at h
      exact absurd h nil
    · exact absurd rfl (hspe a)
  | _ => exact absurd h nil

/-- The samples that the converter sees are those of the recording. -/
theorem sample_origin {M : Machine} {options : Nat} {i : Meta.Info} {l : List Msg} (hl : ∀ m ∈ l, Shaped m) {r : List Msg × Parser.Stats}
    (h : parseEvents M (rawOpts M options) true true true i l = some r) {misc : Option Nat} {c : Normalizer.SampleEv}
    (hc : .sample misc c ∈ r.1.map normView) : ∃ m ∈ l, ∃ s, m.body = .sample s ∧ c = normSample s := by
  obtain ⟨k1, -⟩ := prep_spec rfl rfl hl h
  obtain ⟨m, hm, he⟩ := List.mem_map.1 hc
  have hn : notMap m = true := by
    cases hb : m.body with
    | mmap b => unfold normView at he; rw [hb] at he; cases he
    | _ => unfold notMap; rw [hb]
  have hm' : .sample misc c ∈ (r.1.filter notMap).map normView := List.mem_map.2 ⟨m, List.mem_filter.2 ⟨hm, hn⟩, he⟩
  rw [k1, if_pos rfl] at hm'
  obtain ⟨m', hm', he'⟩ := List.mem_map.1 hm'
  refine ⟨m', (sort_perm i l).mem_iff.1 (List.mem_filter.1 hm').1, ?_⟩
  unfold normView at he'
  cases hb : m'.body with
  | sample s =>
    rw [hb] at he'
    cases he'
    exact ⟨s, rfl, rfl⟩
  | ksymbol k => rw [hb] at he'; cases he'
  | _ => rw [hb] at he'; cases he'

/-! ## Names -/

theorem commAt_skip {pid tid : Nat} {h : List Callback} : ∀ {x : List Callback}, (∀ d b, Callback.comm d b ∉ x) →
    Converter.commAt (x ++ h) pid tid = Converter.commAt h pid tid
  | [], _ => rfl
  | cb :: x, hx => by
    have ih := commAt_skip (x := x) (pid := pid) (tid := tid) (h := h) (fun d b hm => hx d b (List.mem_cons_of_mem _ hm))
    cases cb with
    | comm d b => exact absurd List.mem_cons_self (hx d b)
    | mmap p m => exact ih
    | sample c => exact ih

theorem had_any (es : List Ev) (pid : Nat) : Normalizer.hadMmapEvent es pid = true ↔ ∃ e ∈ es.map bare, mapPid e = some pid := by
  unfold Normalizer.hadMmapEvent
  rw [List.any_eq_true]
  constructor
  · rintro ⟨e, he, hp⟩
    refine ⟨bare e, List.mem_map.2 ⟨e, he, rfl⟩, ?_⟩
    cases e <;> simp only [Bool.false_eq_true] at hp
    rw [← beq_iff_eq.1 hp]; rfl
  · rintro ⟨e', he', hp⟩
    obtain ⟨e, he, rfl⟩ := List.mem_map.1 he'
    refine ⟨e, he, ?_⟩
    cases e <;> simp only [bare, mapPid, reduceCtorEq, Option.some.injEq] at hp
    simp only [hp, beq_self_eq_true]

theorem had_map (h : List Msg) (pid : Nat) : hadMap h pid = true ↔ ∃ e ∈ h.map (fun m => bare (normView m)), mapPid e = some pid := by
  have e1 : hadMap h pid = Normalizer.hadMmapEvent (h.map normView) pid := by
    unfold hadMap Normalizer.hadMmapEvent
    rw [List.any_map]
    congr 1
    funext m
    simp only [Function.comp, normView]
    cases m.body <;> rfl
  rw [e1, had_any, List.map_map]
  rfl

theorem map_snoc {α β : Type} {f : α → β} {l : List α} {l' : List β} {x : β} (h : l' ++ [x] = l.map f) : ∃ l0 a, l = l0 ++ [a] ∧ l' = l0.map f ∧ x = f a := by
  obtain ⟨l0, q, rfl, h1, h2⟩ := List.map_eq_append_iff.1 h.symm
  obtain ⟨a, w, rfl, h3, h4⟩ := List.map_eq_cons_iff.1 h2
  rw [List.map_eq_nil_iff] at h4
  subst h4
  exact ⟨l0, a, rfl, h1.symm, h3.symm⟩

/-- The comm event of a comm record. -/
theorem bare_comm {m : Msg} {misc : Nat} {d : Normalizer.CommEv} (h : bare (normView m) = .comm misc d) :
    ∃ c, m.body = .comm c ∧ misc = m.misc ∧ d = { pid := c.pid, tid := c.tid, comm := c.comm, md5 := c.commMd5 } := by
  unfold normView at h
  cases hb : m.body <;> rw [hb] at h <;> simp only [bare, reduceCtorEq] at h
  cases h
  exact ⟨_, rfl, rfl, rfl⟩

theorem bare_cgroup {m : Msg} {i : Nat} {p : Bytes} (h : bare (normView m) = .cgroup i p) : ∃ c, m.body = .cgroup c ∧ i = c.id ∧ p = c.path := by
  unfold normView at h
  cases hb : m.body <;> rw [hb] at h <;> simp only [bare, reduceCtorEq] at h
  cases h
  exact ⟨_, rfl, rfl, rfl⟩

/-- The names that the calls tell of are those that the records tell of. -/
theorem names_kept {cfg : Normalizer.Config} {l r : List Ev} (h : Thins mapPid l r) : ∀ {pre : List Msg} {es : List Ev} {cbs : List Callback},
    l = pre.map (fun m => bare (normView m)) → r = es.map bare → Each (Told cfg) [] es cbs → ∀ pid tid,
    Converter.commAt cbs.reverse pid tid = nameAt cfg.commExec pre.reverse pid tid := by
  induction h with
  | nil =>
    intro pre es cbs h1 h2 h3 pid tid
    rw [List.map_eq_nil_iff.1 h1.symm]
    rw [List.map_eq_nil_iff.1 h2.symm] at h3
    rw [show cbs = [] from h3]
    rfl
  | @keep l0 r0 x hth ih =>
    intro pre es cbs h1 h2 h3 pid tid
    obtain ⟨pre0, m, rfl, hp, hm⟩ := map_snoc h1
    obtain ⟨es0, e, rfl, he0, he⟩ := map_snoc h2
    obtain ⟨a, b, rfl, ha, hb⟩ := each_append _ _ h3
    obtain ⟨c, cs, rfl, hc, hcs⟩ := hb
    rw [show cs = [] from hcs, List.append_nil, List.reverse_append]
    rw [List.append_nil] at hc
    have ih := ih hp he0 ha
    rw [List.reverse_append, List.reverse_singleton, List.singleton_append]
    by_cases hcomm : ∃ misc d, e = .comm misc d
    · obtain ⟨misc, d, rfl⟩ := hcomm
      have he : x = .comm misc d := he
      obtain ⟨q, hq, hqe⟩ := hc.1
      obtain ⟨c0, k1, k2, k3⟩ := bare_comm (m := m) (hm.symm.trans he)
      subst hq
      rw [List.reverse_singleton, List.singleton_append]
      unfold Converter.commAt nameAt
      rw [k1]
      subst k3
      simp only
      split
      · split
        · rfl
        · rename_i hpid htid
          have hx : q = true ↔ c0.pid = c0.tid ∧ (cfg.commExec = false ∨ m.misc.testBit 13 = true ∨ hadMap pre0.reverse c0.pid = false) := by
            rw [hqe]
            unfold Normalizer.ExecComm
            simp only
            rw [k2]
            have : Normalizer.hadMmapEvent es0.reverse c0.pid = hadMap pre0.reverse c0.pid := by
              rw [Bool.eq_iff_iff, had_any, had_map]
              have := hth.keys c0.pid
              rw [hp, he0] at this
              rw [List.map_reverse, List.map_reverse]
              simp only [List.mem_reverse]
              exact this.symm
            rw [this]
          cases hq : q with
          | true => rw [if_pos rfl, if_pos (hx.1 hq)]
          | false =>
            rw [if_neg (by simp), if_neg (fun hh => by rw [hx.2 hh] at hq; cases hq)]
            exact ih pid tid
      · exact ih pid tid
    · have hno : ∀ d b, Callback.comm d b ∉ c.reverse := by
        intro d b hd
        rw [List.mem_reverse] at hd
        obtain ⟨misc, hm⟩ := comm_called [e] (past := es0.reverse) (cbs := c) ⟨c, [], by simp, hc.1, rfl⟩ hd
        exact hcomm ⟨misc, d, (List.mem_singleton.1 hm).symm⟩
      rw [commAt_skip hno, ih pid tid]
      have : ∀ d, m.body ≠ .comm d := by
        intro d hd
        have : x = .comm m.misc { pid := d.pid, tid := d.tid, comm := d.comm, md5 := d.commMd5 } := by
          rw [hm]; unfold normView; rw [hd]; rfl
        rw [this] at he
        cases e <;> simp only [bare, reduceCtorEq] at he
        exact hcomm ⟨_, _, rfl⟩
      rw [show nameAt cfg.commExec (m :: pre0.reverse) pid tid = nameAt cfg.commExec pre0.reverse pid tid from by
        rw [nameAt]
        split
        · rename_i d hd; exact absurd hd (this d)
        · rfl]
  | @drop l0 r0 x n hth hx _ ih =>
    intro pre es cbs h1 h2 h3 pid tid
    obtain ⟨pre0, m, rfl, hp, hm⟩ := map_snoc h1
    rw [ih hp h2 h3 pid tid, List.reverse_append, List.reverse_singleton, List.singleton_append, nameAt]
    split
    · rename_i d hd
      have : x = .comm m.misc { pid := d.pid, tid := d.tid, comm := d.comm, md5 := d.commMd5 } := by
        rw [hm]; unfold normView; rw [hd]; rfl
      rw [this] at hx
      cases hx
    · rfl

/-- The cgroups are those of the records. -/
theorem cgroups_kept {l r : List Ev} (h : Thins mapPid l r) : ∀ {pre : List Msg} {es : List Ev},
    l = pre.map (fun m => bare (normView m)) → r = es.map bare → ∀ id, Normalizer.cgroupPath es.reverse id = cgroupAt pre.reverse id := by
  have skip : ∀ {e : Ev} {es : List Ev} {id : Nat}, (∀ i p, e ≠ .cgroup i p) → Normalizer.cgroupPath (e :: es) id = Normalizer.cgroupPath es id := by
    intro e es id he
    cases e <;> first | rfl | exact absurd rfl (he _ _)
  induction h with
  | nil =>
    intro pre es h1 h2 id
    rw [List.map_eq_nil_iff.1 h1.symm, List.map_eq_nil_iff.1 h2.symm]
    rfl
  | @keep l0 r0 x hth ih =>
    intro pre es h1 h2 id
    obtain ⟨pre0, m, rfl, hp, hm⟩ := map_snoc h1
    obtain ⟨es0, e, rfl, he0, he⟩ := map_snoc h2
    have ih := ih hp he0 id
    rw [List.reverse_append, List.reverse_singleton, List.singleton_append, List.reverse_append, List.reverse_singleton, List.singleton_append,
      cgroupAt]
    by_cases hcg : ∃ i p, e = .cgroup i p
    · obtain ⟨i, p, rfl⟩ := hcg
      have he : x = .cgroup i p := he
      obtain ⟨c, k1, rfl, rfl⟩ := bare_cgroup (m := m) (hm.symm.trans he)
      rw [k1, Normalizer.cgroupPath, ih]
    · rw [skip (fun i p h => hcg ⟨i, p, h⟩), ih]
      split
      · rename_i d hd
        have : x = .cgroup d.id d.path := by rw [hm]; unfold normView; rw [hd]; rfl
        rw [this] at he
        cases e <;> simp only [bare, reduceCtorEq] at he
        exact absurd ⟨_, _, rfl⟩ hcg
      · rfl
  | @drop l0 r0 x n hth hx _ ih =>
    intro pre es h1 h2 id
    obtain ⟨pre0, m, rfl, hp, hm⟩ := map_snoc h1
    rw [ih hp h2 id, List.reverse_append, List.reverse_singleton, List.singleton_append, cgroupAt]
    split
    · rename_i d hd
      have : x = .cgroup d.id d.path := by rw [hm]; unfold normView; rw [hd]; rfl
      rw [this] at hx
      cases hx
    · rfl

/-- The numbers of a sample fit. -/
theorem alike_fits {labels : Nat} {l : List Msg} (ha : Alike labels l) {m : Msg} (hm : m ∈ l) {s : Serial.SampleEvent} (hb : m.body = .sample s) {c : SampleCtx}
    (hc : c.sample = normSample s) : Converter.Fits c := by
  obtain ⟨h1, h2, h3, h4, h5⟩ := ha.fits m hm s hb
  refine ⟨?_, ?_, ?_, ?_, ?_⟩ <;> rw [hc]
  · exact h1
  · exact h2
  · exact h3
  · exact h4
  · intro n hn
    obtain ⟨w, hw, h6⟩ := Option.bind_eq_some_iff.1 hn
    obtain ⟨v, hv, rfl⟩ := Option.map_eq_some_iff.1 hw
    cases h6
    exact h5 v hv

theorem marked_eq {inp : Normalizer.Input} {cfg : Normalizer.Config} (h : Normalizer.mkConfig inp = some cfg) :
    cfg.commExec = inp.attrs.any (·.commExec) := by
  unfold Normalizer.mkConfig at h
  simp only [Option.bind_eq_bind] at h
  obtain ⟨u, h1, h2⟩ := Option.bind_eq_some_iff.1 h
  cases h2
  rfl

/-- The labels of a reported sample are those of its record. -/
theorem labels_view {S : Converter.Setup} {cfg : Normalizer.Config} {past : List Ev} {h : List Msg} {hist : List Callback} {misc idx : Nat}
    {s : Serial.SampleEvent} {c : SampleCtx} (hr : Normalizer.Reported cfg past (some misc) (normSample s) none idx c)
    (hn : ∀ p t, Converter.commAt hist p t = nameAt cfg.commExec h p t) (hg : ∀ id, Normalizer.cgroupPath past id = cgroupAt h id)
    {attrs : List Attr.ProtoFileAttr} (hm : cfg.commExec = attrs.any (·.attr.flags.testBit 24)) :
    Converter.labelsOf S hist c = recordLabels attrs S.labels S.threadTypes h misc s := by
  have hl : Converter.latencyOf c = weightOf s := by
    unfold Converter.latencyOf weightOf
    rw [hr.spe, hr.sample]
    unfold normSample
    cases s.weightStruct <;> cases s.weight <;> rfl
  unfold Converter.labelsOf recordLabels Converter.labelFields fieldsOf
  rw [hl, hr.sample, hr.misc, hr.spe, hr.cgroup, ← hm]
  simp only [hn]
  have e1 : ((normSample s).weightStruct.bind (·.1)).getD 0 = (s.weightStruct.map (·.var1)).getD 0 := by
    unfold normSample
    cases s.weightStruct <;> rfl
  have e2 : (normSample s).cgroup.bind (Normalizer.cgroupPath past) = s.cgroup.bind (cgroupAt h) := by
    unfold normSample
    cases s.cgroup with
    | none => rfl
    | some g => exact hg g
  rw [e1, e2]
  simp only [List.filterMap_cons, List.filterMap_nil, normSample, Option.map_none, Option.getD_none]
  have z : ∀ u, Converter.numLabel 0 u = none := fun _ => rfl
  simp only [z, Option.map_none, ite_self]
  rfl

/-- C112. The labels of a sample in the profiles made from the bytes of a recording: one of the profiles — that of the process of the sample, if
there is one for each process — has a profile sample that counts for the event of the sample and whose labels are, in order, those asked for that
the record of the sample has: its process, thread, time, CPU, mode and so on, the names that comm records before it gave to the process and to the
thread, and the path that a record before it gave to the cgroup. Whatever the bytes are, if the samples are alike (`Alike`), no process has the
name of the mapping of lost samples (`Calm`) and there is no trace data of ARM SPE. -/
theorem labels_shown_partial {M : Machine} {ids : List (Bytes × Bytes)} {labels options : Nat} {threadTypes : List (Nat × Bytes)} {b : Bytes}
    {ps : List Converter.ProcessProfile} {st : Data.St} (hb : File.readBytes { env := M.env } b = some (some st))
    (hc : Calm options st.events) (ha : Alike labels st.events) (hspe : speTrace st.events = false)
    (h : rawToProfiles M ids labels options threadTypes b = some ps) {t pre post : List Msg} {m : Msg} {s : Serial.SampleEvent} {k : Nat}
    (ht : Timeline st.base.info.attrs st.events t) (hm : t = pre ++ m :: post) (hbody : m.body = .sample s)
    (hk : owner st.base.info.attrs s.id = some k) :
    ∃ p ∈ ps, p.pid = (if options.testBit 0 then s.pid.getD 0 else 0) ∧ ∃ smp ∈ p.data.sample, 1 ≤ smp.value.getD (2 * k) 0 ∧
      smp.label.map (Converter.readLabel p.data) =
        (recordLabels st.base.info.attrs labels threadTypes pre.reverse m.misc s).map some := by
  have hsh := read_shaped hb
  unfold rawToProfiles at h
  rw [hb] at h
  obtain ⟨r, L, h1, h2⟩ := staged h
  obtain ⟨g1, g2⟩ := given hsh hc h1
  obtain ⟨S, hS⟩ : ∃ S, S = Converter.setupOf (normInput M (withBuildIds M.env.md5 ids st.base.info st.events) r.1)
      (st.base.info.eventTypes.map (fun t => some t.2)) st.base.info.cmdWhole labels options threadTypes := ⟨_, rfl⟩
  have hSo : S.options = options := by rw [hS]; rfl
  have hSl : S.labels = labels := by rw [hS]; rfl
  have hSt : S.threadTypes = threadTypes := by rw [hS]; rfl
  have hSa : S.attrs.length = st.base.info.attrs.length := by
    rw [hS]; exact List.length_map _
  have hconv := h2
  unfold Converter.protoToProfiles at hconv
  cases hp : Normalizer.process (normInput M (withBuildIds M.env.md5 ids st.base.info st.events) r.1) with
  | none => rw [hp] at hconv; cases hconv
  | some cbs =>
    rw [hp] at hconv
    simp only at hconv
    have hconv : Converter.convert S cbs = some (ps, L) := by rw [hS]; exact hconv
    have hsane := g2 cbs hp S hSo
    obtain ⟨cfg, hcfg, hrep⟩ := Normalizer.process_main _ cbs g1.typed hp
    have hts : t = sortEvents (withBuildIds M.env.md5 ids st.base.info st.events) st.events := timeline_sort (by rw [attrs_kept]; exact ht)
    have hrep : Each (Told cfg) [] (r.1.map normView) cbs := hrep
    have hperm := sort_perm (withBuildIds M.env.md5 ids st.base.info st.events) st.events
    have hmem : m ∈ st.events := by
      refine hperm.mem_iff.1 ?_
      rw [← hts, hm]; simp
    have hspe : cfg.hasSpe = false := by
      rw [(config_parts hcfg).2.1, ← hspe, ← speTrace_eq]
      exact same_any hperm (prep_spec rfl rfl hsh h1).1 _ (fun _ => rfl)
    have howner : ∀ id, Normalizer.eventIndexFor cfg id = owner st.base.info.attrs id := fun id => (owner_eq hcfg id).trans rfl
    have hmark : cfg.commExec = st.base.info.attrs.any (·.attr.flags.testBit 24) := by
      rw [marked_eq hcfg]
      show List.any (List.map _ _) _ = _
      rw [List.any_map, attrs_kept]
      rfl
    -- the event of the sample
    have hmv : normView m = .sample (some m.misc) (normSample s) := by unfold normView; rw [hbody]
    have hthin := prep_bare hsh h1
    rw [← hts, hm, List.map_append, List.map_cons] at hthin
    obtain ⟨r1, r2, hr12, hthin1⟩ := hthin.split rfl (by rw [hmv]; rfl)
    obtain ⟨pre', q, hrq, rfl, hq⟩ := List.map_eq_append_iff.1 hr12
    obtain ⟨m', post', rfl, hm', -⟩ := List.map_eq_cons_iff.1 hq
    have hm' : normView m' = .sample (some m.misc) (normSample s) := by
      rw [hmv] at hm'
      generalize normView m' = e at hm'
      cases e <;> simp only [bare, reduceCtorEq] at hm'
      exact hm'
    have hrep0 := hrep
    rw [hrq, List.map_append, List.map_cons] at hrep
    obtain ⟨A, rest, hcbs, hA, hrest⟩ := each_append _ _ hrep
    obtain ⟨x, B, hxB, hx, hB⟩ := hrest
    rw [List.append_nil] at hx
    have hx1 := hx.1
    rw [hm'] at hx1
    have hx1 : Normalizer.ReportsSample cfg (pre'.map normView).reverse (some m.misc) (normSample s) x := hx1
    unfold Normalizer.ReportsSample at hx1
    rw [show (normSample s).id = s.id from rfl, howner, hk] at hx1
    obtain ⟨c, rfl, hr⟩ := hx1
    subst hxB
    have hpid : Converter.pidOf c = s.pid.getD 0 := by
      unfold Converter.pidOf; rw [hr.sample]; rfl
    have hthin2 : Thins mapPid (pre.map (fun m => bare (normView m))) ((pre'.map normView).map bare) := by
      rw [List.map_map]; exact hthin1
    have hnames := names_kept (cfg := cfg) hthin2 rfl rfl hA
    have hcg := cgroups_kept hthin2 rfl rfl
    -- its place in the profiles
    have hhist := (Converter.accepted_samples_placed hconv).2.1
    have hsplit : Converter.hist L = B.reverse ++ .sample c :: A.reverse := by
      rw [hhist, hcbs]; simp
    obtain ⟨LA, o, LB, rfl, -, hLB⟩ := log_split hsplit
    obtain ⟨st', -, -, h0, -⟩ := Converter.convert_state hconv
    have hacc : Converter.Accepted S c := by
      refine ⟨?_, fun hl => ?_⟩
      · rw [hr.index, hSa]; exact owner_lt hk
      · rw [hr.lost] at hl; cases hl.1
    have ho : o.isSome := (h0.acc (.sample c, o) (by simp)).2 ⟨c, rfl, hacc⟩
    obtain ⟨slot, rfl⟩ := Option.isSome_iff_exists.1 ho
    have hfit := alike_fits ha hmem hbody hr.sample
    obtain ⟨p, smp, hp1, hp2, hall⟩ := Converter.labels_shown_by hconv hsane rfl hfit (by
      intro c' hc' hfr
      unfold Converter.acceptedSamples at hc'
      obtain ⟨cb, hcb, hcb'⟩ := List.mem_filterMap.1 hc'
      have hcc : .sample c' ∈ cbs := by
        cases cb <;> simp only [reduceCtorEq] at hcb'
        split at hcb'
        · cases hcb'; exact hcb
        · cases hcb'
      obtain ⟨u, v, huv⟩ := List.append_of_mem hcc
      rw [huv] at hrep0
      obtain ⟨pre2, m2, post2, a2, b2, B2, f1, f2, -, -⟩ := told_split hrep0
      rcases told_kind (.inl hspe) f2 (c := c') (by simp) with ⟨misc2, s2, idx2, e2, hr2⟩ | ⟨l1, l2⟩
      · obtain ⟨m0, hm0, s0, hb0, rfl⟩ := sample_origin hsh h1 (misc := misc2) (c := s2) (by
          rw [← e2, f1]; simp)
        obtain ⟨k1, k2, k3, k4⟩ := ha.same m0 hm0 m hmem s0 s hb0 hbody
        refine ⟨alike_fits ha hm0 hb0 hr2.sample, ?_, ?_, ?_, ?_⟩ <;> rw [hSl, hr2.sample, hr.sample] <;> assumption
      · exfalso
        unfold Converter.frames Converter.codeFrames at hfr
        rw [List.map_append, List.map_append, List.map_cons, List.map_cons] at hfr
        have hlen := (List.append_inj hfr (by split <;> rfl)).2
        have hleaf := (List.cons.inj hlen).1
        unfold Converter.leaf at hleaf
        rw [if_neg l1, l2] at hleaf
        simp only at hleaf
        split at hleaf
        · exact absurd hleaf (by decide)
        · rw [hr.sample] at hleaf
          exact ha.apart m hmem s hbody hleaf.symm)
    refine ⟨p, List.mem_of_getElem? hp1, ?_, smp, List.mem_of_getElem? hp2, ?_, ?_⟩
    · obtain ⟨st2, bb, mm, r1, -, hinv, -, hmeta, -, hpp, -⟩ := Converter.profile_at hconv hsane hp1
      obtain ⟨m2, q1, q2⟩ := hinv.spid (c, slot) (Converter.mem_placed.2 ⟨LA, LB, rfl⟩)
      rw [hmeta] at q1
      cases q1
      rw [hpp, q2, hpid]
      unfold Converter.Setup.home Converter.Setup.grouped
      rw [hSo]
    · have hv := (((Converter.sample_values_partial hconv hp1 hp2).2 k (by rw [hSa]; exact owner_lt hk)).1)
      rw [List.getD_eq_getElem?_getD, hv, Option.getD_some]
      have : (c, slot) ∈ (Converter.placed (LA ++ (.sample c, some slot) :: LB)).filter
          (fun q => decide (q.2 = (slot.1, slot.2) ∧ q.1.attrIndex = k)) :=
        List.mem_filter.2 ⟨Converter.mem_placed.2 ⟨LA, LB, rfl⟩, by simp [hr.index]⟩
      have := List.length_pos_of_mem this
      omega
    · rw [hall, hLB, labels_view hr hnames hcg hmark, hSl, hSt]

/-! ### Examples -/

section
open Verif.File (exFile exMetadata fileImage)
open Verif.Serial (exMsg exMap exSample exInfo exEnv)

/-- The fields of a sample that all samples have or none, the numbers that have to fit, and the address. -/
def alikeB (l : List Msg) : Bool :=
  let ss := l.filterMap (fun m => match m.body with | .sample s => some s | _ => none)
  ss.all (fun s => ss.all (fun s' => s.pid.isSome == s'.pid.isSome && s.tid.isSome == s'.tid.isSome && s.time.isSome == s'.time.isSome &&
    s.cpu.isSome == s'.cpu.isSome)) &&
  ss.all (fun s => s.time.all (· < 2 ^ 63) && s.weight.all (· < 2 ^ 32) && s.codePageSize.all (· < 2 ^ 63) && s.dataPageSize.all (· < 2 ^ 63) &&
    s.weightStruct.all (·.var1 < 2 ^ 63)) &&
  ss.all (fun s => s.ip.getD 0 != lostAddress)

theorem alike_of {labels : Nat} {l : List Msg} (h : alikeB l = true) : Alike labels l := by
  unfold alikeB at h
  simp only [Bool.and_eq_true, List.all_eq_true] at h
  obtain ⟨⟨h1, h2⟩, h3⟩ := h
  have mem : ∀ m ∈ l, ∀ s, m.body = .sample s → s ∈ l.filterMap (fun m => match m.body with | .sample s => some s | _ => none) := by
    intro m hm s hs
    exact List.mem_filterMap.2 ⟨m, hm, by rw [hs]⟩
  have all : ∀ {o : Option Nat} {n : Nat}, o.all (· < n) = true → ∀ x, o = some x → x < n := by
    rintro o n ho x rfl
    simpa using ho
  refine ⟨fun m hm m' hm' s s' hs hs' => ?_, fun m hm s hs => ?_, fun m hm s hs => ?_⟩
  · have := h1 s (mem m hm s hs) s' (mem m' hm' s' hs')
    simp only [beq_iff_eq] at this
    exact ⟨fun _ _ _ => this.1.1.1, fun _ _ _ => this.1.1.2, fun _ _ _ => this.1.2, fun _ _ _ => this.2⟩
  · obtain ⟨⟨⟨⟨k1, k2⟩, k3⟩, k4⟩, k5⟩ := h2 s (mem m hm s hs)
    refine ⟨all k1, all k2, all k3, all k4, ?_⟩
    intro w hw
    rw [hw] at k5
    simpa using k5
  · have := h3 s (mem m hm s hs)
    simpa using this

/-- The labels of the sample at a place, if the recording meets the conditions of `labels_shown_partial`. -/
def labelsAtB (labels options : Nat) (threadTypes : List (Nat × Bytes)) (st : Data.St) (n : Nat) :
    Option (Option Nat × List (Bytes × Converter.LabelText)) :=
  match st.events[n]? with
  | some m =>
    match m.body with
    | .sample s =>
      if calmB options st.events && alikeB st.events && !speTrace st.events && inOrderB st.base.info.attrs st.events then
        some (owner st.base.info.attrs s.id, recordLabels st.base.info.attrs labels threadTypes (st.events.take n).reverse m.misc s)
      else none
    | _ => none
  | none => none

theorem labelsAt_of {labels options : Nat} {threadTypes : List (Nat × Bytes)} {st : Data.St} {n : Nat} {k : Option Nat}
    {r : List (Bytes × Converter.LabelText)} (h : labelsAtB labels options threadTypes st n = some (k, r)) :
    Calm options st.events ∧ Alike labels st.events ∧ speTrace st.events = false ∧ ∃ pre m post s, Timeline st.base.info.attrs st.events (pre ++ m :: post) ∧
      m.body = .sample s ∧ owner st.base.info.attrs s.id = k ∧
      recordLabels st.base.info.attrs labels threadTypes pre.reverse m.misc s = r := by
  unfold labelsAtB at h
  split at h
  · rename_i m hm
    split at h
    · rename_i s hs
      split at h
      · rename_i hc
        cases h
        simp only [Bool.and_eq_true, Bool.not_eq_true'] at hc
        obtain ⟨⟨⟨h1, h2⟩, h3⟩, h4⟩ := hc
        refine ⟨calm_of h1, alike_of h2, h3, st.events.take n, m, st.events.drop (n + 1), s, ?_, hs, rfl, rfl⟩
        have : st.events = st.events.take n ++ m :: st.events.drop (n + 1) := by
          obtain ⟨hlt, he⟩ := List.getElem?_eq_some_iff.1 hm
          rw [← he, ← List.drop_eq_getElem_cons hlt, List.take_append_drop]
        rw [← this]
        exact inOrder_of h4
      · cases h
    · cases h
  · cases h

/-- A thread of process 10 is given a name. -/
def threadMsg (tid time : Nat) (name : Serial.Bytes) : Msg :=
  exMsg 3 0 (.comm { pid := 10, tid := tid, comm := name, commMd5 := exEnv.md5 name, info := { exInfo with time := some time } })

/-- A sample with a weight. -/
def heavyMsg (weight time : Nat) : Msg :=
  exMsg 9 2 (.sample { exSample with ip := some 0x4200, time := some time, callchain := [0x4200], branches := [], addr := some 0, weight := some weight })

/-- The labels of the samples of profiles. -/
def labelsIn (ps : List Converter.ProcessProfile) : List (List (Option (Bytes × Converter.LabelText))) :=
  ps.flatMap fun p => p.data.sample.map (fun s => s.label.map (Converter.readLabel p.data))

def exThreads : List Msg := [threadMsg 10 1 (ascii "sh"), threadMsg 11 2 (ascii "worker"), mapMsg 3, heavyMsg 7 4]

def exLabels : List (Bytes × Converter.LabelText) :=
  [(ascii "pid", .num 10 []), (ascii "tid", .num 11 []), (ascii "comm", .str (ascii "sh")), (ascii "timestamp_ns", .num 4 []),
    (ascii "execution_mode", .str (ascii "Host User")), (ascii "thread_type", .str (ascii "io")), (ascii "thread_comm", .str (ascii "worker")),
    (ascii "cpu", .num 2 (ascii "cpu")), (ascii "total_latency", .num 7 (ascii "cycles"))]

/-- The conditions are met by the bytes of a recording with a sample of a named thread. -/
example : ∃ st, File.readBytes { env := exEnv } (fileImage (recordingOf exThreads)) = some (some st) ∧
    Calm 1 st.events ∧ Alike (2 ^ 16 - 1) st.events ∧ speTrace st.events = false ∧ (∃ pre m post s, Timeline st.base.info.attrs st.events (pre ++ m :: post) ∧
      m.body = .sample s ∧ owner st.base.info.attrs s.id = some 0 ∧
      recordLabels st.base.info.attrs (2 ^ 16 - 1) [(11, ascii "io")] pre.reverse m.misc s = exLabels) ∧
    (rawToProfiles exMachine [] (2 ^ 16 - 1) 1 [(11, ascii "io")] (fileImage (recordingOf exThreads))).map labelsIn = some [exLabels.map some] := by
  have h1 : ((File.readBytes { env := exEnv } (fileImage (recordingOf exThreads))).bind id).bind
      (fun st => labelsAtB (2 ^ 16 - 1) 1 [(11, ascii "io")] st 3) = some (some 0, exLabels) := by
    decide +kernel
  have h2 : (rawToProfiles exMachine [] (2 ^ 16 - 1) 1 [(11, ascii "io")] (fileImage (recordingOf exThreads))).map labelsIn =
      some [exLabels.map some] := by
    decide +kernel
  cases hr : File.readBytes { env := exEnv } (fileImage (recordingOf exThreads)) with
  | none => rw [hr] at h1; cases h1
  | some o =>
    cases o with
    | none => rw [hr] at h1; cases h1
    | some st =>
      rw [hr] at h1
      obtain ⟨k1, k2, k3, k4⟩ := labelsAt_of h1
      exact ⟨st, rfl, k1, k2, k3, k4, h2⟩

/-- C112 fails for a latency that does not fit 32 bits: it is cut, and the samples are put together with others. -/
theorem labels_latency_violated :
    (rawToProfiles exMachine [] (2 ^ 13) 1 [] (fileImage (recordingOf [mapMsg 2, heavyMsg (2 ^ 32 + 5) 3, heavyMsg 5 4]))).map labelsIn =
      some [[some (ascii "total_latency", .num 5 (ascii "cycles"))]] := by decide +kernel

/-- C112 fails for a time that does not fit the type of the label: it is shown as negative. -/
theorem labels_time_violated :
    (rawToProfiles exMachine [] (2 ^ 2) 1 [] (fileImage (recordingOf [mapMsg 2, heavyMsg 5 (2 ^ 63 + 3)]))).map labelsIn =
      some [[some (ascii "timestamp_ns", .num (3 - 2 ^ 63) [])]] := by decide +kernel

end

end Verif.Whole
