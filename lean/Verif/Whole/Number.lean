import Verif.Whole.Labels
import Verif.Whole.Traces
import Verif.Converter.Props4

/-!
# Which profiles there are
-/

namespace Verif.Whole
open Verif.Serial (Msg Body)
open Verif.Normalizer (Each Ev Callback SampleCtx MapRef)

/-- The processes whose samples a record of the recording `t` holds: the sample of an event of the recording; or, unless they are to be left out
(option 4), lost samples of one, which newer versions of perf (`new`) report in one kind of record and older ones in another; or what is traced, if
it is of ARM SPE, for which there has to be an event. -/
def sampledIn (new : Bool) (attrs : List Attr.ProtoFileAttr) (base options : Nat) (t : List Msg) (m : Msg) : List Nat :=
  match m.body with
  | .sample s => if (owner attrs s.id).isSome then [s.pid.getD 0] else []
  | .lostSamples l =>
    if new = true ∧ options.testBit 4 = false ∧ l.lost ≠ 0 ∧ (owner attrs (some (l.info.id.getD 0))).isSome then [l.info.pid.getD 0] else []
  | .lost l =>
    if new = false ∧ options.testBit 4 = false ∧ l.lost ≠ 0 ∧ (owner attrs (some l.id)).isSome then [l.info.pid.getD 0] else []
  | .auxtrace a =>
    if speTrace t = true ∧ 0 < attrs.length then
      (traceRecords base a.trace).map (fun r => if r.context.id = 0 then 0 else (threadHome t r.context.id).getD 0)
    else []
  | _ => []

/-- As `sampledIn`, for what the converter sees of a record. -/
def seenIn (cfg : Normalizer.Config) (n options : Nat) (e : Ev) : List Nat :=
  match e with
  | .sample _ s => if (Normalizer.eventIndexFor cfg s.id).isSome then [s.pid.getD 0] else []
  | .lostSamples l =>
    if cfg.useLostSample = true ∧ options.testBit 4 = false ∧ l.num ≠ 0 ∧ (Normalizer.eventIndexFor cfg (some l.id)).isSome then [l.pid] else []
  | .lost l =>
    if cfg.useLostSample = false ∧ options.testBit 4 = false ∧ l.num ≠ 0 ∧ (Normalizer.eventIndexFor cfg (some l.id)).isSome then [l.pid] else []
  | .auxtrace (some d) =>
    if cfg.hasSpe = true ∧ 0 < n then
      (traceRecords cfg.traceBase d).map (fun r => if r.context.id = 0 then 0 else (cfg.tidToPid r.context.id).getD 0)
    else []
  | _ => []

theorem seen_view {cfg : Normalizer.Config} {attrs : List Attr.ProtoFileAttr} {base options : Nat} {t : List Msg} (T : Tuned attrs base t cfg) (m : Msg) :
    seenIn cfg attrs.length options (normView m) = sampledIn cfg.useLostSample attrs base options t m := by
  unfold seenIn sampledIn normView
  cases m.body <;> simp only [T.owner] <;> try rfl
  rw [T.spe, T.base]
  split
  · rename_i h
    simp only [T.threads h.1]
  · rfl

theorem seen_bare (cfg : Normalizer.Config) (n options : Nat) (e : Ev) : seenIn cfg n options (bare e) = seenIn cfg n options e := by
  cases e <;> rfl

/-- An accepted sample comes from an event that holds samples of its process. -/
theorem seen_of_told {cfg : Normalizer.Config} {S : Converter.Setup} {past : List Ev} {e : Ev} {x : List Callback}
    (h : Told cfg past e x) {c : SampleCtx} (hc : .sample c ∈ x) (ha : Converter.Accepted S c) :
    Converter.pidOf c ∈ seenIn cfg S.attrs.length S.options e := by
  obtain ⟨h, -⟩ := h
  have nil : x ≠ [] := by rintro rfl; cases hc
  have mm : ∀ b, Normalizer.ReportsMmap cfg b x → False := by
    intro b hb
    unfold Normalizer.ReportsMmap at hb
    split at hb
    · exact nil hb
    · obtain ⟨r, rfl, -⟩ := hb
      cases List.mem_singleton.1 hc
  have lost : ∀ l, Normalizer.ReportsLost cfg l x → S.options.testBit 4 = false ∧ l.num ≠ 0 ∧
      (Normalizer.eventIndexFor cfg (some l.id)).isSome ∧ Converter.pidOf c = l.pid := by
    intro l hl
    unfold Normalizer.ReportsLost at hl
    split at hl
    · exact absurd hl nil
    · rename_i idx hi
      obtain ⟨r, rfl, hr, -⟩ := hl
      have h1 := List.eq_of_mem_replicate hc
      injection h1 with h1
      subst h1
      refine ⟨?_, ?_, by rw [hi]; rfl, rfl⟩
      · cases ht : S.options.testBit 4 with
        | false => rfl
        | true => exact absurd ⟨rfl, ht⟩ ha.2
      · intro h0
        rw [h0] at nil
        exact nil rfl
  cases e with
  | mmap b => exact (mm _ h).elim
  | ksymbol t f a n nm =>
    unfold Normalizer.Reports at h
    simp only at h
    split at h
    · exact (mm _ h).elim
    · exact absurd h nil
  | comm misc d =>
    obtain ⟨q, rfl, -⟩ := h
    cases List.mem_singleton.1 hc
  | lostSamples l =>
    unfold Normalizer.Reports at h
    simp only at h
    split at h
    · rename_i hu
      obtain ⟨k1, k2, k3, k4⟩ := lost _ h
      unfold seenIn
      simp only
      rw [if_pos ⟨hu, k1, k2, k3⟩, k4]
      exact List.mem_singleton.2 rfl
    · exact absurd h nil
  | lost l =>
    unfold Normalizer.Reports at h
    simp only at h
    split at h
    · exact absurd h nil
    · rename_i hu
      obtain ⟨k1, k2, k3, k4⟩ := lost _ h
      unfold seenIn
      simp only
      rw [if_pos ⟨by simpa using hu, k1, k2, k3⟩, k4]
      exact List.mem_singleton.2 rfl
  | sample misc s =>
    have h : Normalizer.ReportsSample cfg past misc s x := h
    unfold Normalizer.ReportsSample at h
    split at h
    · exact absurd h nil
    · rename_i idx hi
      obtain ⟨c', rfl, hr⟩ := h
      cases List.mem_singleton.1 hc
      unfold seenIn Converter.pidOf
      simp only
      rw [hi, hr.sample]
      exact List.mem_singleton.2 rfl
  | auxtrace d =>
    unfold Normalizer.Reports at h
    simp only at h
    cases hs : cfg.hasSpe with
    | false => rw [hs] at h; simp only [Bool.false_eq_true, if_false] at h; exact absurd h nil
    | true =>
      rw [hs] at h
      simp only [if_true] at h
      cases d with
      | none => exact absurd h nil
      | some d =>
        obtain ⟨rs, d', hd, hall⟩ := h
        obtain ⟨r, hr, c', hc', hrep⟩ := hall.left _ hc
        cases hc'
        unfold seenIn Converter.pidOf
        simp only
        rw [if_pos ⟨hs, by have := ha.1; rw [hrep.index] at this; exact this⟩, hrep.sample]
        refine List.mem_map.2 ⟨r, ?_, rfl⟩
        unfold traceRecords
        rw [hd]
        exact hr
  | _ => exact absurd h nil

/-- An event that holds samples of a process leads to an accepted sample of it. -/
theorem told_of_seen {cfg : Normalizer.Config} {S : Converter.Setup} {past : List Ev} {e : Ev} {x : List Callback} {pid : Nat}
    (hlt : ∀ id k, Normalizer.eventIndexFor cfg id = some k → k < S.attrs.length)
    (h : Told cfg past e x) (hs : pid ∈ seenIn cfg S.attrs.length S.options e) :
    ∃ c, .sample c ∈ x ∧ Converter.Accepted S c ∧ Converter.pidOf c = pid := by
  obtain ⟨h, -⟩ := h
  have lost : ∀ l, Normalizer.ReportsLost cfg l x → S.options.testBit 4 = false → l.num ≠ 0 →
      (Normalizer.eventIndexFor cfg (some l.id)).isSome → ∃ c, .sample c ∈ x ∧ Converter.Accepted S c ∧ Converter.pidOf c = l.pid := by
    intro l hl h4 hn hi
    unfold Normalizer.ReportsLost at hl
    split at hl
    · rename_i hno; rw [hno] at hi; cases hi
    · rename_i idx hi
      obtain ⟨r, rfl, hr, -⟩ := hl
      refine ⟨_, List.mem_replicate.2 ⟨hn, rfl⟩, ⟨hlt _ _ hi, ?_⟩, rfl⟩
      rw [h4]; rintro ⟨-, hh⟩; cases hh
  cases e with
  | lostSamples l =>
    unfold seenIn at hs
    simp only at hs
    split at hs
    · rename_i hc
      cases List.mem_singleton.1 hs
      unfold Normalizer.Reports at h
      simp only [hc.1, if_true] at h
      exact lost l h hc.2.1 hc.2.2.1 hc.2.2.2
    · cases hs
  | lost l =>
    unfold seenIn at hs
    simp only at hs
    split at hs
    · rename_i hc
      cases List.mem_singleton.1 hs
      unfold Normalizer.Reports at h
      simp only [hc.1, Bool.false_eq_true, if_false] at h
      exact lost l h hc.2.1 hc.2.2.1 hc.2.2.2
    · cases hs
  | sample misc s =>
    unfold seenIn at hs
    simp only at hs
    split at hs
    · rename_i hc
      cases List.mem_singleton.1 hs
      have h : Normalizer.ReportsSample cfg past misc s x := h
      unfold Normalizer.ReportsSample at h
      split at h
      · rename_i hno; rw [hno] at hc; cases hc
      · rename_i idx hi
        obtain ⟨c, rfl, hr⟩ := h
        refine ⟨c, List.mem_singleton.2 rfl, ⟨by rw [hr.index]; exact hlt _ _ hi, ?_⟩, ?_⟩
        · rw [hr.lost]; rintro ⟨hh, -⟩; cases hh
        · unfold Converter.pidOf; rw [hr.sample]
    · cases hs
  | auxtrace d =>
    cases d with
    | none => cases hs
    | some d =>
      unfold seenIn at hs
      simp only at hs
      split at hs
      · rename_i hc
        obtain ⟨r, hr, rfl⟩ := List.mem_map.1 hs
        unfold Normalizer.Reports at h
        simp only [hc.1, if_true] at h
        obtain ⟨rs, d', hd, hall⟩ := h
        unfold traceRecords at hr
        rw [hd] at hr
        obtain ⟨cb, hcb, c, rfl, hrep⟩ := Converter.All₂.right hall _ hr
        refine ⟨c, hcb, ⟨by rw [hrep.index]; exact hc.2, ?_⟩, ?_⟩
        · rw [hrep.lost]; rintro ⟨hh, -⟩; cases hh
        · unfold Converter.pidOf; rw [hrep.sample]; rfl
      · cases hs
  | _ => cases hs

/-! ## Executions -/

/-- The number of calls that tell of a program executed by a process. -/
def execCalls (cbs : List Callback) (pid : Nat) : Nat :=
  cbs.countP (fun cb => match cb with | .comm d true => decide (d.pid = pid) | _ => false)

/-- The number of programs that a process executed in a history. -/
def execRecords (marked : Bool) : List Msg → Nat → Nat
  | [], _ => 0
  | m :: h, pid => execRecords marked h pid + if executes marked h m = some pid then 1 else 0

theorem execs_of_calls {cbs : List Callback} {pid : Nat} (h : execCalls cbs pid = 0) : Converter.execs cbs pid = false := by
  unfold execCalls at h
  rw [List.countP_eq_zero] at h
  unfold Converter.execs
  rw [List.any_eq_false]
  intro cb hcb hx
  refine h cb hcb ?_
  cases cb with
  | comm d b => 
    simp only [Bool.and_eq_true, beq_iff_eq] at hx
    cases b <;> simp_all
  | _ => simp at hx

theorem execs_kept {cfg : Normalizer.Config} {l r : List Ev} (h : Thins mapPid l r) : ∀ {pre : List Msg} {es : List Ev} {cbs : List Callback},
    l = pre.map (fun m => bare (normView m)) → r = es.map bare → Each (Told cfg) [] es cbs → ∀ pid,
    execCalls cbs pid = execRecords cfg.commExec pre.reverse pid := by
  induction h with
  | nil =>
    intro pre es cbs h1 h2 h3 pid
    rw [List.map_eq_nil_iff.1 h1.symm]
    rw [List.map_eq_nil_iff.1 h2.symm] at h3
    rw [show cbs = [] from h3]
    rfl
  | @keep l0 r0 x hth ih =>
    intro pre es cbs h1 h2 h3 pid
    obtain ⟨pre0, m, rfl, hp, hm⟩ := map_snoc h1
    obtain ⟨es0, e, rfl, he0, he⟩ := map_snoc h2
    obtain ⟨a, b, rfl, ha, hb⟩ := each_append _ _ h3
    obtain ⟨c, cs, rfl, hc, hcs⟩ := hb
    rw [show cs = [] from hcs, List.append_nil]
    rw [List.append_nil] at hc
    have ih := ih hp he0 ha pid
    rw [List.reverse_append, List.reverse_singleton, List.singleton_append, execRecords, ← ih]
    unfold execCalls
    rw [List.countP_append]
    congr 1
    by_cases hcomm : ∃ misc d, e = .comm misc d
    · obtain ⟨misc, d, rfl⟩ := hcomm
      have he : x = .comm misc d := he
      obtain ⟨q, hq, hqe⟩ := hc.1
      obtain ⟨c0, k1, k2, k3⟩ := bare_comm (m := m) (hm.symm.trans he)
      subst hq
      subst k3
      have hx : q = true ↔ c0.pid = c0.tid ∧ (cfg.commExec = false ∨ m.misc.testBit 13 = true ∨ hadMap pre0.reverse c0.pid = false) := by
        rw [hqe]
        unfold Normalizer.ExecComm
        simp only
        rw [k2]
        have : Normalizer.hadMmapEvent es0.reverse c0.pid = hadMap pre0.reverse c0.pid := by
          rw [Bool.eq_iff_iff, had_any, had_map]
          have := hth.keys c0.pid
          rw [hp, he0] at this
          rw [List.map_reverse, List.map_reverse]
          simp only [List.mem_reverse]
          exact this.symm
        rw [this]
      have hex : executes cfg.commExec pre0.reverse m = if q then some c0.pid else none := by
        unfold executes
        rw [k1]
        simp only
        cases hq : q with
        | true => rw [if_pos (hx.1 hq)]; rfl
        | false => rw [if_neg (fun hh => by rw [hx.2 hh] at hq; cases hq)]; rfl
      rw [hex, List.countP_singleton]
      cases q <;> simp
    · have hno : ∀ d, m.body ≠ .comm d := by
        intro d hd
        have : x = .comm m.misc { pid := d.pid, tid := d.tid, comm := d.comm, md5 := d.commMd5 } := by
          rw [hm]; unfold normView; rw [hd]; rfl
        rw [this] at he
        cases e <;> simp only [bare, reduceCtorEq] at he
        exact hcomm ⟨_, _, rfl⟩
      have hnone : executes cfg.commExec pre0.reverse m = none := by
        unfold executes
        split
        · rename_i d hd; exact absurd hd (hno d)
        · rfl
      rw [hnone, if_neg (by simp), List.countP_eq_zero]
      intro cb hcb
      cases cb with
      | comm d b =>
        obtain ⟨misc, hm⟩ := comm_called [e] (past := es0.reverse) (cbs := c) ⟨c, [], by simp, hc.1, rfl⟩ hcb
        exact absurd ⟨misc, d, (List.mem_singleton.1 hm).symm⟩ hcomm
      | _ => simp
  | @drop l0 r0 x n hth hx _ ih =>
    intro pre es cbs h1 h2 h3 pid
    obtain ⟨pre0, m, rfl, hp, hm⟩ := map_snoc h1
    rw [ih hp h2 h3 pid, List.reverse_append, List.reverse_singleton, List.singleton_append, execRecords]
    have hnone : executes cfg.commExec pre0.reverse m = none := by
      unfold executes
      split
      · rename_i d hd
        have : x = .comm m.misc { pid := d.pid, tid := d.tid, comm := d.comm, md5 := d.commMd5 } := by
          rw [hm]; unfold normView; rw [hd]; rfl
        rw [this] at hx
        cases hx
      · rfl
    rw [hnone, if_neg (by simp), Nat.add_zero]

theorem execRecords_append {marked : Bool} {pid : Nat} {h : List Msg} : ∀ {z : List Msg},
    (∀ a y w, z = a ++ y :: w → executes marked (w ++ h) y ≠ some pid) → execRecords marked (z ++ h) pid = execRecords marked h pid
  | [], _ => rfl
  | y :: z, hz => by
    rw [List.cons_append, execRecords, execRecords_append (z := z) (fun a y' w e => hz (y :: a) y' w (by rw [e]; rfl)),
      if_neg (hz [] y z rfl), Nat.add_zero]

theorem filter_one {α : Type} {P : α → Bool} : ∀ {l : List α}, (∃ a ∈ l, P a = true) →
    (∀ (i j : Nat) (a b : α), l[i]? = some a → l[j]? = some b → P a = true → P b = true → i = j) → (l.filter P).length = 1
  | [], h, _ => by obtain ⟨a, ha, -⟩ := h; cases ha
  | x :: l, h, hu => by
    by_cases hx : P x = true
    · rw [List.filter_cons_of_pos hx, List.length_cons]
      have : l.filter P = [] := by
        rw [List.filter_eq_nil_iff]
        intro a ha hp
        obtain ⟨i, hi⟩ := List.getElem?_of_mem ha
        have := hu 0 (i + 1) x a rfl hi hx hp
        omega
      rw [this]; rfl
    · rw [List.filter_cons_of_neg hx]
      refine filter_one ?_ ?_
      · obtain ⟨a, ha, hp⟩ := h
        rcases List.mem_cons.1 ha with rfl | ha
        · exact absurd hp hx
        · exact ⟨a, ha, hp⟩
      · intro i j a b h1 h2 h3 h4
        have := hu (i + 1) (j + 1) a b h1 h2 h3 h4
        omega

theorem Thins.mem {α : Type} {k : α → Option Nat} {l r : List α} (h : Thins k l r) : ∀ x ∈ r, x ∈ l := by
  induction h with
  | nil => exact fun _ h => h
  | keep x _ ih =>
    intro y hy
    rcases List.mem_append.1 hy with hy | hy
    · exact List.mem_append_left _ (ih y hy)
    · exact List.mem_append_right _ hy
  | drop x _ _ _ ih => exact fun y hy => List.mem_append_left _ (ih y hy)

/-! ## The profiles -/

/-- What is known of a conversion. -/
structure Made (cfg : Normalizer.Config) (S : Converter.Setup) (es : List Ev) (cbs : List Callback) (ps : List Converter.ProcessProfile)
    (L : Converter.Log) : Prop where
  conv : Converter.convert S cbs = some (ps, L)
  sane : Converter.Sane S cbs
  told : Each (Told cfg) [] es cbs
  index : ∀ id k, Normalizer.eventIndexFor cfg id = some k → k < S.attrs.length

/-- A sample in a profile comes from an event that holds samples of its process. -/
theorem Made.event {cfg : Normalizer.Config} {S : Converter.Setup} {es : List Ev} {cbs : List Callback} {ps : List Converter.ProcessProfile}
    {L : Converter.Log} (h : Made cfg S es cbs ps L) {q : SampleCtx × Converter.Slot} (hq : q ∈ Converter.placed L) :
    ∃ e ∈ es, Converter.pidOf q.1 ∈ seenIn cfg S.attrs.length S.options e := by
  have hacc := (Converter.accepted_samples_placed h.conv).1
  have hm : q.1 ∈ Converter.acceptedSamples S cbs := by
    rw [← hacc]
    exact List.mem_map.2 ⟨q, List.mem_reverse.2 hq, rfl⟩
  obtain ⟨cb, hcb, hcb'⟩ := List.mem_filterMap.1 hm
  cases cb <;> simp only [reduceCtorEq] at hcb'
  split at hcb'
  · rename_i ha
    cases hcb'
    obtain ⟨u, v, huv⟩ := List.append_of_mem hcb
    have ht := h.told
    rw [huv] at ht
    obtain ⟨pre, e, post, a, b, B', h1, h2, -, -⟩ := each_split _ ht
    exact ⟨e, by rw [h1]; simp, seen_of_told h2 (by simp) ha⟩
  · cases hcb'

/-- The profile of the samples of an event. -/
theorem Made.profile {cfg : Normalizer.Config} {S : Converter.Setup} {es : List Ev} {cbs : List Callback} {ps : List Converter.ProcessProfile}
    {L : Converter.Log} (h : Made cfg S es cbs ps L) {e : Ev} (he : e ∈ es) {pid : Nat} (hs : pid ∈ seenIn cfg S.attrs.length S.options e) :
    ∃ q ∈ Converter.placed L, Converter.pidOf q.1 = pid := by
  obtain ⟨past, x, hx, hsub⟩ := each_mem _ h.told e he
  obtain ⟨c, hc, ha, hp⟩ := told_of_seen h.index hx hs
  have hm : c ∈ Converter.acceptedSamples S cbs := List.mem_filterMap.2 ⟨.sample c, hsub _ hc, if_pos ha⟩
  rw [← (Converter.accepted_samples_placed h.conv).1] at hm
  obtain ⟨q, hq, rfl⟩ := List.mem_map.1 hm
  exact ⟨q, List.mem_reverse.1 hq, hp⟩

/-- The process of a profile is that of its samples. -/
theorem Made.pid {cfg : Normalizer.Config} {S : Converter.Setup} {es : List Ev} {cbs : List Callback} {ps : List Converter.ProcessProfile}
    {L : Converter.Log} (h : Made cfg S es cbs ps L) {q : SampleCtx × Converter.Slot} (hq : q ∈ Converter.placed L) :
    ∃ p, ps[q.2.1]? = some p ∧ p.pid = S.home (Converter.pidOf q.1) := by
  obtain ⟨p, hp, -⟩ := (Converter.accepted_samples_placed h.conv).2.2.1 q hq
  obtain ⟨st2, bb, mm, r1, -, hinv, -, hmeta, -, hpp, -⟩ := Converter.profile_at h.conv h.sane hp
  obtain ⟨m2, q1, q2⟩ := hinv.spid q hq
  rw [hmeta] at q1
  cases q1
  exact ⟨p, hp, hpp.trans q2⟩

/-- Every profile has a sample. -/
theorem Made.sampled {cfg : Normalizer.Config} {S : Converter.Setup} {es : List Ev} {cbs : List Callback} {ps : List Converter.ProcessProfile}
    {L : Converter.Log} (h : Made cfg S es cbs ps L) {i : Nat} {p : Converter.ProcessProfile} (hp : ps[i]? = some p) :
    ∃ q ∈ Converter.placed L, q.2.1 = i ∧ p.pid = S.home (Converter.pidOf q.1) ∧ p.data.sample ≠ [] := by
  obtain ⟨A, c, slot, B, maps, bm, b, k1, k2, -⟩ := Converter.profile_first h.conv h.sane hp
  have hq : (c, slot) ∈ Converter.placed L := Converter.mem_placed.2 ⟨A, B, k1⟩
  obtain ⟨p', h1, h2⟩ := h.pid hq
  obtain ⟨p'', h3, h4⟩ := (Converter.accepted_samples_placed h.conv).2.2.1 _ hq
  rw [show (c, slot).2.1 = i from k2, hp] at h1 h3
  cases h1; cases h3
  refine ⟨_, hq, k2, h2, ?_⟩
  intro h0
  rw [h0] at h4
  exact absurd h4 (Nat.not_lt_zero _)

/-- Mappings tell nothing of the processes of threads. -/
theorem threads_filter (l : List Msg) (tid : Nat) : Normalizer.threadPid (l.map normView) tid = Normalizer.threadPid ((l.filter notMap).map normView) tid := by
  induction l with
  | nil => rfl
  | cons m l ih =>
    cases hn : notMap m with
    | true =>
      rw [List.filter_cons_of_pos hn, List.map_cons, List.map_cons]
      cases normView m <;> simp only [Normalizer.threadPid, ih]
    | false =>
      rw [List.filter_cons_of_neg (by rw [hn]; exact Bool.false_ne_true), List.map_cons]
      unfold notMap at hn
      cases hb : m.body <;> rw [hb] at hn <;> simp only [reduceCtorEq] at hn
      unfold normView
      rw [hb]
      exact ih

/-- What is known of the conversion of a recording. -/
theorem made {M : Machine} {ids : List (Bytes × Bytes)} {labels options : Nat} {threadTypes : List (Nat × Bytes)} {b : Bytes}
    {ps : List Converter.ProcessProfile} {st : Data.St} (hb : File.readBytes { env := M.env } b = some (some st))
    (hc : Calm options st.events) (h : rawToProfiles M ids labels options threadTypes b = some ps) {t : List Msg}
    (ht : Timeline st.base.info.attrs st.events t) :
    ∃ r cfg S cbs L, parseEvents M (rawOpts M options) true true true (withBuildIds M.env.md5 ids st.base.info st.events) st.events = some r ∧
      Made cfg S (r.1.map normView) cbs ps L ∧ S.options = options ∧ Normalizer.useLostSample st.base.info.version = some cfg.useLostSample ∧
      Tuned st.base.info.attrs M.traceBase t cfg ∧ S.attrs.length = st.base.info.attrs.length ∧
      cfg.commExec = st.base.info.attrs.any (·.attr.flags.testBit 24) := by
  have hsh := read_shaped hb
  unfold rawToProfiles at h
  rw [hb] at h
  obtain ⟨r, L, h1, h2⟩ := staged h
  obtain ⟨g1, g2⟩ := given hsh hc h1
  have hconv := h2
  unfold Converter.protoToProfiles at hconv
  cases hp : Normalizer.process (normInput M (withBuildIds M.env.md5 ids st.base.info st.events) r.1) with
  | none => rw [hp] at hconv; cases hconv
  | some cbs =>
    rw [hp] at hconv
    simp only at hconv
    obtain ⟨cfg, hcfg, hrep⟩ := Normalizer.process_main _ cbs g1.typed hp
    have hperm := sort_perm (withBuildIds M.env.md5 ids st.base.info st.events) st.events
    have howner : ∀ id, Normalizer.eventIndexFor cfg id = owner st.base.info.attrs id := fun id => (owner_eq hcfg id).trans rfl
    have hts : t = sortEvents (withBuildIds M.env.md5 ids st.base.info st.events) st.events := timeline_sort (by rw [attrs_kept]; exact ht)
    have hk := (prep_spec rfl rfl hsh h1).1
    have hsp : cfg.hasSpe = speTrace t := by
      rw [(config_parts hcfg).2.1, ← speTrace_eq]
      exact same_any (l := t) (by rw [if_pos rfl, ← hts]) hk _ (fun _ => rfl)
    have hspec := Normalizer.config_spec _ cfg hcfg
    have htuned : Tuned st.base.info.attrs M.traceBase t cfg := by
      refine ⟨howner, hsp, (config_parts hcfg).2.2, fun hs tid => ?_⟩
      rw [hspec.2.1 (hspec.1.1 (by rw [hsp, hs])) tid, ← threadHome_view, threads_filter t]
      show Normalizer.threadPid (r.1.map normView) tid = _
      rw [threads_filter, hk, if_pos rfl, hts]
    refine ⟨r, cfg, _, cbs, L, h1, ⟨hconv, g2 cbs hp _ rfl, hrep, ?_⟩, rfl, ?_, htuned, List.length_map _, ?_⟩
    · intro id k hk
      rw [howner] at hk
      exact Nat.lt_of_lt_of_eq (owner_lt hk) (List.length_map _).symm
    · exact (config_parts hcfg).1
    · rw [marked_eq hcfg]
      show List.any (List.map _ _) _ = _
      rw [List.any_map, attrs_kept]
      rfl

/-- The records with samples are those of the recording. -/
theorem seen_events {M : Machine} {options : Nat} {i : Meta.Info} {l : List Msg} (hl : ∀ m ∈ l, Shaped m) {r : List Msg × Parser.Stats}
    (h : parseEvents M (rawOpts M options) true true true i l = some r) {cfg : Normalizer.Config} {attrs : List Attr.ProtoFileAttr}
    {base : Nat} {t : List Msg} (ho : Tuned attrs base t cfg) {opts pid : Nat} :
    (∃ e ∈ r.1.map normView, pid ∈ seenIn cfg attrs.length opts e) ↔ ∃ m ∈ l, pid ∈ sampledIn cfg.useLostSample attrs base opts t m := by
  have hk := (prep_spec rfl rfl hl h).1
  rw [if_pos rfl] at hk
  have hnm : ∀ m : Msg, pid ∈ seenIn cfg attrs.length opts (normView m) → notMap m = true := by
    intro m hm
    cases hb : m.body with
    | mmap b => unfold normView at hm; rw [hb] at hm; cases hm
    | _ => unfold notMap; rw [hb]
  constructor
  · rintro ⟨e, he, hs⟩
    obtain ⟨m, hm, rfl⟩ := List.mem_map.1 he
    have hm' : normView m ∈ (r.1.filter notMap).map normView := List.mem_map.2 ⟨m, List.mem_filter.2 ⟨hm, hnm m hs⟩, rfl⟩
    rw [hk] at hm'
    obtain ⟨m', hm', he'⟩ := List.mem_map.1 hm'
    refine ⟨m', (sort_perm i l).mem_iff.1 (List.mem_filter.1 hm').1, ?_⟩
    rw [← seen_view ho, he']
    exact hs
  · rintro ⟨m, hm, hs⟩
    rw [← seen_view ho] at hs
    have hm' : normView m ∈ ((sortEvents i l).filter notMap).map normView :=
      List.mem_map.2 ⟨m, List.mem_filter.2 ⟨(sort_perm i l).mem_iff.2 hm, hnm m hs⟩, rfl⟩
    rw [← hk] at hm'
    obtain ⟨m', hm', he'⟩ := List.mem_map.1 hm'
    exact ⟨normView m', List.mem_map.2 ⟨m', (List.mem_filter.1 hm').1, rfl⟩, by rw [he']; exact hs⟩

/-- C113. Which profiles are made from any bytes. From bytes that cannot be read, none. -/
theorem unreadable_none {M : Machine} {ids : List (Bytes × Bytes)} {labels options : Nat} {threadTypes : List (Nat × Bytes)} {b : Bytes}
    (hb : File.readBytes { env := M.env } b = some none) : rawToProfiles M ids labels options threadTypes b = some [] := by
  unfold rawToProfiles
  rw [hb]

/-- C113. Which profiles are made from the bytes of a recording. No profile is empty. With a profile for each process there is one for
exactly those processes of which the recording has samples (lost ones with them, unless they are to be left out); else there is one
profile if the recording has any sample, and none if it has none. Records of ARM SPE traces count as samples. If nothing is mistaken (`Calm`). -/
theorem profiles_made_partial {M : Machine} {ids : List (Bytes × Bytes)} {labels options : Nat} {threadTypes : List (Nat × Bytes)} {b : Bytes}
    {ps : List Converter.ProcessProfile} {st : Data.St} (hb : File.readBytes { env := M.env } b = some (some st))
    (hc : Calm options st.events) (h : rawToProfiles M ids labels options threadTypes b = some ps) {t : List Msg}
    (ht : Timeline st.base.info.attrs st.events t) :
    ∃ new, Normalizer.useLostSample st.base.info.version = some new ∧
      (∀ p ∈ ps, p.data.sample ≠ []) ∧
      (options.testBit 0 = true → ∀ pid, (∃ p ∈ ps, p.pid = pid) ↔ ∃ m ∈ st.events, pid ∈ sampledIn new st.base.info.attrs M.traceBase options t m) ∧
      (options.testBit 0 = false →
        ps.length = if st.events.any (fun m => !(sampledIn new st.base.info.attrs M.traceBase options t m).isEmpty) then 1 else 0) := by
  have hsh := read_shaped hb
  obtain ⟨r, cfg, S, cbs, L, h1, hm, hSo, hlost, howner, hSa, -⟩ := made hb hc h ht
  have hev : ∀ pid, _ := fun pid => seen_events hsh h1 howner (opts := options) (pid := pid)
  refine ⟨_, hlost, ?_, fun hg pid => ?_, fun hg => ?_⟩
  · intro p hp
    obtain ⟨i, hi⟩ := List.getElem?_of_mem hp
    obtain ⟨q, -, -, -, hn⟩ := hm.sampled hi
    exact hn
  · have hhome : ∀ P, S.home P = P := by
      intro P; unfold Converter.Setup.home Converter.Setup.grouped; rw [hSo, hg]; rfl
    rw [← hev]
    constructor
    · rintro ⟨p, hp, rfl⟩
      obtain ⟨i, hi⟩ := List.getElem?_of_mem hp
      obtain ⟨q, hq, -, e1, -⟩ := hm.sampled hi
      obtain ⟨e, he, hs⟩ := hm.event hq
      rw [hhome] at e1
      rw [hSo, hSa] at hs
      exact ⟨e, he, by rw [e1]; exact hs⟩
    · rintro ⟨e, he, hs⟩
      rw [← hSo, ← hSa] at hs
      obtain ⟨q, hq, rfl⟩ := hm.profile he hs
      obtain ⟨p, hp, e1⟩ := hm.pid hq
      exact ⟨p, List.mem_of_getElem? hp, by rw [e1, hhome]⟩
  · have hone : ps.length ≤ 1 := by
      refine Nat.le_of_not_lt fun hlt => ?_
      obtain ⟨p0, h0⟩ : ∃ p, ps[0]? = some p := ⟨_, List.getElem?_eq_getElem (by omega)⟩
      obtain ⟨p1, h1⟩ : ∃ p, ps[1]? = some p := ⟨_, List.getElem?_eq_getElem hlt⟩
      obtain ⟨q0, hq0, e0, -⟩ := hm.sampled h0
      obtain ⟨q1, hq1, e1, -⟩ := hm.sampled h1
      have := Converter.one_profile hm.conv hm.sane hq0 hq1 (fun hh => by rw [hSo, hg] at hh; cases hh)
      omega
    split
    · rename_i hany
      obtain ⟨m, hmm, hs⟩ := List.any_eq_true.1 hany
      obtain ⟨pid, hs⟩ := List.exists_mem_of_ne_nil _ (by simpa using hs)
      obtain ⟨e, he, hs⟩ := (hev pid).2 ⟨m, hmm, hs⟩
      rw [← hSo, ← hSa] at hs
      obtain ⟨q, hq, -⟩ := hm.profile he hs
      obtain ⟨p, hp, -⟩ := hm.pid hq
      have := (List.getElem?_eq_some_iff.1 hp).1
      omega
    · rename_i hany
      rcases Nat.eq_zero_or_pos ps.length with h0 | h0
      · exact h0
      · exfalso
        obtain ⟨q, hq, -⟩ := hm.sampled (List.getElem?_eq_getElem h0)
        obtain ⟨e, he, hs⟩ := hm.event hq
        rw [hSo, hSa] at hs
        obtain ⟨m, hmm, hs⟩ := (hev _).1 ⟨e, he, hs⟩
        exact hany (List.any_eq_true.2 ⟨m, hmm, by simpa using List.ne_nil_of_mem hs⟩)

/-- C113. With a profile for each process, a process that executes no program after its first sample has just one. -/
theorem process_profile_partial {M : Machine} {ids : List (Bytes × Bytes)} {labels options : Nat} {threadTypes : List (Nat × Bytes)} {b : Bytes}
    {ps : List Converter.ProcessProfile} {st : Data.St} (hb : File.readBytes { env := M.env } b = some (some st))
    (hc : Calm options st.events) (h : rawToProfiles M ids labels options threadTypes b = some ps)
    (hg : options.testBit 0 = true) {new : Bool} (hnew : Normalizer.useLostSample st.base.info.version = some new)
    {t pre post : List Msg} {m : Msg} {pid : Nat} (ht : Timeline st.base.info.attrs st.events t) (hm : t = pre ++ m :: post)
    (hs : pid ∈ sampledIn new st.base.info.attrs M.traceBase options t m) (hpre : ∀ m' ∈ pre, pid ∉ sampledIn new st.base.info.attrs M.traceBase options t m')
    (hpost : ∀ a y z, post = a ++ y :: z →
      executes (st.base.info.attrs.any (·.attr.flags.testBit 24)) (a.reverse ++ m :: pre.reverse) y ≠ some pid) :
    (ps.filter (fun p => p.pid == pid)).length = 1 := by
  have hsh := read_shaped hb
  obtain ⟨r, cfg, S, cbs, L, h1, hmd, hSo, hlost, howner, hSa, hmark⟩ := made hb hc h ht
  rw [hnew] at hlost
  cases hlost
  have hts : t = sortEvents (withBuildIds M.env.md5 ids st.base.info st.events) st.events := timeline_sort (by rw [attrs_kept]; exact ht)
  have hhome : ∀ P, S.home P = P := by
    intro P; unfold Converter.Setup.home Converter.Setup.grouped; rw [hSo, hg]; rfl
  have hthin := prep_bare hsh h1
  have hfull : Thins mapPid (t.map (fun m => bare (normView m))) ((r.1.map normView).map bare) := by
    rw [List.map_map, hts]; exact hthin
  rw [← hts, hm, List.map_append, List.map_cons] at hthin
  obtain ⟨r1, r2, hr12, hthin1⟩ := hthin.split rfl (by
    unfold sampledIn at hs
    unfold normView
    cases hb : m.body <;> rw [hb] at hs <;> first | rfl | cases hs)
  obtain ⟨pre', q, hrq, rfl, hq⟩ := List.map_eq_append_iff.1 hr12
  obtain ⟨m', post', rfl, hm', -⟩ := List.map_eq_cons_iff.1 hq
  have hthin2 : Thins mapPid (pre.map (fun m => bare (normView m))) ((pre'.map normView).map bare) := by
    rw [List.map_map]; exact hthin1
  have hold := hmd.told
  have hall := execs_kept (cfg := cfg) hfull rfl rfl hold pid
  rw [hrq, List.map_append, List.map_cons] at hold
  obtain ⟨A, B, hcbs, hA, hB⟩ := each_append _ _ hold
  have hpart := execs_kept (cfg := cfg) hthin2 rfl rfl hA pid
  have hzero : execCalls B pid = 0 := by
    have e1 : execRecords cfg.commExec t.reverse pid = execRecords cfg.commExec pre.reverse pid := by
      rw [hm, List.reverse_append, List.reverse_cons, List.append_assoc, List.singleton_append,
        execRecords_append (h := m :: pre.reverse) (z := post.reverse) (by
          intro a y w e
          have e' : post = w.reverse ++ y :: a.reverse := by
            have := congrArg List.reverse e
            simpa using this
          have := hpost _ _ _ e'
          rwa [List.reverse_reverse, ← hmark] at this), execRecords]
      have : executes cfg.commExec pre.reverse m = none := by
        unfold sampledIn at hs
        unfold executes
        cases hb : m.body <;> rw [hb] at hs <;> first | rfl | cases hs
      rw [this, if_neg (by simp), Nat.add_zero]
    have e2 : execCalls cbs pid = execCalls A pid + execCalls B pid := by
      rw [hcbs]; unfold execCalls; rw [List.countP_append]
    omega
  have hlate : ∀ q ∈ Converter.placed L, Converter.pidOf q.1 = pid → ∀ LA LB, L = LA ++ (.sample q.1, some q.2) :: LB →
      Converter.execs (Converter.hist LA) pid = false := by
    intro q hq hqp LA LB hL
    have hhist := (Converter.accepted_samples_placed hmd.conv).2.1
    have hc : cbs = (Converter.hist LB).reverse ++ .sample q.1 :: (Converter.hist LA).reverse := by
      have := congrArg List.reverse hhist
      rw [List.reverse_reverse] at this
      rw [← this, hL]
      unfold Converter.hist
      simp
    rw [hcbs] at hc
    have hin : ∀ u, B = u ++ .sample q.1 :: (Converter.hist LA).reverse → Converter.execs (Converter.hist LA) pid = false := by
      intro u hu
      refine execs_of_calls ?_
      rw [hu] at hzero
      unfold execCalls at hzero ⊢
      rw [List.countP_append, List.countP_cons, List.countP_reverse] at hzero
      omega
    rcases List.append_eq_append_iff.1 hc with ⟨u, hu1, hu2⟩ | ⟨u, hu1, hu2⟩
    · exact hin u hu2
    · cases u with
      | nil => exact hin [] hu2.symm
      | cons c0 w =>
        exfalso
        rw [List.cons_append] at hu2
        injection hu2 with hu2 _
        subst hu2
        rw [hu1] at hA
        obtain ⟨pre2, e, post2, a2, b2, B2, f1, f2, -, -⟩ := each_split _ hA
        obtain ⟨st', -, -, h0, -⟩ := Converter.convert_state hmd.conv
        obtain ⟨c', hc', hacc⟩ := (h0.acc (.sample q.1, some q.2) (by rw [hL]; simp)).1 rfl
        cases hc'
        have hseen := seen_of_told f2 (by simp) hacc
        rw [hSo, hSa, hqp] at hseen
        have hmem : bare e ∈ (pre'.map normView).map bare := by
          rw [f1]; exact List.mem_map.2 ⟨e, by simp, rfl⟩
        obtain ⟨m0, hm0, he0⟩ := List.mem_map.1 (hthin2.mem _ hmem)
        refine hpre m0 hm0 ?_
        rw [← seen_view howner, ← seen_bare, show bare (normView m0) = bare e from he0, seen_bare]
        exact hseen
  refine filter_one ?_ ?_
  · have hmt : m ∈ st.events := (sort_perm _ _).mem_iff.1 (by rw [← hts, hm]; simp)
    obtain ⟨e, he, hse⟩ := (seen_events hsh h1 howner (opts := options) (pid := pid)).2 ⟨m, hmt, hs⟩
    rw [← hSo, ← hSa] at hse
    obtain ⟨q, hq, rfl⟩ := hmd.profile he hse
    obtain ⟨p, hp, e1⟩ := hmd.pid hq
    exact ⟨p, List.mem_of_getElem? hp, by rw [e1, hhome]; simp⟩
  · intro i j p p' hi hj hp hp'
    obtain ⟨q, hq, e1, e2, -⟩ := hmd.sampled hi
    obtain ⟨q', hq', e1', e2', -⟩ := hmd.sampled hj
    rw [hhome] at e2 e2'
    have hp : p.pid = pid := by simpa using hp
    have hp' : p'.pid = pid := by simpa using hp'
    obtain ⟨st2, bb, mm, r1, -, hinv, -, hmeta, -, hpp, -⟩ := Converter.profile_at hmd.conv hmd.sane hi
    obtain ⟨LA, LB, hL⟩ := Converter.mem_placed.1 hq
    obtain ⟨LA', LB', hL'⟩ := Converter.mem_placed.1 hq'
    have k1 := hinv.held LA q.1 q.2 LB hL (by rw [hhome, ← e2, hp]; exact hlate q hq (by rw [← e2, hp]) LA LB hL)
    have k2 := hinv.held LA' q'.1 q'.2 LB' hL' (by rw [hhome, ← e2', hp']; exact hlate q' hq' (by rw [← e2', hp']) LA' LB' hL')
    rw [hhome, ← e2, hp] at k1
    rw [hhome, ← e2', hp', k1] at k2
    rw [← e1, ← e1']
    exact Option.some.inj k2

/-! ### Examples -/

section
open Verif.File (exFile exMetadata fileImage)
open Verif.Serial (exMsg exMap exSample exInfo exEnv)

/-- A sample of a process. -/
def procMsg (pid time : Nat) : Msg :=
  exMsg 9 2 (.sample { exSample with pid := some pid, tid := some pid, ip := some 0x4200, time := some time, callchain := [0x4200], branches := [], addr := some 0 })

/-- Process 10 is named and sampled, and so is another process. -/
def exProcs : List Msg := [commMsg 10 1 (ascii "sh"), mapMsg 2, procMsg 10 3, procMsg 12 4, procMsg 10 5]

def procsB (options : Nat) (st : Data.St) : Option (Bool × List (List Nat)) :=
  if calmB options st.events && inOrderB st.base.info.attrs st.events then
    (Normalizer.useLostSample st.base.info.version).map
      (fun new => (new, st.events.map (sampledIn new st.base.info.attrs exMachine.traceBase options st.events)))
  else none

/-- The same after a trace of two threads. -/
def exProcsTraced : List Msg :=
  [infoMsg, traceMsg [⟨[.addr 0 0x4200, .context 0 10], .endOfRecord⟩, ⟨[.addr 0 0x4200, .context 0 77], .endOfRecord⟩]] ++ exProcs

theorem procs_of {l : List Msg} {r : List (List Nat)}
    (h1 : (((File.readBytes { env := exEnv } (fileImage (recordingOf l))).bind id).bind (procsB 1)).map (·.2) = some r) :
    ∃ st, File.readBytes { env := exEnv } (fileImage (recordingOf l)) = some (some st) ∧ Calm 1 st.events ∧
      Timeline st.base.info.attrs st.events st.events ∧
      ∃ new, Normalizer.useLostSample st.base.info.version = some new ∧
        st.events.map (sampledIn new st.base.info.attrs exMachine.traceBase 1 st.events) = r := by
  cases hr : File.readBytes { env := exEnv } (fileImage (recordingOf l)) with
  | none => rw [hr] at h1; cases h1
  | some o =>
    cases o with
    | none => rw [hr] at h1; cases h1
    | some st =>
      rw [hr] at h1
      obtain ⟨⟨new, l⟩, h1, h5⟩ := Option.map_eq_some_iff.1 h1
      have h1 : procsB 1 st = some (new, l) := h1
      unfold procsB at h1
      split at h1
      · rename_i hc
        simp only [Bool.and_eq_true] at hc
        obtain ⟨n, h6, h7⟩ := Option.map_eq_some_iff.1 h1
        cases h7
        exact ⟨st, rfl, calm_of hc.1, inOrder_of hc.2, _, h6, h5⟩
      · cases h1

/-- The conditions are met by the bytes of a recording with samples of two processes; and its profiles. -/
example : (∃ st, File.readBytes { env := exEnv } (fileImage (recordingOf exProcs)) = some (some st) ∧ Calm 1 st.events ∧
      Timeline st.base.info.attrs st.events st.events ∧
      ∃ new, Normalizer.useLostSample st.base.info.version = some new ∧
        st.events.map (sampledIn new st.base.info.attrs exMachine.traceBase 1 st.events) = [[], [], [10], [12], [10]]) ∧
    (rawToProfiles exMachine [] 0 1 [] (fileImage (recordingOf exProcs))).map (·.map (·.pid)) = some [10, 12] ∧
    (rawToProfiles exMachine [] 0 0 [] (fileImage (recordingOf exProcs))).map (·.map (·.pid)) = some [0] ∧
    (rawToProfiles exMachine [] 0 0 [] (fileImage (recordingOf (exProcs.take 2)))).map (·.map (·.pid)) = some [] :=
  ⟨procs_of (by decide +kernel), by decide +kernel, by decide +kernel, by decide +kernel⟩

/-- And by one with a trace: thread 77 is of no process that is known. Process 10 is named after what is traced and before what is sampled, so it
has two profiles. -/
example : (∃ st, File.readBytes { env := exEnv } (fileImage (recordingOf exProcsTraced)) = some (some st) ∧ Calm 1 st.events ∧
      Timeline st.base.info.attrs st.events st.events ∧
      ∃ new, Normalizer.useLostSample st.base.info.version = some new ∧
        st.events.map (sampledIn new st.base.info.attrs exMachine.traceBase 1 st.events) = [[], [10, 0], [], [], [10], [12], [10]]) ∧
    (rawToProfiles exMachine [] 0 1 [] (fileImage (recordingOf exProcsTraced))).map (·.map (·.pid)) = some [10, 0, 10, 12] :=
  ⟨procs_of (by decide +kernel), by decide +kernel⟩

/-- Bytes that cannot be read. -/
example : File.readBytes { env := exEnv } (ascii "PERFILE") = some none := by decide +kernel

/-- The conditions of `process_profile_partial` at a place of a recording, with no comm record after it. -/
def firstAtB (options pid n : Nat) (st : Data.St) : Bool :=
  match Normalizer.useLostSample st.base.info.version, st.events[n]? with
  | some new, some m =>
    calmB options st.events && inOrderB st.base.info.attrs st.events &&
      decide (pid ∈ sampledIn new st.base.info.attrs exMachine.traceBase options st.events m) &&
      (st.events.take n).all (fun m => decide (pid ∉ sampledIn new st.base.info.attrs exMachine.traceBase options st.events m)) &&
      (st.events.drop (n + 1)).all (fun m => match m.body with | .comm _ => false | _ => true)
  | _, _ => false

theorem firstAt_of {options pid n : Nat} {st : Data.St} (h : firstAtB options pid n st = true) :
    Calm options st.events ∧ ∃ new pre m post, Normalizer.useLostSample st.base.info.version = some new ∧
      Timeline st.base.info.attrs st.events (pre ++ m :: post) ∧
      pid ∈ sampledIn new st.base.info.attrs exMachine.traceBase options (pre ++ m :: post) m ∧
      (∀ m' ∈ pre, pid ∉ sampledIn new st.base.info.attrs exMachine.traceBase options (pre ++ m :: post) m') ∧
      ∀ a y z, post = a ++ y :: z → executes (st.base.info.attrs.any (·.attr.flags.testBit 24)) (a.reverse ++ m :: pre.reverse) y ≠ some pid := by
  unfold firstAtB at h
  split at h
  · rename_i new m hn hm
    simp only [Bool.and_eq_true, decide_eq_true_eq, List.all_eq_true] at h
    obtain ⟨⟨⟨⟨h1, h3⟩, h4⟩, h5⟩, h6⟩ := h
    have e : st.events = st.events.take n ++ m :: st.events.drop (n + 1) := by
      obtain ⟨hlt, he⟩ := List.getElem?_eq_some_iff.1 hm
      rw [← he, ← List.drop_eq_getElem_cons hlt, List.take_append_drop]
    refine ⟨calm_of h1, new, st.events.take n, m, st.events.drop (n + 1), hn, ?_, ?_, ?_, ?_⟩
    · rw [← e]
      exact inOrder_of h3
    · rw [← e]; exact h4
    · rw [← e]; exact h5
    · intro a y z he
      have := h6 y (by rw [he]; simp)
      unfold executes
      split
      · rename_i c hc
        rw [hc] at this
        cases this
      · simp
  · cases h

/-- The conditions are met for process 10, which is named before its first sample. -/
example : ∃ st, File.readBytes { env := exEnv } (fileImage (recordingOf exProcs)) = some (some st) ∧ Calm 1 st.events ∧
    ∃ new pre m post, Normalizer.useLostSample st.base.info.version = some new ∧
      Timeline st.base.info.attrs st.events (pre ++ m :: post) ∧
      10 ∈ sampledIn new st.base.info.attrs exMachine.traceBase 1 (pre ++ m :: post) m ∧
      (∀ m' ∈ pre, 10 ∉ sampledIn new st.base.info.attrs exMachine.traceBase 1 (pre ++ m :: post) m') ∧
      ∀ a y z, post = a ++ y :: z → executes (st.base.info.attrs.any (·.attr.flags.testBit 24)) (a.reverse ++ m :: pre.reverse) y ≠ some 10 := by
  have h1 : ((File.readBytes { env := exEnv } (fileImage (recordingOf exProcs))).bind id).map (firstAtB 1 10 2) = some true := by decide +kernel
  cases hr : File.readBytes { env := exEnv } (fileImage (recordingOf exProcs)) with
  | none => rw [hr] at h1; cases h1
  | some o =>
    cases o with
    | none => rw [hr] at h1; cases h1
    | some st =>
      rw [hr] at h1
      exact ⟨st, rfl, firstAt_of (Option.some.inj h1)⟩

/-- A process that is named again after its first sample executes a program: it has two profiles. -/
example : (rawToProfiles exMachine [] 0 1 [] (fileImage (recordingOf [mapMsg 1, procMsg 10 2, commMsg 10 3 (ascii "sh"), procMsg 10 4]))).map
    (·.map (·.pid)) = some [10, 10] := by decide +kernel

/-- C113 fails if process 0 is named: there are two profiles though one was asked for. -/
theorem profiles_made_violated :
    (rawToProfiles exMachine [] 0 0 [] (fileImage (recordingOf [mapMsg 1, procMsg 10 2, commMsg 0 3 (ascii "sh"), procMsg 12 4]))).map
      (·.map (·.pid)) = some [0, 0] := by decide +kernel

end

end Verif.Whole
