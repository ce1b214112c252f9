import Verif.Whole.Traces
import Verif.Whole.Labels

/-!
# C136: the labels of samples and of the records of ARM SPE traces

First the specification, told from the records of the recording and of the traces alone.
-/

namespace Verif.Whole
open Verif.Serial (Msg Body)
open Verif.Normalizer (Each Ev Callback SampleCtx MapRef)
open Verif.Converter (LabelText textLabel numLabel)

/-- The labels a record of a trace can have, by the bit of `sample_labels` that asks for it: its process and thread, their names, and its
three counters. It has no time, mode, cgroup, CPU, page size or source of data. -/
def tracedFields (marked : Bool) (threadTypes : List (Nat × Bytes)) (h : List Msg) (pid : Nat) (r : Spe.Record) :
    List (Nat × String × Option LabelText) :=
  [ (0, "pid", some (.num pid [])),
    (1, "tid", some (.num r.context.id [])),
    (4, "comm", textLabel (nameAt marked h pid pid)),
    (5, "thread_type", (threadTypes.lookup r.context.id).bind textLabel),
    (6, "thread_comm", textLabel (nameAt marked h pid r.context.id)),
    (13, "total_latency", numLabel r.totalLat "cycles"),
    (14, "issue_latency", numLabel r.issueLat "cycles"),
    (15, "translation_latency", numLabel r.translationLat "cycles") ]

/-- The labels of a record of a trace: those asked for that it has. -/
def tracedLabels (attrs : List Attr.ProtoFileAttr) (labels : Nat) (threadTypes : List (Nat × Bytes)) (h : List Msg) (pid : Nat) (r : Spe.Record) :
    List (Bytes × LabelText) :=
  (tracedFields (attrs.any (·.attr.flags.testBit 24)) threadTypes h pid r).filterMap
    (fun f => if labels.testBit f.1 then f.2.2.map (ascii f.2.1, ·) else none)

/-- The samples of a recording are told apart from records of traces: if the label for the process or the thread is asked for, samples have it; if
the one for the time or the CPU is asked for, it is not zero in any sample; the numbers fit the types they are shown in; and no sample is at
the address at which lost samples are shown. -/
structure SetApart (labels : Nat) (l : List Msg) : Prop where
  told : ∀ m ∈ l, ∀ s, m.body = .sample s → (labels.testBit 0 = true → s.pid.isSome = true) ∧ (labels.testBit 1 = true → s.tid.isSome = true) ∧
    (labels.testBit 2 = true → s.time ≠ some 0) ∧ (labels.testBit 10 = true → s.cpu ≠ some 0)
  fits : ∀ m ∈ l, ∀ s, m.body = .sample s → (∀ t, s.time = some t → t < 2 ^ 63) ∧ (∀ w, s.weight = some w → w < 2 ^ 32) ∧
    (∀ n, s.codePageSize = some n → n < 2 ^ 63) ∧ (∀ n, s.dataPageSize = some n → n < 2 ^ 63) ∧ (∀ w, s.weightStruct = some w → w.var1 < 2 ^ 63)
  apart : ∀ m ∈ l, ∀ s, m.body = .sample s → s.ip.getD 0 ≠ lostAddress

/-! ## Proofs -/

theorem unmixed_some {x y : Option Nat} (hx : x.isSome = true) (hy : y.isSome = true) : Converter.Unmixed x y := fun _ _ => by rw [hx, hy]

theorem unmixed_pos {x y : Option Nat} (hx : x ≠ some 0) (hy : y ≠ some 0) : Converter.Unmixed x y := by
  have key : ∀ {z : Option Nat}, z ≠ some 0 → z.getD 0 = 0 → z = none := by
    rintro (_ | n) hz h0
    · rfl
    · exact absurd (congrArg some (show n = 0 from h0)) hz
  intro h1 h2
  rw [key hx h1, key hy h2]

/-- What the conditions say of a call. -/
structure Clear (labels : Nat) (c : SampleCtx) : Prop where
  fits : Converter.Fits c
  pid : labels.testBit 0 = true → c.sample.pid.isSome = true
  tid : labels.testBit 1 = true → c.sample.tid.isSome = true
  time : labels.testBit 2 = true → c.sample.timeNs ≠ some 0
  cpu : labels.testBit 10 = true → c.sample.cpu ≠ some 0

theorem Clear.same {labels : Nat} {c c' : SampleCtx} (h : Clear labels c) (h' : Clear labels c') : Converter.SamePresence labels c c' :=
  ⟨fun hl => unmixed_some (h.pid hl) (h'.pid hl), fun hl => unmixed_some (h.tid hl) (h'.tid hl), fun hl => unmixed_pos (h.time hl) (h'.time hl),
    fun hl => unmixed_pos (h.cpu hl) (h'.cpu hl)⟩

theorem clear_sample {labels : Nat} {l : List Msg} (ha : SetApart labels l) {m : Msg} (hm : m ∈ l) {s : Serial.SampleEvent} (hb : m.body = .sample s)
    {c : SampleCtx} (hc : c.sample = normSample s) : Clear labels c := by
  obtain ⟨h1, h2, h3, h4, h5⟩ := ha.fits m hm s hb
  obtain ⟨k1, k2, k3, k4⟩ := ha.told m hm s hb
  refine ⟨⟨?_, ?_, ?_, ?_, ?_⟩, ?_, ?_, ?_, ?_⟩ <;> rw [hc]
  · exact h1
  · exact h2
  · exact h3
  · exact h4
  · intro n hn
    obtain ⟨w, hw, h6⟩ := Option.bind_eq_some_iff.1 hn
    obtain ⟨v, hv, rfl⟩ := Option.map_eq_some_iff.1 hw
    cases h6
    exact h5 v hv
  · exact k1
  · exact k2
  · exact k3
  · exact k4

theorem clear_record {labels : Nat} {cfg : Normalizer.Config} {r : Spe.Record} {c : SampleCtx} (hc : c.sample = Normalizer.recordSample cfg r) :
    Clear labels c := by
  refine ⟨⟨?_, ?_, ?_, ?_, ?_⟩, ?_, ?_, ?_, ?_⟩ <;> rw [hc] <;> unfold Normalizer.recordSample <;> simp

/-- Where a call for a sample comes from. -/
theorem told_origin {cfg : Normalizer.Config} {past : List Ev} {m : Msg} {x : List Callback}
    (ht : Told cfg past (normView m) x) {c : SampleCtx} (hc : .sample c ∈ x) :
    (∃ s, m.body = .sample s ∧ c.sample = normSample s) ∨ (∃ r, c.sample = Normalizer.recordSample cfg r) ∨
    (c.sampleMap ≠ none ∧ c.sample.ip = lostAddress) := by
  by_cases hm : ∃ a, m.body = .auxtrace a
  · obtain ⟨a, hb⟩ := hm
    have h1 := ht.1
    unfold normView at h1
    rw [hb] at h1
    unfold Normalizer.Reports at h1
    simp only at h1
    cases hs : cfg.hasSpe with
    | false => rw [hs] at h1; simp only [Bool.false_eq_true, if_false] at h1; rw [h1] at hc; cases hc
    | true =>
      rw [hs] at h1
      simp only [if_true] at h1
      obtain ⟨rs, d, hd, hall⟩ := h1
      obtain ⟨r, hr, c', hc', hrep⟩ := hall.left _ hc
      cases hc'
      exact .inr (.inl ⟨r, hrep.sample⟩)
  · have hv : normView m = normView m := rfl
    conv at hv => rhs; unfold normView
    have hno : ∀ a, normView m ≠ .auxtrace a := by
      intro a ha
      rw [ha] at hv
      cases hb : m.body <;> rw [hb] at hv <;> simp only [reduceCtorEq] at hv
      exact hm ⟨_, hb⟩
    rcases told_kind (.inr hno) ht hc with ⟨misc, s, idx, he, hr⟩ | h
    · left
      rw [he] at hv
      cases hb : m.body <;> rw [hb] at hv <;> simp only [reduceCtorEq] at hv
      cases hv
      exact ⟨_, rfl, hr.sample⟩
    · exact .inr (.inr h)

/-- The labels shown of what is sampled, in its place. -/
theorem RanAny.labels_at {M : Machine} {ids : List (Bytes × Bytes)} {labels options : Nat} {threadTypes : List (Nat × Bytes)} {st : Data.St}
    {ps : List Converter.ProcessProfile} {t : List Msg} {cfg : Normalizer.Config} {S : Converter.Setup} {cbs : List Callback}
    {LA LB : Converter.Log} {c : SampleCtx} {slot : Converter.Slot}
    (R : RanAny M ids labels options threadTypes st ps t cfg S cbs (LA ++ (.sample c, some slot) :: LB)) (ha : SetApart labels t)
    (hc : Clear labels c) (hip : c.sample.ip ≠ lostAddress) :
    ∃ p smp, ps[slot.1]? = some p ∧ p.data.sample[slot.2]? = some smp ∧
      smp.label.map (Converter.readLabel p.data) = (Converter.labelsOf S (Converter.hist LB) c).map some := by
  refine Converter.labels_shown_by R.conv R.sane rfl hc.fits fun c' hc' hfr => ?_
  unfold Converter.acceptedSamples at hc'
  obtain ⟨cb, hcb, hcb'⟩ := List.mem_filterMap.1 hc'
  have hcc : .sample c' ∈ cbs := by
    cases cb <;> simp only [reduceCtorEq] at hcb'
    split at hcb'
    · cases hcb'; exact hcb
    · cases hcb'
  obtain ⟨u, v, huv⟩ := List.append_of_mem hcc
  have hrep := R.told
  rw [huv] at hrep
  obtain ⟨pre2, m2, post2, a2, b2, B2, f1, f2, -, -⟩ := told_split hrep
  have clear : Clear labels c' → Converter.Fits c' ∧ Converter.SamePresence S.labels c' c := fun h => by
    rw [R.labels]; exact ⟨h.fits, h.same hc⟩
  rcases told_origin f2 (c := c') (by simp) with ⟨s, hb, hs⟩ | ⟨r, hs⟩ | ⟨l1, l2⟩
  · exact clear (clear_sample ha (by rw [f1]; simp) hb hs)
  · exact clear (clear_record hs)
  · exfalso
    unfold Converter.frames Converter.codeFrames at hfr
    rw [List.map_append, List.map_append, List.map_cons, List.map_cons] at hfr
    have hlen := (List.append_inj hfr (by split <;> rfl)).2
    have hleaf := (List.cons.inj hlen).1
    unfold Converter.leaf at hleaf
    rw [if_neg l1, l2] at hleaf
    simp only at hleaf
    split at hleaf
    · exact absurd hleaf (by decide)
    · exact hip hleaf.symm

/-- The names told of by the calls before what is sampled. -/
theorem RanAny.names_at {M : Machine} {ids : List (Bytes × Bytes)} {labels options : Nat} {threadTypes : List (Nat × Bytes)} {st : Data.St}
    {ps : List Converter.ProcessProfile} {pre post : List Msg} {m : Msg} {cfg : Normalizer.Config} {S : Converter.Setup} {cbs : List Callback}
    {L LB : Converter.Log} {misc k : Nat} {s : Serial.SampleEvent} {c : SampleCtx}
    (R : RanAny M ids labels options threadTypes st ps (pre ++ m :: post) cfg S cbs L)
    {A x1 x2 : List Callback} (hLB : Converter.hist LB = (A ++ x1).reverse) (hA : Each (Told cfg) [] (pre.map normView) A)
    (hx : Told cfg (pre.reverse.map normView) (normView m) (x1 ++ .sample c :: x2))
    (hshot : Shot st.base.info.attrs M.traceBase (pre ++ m :: post) m misc s k) :
    (∀ p t, Converter.commAt (Converter.hist LB) p t = nameAt (st.base.info.attrs.any (·.attr.flags.testBit 24)) pre.reverse p t) ∧
    cfg.commExec = st.base.info.attrs.any (·.attr.flags.testBit 24) := by
  obtain ⟨r0, hcfg⟩ := R.config
  have hmark : cfg.commExec = st.base.info.attrs.any (·.attr.flags.testBit 24) := by
    rw [marked_eq hcfg]
    show List.any (List.map _ _) _ = _
    rw [List.any_map, attrs_kept]
    rfl
  refine ⟨fun p t => ?_, hmark⟩
  have hno : ∀ d b, Callback.comm d b ∉ x1.reverse := by
    intro d b hd
    rw [List.mem_reverse] at hd
    obtain ⟨misc', hm⟩ := comm_called [normView m] (past := pre.reverse.map normView) (cbs := x1 ++ .sample c :: x2) ⟨_, [], by simp, hx.1, rfl⟩
      (List.mem_append_left _ hd)
    have hm := List.mem_singleton.1 hm
    cases hshot with
    | sample hb _ => unfold normView at hm; rw [hb] at hm; cases hm
    | traced _ hb _ => unfold normView at hm; rw [hb] at hm; cases hm
  rw [hLB, List.reverse_append, commAt_skip hno, ← hmark]
  exact names_kept (Thins.refl _) rfl (by rw [List.map_map]; rfl) hA p t

/-- The labels of the call for a record of a trace. -/
theorem traced_view {S : Converter.Setup} {cfg : Normalizer.Config} {past : List Ev} {h : List Msg} {hist : List Callback} {idx pid : Nat}
    {r : Spe.Record} {c : SampleCtx} (hr : Normalizer.Reported cfg past none (Normalizer.recordSample cfg r) (some r) idx c)
    (hpid : (Normalizer.recordSample cfg r).pid = some pid) {attrs : List Attr.ProtoFileAttr}
    (hn : ∀ p t, Converter.commAt hist p t = nameAt (attrs.any (·.attr.flags.testBit 24)) h p t) :
    Converter.labelsOf S hist c = tracedLabels attrs S.labels S.threadTypes h pid r := by
  have hl : Converter.latencyOf c = r.totalLat := by
    unfold Converter.latencyOf
    rw [hr.spe]
  unfold Converter.labelsOf tracedLabels Converter.labelFields tracedFields
  rw [hl, hr.sample, hr.misc, hr.spe, hr.cgroup, hpid]
  simp only [hn]
  simp only [List.filterMap_cons, List.filterMap_nil, Normalizer.recordSample, Option.map_none, Option.getD_none, Option.bind_none, Option.map_some,
    Option.bind_some, Option.getD_some]
  have z : ∀ u, Converter.numLabel 0 u = none := fun _ => rfl
  simp only [z, Option.map_none, ite_self, Option.bind_eq_bind, Option.bind_none, Option.bind_some, Option.pure_def, Option.map_some]

/-- The instruction of a record is not at the address at which lost samples are shown. -/
theorem specIP_apart (v : Nat) : (Spe.specIP v).addr ≠ lostAddress := by
  unfold Spe.specIP lostAddress Spe.kernelAddr
  simp only
  split <;> omega

theorem record_apart (x : Spe.Traced) : x.record.ip.addr ≠ lostAddress := by
  have addr : ∀ i v (r : Spe.Record), r.ip.addr ≠ lostAddress → (Spe.specAddr i v r).ip.addr ≠ lostAddress := by
    intro i v r h
    unfold Spe.specAddr
    split <;> first | exact specIP_apart v | exact h
  have cnt : ∀ i v (r : Spe.Record), r.ip.addr ≠ lostAddress → (Spe.specCounter i v r).ip.addr ≠ lostAddress := by
    intro i v r h
    unfold Spe.specCounter
    split <;> exact h
  have step : ∀ (l : List Spe.Pkt) (r : Spe.Record), r.ip.addr ≠ lostAddress → (l.foldl Spe.Pkt.apply r).ip.addr ≠ lostAddress := by
    intro l
    induction l with
    | nil => intro r h; exact h
    | cons p l ih =>
      intro r h
      refine ih _ ?_
      cases p <;> first | exact h | exact addr _ _ _ h | exact cnt _ _ _ h
  have := step x.pkts {} (by decide)
  unfold Spe.Traced.record
  cases x.last <;> exact this

theorem SetApart.mono {labels : Nat} {l l' : List Msg} (h : SetApart labels l) (hm : ∀ m ∈ l', ∀ s, m.body = .sample s → m ∈ l) :
    SetApart labels l' :=
  ⟨fun m hx s hs => h.told m (hm m hx s hs) s hs, fun m hx s hs => h.fits m (hm m hx s hs) s hs, fun m hx s hs => h.apart m (hm m hx s hs) s hs⟩

/-- The profile sample of a sample, for the records that reach the converter. -/
theorem sample_labelled_from {M : Machine} {ids : List (Bytes × Bytes)} {labels options : Nat} {threadTypes : List (Nat × Bytes)} {b : Bytes}
    {ps : List Converter.ProcessProfile} {st : Data.St} (hb : File.readBytes { env := M.env } b = some (some st))
    (hc : Calm options st.events)
    (h : rawToProfiles M ids labels options threadTypes b = some ps) {t pre post : List Msg} {m : Msg} {s : Serial.SampleEvent} {k : Nat}
    (hprep : ∀ r, parseEvents M (rawOpts M options) true true true (withBuildIds M.env.md5 ids st.base.info st.events) st.events = some r →
      r.1.map normView = t.map normView) (hnt : AllNamed t) (ha' : SetApart labels t) (hm : t = pre ++ m :: post) (hbody : m.body = .sample s)
    (hk : owner st.base.info.attrs s.id = some k)
    {shows : Profile.Profile → Profile.Mapping → Serial.MMap → Prop}
    (hshows : ∀ r cfg, Normalizer.mkConfig (normInput M (withBuildIds M.env.md5 ids st.base.info st.events) r) = some cfg → ∀ p m b,
      Shown cfg.ids p m b → shows p m b) :
    ∃ p ∈ ps, p.pid = (if options.testBit 0 then s.pid.getD 0 else 0) ∧ ∃ smp ∈ p.data.sample, 1 ≤ smp.value.getD (2 * k) 0 ∧
      All₂ (ShowsSpot shows (HeldAny st.base.info.attrs M.traceBase (options.testBit 3) t (pre ++ [m]) (s.pid.getD 0)) p.data)
        (stackOf (options.testBit 3) pre.reverse m.misc s) smp.locationId ∧
      smp.label.map (Converter.readLabel p.data) =
        (recordLabels st.base.info.attrs labels threadTypes pre.reverse m.misc s).map some := by
  obtain ⟨cfg, S, cbs, L, R⟩ := ran_any hb hc h hprep
  have hmem : m ∈ t := by rw [hm]; simp
  subst hm
  have hshot : Shot st.base.info.attrs M.traceBase (pre ++ m :: post) m m.misc s k := .sample hbody hk
  obtain ⟨A, x1, c, x2, B, LA, LB, slot, hcbs, rfl, hLB, hA, hx, hidx, hr⟩ := R.place
    (Q := fun c => c.attrIndex = k ∧ Normalizer.Reported cfg (pre.reverse.map normView) (some m.misc) (normSample s) none k c) (fun x hx => by
      have h1 := hx.1
      unfold normView at h1
      rw [hbody] at h1
      have h1 : Normalizer.ReportsSample cfg (pre.reverse.map normView) (some m.misc) (normSample s) x := h1
      unfold Normalizer.ReportsSample at h1
      rw [show (normSample s).id = s.id from rfl, R.tuned.owner, hk] at h1
      obtain ⟨c, rfl, hr⟩ := h1
      exact ⟨[], c, [], rfl, hr.index, hr⟩) (fun c hc => ⟨by rw [hc.1]; exact owner_lt hk, hc.2.lost⟩)
  have P : Pictured cfg pre.reverse m.misc s c := ⟨fun S => frames_view hr, by unfold Converter.pidOf; rw [hr.sample]; rfl, hr.lost⟩
  obtain ⟨p, smp, hp1, hp2, hpid, hall⟩ := R.frames_at hnt hcbs hLB hA hx hshot P hshows
  obtain ⟨p', smp', hp1', hp2', hlab⟩ := R.labels_at ha' (clear_sample ha' hmem hbody hr.sample) (by rw [hr.sample]; exact ha'.apart m hmem s hbody)
  rw [hp1] at hp1'
  cases hp1'
  rw [hp2] at hp2'
  cases hp2'
  obtain ⟨hn, hmark⟩ := R.names_at hLB hA hx hshot
  refine ⟨p, List.mem_of_getElem? hp1, hpid, smp, List.mem_of_getElem? hp2, ?_, hall, ?_⟩
  · have := R.counts_at (by rw [hidx]; exact owner_lt hk) hp1 hp2
    rw [hidx] at this
    exact this
  · have hg := cgroups_kept (Thins.refl (pre.map (fun m => bare (normView m)))) (pre := pre) (es := pre.map normView) rfl (by rw [List.map_map]; rfl)
    rw [← List.map_reverse] at hg
    rw [hlab, labels_view hr (fun p t => by rw [hn, hmark]) hg hmark, R.labels, R.threadTypes]

/-- The profile sample of a record of a trace, for the records that reach the converter. -/
theorem traced_labelled_from {M : Machine} {ids : List (Bytes × Bytes)} {labels options : Nat} {threadTypes : List (Nat × Bytes)} {b : Bytes}
    {ps : List Converter.ProcessProfile} {st : Data.St} (hb : File.readBytes { env := M.env } b = some (some st))
    (hc : Calm options st.events)
    (h : rawToProfiles M ids labels options threadTypes b = some ps) {t pre post : List Msg} {m : Msg} {a : Serial.Auxtrace}
    (hprep : ∀ r, parseEvents M (rawOpts M options) true true true (withBuildIds M.env.md5 ids st.base.info st.events) st.events = some r →
      r.1.map normView = t.map normView) (hnt : AllNamed t) (ha' : SetApart labels t) (hm : t = pre ++ m :: post) (hspe : speTrace t = true) (hbody : m.body = .auxtrace a)
    {ts : List Spe.Traced} (hf : ∀ x ∈ ts, x.Fits) (ha : a.trace = ts.flatMap (Spe.Traced.bytes false)) {x : Spe.Traced} (hx : x ∈ ts)
    (hattrs : st.base.info.attrs ≠ []) {pid : Nat} (hpid : pid = if x.record.context.id = 0 then 0 else (threadHome t x.record.context.id).getD 0)
    {shows : Profile.Profile → Profile.Mapping → Serial.MMap → Prop}
    (hshows : ∀ r cfg, Normalizer.mkConfig (normInput M (withBuildIds M.env.md5 ids st.base.info st.events) r) = some cfg → ∀ p m b,
      Shown cfg.ids p m b → shows p m b) :
    ∃ p ∈ ps, p.pid = (if options.testBit 0 then pid else 0) ∧ ∃ smp ∈ p.data.sample, 1 ≤ smp.value.getD 0 0 ∧
      (∃ data id, smp.locationId = data ++ [id] ∧ data.length = (if options.testBit 3 then 1 else 0) ∧
        ShowsSpot shows (HeldAny st.base.info.attrs M.traceBase (options.testBit 3) t (pre ++ [m]) pid) p.data
          (spotOf pre.reverse pid x.record.ip.addr (modeOf 0)) id) ∧
      smp.label.map (Converter.readLabel p.data) =
        (tracedLabels st.base.info.attrs labels threadTypes pre.reverse pid x.record).map some := by
  have hrr : x.record ∈ traceRecords M.traceBase a.trace := by
    rw [ha, traceRecords_encoded hf]
    exact List.mem_map_of_mem hx
  obtain ⟨cfg, S, cbs, L, R⟩ := ran_any hb hc h hprep
  subst hm
  have hshot : Shot st.base.info.attrs M.traceBase (pre ++ m :: post) m 0 (tracedSample (pre ++ m :: post) x.record) 0 := .traced hspe hbody hrr
  obtain ⟨A, x1, c, x2, B, LA, LB, slot, hcbs, rfl, hLB, hA, hx, hr⟩ := R.place (fun y hy => record_told R.tuned hy hspe hbody hrr)
    (fun c hc => ⟨by rw [hc.index]; exact List.length_pos_iff.2 hattrs, hc.lost⟩)
  have P := record_view R.tuned hspe hr
  obtain ⟨p, smp, hp1, hp2, hpp, hall⟩ := R.frames_at hnt hcbs hLB hA hx hshot P hshows
  obtain ⟨p', smp', hp1', hp2', hlab⟩ := R.labels_at ha' (clear_record hr.sample) (by rw [hr.sample]; exact record_apart x)
  rw [hp1] at hp1'
  cases hp1'
  rw [hp2] at hp2'
  cases hp2'
  obtain ⟨hn, -⟩ := R.names_at hLB hA hx hshot
  have e : (tracedSample (pre ++ m :: post) x.record).pid.getD 0 = pid := hpid.symm
  rw [e] at hpp hall
  refine ⟨p, List.mem_of_getElem? hp1, hpp, smp, List.mem_of_getElem? hp2, ?_, ?_, ?_⟩
  · have := R.counts_at (by rw [hr.index]; exact List.length_pos_iff.2 hattrs) hp1 hp2
    rw [hr.index] at this
    exact this
  · exact stack_traced e hall
  · rw [hlab, traced_view hr (pid := pid) ?_ hn, R.labels, R.threadTypes]
    unfold Normalizer.recordSample
    rw [hpid]
    simp only [R.tuned.threads hspe]

/-- C136 for samples: the profile sample that shows the stack of a sample also shows its labels. See `shot_shown_partial` for the
stack, and `labels_shown_partial` for the labels; here traces of ARM SPE may be in the recording. -/
theorem sample_labelled_partial {M : Machine} {ids : List (Bytes × Bytes)} {labels options : Nat} {threadTypes : List (Nat × Bytes)} {b : Bytes}
    {ps : List Converter.ProcessProfile} {st : Data.St} (hb : File.readBytes { env := M.env } b = some (some st))
    (hc : Calm options st.events) (hs : Steady st.events) (ha : SetApart labels st.events)
    (h : rawToProfiles M ids labels options threadTypes b = some ps) {t pre post : List Msg} {m : Msg} {s : Serial.SampleEvent} {k : Nat}
    (ht : Timeline st.base.info.attrs st.events t) (hm : t = pre ++ m :: post) (hbody : m.body = .sample s)
    (hk : owner st.base.info.attrs s.id = some k) :
    ∃ p ∈ ps, p.pid = (if options.testBit 0 then s.pid.getD 0 else 0) ∧ ∃ smp ∈ p.data.sample, 1 ≤ smp.value.getD (2 * k) 0 ∧
      All₂ (ShowsSpot ShowsArea (HeldAny st.base.info.attrs M.traceBase (options.testBit 3) t (pre ++ [m]) (s.pid.getD 0)) p.data)
        (stackOf (options.testBit 3) pre.reverse m.misc s) smp.locationId ∧
      smp.label.map (Converter.readLabel p.data) =
        (recordLabels st.base.info.attrs labels threadTypes pre.reverse m.misc s).map some := by
  have hts : t = sortEvents (withBuildIds M.env.md5 ids st.base.info st.events) st.events := timeline_sort (by rw [attrs_kept]; exact ht)
  have hperm : ∀ x, x ∈ t ↔ x ∈ st.events := by
    intro x; rw [hts]; exact (sort_perm (withBuildIds M.env.md5 ids st.base.info st.events) st.events).mem_iff
  exact sample_labelled_from hb hc h (fun r hr => by rw [prep_steady (read_shaped hb) hs hr, ← hts]) (fun x hx => hs.named x ((hperm x).1 hx))
    (ha.mono fun x hx _ _ => (hperm x).1 hx) hm hbody hk fun _ _ _ _ _ _ hsh => by
      obtain ⟨hn, o, x, y, h1, h2, h3, h4, h5, h6⟩ := hsh
      exact shown_area h1 h2 h3 h4 hn h5 h6

/-- C136. The labels of what is traced: one of the profiles — that of the process of the thread of the record, if there is one for each process —
has a profile sample that counts for the first event, whose last frame is the instruction of the record (see `traced_shown_partial`), and
whose labels are, in order, those asked for that the record has: its process and thread, the names that comm records before the trace gave to
them, the type of the thread, and its counters of cycles in total, until issue and of translation. Whatever the bytes are, if the
samples of the recording are told apart from records of traces (`SetApart`), and if mappings and processes are as in C135. -/
theorem traced_labelled_partial {M : Machine} {ids : List (Bytes × Bytes)} {labels options : Nat} {threadTypes : List (Nat × Bytes)} {b : Bytes}
    {ps : List Converter.ProcessProfile} {st : Data.St} (hb : File.readBytes { env := M.env } b = some (some st))
    (hc : Calm options st.events) (hs : Steady st.events) (hapart : SetApart labels st.events)
    (h : rawToProfiles M ids labels options threadTypes b = some ps) {t pre post : List Msg} {m : Msg} {a : Serial.Auxtrace}
    (ht : Timeline st.base.info.attrs st.events t) (hm : t = pre ++ m :: post) (hspe : speTrace t = true) (hbody : m.body = .auxtrace a)
    {ts : List Spe.Traced} (hf : ∀ x ∈ ts, x.Fits) (ha : a.trace = ts.flatMap (Spe.Traced.bytes false)) {x : Spe.Traced} (hx : x ∈ ts)
    (hattrs : st.base.info.attrs ≠ []) {pid : Nat} (hpid : pid = if x.record.context.id = 0 then 0 else (threadHome t x.record.context.id).getD 0) :
    ∃ p ∈ ps, p.pid = (if options.testBit 0 then pid else 0) ∧ ∃ smp ∈ p.data.sample, 1 ≤ smp.value.getD 0 0 ∧
      (∃ data id, smp.locationId = data ++ [id] ∧ data.length = (if options.testBit 3 then 1 else 0) ∧
        ShowsSpot ShowsArea (HeldAny st.base.info.attrs M.traceBase (options.testBit 3) t (pre ++ [m]) pid) p.data
          (spotOf pre.reverse pid x.record.ip.addr (modeOf 0)) id) ∧
      smp.label.map (Converter.readLabel p.data) =
        (tracedLabels st.base.info.attrs labels threadTypes pre.reverse pid x.record).map some := by
  have hts : t = sortEvents (withBuildIds M.env.md5 ids st.base.info st.events) st.events := timeline_sort (by rw [attrs_kept]; exact ht)
  have hperm : ∀ x, x ∈ t ↔ x ∈ st.events := by
    intro x; rw [hts]; exact (sort_perm (withBuildIds M.env.md5 ids st.base.info st.events) st.events).mem_iff
  exact traced_labelled_from hb hc h (fun r hr => by rw [prep_steady (read_shaped hb) hs hr, ← hts]) (fun x hx => hs.named x ((hperm x).1 hx))
    (hapart.mono fun x hx _ _ => (hperm x).1 hx) hm hspe hbody hf ha hx hattrs hpid fun _ _ _ _ _ _ hsh => by
      obtain ⟨hn, o, x, y, h1, h2, h3, h4, h5, h6⟩ := hsh
      exact shown_area h1 h2 h3 h4 hn h5 h6

/-! ### Examples -/

section
open Verif.File (exFile exMetadata fileImage)
open Verif.Serial (exMsg exMap exSample exInfo exEnv)

/-- A record of thread 11 with all counters, and one with none. -/
def exCounted : List Spe.Traced :=
  [⟨[.addr 0 0x4200, .context 0 11, .counter 0 500, .counter 1 60, .counter 2 7], .endOfRecord⟩, ⟨[.addr 0 0x4200, .context 0 11], .timestamp 77⟩]

theorem exCounted_fit : ∀ x ∈ exCounted, x.Fits := by
  intro t ht
  simp only [exCounted, List.mem_cons, List.not_mem_nil, or_false] at ht
  rcases ht with rfl | rfl
  · refine ⟨?_, ?_⟩
    · intro p hp
      simp only [List.mem_cons, List.not_mem_nil, or_false] at hp
      rcases hp with rfl | rfl | rfl | rfl | rfl <;> simp [Spe.Pkt.Fits]
    · simp [Spe.Last.Fits]
  · refine ⟨?_, ?_⟩
    · intro p hp
      simp only [List.mem_cons, List.not_mem_nil, or_false] at hp
      rcases hp with rfl | rfl <;> simp [Spe.Pkt.Fits]
    · simp [Spe.Last.Fits]

/-- A process and its thread are named, then traced, and then sampled at the same instruction. -/
def exCountedMsgs : List Msg :=
  [mapMsg 0, threadMsg 10 0 (ascii "sh"), threadMsg 11 0 (ascii "worker"), infoMsg, traceMsg exCounted, heavyMsg 7 4]

/-- What `SetApart` asks for if all labels are asked for. -/
def setApartB (l : List Msg) : Bool :=
  let ss := l.filterMap (fun m => match m.body with | .sample s => some s | _ => none)
  ss.all (fun s => s.pid.isSome && s.tid.isSome && s.time != some 0 && s.cpu != some 0)

theorem setApart_of {labels : Nat} {l : List Msg} (h : setApartB l = true) (h' : alikeB l = true) : SetApart labels l := by
  have ha := alike_of (labels := labels) h'
  refine ⟨fun m hm s hs => ?_, ha.fits, ha.apart⟩
  unfold setApartB at h
  simp only [List.all_eq_true] at h
  have := h s (List.mem_filterMap.2 ⟨m, hm, by rw [hs]⟩)
  simp only [Bool.and_eq_true, bne_iff_ne] at this
  exact ⟨fun _ => this.1.1.1, fun _ => this.1.1.2, fun _ => this.1.2, fun _ => this.2⟩

/-- The labels of the trace at a place, if the recording meets the conditions of `traced_labelled_partial`. -/
def tracedAtB (labels options : Nat) (threadTypes : List (Nat × Bytes)) (st : Data.St) (n : Nat) :
    Option (List (List (Bytes × Converter.LabelText))) :=
  match st.events[n]? with
  | some m =>
    match m.body with
    | .auxtrace a =>
      if calmB options st.events && steadyB st.events && speTrace st.events && inOrderB st.base.info.attrs st.events && decide (0 < st.base.info.attrs.length)
          && decide (a.trace = exCounted.flatMap (Spe.Traced.bytes false)) && setApartB st.events && alikeB st.events then
        some (exCounted.map (fun x => tracedLabels st.base.info.attrs labels threadTypes (st.events.take n).reverse
          ((threadHome st.events x.record.context.id).getD 0) x.record))
      else none
    | _ => none
  | none => none

theorem tracedAt_of {labels options : Nat} {threadTypes : List (Nat × Bytes)} {st : Data.St} {n : Nat} {r : List (List (Bytes × Converter.LabelText))}
    (h : tracedAtB labels options threadTypes st n = some r) :
    Calm options st.events ∧ Steady st.events ∧ SetApart labels st.events ∧ ∃ pre m post a, Timeline st.base.info.attrs st.events (pre ++ m :: post) ∧
      speTrace (pre ++ m :: post) = true ∧ m.body = .auxtrace a ∧ a.trace = exCounted.flatMap (Spe.Traced.bytes false) ∧ st.base.info.attrs ≠ [] ∧
      exCounted.map (fun x => tracedLabels st.base.info.attrs labels threadTypes pre.reverse
          ((threadHome (pre ++ m :: post) x.record.context.id).getD 0) x.record) = r := by
  unfold tracedAtB at h
  split at h
  · rename_i m hm
    split at h
    · rename_i a ha
      split at h
      · rename_i hc
        cases h
        simp only [Bool.and_eq_true, decide_eq_true_eq] at hc
        obtain ⟨⟨⟨⟨⟨⟨⟨h1, h2⟩, h3⟩, h4⟩, h5⟩, h6⟩, h7⟩, h8⟩ := hc
        have e : st.events = st.events.take n ++ m :: st.events.drop (n + 1) := by
          obtain ⟨hlt, he⟩ := List.getElem?_eq_some_iff.1 hm
          rw [← he, ← List.drop_eq_getElem_cons hlt, List.take_append_drop]
        refine ⟨calm_of h1, steady_of h2, setApart_of h7 h8, st.events.take n, m, st.events.drop (n + 1), a, ?_, ?_, ha, h6, List.length_pos_iff.1 h5, ?_⟩
        · rw [← e]; exact inOrder_of h4
        · rw [← e]; exact h3
        · rw [← e]
      · cases h
    · cases h
  · cases h

def exThreadLabels : List (Bytes × Converter.LabelText) :=
  [(ascii "pid", .num 10 []), (ascii "tid", .num 11 []), (ascii "comm", .str (ascii "sh")), (ascii "thread_type", .str (ascii "io")),
    (ascii "thread_comm", .str (ascii "worker"))]

def exCountedLabels : List (List (Bytes × Converter.LabelText)) :=
  [exThreadLabels ++ [(ascii "total_latency", .num 500 (ascii "cycles")), (ascii "issue_latency", .num 60 (ascii "cycles")),
    (ascii "translation_latency", .num 7 (ascii "cycles"))], exThreadLabels]

/-- The conditions are met by the bytes of a recording with a trace of a named thread and a sample of it at the same instruction. All three are
shown with their labels. -/
example : (∀ x ∈ exCounted, x.Fits) ∧ ∃ st, File.readBytes { env := exEnv } (fileImage (recordingOf exCountedMsgs)) = some (some st) ∧
    Calm 1 st.events ∧ Steady st.events ∧ SetApart (2 ^ 16 - 1) st.events ∧
    (∃ pre m post a, Timeline st.base.info.attrs st.events (pre ++ m :: post) ∧
      speTrace (pre ++ m :: post) = true ∧ m.body = .auxtrace a ∧ a.trace = exCounted.flatMap (Spe.Traced.bytes false) ∧ st.base.info.attrs ≠ [] ∧
      exCounted.map (fun x => tracedLabels st.base.info.attrs (2 ^ 16 - 1) [(11, ascii "io")] pre.reverse
          ((threadHome (pre ++ m :: post) x.record.context.id).getD 0) x.record) = exCountedLabels) ∧
    (rawToProfiles exMachine [] (2 ^ 16 - 1) 1 [(11, ascii "io")] (fileImage (recordingOf exCountedMsgs))).map labelsIn =
      some ((exCountedLabels ++ [exLabels]).map (·.map some)) := by
  refine ⟨exCounted_fit, ?_⟩
  have h1 : ((File.readBytes { env := exEnv } (fileImage (recordingOf exCountedMsgs))).bind id).bind
      (fun st => tracedAtB (2 ^ 16 - 1) 1 [(11, ascii "io")] st 4) = some exCountedLabels := by decide +kernel
  have h2 : (rawToProfiles exMachine [] (2 ^ 16 - 1) 1 [(11, ascii "io")] (fileImage (recordingOf exCountedMsgs))).map labelsIn =
      some ((exCountedLabels ++ [exLabels]).map (·.map some)) := by decide +kernel
  cases hr : File.readBytes { env := exEnv } (fileImage (recordingOf exCountedMsgs)) with
  | none => rw [hr] at h1; cases h1
  | some o =>
    cases o with
    | none => rw [hr] at h1; cases h1
    | some st =>
      rw [hr] at h1
      obtain ⟨k1, k2, k3, k4⟩ := tracedAt_of h1
      exact ⟨st, rfl, k1, k2, k3, k4, h2⟩

def cpuMsg : Msg :=
  exMsg 9 2 (.sample { exSample with
    ip := some 0x4200
    time := some 4
    callchain := [0x4200]
    branches := []
    addr := some 0
    cpu := some 0 })

/-- C136 fails if samples and records of traces are not told apart: the sample is on CPU 0 and records of traces have no CPU, so the two are put
together and the label of the sample is not shown. Without the trace it is. -/
theorem traced_cpu_violated :
    (rawToProfiles exMachine [] (2 ^ 10) 1 [] (fileImage (recordingOf [mapMsg 0, threadMsg 10 0 (ascii "sh"), infoMsg,
      traceMsg [⟨[.addr 0 0x4200, .context 0 10], .endOfRecord⟩], cpuMsg]))).map labelsIn = some [[]] ∧
    (rawToProfiles exMachine [] (2 ^ 10) 1 [] (fileImage (recordingOf [mapMsg 0, threadMsg 10 0 (ascii "sh"), cpuMsg]))).map labelsIn =
      some [[some (ascii "cpu", .num 0 (ascii "cpu"))]] := by
  constructor <;> decide +kernel

/-- C136 fails for what comes after the trace: names given to a process after it, in time or not, are not shown with its records, as
traces have no time and are looked at first. -/
theorem traced_named_violated :
    (rawToProfiles exMachine [] (2 ^ 4) 1 [] (fileImage (recordingOf [mapMsg 0, threadMsg 10 1 (ascii "sh"), infoMsg,
      traceMsg [⟨[.addr 0 0x4200, .context 0 10], .endOfRecord⟩], heavyMsg 7 4]))).map labelsIn =
      some [[], [some (ascii "comm", .str (ascii "sh"))]] := by decide +kernel

end

end Verif.Whole
