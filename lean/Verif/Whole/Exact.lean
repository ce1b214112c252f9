import Verif.Whole.ExactSpec
import Verif.Whole.Labels
import Verif.Whole.Gaps

/-!
# Which samples of the profiles stand for which records
-/

namespace Verif.Whole
open Verif.Serial (Msg Body)
open Verif.Normalizer (Each Ev Callback SampleCtx MapRef)

/-! ## The calls for each record -/

/-- The calls, taken apart by the events that lead to them. -/
theorem each_chunks {P : List Ev → Ev → List Callback → Prop} {γ : Type} (f : γ → Callback) : ∀ (es : List Ev) {past : List Ev}
    {l : List γ}, Each P past es (l.map f) → ∃ ys : List (List γ), ys.length = es.length ∧ ys.flatten = l ∧
      (∀ (i : Nat) e y, es[i]? = some e → ys[i]? = some y → P ((es.take i).reverse ++ past) e (y.map f)) ∧
      ∀ i, Each P past (es.take i) ((ys.take i).flatten.map f)
  | [], past, l, h => by
    have h : l.map f = [] := h
    rw [List.map_eq_nil_iff] at h
    subst h
    exact ⟨[], rfl, rfl, by simp, fun i => by simp [Each]⟩
  | e :: es, past, l, h => by
    obtain ⟨c, cs, h1, h2, h3⟩ := h
    obtain ⟨y, l', rfl, rfl, rfl⟩ := List.map_eq_append_iff.1 h1
    obtain ⟨ys, k1, k2, k3, k4⟩ := each_chunks f es h3
    refine ⟨y :: ys, by simp [k1], by simp [k2], ?_, ?_⟩
    · intro i e' y' he hy
      cases i with
      | zero =>
        simp only [List.getElem?_cons_zero, Option.some.injEq] at he hy
        subst he hy
        exact h2
      | succ i =>
        simp only [List.getElem?_cons_succ] at he hy
        have := k3 i e' y' he hy
        rw [List.take_succ_cons, List.reverse_cons, List.append_assoc]
        exact this
    · intro i
      cases i with
      | zero => rfl
      | succ i =>
        rw [List.take_succ_cons, List.take_succ_cons, List.flatten_cons, List.map_append]
        exact ⟨_, _, rfl, h2, k4 i⟩

/-- The calls of a record. -/
theorem told_chunk {cfg : Normalizer.Config} (hspe : cfg.hasSpe = false) {attrs : List Attr.ProtoFileAttr}
    (ho : ∀ id, Normalizer.eventIndexFor cfg id = owner attrs id) {past : List Ev} {m : Msg} {x : List Callback}
    (h : Told cfg past (normView m) x) :
    (eventOf cfg.useLostSample attrs m = none ∧ ∀ c, .sample c ∉ x) ∨
    (∃ s k c, m.body = .sample s ∧ eventOf cfg.useLostSample attrs m = some k ∧ x = [.sample c] ∧
      Normalizer.Reported cfg past (some m.misc) (normSample s) none k c) ∨
    (∃ k c n, (∀ s, m.body ≠ .sample s) ∧ (∀ options, heldIn options m = if options.testBit 4 then 0 else n) ∧
      eventOf cfg.useLostSample attrs m = some k ∧ x = List.replicate n (.sample c) ∧ c.attrIndex = k ∧ c.sample.period = 0 ∧
      c.lost = true ∧ Converter.pidOf c = pidIn m ∧
      ∀ S, (Converter.frames S c).map (·.1) = (if S.options.testBit 3 then [0] else []) ++ [lostAddress]) := by
  obtain ⟨h, -⟩ := h
  have mm : ∀ b, Normalizer.ReportsMmap cfg b x → ∀ c, .sample c ∉ x := by
    intro b hb c hc
    unfold Normalizer.ReportsMmap at hb
    split at hb
    · rw [hb] at hc; cases hc
    · obtain ⟨r, rfl, -⟩ := hb
      cases List.mem_singleton.1 hc
  have lost : ∀ l : Normalizer.LostEv, Normalizer.ReportsLost cfg l x →
      (owner attrs (some l.id) = none ∧ x = []) ∨ ∃ k c, owner attrs (some l.id) = some k ∧ x = List.replicate l.num (.sample c) ∧
        c.attrIndex = k ∧ c.sample.period = 0 ∧ c.lost = true ∧ Converter.pidOf c = l.pid ∧
        ∀ S, (Converter.frames S c).map (·.1) = (if S.options.testBit 3 then [0] else []) ++ [lostAddress] := by
    intro l hl
    unfold Normalizer.ReportsLost at hl
    rw [ho] at hl
    cases hk : owner attrs (some l.id) with
    | none => rw [hk] at hl; exact .inl ⟨rfl, hl⟩
    | some k =>
      rw [hk] at hl
      obtain ⟨r, rfl, hr, -⟩ := hl
      refine .inr ⟨k, _, rfl, rfl, rfl, rfl, rfl, rfl, fun S => ?_⟩
      unfold Converter.frames Converter.codeFrames Converter.leaf Converter.callers Converter.branches
      have e : (10376293541461622784 : Nat) = lostAddress := by decide
      by_cases hd : S.options.testBit 3 = true <;> simp [hd, e, Converter.LbrSample]
  unfold normView at h
  cases hb : m.body with
  | mmap b => rw [hb] at h; exact .inl ⟨by unfold eventOf; rw [hb], mm _ h⟩
  | ksymbol k =>
    rw [hb] at h
    unfold Normalizer.Reports at h
    simp only at h
    refine .inl ⟨by unfold eventOf; rw [hb], ?_⟩
    split at h
    · exact mm _ h
    · rw [h]; intro c hc; cases hc
  | comm d =>
    rw [hb] at h
    obtain ⟨q, rfl, -⟩ := h
    exact .inl ⟨by unfold eventOf; rw [hb], fun c hc => by cases List.mem_singleton.1 hc⟩
  | lostSamples l =>
    rw [hb] at h
    unfold Normalizer.Reports at h
    simp only at h
    have e1 : eventOf cfg.useLostSample attrs m = if cfg.useLostSample then owner attrs (some (l.info.id.getD 0)) else none := by
      unfold eventOf; rw [hb]
    split at h
    · rename_i hu
      rw [e1, if_pos hu]
      rcases lost _ h with ⟨k1, rfl⟩ | ⟨k, c, k1, k2, k3, k4, k5, k6, k7⟩
      · exact .inl ⟨k1, by simp⟩
      · refine .inr (.inr ⟨k, c, l.lost, by simp, fun o => ?_, k1, k2, k3, k4, k5, ?_, k7⟩)
        · unfold heldIn; rw [hb]
        · rw [k6]; unfold pidIn; rw [hb]
    · rename_i hu
      rw [e1, if_neg hu, h]
      exact .inl ⟨rfl, by simp⟩
  | lost l =>
    rw [hb] at h
    unfold Normalizer.Reports at h
    simp only at h
    have e1 : eventOf cfg.useLostSample attrs m = if cfg.useLostSample then none else owner attrs (some l.id) := by
      unfold eventOf; rw [hb]
    split at h
    · rename_i hu
      rw [e1, if_pos hu, h]
      exact .inl ⟨rfl, by simp⟩
    · rename_i hu
      rw [e1, if_neg hu]
      rcases lost _ h with ⟨k1, rfl⟩ | ⟨k, c, k1, k2, k3, k4, k5, k6, k7⟩
      · exact .inl ⟨k1, by simp⟩
      · refine .inr (.inr ⟨k, c, l.lost, by simp, fun o => ?_, k1, k2, k3, k4, k5, ?_, k7⟩)
        · unfold heldIn; rw [hb]
        · rw [k6]; unfold pidIn; rw [hb]
  | sample s =>
    rw [hb] at h
    have h : Normalizer.ReportsSample cfg past (some m.misc) (normSample s) x := h
    unfold Normalizer.ReportsSample at h
    rw [show (normSample s).id = s.id from rfl, ho] at h
    have e1 : eventOf cfg.useLostSample attrs m = owner attrs s.id := by unfold eventOf; rw [hb]
    rw [e1]
    cases hk : owner attrs s.id with
    | none => rw [hk] at h; rw [h]; exact .inl ⟨rfl, by simp⟩
    | some k =>
      rw [hk] at h
      obtain ⟨c, rfl, hr⟩ := h
      exact .inr (.inl ⟨s, k, c, rfl, rfl, rfl, hr⟩)
  | auxtrace a =>
    rw [hb] at h
    unfold Normalizer.Reports at h
    simp only [hspe] at h
    refine .inl ⟨by unfold eventOf; rw [hb], ?_⟩
    rw [h]; simp
  | _ =>
    rw [hb] at h
    refine .inl ⟨by unfold eventOf; rw [hb], ?_⟩
    rw [show x = [] from h]; simp

/-! ## Places -/

/-- The places of the samples among calls. -/
def slotsOf (y : Converter.Log) : List Place := (Converter.placed y).map (·.2)

theorem placed_flatten (ys : List Converter.Log) : Converter.placed ys.flatten = ys.flatMap Converter.placed := by
  unfold Converter.placed
  rw [List.filterMap_flatten, List.flatMap_def]

theorem eventOf_lt {new : Bool} {attrs : List Attr.ProtoFileAttr} {m : Msg} {k : Nat} (h : eventOf new attrs m = some k) : k < attrs.length := by
  unfold eventOf at h
  split at h
  · exact owner_lt h
  · split at h
    · exact owner_lt h
    · cases h
  · split at h
    · cases h
    · exact owner_lt h
  · cases h

/-- The samples of a record that count. -/
theorem told_facts {cfg : Normalizer.Config} (hspe : cfg.hasSpe = false) {attrs : List Attr.ProtoFileAttr}
    (ho : ∀ id, Normalizer.eventIndexFor cfg id = owner attrs id) {past : List Ev} {m : Msg} {x : List Callback}
    (h : Told cfg past (normView m) x) {S : Converter.Setup} (hS : S.attrs.length = attrs.length) :
    (∀ c, .sample c ∈ x → eventOf cfg.useLostSample attrs m = some c.attrIndex ∧ c.sample.period = periodIn m ∧ Converter.pidOf c = pidIn m) ∧
      (Converter.acceptedSamples S x).length = if (eventOf cfg.useLostSample attrs m).isSome then heldIn S.options m else 0 := by
  rcases told_chunk hspe ho h with ⟨h1, h2⟩ | ⟨s, k, c, h1, h2, rfl, h4⟩ | ⟨k, c, n, h1, h2, h3, rfl, h5, h6, h7, h8, -⟩
  · refine ⟨fun c hc => absurd hc (h2 c), ?_⟩
    rw [h1]
    have : Converter.acceptedSamples S x = [] := by
      unfold Converter.acceptedSamples
      rw [List.filterMap_eq_nil_iff]
      intro cb hcb
      cases cb with
      | sample c => exact absurd hcb (h2 c)
      | _ => rfl
    rw [this]
    rfl
  · have ha : Converter.Accepted S c := ⟨by rw [h4.index, hS]; exact eventOf_lt h2, fun hl => by rw [h4.lost] at hl; cases hl.1⟩
    constructor
    · intro c' hc'
      cases List.mem_singleton.1 hc'
      refine ⟨by rw [h2, h4.index], ?_, ?_⟩
      · rw [h4.sample]; unfold periodIn; rw [h1]; rfl
      · unfold Converter.pidOf pidIn; rw [h4.sample, h1]; rfl
    · rw [h2]
      simp only [Converter.acceptedSamples, List.filterMap_cons, if_pos ha, List.filterMap_nil, Option.isSome_some, if_true, List.length_singleton]
      unfold heldIn
      rw [h1]
  · constructor
    · intro c' hc'
      have := List.eq_of_mem_replicate hc'
      injection this with this
      subst this
      refine ⟨by rw [h3, h5], ?_, h8⟩
      rw [h6]
      unfold periodIn
      split
      · rename_i s hs; exact absurd hs (h1 s)
      · rfl
    · rw [h3, h2]
      simp only [Converter.acceptedSamples, Option.isSome_some, if_true]
      by_cases hb : S.options.testBit 4 = true
      · rw [if_pos hb, List.length_eq_zero_iff, List.filterMap_eq_nil_iff]
        intro cb hcb
        rw [List.eq_of_mem_replicate hcb]
        exact if_neg (fun ha => ha.2 ⟨h7, hb⟩)
      · have ha : Converter.Accepted S c := ⟨by rw [h5, hS]; exact eventOf_lt h3, fun hl => hb hl.2⟩
        rw [if_neg hb]
        clear h h2
        induction n with
        | zero => rfl
        | succ n ih =>
          rw [List.replicate_succ, List.filterMap_cons]
          simp only [if_pos ha, List.length_cons]
          rw [ih]

/-! ## Labels -/

/-- The labels of a sample in its place. -/
theorem Ran.labels_at {M : Machine} {ids : List (Bytes × Bytes)} {labels options : Nat} {threadTypes : List (Nat × Bytes)} {st : Data.St}
    {ps : List Converter.ProcessProfile} {pre post : List Msg} {m : Msg} {cfg : Normalizer.Config} {S : Converter.Setup} {cbs : List Callback}
    {LA LB : Converter.Log} {c : SampleCtx} {slot : Converter.Slot} {s : Serial.SampleEvent} {k : Nat}
    (R : Ran M ids labels options threadTypes st ps (pre ++ m :: post) cfg S cbs (LA ++ (.sample c, some slot) :: LB))
    (ha : Alike labels (pre ++ m :: post)) (hbody : m.body = .sample s) {A : List Callback} (hLB : Converter.hist LB = A.reverse)
    (hA : Each (Told cfg) [] (pre.map normView) A)
    (hr : Normalizer.Reported cfg (pre.reverse.map normView) (some m.misc) (normSample s) none k c) :
    ∃ p smp, ps[slot.1]? = some p ∧ p.data.sample[slot.2]? = some smp ∧
      smp.label.map (Converter.readLabel p.data) =
        (recordLabels st.base.info.attrs labels threadTypes pre.reverse m.misc s).map some := by
  obtain ⟨r0, hcfg⟩ := R.config
  have hmark : cfg.commExec = st.base.info.attrs.any (·.attr.flags.testBit 24) := by
    rw [marked_eq hcfg]
    show List.any (List.map _ _) _ = _
    rw [List.any_map, attrs_kept]
    rfl
  have hmem : m ∈ pre ++ m :: post := by simp
  have hthin : Thins mapPid (pre.map (fun m => bare (normView m))) ((pre.map normView).map bare) := by
    rw [List.map_map]; exact Thins.refl _
  have hnames := names_kept (cfg := cfg) hthin rfl rfl hA
  have hcg := cgroups_kept hthin rfl rfl
  have hfit := alike_fits ha hmem hbody hr.sample
  obtain ⟨p, smp, hp1, hp2, hall⟩ := Converter.labels_shown_by R.conv R.sane rfl hfit (by
    intro c' hc' hfr
    unfold Converter.acceptedSamples at hc'
    obtain ⟨cb, hcb, hcb'⟩ := List.mem_filterMap.1 hc'
    have hcc : .sample c' ∈ cbs := by
      cases cb <;> simp only [reduceCtorEq] at hcb'
      split at hcb'
      · cases hcb'; exact hcb
      · cases hcb'
    obtain ⟨u, v, huv⟩ := List.append_of_mem hcc
    have hrep0 := R.told
    rw [huv] at hrep0
    obtain ⟨pre2, m2, post2, a2, b2, B2, f1, f2, -, -⟩ := told_split hrep0
    have hm2 : m2 ∈ pre ++ m :: post := by rw [f1]; simp
    rcases told_kind (.inl R.spe) f2 (c := c') (by simp) with ⟨misc2, s2, idx2, e2, hr2⟩ | ⟨l1, l2⟩
    · unfold normView at e2
      cases hb2 : m2.body <;> rw [hb2] at e2 <;> simp only [reduceCtorEq, Ev.sample.injEq] at e2
      rename_i s3
      obtain ⟨-, rfl⟩ := e2
      obtain ⟨k1, k2, k3, k4⟩ := ha.same m2 hm2 m hmem s3 s hb2 hbody
      refine ⟨alike_fits ha hm2 hb2 hr2.sample, ?_, ?_, ?_, ?_⟩ <;> rw [R.labels, hr2.sample, hr.sample] <;> assumption
    · exfalso
      unfold Converter.frames Converter.codeFrames at hfr
      rw [List.map_append, List.map_append, List.map_cons, List.map_cons] at hfr
      have hlen := (List.append_inj hfr (by split <;> rfl)).2
      have hleaf := (List.cons.inj hlen).1
      unfold Converter.leaf at hleaf
      rw [if_neg l1, l2] at hleaf
      simp only at hleaf
      split at hleaf
      · exact absurd hleaf (by decide)
      · rw [hr.sample] at hleaf
        exact ha.apart m hmem s hbody hleaf.symm)
  refine ⟨p, smp, hp1, hp2, ?_⟩
  rw [hall, labels_view (h := pre.reverse) hr (fun p t => by rw [hLB]; exact hnames p t) (fun id => by rw [List.map_reverse]; exact hcg id) hmark,
    R.labels, R.threadTypes]

/-! ## Between two samples -/

theorem had_view (h : List Msg) (pid : Nat) : Normalizer.hadMmapEvent (h.map normView) pid = hadMap h pid := by
  rw [Bool.eq_iff_iff, had_any, had_map, List.map_map]
  rfl

/-- The calls for programs executed. -/
theorem told_exec {cfg : Normalizer.Config} {h : List Msg} {m : Msg} {x : List Callback} (ht : Told cfg (h.map normView) (normView m) x) (pid : Nat) :
    executes cfg.commExec h m = some pid ↔ ∃ d, .comm d true ∈ x ∧ d.pid = pid := by
  by_cases hcomm : ∃ d, m.body = .comm d
  · obtain ⟨d, hb⟩ := hcomm
    have h1 := ht.1
    have hmv : normView m = .comm m.misc { pid := d.pid, tid := d.tid, comm := d.comm, md5 := d.commMd5 } := by unfold normView; rw [hb]
    rw [hmv] at h1
    obtain ⟨q, rfl, hq⟩ := h1
    have hq : q = true ↔ d.pid = d.tid ∧ (cfg.commExec = false ∨ m.misc.testBit 13 = true ∨ hadMap h d.pid = false) := by
      rw [hq]
      unfold Normalizer.ExecComm
      rw [had_view]
    unfold executes
    rw [hb]
    simp only
    constructor
    · intro he
      split at he
      · rename_i hc
        cases he
        rw [hq.2 hc]
        exact ⟨_, List.mem_singleton.2 rfl, rfl⟩
      · cases he
    · rintro ⟨d', hd', rfl⟩
      have := List.mem_singleton.1 hd'
      injection this with h2 h3
      subst h2
      rw [if_pos (hq.1 h3.symm)]
  · constructor
    · intro he
      unfold executes at he
      split at he
      · rename_i d hb; exact absurd ⟨d, hb⟩ hcomm
      · cases he
    · rintro ⟨d, hd, -⟩
      exfalso
      obtain ⟨misc, hm⟩ := comm_called [normView m] (past := h.map normView) (cbs := x) ⟨x, [], by simp, ht.1, rfl⟩ hd
      have hm := (List.mem_singleton.1 hm).symm
      unfold normView at hm
      cases hb : m.body <;> rw [hb] at hm <;> simp only [reduceCtorEq] at hm
      exact hcomm ⟨_, hb⟩

/-- The calls for mappings. -/
theorem told_map {cfg : Normalizer.Config} (hspe : cfg.hasSpe = false) {past : List Ev} {m : Msg} {x : List Callback} (ht : Told cfg past (normView m) x) {pid : Nat}
    {r : MapRef} (hr : .mmap pid r ∈ x) {a : Nat} (h1 : r.mapping.start ≤ a) (h2 : a < r.mapping.limit) : mapsOver pid a m = true := by
  cases ha : areaOf m with
  | none =>
    exfalso
    have nil : x = [] → False := by rintro rfl; cases hr
    obtain ⟨h, -⟩ := ht
    have lost : ∀ l, Normalizer.ReportsLost cfg l x → False := by
      intro l hl
      unfold Normalizer.ReportsLost at hl
      split at hl
      · exact nil hl
      · obtain ⟨q, rfl, -⟩ := hl
        cases List.eq_of_mem_replicate hr
    unfold normView at h
    unfold areaOf at ha
    cases hb : m.body with
    | mmap b => rw [hb] at ha; cases ha
    | ksymbol k =>
      rw [hb] at h ha
      simp only at ha
      unfold Normalizer.Reports at h
      simp only at h
      split at h
      · rename_i hk
        rw [if_pos hk] at ha
        cases ha
      · exact nil h
    | comm d =>
      rw [hb] at h
      obtain ⟨q, rfl, -⟩ := h
      cases List.mem_singleton.1 hr
    | lostSamples l =>
      rw [hb] at h
      unfold Normalizer.Reports at h
      simp only at h
      split at h
      · exact lost _ h
      · exact nil h
    | lost l =>
      rw [hb] at h
      unfold Normalizer.Reports at h
      simp only at h
      split at h
      · exact nil h
      · exact lost _ h
    | sample s =>
      rw [hb] at h
      have h : Normalizer.ReportsSample cfg past (some m.misc) (normSample s) x := h
      unfold Normalizer.ReportsSample at h
      split at h
      · exact nil h
      · obtain ⟨c', rfl, -⟩ := h
        cases List.mem_singleton.1 hr
    | auxtrace a =>
      rw [hb] at h
      unfold Normalizer.Reports at h
      simp only [hspe] at h
      exact nil h
    | _ => rw [hb] at h; exact nil h
  | some b =>
    have h3 := reports_mapping (by rw [mapping_view, ha]; rfl) ht.1
    unfold Normalizer.ReportsMmap at h3
    split at h3
    · rw [h3] at hr; cases hr
    · rename_i hl
      obtain ⟨r', rfl, hd, -⟩ := h3
      have := List.mem_singleton.1 hr
      injection this with e1 e2
      subst e1 e2
      unfold mapsOver coversOf
      rw [ha]
      rw [hd.first, first_ev] at h1
      rw [hd.limit] at h2
      simp only [Bool.and_eq_true, beq_iff_eq, decide_eq_true_eq]
      exact ⟨rfl, hl, h1, h2⟩

theorem spots_addresses {ids : Normalizer.Ids} {fs : List Converter.Frame} {gs : List Spot} (h : All₂ (IsSpot ids) fs gs) :
    fs.map (·.1) = gs.map (·.1) := by
  induction h with
  | nil => rfl
  | cons hh _ ih => rw [List.map_cons, List.map_cons, hh.1, ih]

theorem mem_between {ys : List Converter.Log} {i j : Nat} {cb : Callback} :
    cb ∈ Converter.hist ((ys.take j).drop (i + 1)).flatten.reverse ↔ ∃ n y, i < n ∧ n < j ∧ ys[n]? = some y ∧ cb ∈ Converter.hist y := by
  unfold Converter.hist
  rw [List.map_reverse, List.mem_reverse, List.mem_map]
  constructor
  · rintro ⟨e, he, rfl⟩
    obtain ⟨y, hy, hey⟩ := List.mem_flatten.1 he
    obtain ⟨n, hn⟩ := List.getElem?_of_mem hy
    rw [List.getElem?_drop, List.getElem?_take] at hn
    split at hn
    · exact ⟨i + 1 + n, y, by omega, by assumption, hn, List.mem_map.2 ⟨e, hey, rfl⟩⟩
    · cases hn
  · rintro ⟨n, y, h1, h2, h3, h4⟩
    obtain ⟨e, he, rfl⟩ := List.mem_map.1 h4
    refine ⟨e, List.mem_flatten.2 ⟨y, List.mem_of_getElem? (i := n - (i + 1)) ?_, he⟩, rfl⟩
    rw [List.getElem?_drop, List.getElem?_take, show i + 1 + (n - (i + 1)) = n by omega, if_pos h2, h3]

/-! ## Profiles and records -/

theorem sum_filter_flatMap {α β : Type} (f : α → List β) (p : β → Bool) (w : β → Nat) : ∀ l : List α,
    (((l.flatMap f).filter p).map w).sum = (l.map (fun x => (((f x).filter p).map w).sum)).sum
  | [] => rfl
  | a :: l => by
    rw [List.flatMap_cons, List.filter_append, List.map_append, List.sum_append_nat, sum_filter_flatMap f p w l, List.map_cons, List.sum_cons]

theorem map_zip_eq {α β γ δ : Type} {f : α × γ → δ} {g : β → γ} {h : β → δ} : ∀ {l : List α} {r : List β}, r.length = l.length →
    (∀ (i : Nat) a b, l[i]? = some a → r[i]? = some b → f (a, g b) = h b) → (l.zip (r.map g)).map f = r.map h
  | [], [], _, _ => rfl
  | a :: l, b :: r, hl, hh => by
    rw [List.map_cons, List.zip_cons_cons, List.map_cons, List.map_cons, hh 0 a b rfl rfl,
      map_zip_eq (by simpa using hl) (fun i a b ha hb => hh (i + 1) a b (by simpa using ha) (by simpa using hb))]

theorem sum_const_filter {q : List (SampleCtx × Converter.Slot)} {at_ : Place} {k : Nat} {w : SampleCtx × Converter.Slot → Nat} {n : Nat}
    (hw : ∀ x ∈ q, x.1.attrIndex = k → w x = n) :
    ((q.filter (fun x => decide (x.2 = at_ ∧ x.1.attrIndex = k))).map w).sum =
      (q.filter (fun x => decide (x.2 = at_ ∧ x.1.attrIndex = k))).length * n := by
  induction q with
  | nil => simp
  | cons x q ih =>
    have ih := ih (fun y hy => hw y (List.mem_cons_of_mem _ hy))
    rw [List.filter_cons]
    split
    · rename_i hx
      rw [decide_eq_true_eq] at hx
      rw [List.map_cons, List.sum_cons, List.length_cons, ih, hw x List.mem_cons_self hx.2, Nat.succ_mul, Nat.add_comm]
    · exact ih

theorem count_filter {q : List (SampleCtx × Converter.Slot)} {at_ : Place} {k : Nat} {e : Option Nat} (he : ∀ x ∈ q, e = some x.1.attrIndex) :
    (q.filter (fun x => decide (x.2 = at_ ∧ x.1.attrIndex = k))).length = if e = some k then (q.map (·.2)).count at_ else 0 := by
  induction q with
  | nil => simp
  | cons x q ih =>
    have ih := ih (fun y hy => he y (List.mem_cons_of_mem _ hy))
    have hx := he x List.mem_cons_self
    by_cases hk : e = some k
    · rw [if_pos hk] at ih ⊢
      have hk' : x.1.attrIndex = k := by rw [hx] at hk; cases hk; rfl
      rw [List.map_cons, List.count_cons, List.filter_cons]
      by_cases ha : x.2 = at_
      · rw [if_pos (by simp [ha, hk']), List.length_cons, ih, if_pos (by simp [ha])]
      · rw [if_neg (by simp [ha]), ih, if_neg (by simp [ha])]
        rfl
    · rw [if_neg hk] at ih ⊢
      have hk' : x.1.attrIndex ≠ k := fun h => hk (by rw [hx, h])
      rw [List.filter_cons, if_neg (by simp [hk']), ih]

theorem Ran.tells {M : Machine} {ids : List (Bytes × Bytes)} {labels options : Nat} {threadTypes : List (Nat × Bytes)} {st : Data.St}
    {ps : List Converter.ProcessProfile} {t : List Msg} {cfg : Normalizer.Config} {S : Converter.Setup} {cbs : List Callback} {L : Converter.Log}
    (R : Ran M ids labels options threadTypes st ps t cfg S cbs L) (hnt : AllNamed t) (ha : Alike labels t) :
    ∃ places, Tells cfg.useLostSample st.base.info.attrs labels options threadTypes t ps places := by
  obtain ⟨hacc, hhist, hreal, hused⟩ := Converter.accepted_samples_placed R.conv
  obtain ⟨st', -, -, h0, -⟩ := Converter.convert_state R.conv
  have hcb : L.reverse.map (·.1) = cbs := by
    rw [List.map_reverse]
    unfold Converter.hist at hhist
    rw [hhist, List.reverse_reverse]
  have htold := R.told
  rw [← hcb] at htold
  obtain ⟨ys, y1, y2, y3, y4⟩ := each_chunks _ _ htold
  rw [List.length_map] at y1
  have hplaced : (Converter.placed L).reverse = ys.flatMap Converter.placed := by
    rw [← placed_flatten, y2]
    unfold Converter.placed
    rw [List.filterMap_reverse]
  have chunk : ∀ (i : Nat) m y, t[i]? = some m → ys[i]? = some y →
      Told cfg ((t.take i).reverse.map normView) (normView m) (Converter.hist y) := by
    intro i m y hm hy
    have := y3 i (normView m) y (by rw [List.getElem?_map, hm]; rfl) hy
    rw [List.append_nil, ← List.map_take, ← List.map_reverse] at this
    exact this
  have inL : ∀ {i : Nat} {y}, ys[i]? = some y → L = (ys.drop (i + 1)).flatten.reverse ++ (y.reverse ++ (ys.take i).flatten.reverse) := by
    intro i y hy
    have h1 : ys = ys.take i ++ y :: ys.drop (i + 1) := by
      obtain ⟨hi, rfl⟩ := List.getElem?_eq_some_iff.1 hy
      rw [← List.drop_eq_getElem_cons hi, List.take_append_drop]
    have h2 : L = ys.flatten.reverse := by rw [y2, List.reverse_reverse]
    have h3 := congrArg List.flatten h1
    rw [h2, h3]
    simp
  have hmemL : ∀ {i : Nat} {y}, ys[i]? = some y → ∀ e ∈ y, e ∈ L := by
    intro i y hy e he
    rw [inL hy]
    simp [he]
  have hplacedL : ∀ {i : Nat} {y}, ys[i]? = some y → ∀ q ∈ Converter.placed y, q ∈ Converter.placed L := by
    intro i y hy q hq
    have : q ∈ (Converter.placed L).reverse := by
      rw [hplaced]; exact List.mem_flatMap.2 ⟨y, List.mem_of_getElem? hy, hq⟩
    exact List.mem_reverse.1 this
  have hin : ∀ {y : Converter.Log} {q}, q ∈ Converter.placed y → .sample q.1 ∈ Converter.hist y := by
    intro y q hq
    obtain ⟨A, B, rfl⟩ := Converter.mem_placed.1 hq
    simp [Converter.hist]
  have getY : ∀ {i : Nat} {w}, (ys.map slotsOf)[i]? = some w → ∃ y, ys[i]? = some y ∧ w = slotsOf y := by
    intro i w hw
    rw [List.getElem?_map] at hw
    obtain ⟨y, h1, h2⟩ := Option.map_eq_some_iff.1 hw
    exact ⟨y, h1, h2.symm⟩
  have at_split : ∀ {i : Nat} {m : Msg}, t[i]? = some m → t = t.take i ++ m :: t.drop (i + 1) := by
    intro i m hm
    obtain ⟨hi, rfl⟩ := List.getElem?_eq_some_iff.1 hm
    rw [← List.drop_eq_getElem_cons hi, List.take_append_drop]
  have single : ∀ {i : Nat} {m y s q}, t[i]? = some m → ys[i]? = some y → m.body = .sample s → q ∈ slotsOf y →
      ∃ c k, y = [(.sample c, some q)] ∧ Told cfg ((t.take i).reverse.map normView) (normView m) [.sample c] ∧
        Normalizer.Reported cfg ((t.take i).reverse.map normView) (some m.misc) (normSample s) none k c := by
    intro i m y s q hm hy hbody hq
    obtain ⟨⟨c, q'⟩, hqy, rfl⟩ := List.mem_map.1 hq
    replace hq := hqy
    have hx := chunk i m y hm hy
    have hc := hin hq
    rcases told_chunk R.spe R.owner hx with ⟨-, h2⟩ | ⟨s', k, c', h1, h2, h3, h4⟩ | ⟨k, c', n, h1, -⟩
    · exact absurd hc (h2 c)
    · rw [hbody] at h1
      cases h1
      rw [h3] at hc hx
      cases List.mem_singleton.1 hc
      obtain ⟨⟨cb, o⟩, rfl, h5⟩ := List.map_eq_singleton_iff.1 h3
      cases h5
      have ho : o = some q' := by
        obtain ⟨u, v, huv⟩ := Converter.mem_placed.1 hq
        have : ((Callback.sample c, some q') : Callback × Option Converter.Slot) ∈ [((Callback.sample c, o) : Callback × Option Converter.Slot)] := by
          rw [huv]; simp
        have := List.mem_singleton.1 this
        injection this with _ this
        exact this.symm
      subst ho
      exact ⟨c, k, rfl, hx, h4⟩
    · exact absurd hbody (h1 s)
  obtain ⟨r0, hcfg⟩ := R.config
  have hmark : cfg.commExec = st.base.info.attrs.any (·.attr.flags.testBit 24) := by
    rw [marked_eq hcfg]
    show List.any (List.map _ _) _ = _
    rw [List.any_map, attrs_kept]
    rfl
  have pair : ∀ {i j : Nat} {m m' y y' s s' q q'}, i < j → t[i]? = some m → t[j]? = some m' → ys[i]? = some y → ys[j]? = some y' →
      m.body = .sample s → m'.body = .sample s' → q ∈ slotsOf y → q' ∈ slotsOf y' → ∃ c k c' k',
        L = (ys.drop (j + 1)).flatten.reverse ++ (.sample c', some q') :: (((ys.take j).drop (i + 1)).flatten.reverse ++
          (.sample c, some q) :: (ys.take i).flatten.reverse) ∧
        Normalizer.Reported cfg ((t.take i).reverse.map normView) (some m.misc) (normSample s) none k c ∧
        Normalizer.Reported cfg ((t.take j).reverse.map normView) (some m'.misc) (normSample s') none k' c' ∧
        Each (Told cfg) [] ((t.take i).map normView) ((ys.take i).flatten.map (·.1)) ∧
        Each (Told cfg) [] ((t.take j).map normView) ((ys.take j).flatten.map (·.1)) ∧
        (ys.take j).flatten.reverse = ((ys.take j).drop (i + 1)).flatten.reverse ++ (.sample c, some q) :: (ys.take i).flatten.reverse := by
    intro i j m m' y y' s s' q q' hij hm hm' hy hy' hb hb' hq hq'
    obtain ⟨c, k, rfl, -, r⟩ := single hm hy hb hq
    obtain ⟨c', k', rfl, -, r'⟩ := single hm' hy' hb' hq'
    have e1 := inL hy'
    have e2 : (ys.take j).flatten.reverse = ((ys.take j).drop (i + 1)).flatten.reverse ++ (.sample c, some q) :: (ys.take i).flatten.reverse := by
      have h0 : (ys.take j)[i]? = some [(.sample c, some q)] := by rw [List.getElem?_take, if_pos hij, hy]
      have h1 : ys.take j = ys.take i ++ [(.sample c, some q)] :: (ys.take j).drop (i + 1) := by
        obtain ⟨hi, h2⟩ := List.getElem?_eq_some_iff.1 h0
        rw [← h2, ← List.drop_eq_getElem_cons hi]
        have : ys.take i = (ys.take j).take i := by rw [List.take_take, Nat.min_eq_left (Nat.le_of_lt hij)]
        rw [this, List.take_append_drop]
      have h3 := congrArg (fun l => l.flatten.reverse) h1
      rw [h3]
      simp
    rw [List.reverse_singleton, List.singleton_append, e2] at e1
    have hA := y4 i
    rw [← List.map_take] at hA
    have hA' := y4 j
    rw [← List.map_take] at hA'
    exact ⟨c, k, c', k', e1, r, r', hA, hA', e2⟩
  refine ⟨ys.map slotsOf, by rw [List.length_map, y1], ?_, ?_, ?_, ?_, ?_, ?_, ?_, ?_⟩
  · intro i m w hm hw
    obtain ⟨y, hy, rfl⟩ := getY hw
    have hf := (told_facts R.spe R.owner (chunk i m y hm hy) R.attrs_length).2
    rw [R.options] at hf
    rw [← hf, ← Converter.placed_accepted (fun e he => h0.acc e (hmemL hy e he))]
    unfold slotsOf
    rw [List.length_map, List.length_map]
  · intro i m w hm hw q hq
    obtain ⟨y, hy, rfl⟩ := getY hw
    obtain ⟨⟨c, q'⟩, hqy, rfl⟩ := List.mem_map.1 hq
    replace hq := hqy
    have hqL := hplacedL hy _ hq
    obtain ⟨p, hp1, hp2⟩ := hreal _ hqL
    refine ⟨p, _, hp1, List.getElem?_eq_getElem hp2, ?_⟩
    obtain ⟨st2, bb, mm, r1, -, hinv, -, hmeta, -, hpp, -⟩ := Converter.profile_at R.conv R.sane hp1
    obtain ⟨m2, q1, q2⟩ := hinv.spid _ hqL
    rw [hmeta] at q1
    cases q1
    rw [hpp, q2, ((told_facts R.spe R.owner (chunk i m y hm hy) R.attrs_length).1 c (hin hq)).2.2]
    unfold Converter.Setup.home Converter.Setup.grouped
    rw [R.options]
  · intro i m w s hm hw hbody q hq
    obtain ⟨y, hy, rfl⟩ := getY hw
    obtain ⟨c, k, rfl, hx, h4⟩ := single hm hy hbody hq
    have hL := inL hy
    rw [List.reverse_singleton, List.singleton_append] at hL
    have hA := y4 i
    rw [← List.map_take] at hA
    have hLB : Converter.hist (ys.take i).flatten.reverse = ((ys.take i).flatten.map (·.1)).reverse := by
      unfold Converter.hist; rw [List.map_reverse]
    have ht := at_split hm
    rw [hL] at R
    rw [ht] at R hnt ha
    have hcbs : cbs = (ys.take i).flatten.map (·.1) ++ .sample c :: (ys.drop (i + 1)).flatten.map (·.1) := by
      rw [← hcb, hL]
      simp
    obtain ⟨p, smp, k1, k2, -, k4⟩ := R.frames_at hnt hcbs hLB hA hx h4 (shows := ShowsArea) fun _ _ _ _ _ _ hsh => by
      obtain ⟨hn, o, x, y, h1, h2, h3, h4, h5, h6⟩ := hsh
      exact shown_area h1 h2 h3 h4 hn h5 h6
    obtain ⟨p', smp', l1, l2, l3⟩ := R.labels_at ha hbody hLB hA h4
    rw [k1] at l1
    cases l1
    rw [k2] at l2
    cases l2
    refine ⟨p, smp, k1, k2, ?_, l3⟩
    have e : t.take (i + 1) = t.take i ++ [m] := by
      rw [List.take_add_one, hm]; rfl
    rw [e]
    exact k4
  · intro i m w hm hw hbody q hq
    obtain ⟨y, hy, rfl⟩ := getY hw
    obtain ⟨⟨c, q'⟩, hqy, rfl⟩ := List.mem_map.1 hq
    replace hq := hqy
    have hc := hin hq
    obtain ⟨A, B, hL⟩ := Converter.mem_placed.1 (hplacedL hy _ hq)
    have hconv := R.conv
    rw [hL] at hconv
    obtain ⟨p, smp, k1, k2, k3⟩ := Converter.mappings_shown hconv R.sane
    refine ⟨p, smp, k1, k2, ?_⟩
    rcases told_chunk R.spe R.owner (chunk i m y hm hy) with ⟨-, h2⟩ | ⟨s', k, c', h1, -⟩ | ⟨k, c', n, h1, -, -, h2, -, -, -, -, h3⟩
    · exact absurd hc (h2 c)
    · exact absurd h1 (hbody s')
    · rw [h2] at hc
      have := List.eq_of_mem_replicate hc
      injection this with this
      subst this
      have h3 := h3 S
      rw [R.options] at h3
      rw [← h3]
      unfold AtAddresses
      clear h3 h2 k2
      simp only at k3
      generalize Converter.frames S c = fs at k3
      generalize smp.locationId = ls at k3
      induction k3 with
      | nil => exact .nil
      | cons hh _ ih => exact .cons ⟨hh.1, hh.2.elim fun l hl => ⟨l, hl.1, hl.2.1⟩⟩ ih
  · intro a p j smp hp hs
    obtain ⟨q, hq, hqe⟩ := hused a j p smp hp hs
    have : q ∈ ys.flatMap Converter.placed := by rw [← hplaced]; exact List.mem_reverse.2 hq
    obtain ⟨y, hy, hqy⟩ := List.mem_flatMap.1 this
    exact ⟨slotsOf y, List.mem_map.2 ⟨y, hy, rfl⟩, by rw [← hqe]; exact List.mem_map.2 ⟨q, hqy, rfl⟩⟩
  · intro a p j smp hp hs
    obtain ⟨v1, v2⟩ := Converter.sample_values_partial R.conv hp hs
    rw [R.attrs_length] at v1 v2
    refine ⟨v1, fun k hk => ?_⟩
    obtain ⟨v3, v4⟩ := v2 k hk
    have hev : ∀ (i : Nat) m y, t[i]? = some m → ys[i]? = some y → ∀ x ∈ Converter.placed y,
        eventOf cfg.useLostSample st.base.info.attrs m = some x.1.attrIndex ∧ x.1.sample.period = periodIn m := by
      intro i m y hm hy x hx
      have := (told_facts R.spe R.owner (chunk i m y hm hy) R.attrs_length).1 x.1 (hin hx)
      exact ⟨this.1, this.2.1⟩
    have hsum : ∀ w : SampleCtx × Converter.Slot → Nat,
        (((Converter.placed L).filter (fun q => decide (q.2 = (a, j) ∧ q.1.attrIndex = k))).map w).sum =
          (ys.map (fun y => (((Converter.placed y).filter (fun q => decide (q.2 = (a, j) ∧ q.1.attrIndex = k))).map w).sum)).sum := by
      intro w
      rw [← sum_filter_flatMap, ← hplaced, List.filter_reverse, List.map_reverse, List.sum_reverse]
    constructor
    · rw [v3]
      have h1 := hsum (fun _ => 1)
      simp only [List.map_const', List.sum_replicate_nat, Nat.mul_one] at h1
      rw [h1]
      unfold countedAt
      rw [map_zip_eq y1 (fun i m y hm hy => ?_)]
      exact (count_filter fun x hx => (hev i m y hm hy x hx).1).symm
    · intro hper hattr
      rw [v4 ?_]
      · rw [hsum]
        unfold weightAt
        have hz : (t.zip (ys.map slotsOf)).map (fun x => if eventOf cfg.useLostSample st.base.info.attrs x.1 = some k then
            x.2.count (a, j) * weightIn st.base.info.attrs k (periodIn x.1) else 0) =
            ys.map (fun y => (((Converter.placed y).filter (fun q => decide (q.2 = (a, j) ∧ q.1.attrIndex = k))).map
              (fun q => Converter.weightOf S q.1)).sum) := by
          refine map_zip_eq y1 (fun i m y hm hy => ?_)
          rw [sum_const_filter (n := weightIn st.base.info.attrs k (periodIn m)) (fun x hx hk => ?_),
            count_filter fun x hx => (hev i m y hm hy x hx).1]
          · show (if _ then _ else _) = _
            split
            · rfl
            · rw [Nat.zero_mul]
          · rw [weight_key, R.attrs]
            unfold keyOf
            rw [weight_eq, (hev i m y hm hy x hx).2, hk]
        rw [hz]
        rfl
      · intro c hc
        rw [← hacc, List.mem_map] at hc
        obtain ⟨q, hq, rfl⟩ := hc
        rw [hplaced] at hq
        obtain ⟨y, hy, hqy⟩ := List.mem_flatMap.1 hq
        obtain ⟨i, hi⟩ := List.getElem?_of_mem hy
        have hlt : i < t.length := by rw [← y1]; exact (List.getElem?_eq_some_iff.1 hi).1
        have hm := List.getElem?_eq_getElem hlt
        rw [weight_key, R.attrs]
        refine keyWeight_lt hattr ?_
        show q.1.sample.period < 2 ^ 63
        rw [(hev i _ y hm hi q hqy).2]
        exact hper _ (List.getElem_mem hlt)
  · intro i j m m' w w' s s' hij hm hm' hw hw' hb hb' q hq hq'
    obtain ⟨y, hy, rfl⟩ := getY hw
    obtain ⟨y', hy', rfl⟩ := getY hw'
    obtain ⟨c, k, c', k', e, r, r', -⟩ := pair hij hm hm' hy hy' hb hb' hq hq'
    have hconv := R.conv
    rw [e] at hconv
    obtain ⟨a1, a2, -⟩ := Converter.merged_agree hconv R.sane rfl
    have p1 : Converter.pidOf c = s.pid.getD 0 := by unfold Converter.pidOf; rw [r.sample]; rfl
    have p2 : Converter.pidOf c' = s'.pid.getD 0 := by unfold Converter.pidOf; rw [r'.sample]; rfl
    rw [p1, p2] at a1
    refine ⟨a1.symm, fun n x h1 h2 hx he => ?_⟩
    rw [← hmark] at he
    have hn : n < ys.length := by rw [y1]; exact (List.getElem?_eq_some_iff.1 hx).1
    obtain ⟨d, hd, hdp⟩ := (told_exec (chunk n x _ hx (List.getElem?_eq_getElem hn)) _).1 he
    unfold Converter.execs at a2
    have := List.any_eq_false.1 a2 _ (mem_between.2 ⟨n, _, h1, h2, List.getElem?_eq_getElem hn, hd⟩)
    rw [p2] at this
    refine this ?_
    show (true && d.pid == s'.pid.getD 0) = true
    rw [hdp, a1]
    simp
  · intro i j m m' w w' s s' hij hm hm' hw hw' hb hb' hpid hexec hmaps hstack hlab q hq q' hq'
    obtain ⟨y, hy, rfl⟩ := getY hw
    obtain ⟨y', hy', rfl⟩ := getY hw'
    obtain ⟨c, k, c', k', e, r, r', hA, hA', e2⟩ := pair hij hm hm' hy hy' hb hb' hq hq'
    have hconv := R.conv
    rw [e] at hconv
    have p1 : Converter.pidOf c = s.pid.getD 0 := by unfold Converter.pidOf; rw [r.sample]; rfl
    have p2 : Converter.pidOf c' = s.pid.getD 0 := by rw [hpid]; unfold Converter.pidOf; rw [r'.sample]; rfl
    have f1 := spots_addresses (frames_view (S := S) r)
    have f2 := spots_addresses (frames_view (S := S) r')
    rw [R.options] at f1 f2
    have labs : ∀ {i : Nat} {m s k c h}, Normalizer.Reported cfg ((t.take i).reverse.map normView) (some m) (normSample s) none k c →
        Each (Told cfg) [] ((t.take i).map normView) h →
        Converter.labelsOf S h.reverse c = recordLabels st.base.info.attrs labels threadTypes (t.take i).reverse m s := by
      intro i m s k c h hr hh
      have hthin : Thins mapPid ((t.take i).map (fun m => bare (normView m))) (((t.take i).map normView).map bare) := by
        rw [List.map_map]; exact Thins.refl _
      rw [labels_view hr (names_kept (cfg := cfg) hthin rfl rfl hh) (fun id => by rw [List.map_reverse]; exact cgroups_kept hthin rfl rfl id) hmark,
        R.labels, R.threadTypes]
    refine ((Converter.merged_iff_partial hconv R.sane ?_ ?_ ?_ ?_).2 ⟨p2.trans p1.symm, ?_, ?_, ?_⟩).symm
    · intro f hf
      rw [p2, ← Bool.not_eq_true]
      intro hre
      unfold Converter.remaps at hre
      obtain ⟨cb, hcb1, hcb2⟩ := List.any_eq_true.1 hre
      obtain ⟨n, yn, h1, h2, h3, h4⟩ := mem_between.1 hcb1
      cases cb with
      | mmap p r =>
        simp only [Bool.and_eq_true, beq_iff_eq, decide_eq_true_eq] at hcb2
        obtain ⟨⟨rfl, u1⟩, u2⟩ := hcb2
        have hn : n < t.length := by rw [← y1]; exact (List.getElem?_eq_some_iff.1 h3).1
        have hx := List.getElem?_eq_getElem hn
        have hm1 := told_map R.spe (chunk n _ yn hx h3) h4 u1 u2
        have hf1 : f.1 ∈ (stackOf (options.testBit 3) (t.take i).reverse m.misc s).map (·.1) := by
          rw [← f1]; exact List.mem_map.2 ⟨f, hf, rfl⟩
        obtain ⟨g, hg, hg1⟩ := List.mem_map.1 hf1
        have := hmaps g hg n _ h1 h2 hx
        rw [hg1, hm1] at this
        cases this
      | _ => cases hcb2
    · exact alike_fits ha (List.mem_of_getElem? hm') hb' r'.sample
    · exact alike_fits ha (List.mem_of_getElem? hm) hb r.sample
    · obtain ⟨k1, k2, k3, k4⟩ := ha.same m' (List.mem_of_getElem? hm') m (List.mem_of_getElem? hm) s' s hb' hb
      refine ⟨?_, ?_, ?_, ?_⟩ <;> rw [R.labels, r'.sample, r.sample] <;> assumption
    · rw [p2, ← Bool.not_eq_true]
      intro hre
      unfold Converter.execs at hre
      obtain ⟨cb, hcb1, hcb2⟩ := List.any_eq_true.1 hre
      obtain ⟨n, yn, h1, h2, h3, h4⟩ := mem_between.1 hcb1
      cases cb with
      | comm d b =>
        simp only [Bool.and_eq_true, beq_iff_eq] at hcb2
        obtain ⟨rfl, u1⟩ := hcb2
        have hn : n < t.length := by rw [← y1]; exact (List.getElem?_eq_some_iff.1 h3).1
        have hx := List.getElem?_eq_getElem hn
        have := (told_exec (chunk n _ yn hx h3) (s.pid.getD 0)).2 ⟨d, h4, u1⟩
        rw [hmark] at this
        exact hexec n _ h1 h2 hx this
      | _ => cases hcb2
    · rw [f1, f2]; exact hstack.symm
    · rw [← e2]
      have u1 := labs r hA
      have u2 := labs r' hA'
      have v : ∀ l : Converter.Log, Converter.hist l.reverse = (l.map (·.1)).reverse := fun l => by unfold Converter.hist; rw [List.map_reverse]
      rw [v, v, u1, u2]
      exact hlab.symm

theorem Alike.of {labels : Nat} {l t : List Msg} (h : ∀ m ∈ t, ∀ s, m.body = .sample s → m ∈ l) (ha : Alike labels l) : Alike labels t where
  same m hm m' hm' s s' hb hb' := ha.same m (h m hm s hb) m' (h m' hm' s' hb') s s' hb hb'
  fits m hm s hb := ha.fits m (h m hm s hb) s hb
  apart m hm s hb := ha.apart m (h m hm s hb) s hb

theorem From.sample {h : List Msg} {m : Msg} (hm : From h m) {s : Serial.SampleEvent} (hb : m.body = .sample s) : m ∈ h := by
  obtain ⟨m0, h1, rfl | ⟨a, b, h2, rfl, -⟩⟩ := hm
  · exact h1
  · cases hb

/-- C131. What the profiles made from the bytes of a recording tell of it, all at once (`Tells`): every record has its places in the profiles, one
for each sample it holds; the place of a sample is in the profile of its process and shows its stack and its labels; every sample of every profile
is the place of a record; its values are, for each event, the number of samples with this place and the sum of their weights; and samples share a
place if they have the same stack and labels, unless their process executes a program or maps something over the stack between them. All this of
the records with huge pages named after files (`Renames`, `Closed`, `Still`) and with the mappings in one that go on where others end (`grown`).
Whatever the bytes are, if the samples are alike (`Alike`), mappings have names, no process has the name of the mapping of lost samples (`Calm`),
and there is no trace data of ARM SPE. -/
theorem profiles_tell_partial {M : Machine} (hM : ∀ l, (M.order l).Perm l) {ids : List (Bytes × Bytes)} {labels options : Nat}
    {threadTypes : List (Nat × Bytes)} {b : Bytes} {ps : List Converter.ProcessProfile} {st : Data.St}
    (hb : File.readBytes { env := M.env } b = some (some st)) (hc : Calm options st.events) (hn : NamedProcs st.events) (ha : Alike labels st.events)
    (hspe : speTrace st.events = false) (h : rawToProfiles M ids labels options threadTypes b = some ps) {t : List Msg}
    (ht : Timeline st.base.info.attrs st.events t) :
    ∃ new t1 places, Normalizer.useLostSample st.base.info.version = some new ∧ Renames t t1 ∧ Closed t t1 ∧ Still t t1 ∧
      Tells new st.base.info.attrs labels options threadTypes (grown t1.reverse).reverse ps places := by
  have hts : t = sortEvents (withBuildIds M.env.md5 ids st.base.info st.events) st.events := timeline_sort (by rw [attrs_kept]; exact ht)
  have hp := sort_perm (withBuildIds M.env.md5 ids st.base.info st.events) st.events
  obtain ⟨t1, h1, h2, h3, h4⟩ := prep_grown hM (options := options) (i := withBuildIds M.env.md5 ids st.base.info st.events) (read_shaped hb)
    (read_sized hb)
  rw [← hts] at h1 h2 h3
  obtain ⟨cfg, S, cbs, L, R⟩ := ran hb hc hspe h h4
  have hmt : ∀ m ∈ t, m ∈ st.events := fun m hm => by rw [hts] at hm; exact hp.mem_iff.1 hm
  obtain ⟨places, htell⟩ := R.tells (fun x hx b hb => by
      exact (hn.mono hmt).grown h1 x hx b hb)
    (ha.of fun m hm s hs => hmt m ((renames_from h1 m (List.mem_reverse.1 ((grown_from m (List.mem_reverse.1 hm)).sample hs))).sample hs))
  exact ⟨_, t1, places, R.new, h1, h2, h3, htell⟩

/-- C131 for recordings whose mappings are neither huge pages nor go on where others end: the records are those of the recording, in the order of
time. -/
theorem profiles_tell_steady_partial {M : Machine} {ids : List (Bytes × Bytes)} {labels options : Nat} {threadTypes : List (Nat × Bytes)}
    {b : Bytes} {ps : List Converter.ProcessProfile} {st : Data.St} (hb : File.readBytes { env := M.env } b = some (some st))
    (hc : Calm options st.events) (hs : Steady st.events) (ha : Alike labels st.events) (hspe : speTrace st.events = false)
    (h : rawToProfiles M ids labels options threadTypes b = some ps) {t : List Msg} (ht : Timeline st.base.info.attrs st.events t) :
    ∃ new places, Normalizer.useLostSample st.base.info.version = some new ∧
      Tells new st.base.info.attrs labels options threadTypes t ps places := by
  have hts : t = sortEvents (withBuildIds M.env.md5 ids st.base.info st.events) st.events := timeline_sort (by rw [attrs_kept]; exact ht)
  have hp := sort_perm (withBuildIds M.env.md5 ids st.base.info st.events) st.events
  have hmt : ∀ m ∈ t, m ∈ st.events := fun m hm => by rw [hts] at hm; exact hp.mem_iff.1 hm
  obtain ⟨cfg, S, cbs, L, R⟩ := ran hb hc hspe h (t := t) fun r hr => by rw [prep_steady (read_shaped hb) hs hr, ← hts]
  obtain ⟨places, htell⟩ := R.tells (fun x hx => hs.named x (hmt x hx)) (ha.of fun m hm _ _ => hmt m hm)
  exact ⟨_, places, R.new, htell⟩

end Verif.Whole
