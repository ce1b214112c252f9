import Verif.Whole.Props4
import Verif.Whole.TraceSpec
import Verif.Spe.Props

/-!
# What profiles show of samples and of the records of ARM SPE traces
-/

namespace Verif.Whole
open Verif.Serial (Msg Body)
open Verif.Normalizer (Each Ev Callback SampleCtx MapRef)

theorem threadHome_view (tid : Nat) : ∀ t : List Msg, Normalizer.threadPid (t.map normView) tid = threadHome t tid
  | [] => rfl
  | m :: t => by
    have ih := threadHome_view tid t
    rw [List.map_cons]
    unfold threadHome
    have hv : normView m = normView m := rfl
    conv at hv => rhs; unfold normView
    cases hb : m.body <;> rw [hb] at hv <;> simp only at hv <;> rw [hv] <;> simp only [Normalizer.threadPid, ih]

/-- What the normalizer knows of the recording. -/
structure Tuned (attrs : List Attr.ProtoFileAttr) (base : Nat) (t : List Msg) (cfg : Normalizer.Config) : Prop where
  owner : ∀ id, Normalizer.eventIndexFor cfg id = owner attrs id
  spe : cfg.hasSpe = speTrace t
  base : cfg.traceBase = base
  threads : speTrace t = true → ∀ tid, cfg.tidToPid tid = threadHome t tid

/-- A sample as the converter is told of it. -/
structure Pictured (cfg : Normalizer.Config) (h : List Msg) (misc : Nat) (s : Serial.SampleEvent) (c : SampleCtx) : Prop where
  frames : ∀ S : Converter.Setup, All₂ (IsSpot cfg.ids) (Converter.frames S c) (stackOf (S.options.testBit 3) h misc s)
  pid : Converter.pidOf c = s.pid.getD 0
  lost : c.lost = false

/-- The frames of the sample of a record are its stack. -/
theorem record_view {attrs : List Attr.ProtoFileAttr} {base : Nat} {t : List Msg} {cfg : Normalizer.Config} (T : Tuned attrs base t cfg)
    (hspe : speTrace t = true) {h : List Msg} {r : Spe.Record} {c : SampleCtx}
    (hr : Normalizer.Reported cfg (h.map normView) none (Normalizer.recordSample cfg r) (some r) 0 c) :
    Pictured cfg h 0 (tracedSample t r) c := by
  have hpid : (Normalizer.recordSample cfg r).pid = (tracedSample t r).pid := by
    unfold Normalizer.recordSample tracedSample
    simp only [T.threads hspe]
  refine ⟨fun S => ?_, by unfold Converter.pidOf; rw [hr.sample, hpid], hr.lost⟩
  have hlbr : ¬ Converter.LbrSample c := by
    unfold Converter.LbrSample
    rw [hr.spe]
    rintro ⟨-, h⟩
    cases h
  have hchain : c.callchain = [] := by
    have := hr.chain
    cases hc : c.callchain with
    | nil => rfl
    | cons x l => rw [hc] at this; cases this
  have hleaf : IsSpot cfg.ids (Converter.leaf c) (spotOf h ((tracedSample t r).pid.getD 0) ((tracedSample t r).ip.getD 0) (modeOf 0)) := by
    have := spot_view hr.ip
    rw [hpid] at this
    unfold Converter.leaf
    rw [hr.sample]
    exact this
  have hcall : Converter.callers c = [] := by
    unfold Converter.callers
    rw [if_neg hlbr, hchain]
    rfl
  have hbr : Converter.branches c = [] := by
    unfold Converter.branches
    rw [if_neg hlbr]
  have hcs : callerSpots h (tracedSample t r) = [] := rfl
  have hbs : branchSpots h (tracedSample t r) = [] := rfl
  unfold Converter.frames stackOf Converter.codeFrames
  rw [hcall, hbr, hcs, hbs]
  refine All₂.append ?_ (.cons hleaf .nil)
  by_cases hd : S.options.testBit 3 = true
  · rw [if_pos hd, if_pos hd]
    refine .cons ?_ .nil
    have ha := hr.addr
    cases hm : c.addrMap with
    | none => exact ⟨by simp [tracedSample], trivial⟩
    | some r => rw [hm] at ha; exact ha.elim
  · rw [if_neg hd, if_neg hd]
    exact .nil

/-- The samples that a record leads to. -/
theorem told_shot {attrs : List Attr.ProtoFileAttr} {base : Nat} {t : List Msg} {cfg : Normalizer.Config} (T : Tuned attrs base t cfg)
    {h : List Msg} {m : Msg} {x : List Callback} (ht : Told cfg (h.map normView) (normView m) x) {c : SampleCtx} (hc : .sample c ∈ x) :
    (∃ misc s k, Shot attrs base t m misc s k ∧ c.attrIndex = k ∧ Pictured cfg h misc s c) ∨
    (c.main = none ∧ ∀ S, ∀ f ∈ Converter.frames S c, (f.1 = lostAddress ∧ ∃ r, f.2 = some r ∧ r.mapping.filename = ascii "[lost]") ∨ f = (0, none)) := by
  cases hb : m.body with
  | auxtrace a =>
    have h1 := ht.1
    unfold normView at h1
    rw [hb] at h1
    unfold Normalizer.Reports at h1
    simp only at h1
    cases hs : cfg.hasSpe with
    | false => rw [hs] at h1; simp only [Bool.false_eq_true, if_false] at h1; rw [h1] at hc; cases hc
    | true =>
      rw [hs] at h1
      simp only [if_true] at h1
      obtain ⟨rs, d, hd, hall⟩ := h1
      obtain ⟨r, hr, c', hc', hrep⟩ := hall.left _ hc
      cases hc'
      have hst : speTrace t = true := by rw [← T.spe, hs]
      refine .inl ⟨0, tracedSample t r, 0, .traced hst hb ?_, hrep.index, record_view T hst hrep⟩
      unfold traceRecords
      rw [← T.base, hd]
      exact hr
  | sample s =>
    have h1 := ht.1
    unfold normView at h1
    rw [hb] at h1
    have h1 : Normalizer.ReportsSample cfg (h.map normView) (some m.misc) (normSample s) x := h1
    unfold Normalizer.ReportsSample at h1
    split at h1
    · rw [h1] at hc; cases hc
    · rename_i idx hi
      obtain ⟨c', rfl, hr⟩ := h1
      cases List.mem_singleton.1 hc
      refine .inl ⟨m.misc, s, idx, .sample hb ?_, hr.index, fun S => frames_view hr, ?_, hr.lost⟩
      · rw [← T.owner]; exact hi
      · unfold Converter.pidOf; rw [hr.sample]; rfl
  | _ =>
    right
    have hm : ∀ a, m.body ≠ .auxtrace a := by intro a ha; rw [hb] at ha; cases ha
    rcases told_sample (.inr hm) ht hc with ⟨s, idx, hs, -⟩ | h2
    · rw [hb] at hs; cases hs
    · exact h2

theorem told_shot_titled {attrs : List Attr.ProtoFileAttr} {base : Nat} {t : List Msg} {cfg : Normalizer.Config} (T : Tuned attrs base t cfg)
    {h : List Msg} (hn : AllNamed h) {m : Msg} {x : List Callback}
    (ht : Told cfg (h.map normView) (normView m) x) {c : SampleCtx} (hc : .sample c ∈ x) {S : Converter.Setup} {y : MapRef}
    (hy : c.main = some y ∨ ∃ f ∈ Converter.frames S c, f.2 = some y) : Titled y := by
  rcases told_shot T ht hc with ⟨misc, s, k, -, -, P⟩ | ⟨h1, h2⟩
  · rcases hy with hy | ⟨f, hf, hfy⟩
    · have hm := ht.2 c hc P.lost
      unfold Normalizer.MainShown at hm
      simp only at hm
      rw [hy] at hm
      split at hm
      · rename_i k hk
        exact shows_titled hm (main_titled hn hk)
      · split at hm
        · split at hm
          · obtain ⟨r, hr, -, hr2, -⟩ := hm
            cases hr
            exact .inr hr2
          · split at hm
            · cases hk : Normalizer.mainOf cfg (h.map normView) (2 ^ 32 - 1) with
              | none => rw [hk] at hm; exact hm.elim
              | some k => rw [hk] at hm; exact shows_titled hm (main_titled hn hk)
            · cases hm
        · cases hm
    · obtain ⟨g, hg, hs⟩ := spot_mem (P.frames S) hf
      have h2 := hs.2
      rw [hfy] at h2
      cases hb : g.2 with
      | none => rw [hb] at h2; exact h2.elim
      | some b =>
        rw [hb] at h2
        obtain ⟨m', hm', ha⟩ := stack_from hg hb
        exact shows_titled h2 (hn m' hm' b ha)
  · rcases hy with hy | ⟨f, hf, hfy⟩
    · rw [h1] at hy; cases hy
    · rcases h2 S f hf with ⟨-, r, hr, hn⟩ | rfl
      · rw [hfy] at hr
        cases hr
        exact .inl (by rw [hn]; decide)
      · cases hfy

/-- A conversion with what the normalizer knows of the recording. -/
structure RanAny (M : Machine) (ids : List (Bytes × Bytes)) (labels options : Nat) (threadTypes : List (Nat × Bytes)) (st : Data.St)
    (ps : List Converter.ProcessProfile) (t : List Msg) (cfg : Normalizer.Config) (S : Converter.Setup) (cbs : List Callback) (L : Converter.Log) : Prop where
  conv : Converter.convert S cbs = some (ps, L)
  sane : Converter.Sane S cbs
  told : Each (Told cfg) [] (t.map normView) cbs
  tuned : Tuned st.base.info.attrs M.traceBase t cfg
  config : ∃ r, Normalizer.mkConfig (normInput M (withBuildIds M.env.md5 ids st.base.info st.events) r) = some cfg
  refs : ∃ o, ∀ cb ∈ cbs, ∀ x ∈ cb.refs, Normalizer.Agrees o x
  options : S.options = options
  labels : S.labels = labels
  threadTypes : S.threadTypes = threadTypes
  attrs : S.attrs = st.base.info.attrs.map attrRec

theorem ran_any {M : Machine} {ids : List (Bytes × Bytes)} {labels options : Nat} {threadTypes : List (Nat × Bytes)} {b : Bytes}
    {ps : List Converter.ProcessProfile} {st : Data.St} (hb : File.readBytes { env := M.env } b = some (some st))
    (hc : Calm options st.events)
    (h : rawToProfiles M ids labels options threadTypes b = some ps) {t : List Msg}
    (hprep : ∀ r, parseEvents M (rawOpts M options) true true true (withBuildIds M.env.md5 ids st.base.info st.events) st.events = some r →
      r.1.map normView = t.map normView) :
    ∃ cfg S cbs L, RanAny M ids labels options threadTypes st ps t cfg S cbs L := by
  have hsh := read_shaped hb
  unfold rawToProfiles at h
  rw [hb] at h
  obtain ⟨r, L, h1, h2⟩ := staged h
  obtain ⟨g1, g2⟩ := given hsh hc h1
  have hconv := h2
  unfold Converter.protoToProfiles at hconv
  cases hp : Normalizer.process (normInput M (withBuildIds M.env.md5 ids st.base.info st.events) r.1) with
  | none => rw [hp] at hconv; cases hconv
  | some cbs =>
    rw [hp] at hconv
    simp only at hconv
    obtain ⟨cfg, hcfg, hrep⟩ := Normalizer.process_main _ cbs g1.typed hp
    obtain ⟨ow, -, hag⟩ := Normalizer.process_refs hp
    have e : (normInput M (withBuildIds M.env.md5 ids st.base.info st.events) r.1).events = t.map normView := hprep r h1
    have hspec := Normalizer.config_spec _ cfg hcfg
    have hsp : cfg.hasSpe = speTrace t := by
      rw [(config_parts hcfg).2.1, e, speTrace_eq]
    refine ⟨cfg, _, cbs, L, hconv, g2 cbs hp _ rfl, ?_, ⟨fun id => (owner_eq hcfg id).trans rfl, hsp, ?_, fun hs tid => ?_⟩, ⟨_, hcfg⟩, ⟨ow, hag⟩,
      rfl, rfl, rfl, rfl⟩
    · rw [← e]
      exact hrep
    · exact (config_parts hcfg).2.2
    · rw [hspec.2.1 (hspec.1.1 (by rw [hsp, hs])) tid, e, threadHome_view]

/-- A record that has samples tells neither of a mapping nor of another program. -/
theorem shot_quiet {attrs : List Attr.ProtoFileAttr} {base : Nat} {t : List Msg} {m : Msg} {misc k : Nat} {s : Serial.SampleEvent}
    (h : Shot attrs base t m misc s k) (pid a : Nat) : mapsOver pid a m = false ∧ execOf pid m = false := by
  cases h with
  | sample hb _ => unfold mapsOver areaOf execOf; rw [hb]; exact ⟨rfl, rfl⟩
  | traced _ hb _ => unfold mapsOver areaOf execOf; rw [hb]; exact ⟨rfl, rfl⟩

/-- The call for a record of a trace. -/
theorem record_told {attrs : List Attr.ProtoFileAttr} {base : Nat} {t : List Msg} {cfg : Normalizer.Config} (T : Tuned attrs base t cfg)
    {h : List Msg} {m : Msg} {x : List Callback} (ht : Told cfg (h.map normView) (normView m) x) (hst : speTrace t = true) {a : Serial.Auxtrace}
    (hb : m.body = .auxtrace a) {r : Spe.Record} (hr : r ∈ traceRecords base a.trace) :
    ∃ x1 c x2, x = x1 ++ .sample c :: x2 ∧ Normalizer.Reported cfg (h.map normView) none (Normalizer.recordSample cfg r) (some r) 0 c := by
  have h1 := ht.1
  unfold normView at h1
  rw [hb] at h1
  unfold Normalizer.Reports at h1
  simp only [T.spe, hst, if_true] at h1
  obtain ⟨rs, d, hd, hall⟩ := h1
  unfold traceRecords at hr
  rw [← T.base, hd] at hr
  obtain ⟨cb, hcb, c, rfl, hrep⟩ := Converter.All₂.right hall _ hr
  obtain ⟨x1, x2, rfl⟩ := List.append_of_mem hcb
  exact ⟨x1, c, x2, rfl, hrep⟩

/-- The call for what is sampled by a record. -/
theorem shot_told {attrs : List Attr.ProtoFileAttr} {base : Nat} {t : List Msg} {cfg : Normalizer.Config} (T : Tuned attrs base t cfg)
    {h : List Msg} {m : Msg} {x : List Callback} (ht : Told cfg (h.map normView) (normView m) x) {misc k : Nat} {s : Serial.SampleEvent}
    (hs : Shot attrs base t m misc s k) : ∃ x1 c x2, x = x1 ++ .sample c :: x2 ∧ c.attrIndex = k ∧ Pictured cfg h misc s c := by
  cases hs with
  | sample hb ho =>
    have h1 := ht.1
    unfold normView at h1
    rw [hb] at h1
    have h1 : Normalizer.ReportsSample cfg (h.map normView) (some m.misc) (normSample s) x := h1
    unfold Normalizer.ReportsSample at h1
    rw [show (normSample s).id = s.id from rfl, T.owner, ho] at h1
    obtain ⟨c, rfl, hr⟩ := h1
    refine ⟨[], c, [], rfl, hr.index, fun S => frames_view hr, ?_, hr.lost⟩
    unfold Converter.pidOf; rw [hr.sample]; rfl
  | @traced a r hst hb hr =>
    obtain ⟨x1, c, x2, rfl, hrep⟩ := record_told T ht hst hb hr
    exact ⟨x1, c, x2, rfl, hrep.index, record_view T hst hrep⟩

/-- What is shown of what is sampled, in its place. -/
theorem RanAny.frames_at {M : Machine} {ids : List (Bytes × Bytes)} {labels options : Nat} {threadTypes : List (Nat × Bytes)} {st : Data.St}
    {ps : List Converter.ProcessProfile} {pre post : List Msg} {m : Msg} {cfg : Normalizer.Config} {S : Converter.Setup} {cbs : List Callback}
    {LA LB : Converter.Log} {c : SampleCtx} {slot : Converter.Slot} {misc k : Nat} {s : Serial.SampleEvent}
    (R : RanAny M ids labels options threadTypes st ps (pre ++ m :: post) cfg S cbs (LA ++ (.sample c, some slot) :: LB))
    (hnt : AllNamed (pre ++ m :: post)) {A x1 x2 B : List Callback} (hcbs : cbs = A ++ (x1 ++ .sample c :: x2) ++ B)
    (hLB : Converter.hist LB = (A ++ x1).reverse)
    (hA : Each (Told cfg) [] (pre.map normView) A) (hx : Told cfg (pre.reverse.map normView) (normView m) (x1 ++ .sample c :: x2))
    (hshot : Shot st.base.info.attrs M.traceBase (pre ++ m :: post) m misc s k) (P : Pictured cfg pre.reverse misc s c)
    {shows : Profile.Profile → Profile.Mapping → Serial.MMap → Prop}
    (hshows : ∀ r cfg, Normalizer.mkConfig (normInput M (withBuildIds M.env.md5 ids st.base.info st.events) r) = some cfg → ∀ p m b,
      Shown cfg.ids p m b → shows p m b) :
    ∃ p smp, ps[slot.1]? = some p ∧ p.data.sample[slot.2]? = some smp ∧ p.pid = (if options.testBit 0 then s.pid.getD 0 else 0) ∧
      All₂ (ShowsSpot shows (HeldAny st.base.info.attrs M.traceBase (options.testBit 3) (pre ++ m :: post) (pre ++ [m]) (s.pid.getD 0)) p.data)
        (stackOf (options.testBit 3) pre.reverse misc s) smp.locationId := by
  obtain ⟨r0, hcfg⟩ := R.config
  obtain ⟨ow, hag⟩ := R.refs
  have hconv := R.conv
  have hsane := R.sane
  have T := R.tuned
  have hrep := R.told
  have hSo := R.options
  have hpid := P.pid
  obtain ⟨p, smp, hp1, hp2, hall⟩ := Converter.mappings_shown hconv hsane
  refine ⟨p, smp, hp1, hp2, ?_, ?_⟩
  · obtain ⟨st2, bb, mm, r1, -, hinv, -, hmeta, -, hpp, -⟩ := Converter.profile_at hconv hsane hp1
    obtain ⟨m2, q1, q2⟩ := hinv.spid (c, slot) (Converter.mem_placed.2 ⟨LA, LB, rfl⟩)
    rw [hmeta] at q1
    cases q1
    rw [hpp, q2, hpid]
    unfold Converter.Setup.home Converter.Setup.grouped
    rw [hSo]
  · -- its frames
    have hfr := P.frames S
    rw [hSo] at hfr
    have conv : ∀ (f : Converter.Frame) (g : Spot) (id : Nat), IsSpot cfg.ids f g →
        Converter.ShowsFrame S cbs ((.sample c, some slot) :: LB) (Converter.pidOf c) p.data f id →
        ShowsSpot shows (HeldAny st.base.info.attrs M.traceBase (options.testBit 3) (pre ++ m :: post) (pre ++ [m]) (s.pid.getD 0)) p.data g id := by
      rintro f g id ⟨hfg, -⟩ ⟨hid, l, hl1, hl2, x, hsrc, hx1, hx2⟩
      refine ⟨hid, l, hl1, hl2.trans hfg, ?_⟩
      rw [← hfg]
      obtain ⟨A', c', slot', B', hL', hp', hmem, hex, hre⟩ := hsrc
      have hq : A ++ (x1 ++ [.sample c]) = (Converter.hist B').reverse ++ .sample c' :: (Converter.hist A').reverse := by
        have := congrArg (fun l => (Converter.hist l).reverse) hL'
        simp only [Converter.hist, List.map_cons, List.map_append, List.reverse_cons, List.reverse_append] at this
        unfold Converter.hist at hLB
        rw [hLB, List.reverse_reverse] at this
        rw [← List.append_assoc, this]
        simp [Converter.hist]
      have hc'm : Callback.sample c' ∈ cbs := by
        have : Callback.sample c' ∈ A ++ (x1 ++ [.sample c]) := by rw [hq]; simp
        rw [hcbs]
        simp only [List.mem_append, List.mem_cons, List.not_mem_nil, or_false] at this ⊢
        rcases this with h | h | h
        · exact .inl (.inl h)
        · exact .inl (.inr (.inl h))
        · exact .inl (.inr (.inr (.inl h)))
      -- the record of the earlier sample
      have hplace : ∃ pre1 m1 post1 xs, pre ++ [m] = pre1 ++ m1 :: post1 ∧ Told cfg (pre1.reverse.map normView) (normView m1) xs ∧
          Callback.sample c' ∈ xs ∧ (Converter.remaps (Converter.hist A') (Converter.pidOf c) f.1 = false → ∀ y ∈ post1, mapsOver (Converter.pidOf c) f.1 y = false) ∧
          (Converter.execs (Converter.hist A') (Converter.pidOf c) = false → ∀ y ∈ post1, execOf (Converter.pidOf c) y = false) := by
        rcases List.append_eq_append_iff.1 hq with ⟨w, hw1, hw2⟩ | ⟨w, hw1, hw2⟩
        · refine ⟨pre, m, [], _, rfl, hx, ?_, fun _ y hy => (by cases hy), fun _ y hy => (by cases hy)⟩
          have : Callback.sample c' ∈ x1 ++ [.sample c] := by rw [hw2]; simp
          simp only [List.mem_append, List.mem_cons, List.not_mem_nil, or_false] at this ⊢
          rcases this with h | h
          · exact .inl h
          · exact .inr (.inl h)
        · cases w with
          | nil =>
            refine ⟨pre, m, [], _, rfl, hx, ?_, fun _ y hy => (by cases hy), fun _ y hy => (by cases hy)⟩
            rw [List.nil_append] at hw2
            have : Callback.sample c' ∈ x1 ++ [.sample c] := by rw [← hw2]; simp
            simp only [List.mem_append, List.mem_cons, List.not_mem_nil, or_false] at this ⊢
            rcases this with h | h
            · exact .inl h
            · exact .inr (.inl h)
          | cons w0 w =>
            rw [List.cons_append] at hw2
            injection hw2 with hw3 hw4
            subst hw3
            rw [hw1] at hA
            obtain ⟨pre1, m1, post1, a, b', B1, e1, e2, e3, e4⟩ := told_split hA
            have hB1 : ∀ {Q : Callback → Bool}, (Converter.hist A').any Q = false → B1.any Q = false := by
              intro Q hQ
              rw [← List.any_reverse, hw4, List.any_append, Bool.or_eq_false_iff, e3, List.any_append, Bool.or_eq_false_iff] at hQ
              exact hQ.1.2
            refine ⟨pre1, m1, post1 ++ [m], _, by rw [e1]; simp, e2, by simp, fun hh y hy => ?_, fun hh y hy => ?_⟩
            · rcases List.mem_append.1 hy with hy | hy
              · exact no_maps e4 (hB1 hh) y hy
              · rw [List.mem_singleton.1 hy]; exact (shot_quiet hshot _ _).1
            · rcases List.mem_append.1 hy with hy | hy
              · exact no_execs e4 (hB1 hh) y hy
              · rw [List.mem_singleton.1 hy]; exact (shot_quiet hshot _ 0).2
      obtain ⟨pre1, m1, post1, xs, e1, e2, hin, hmaps, hexecs⟩ := hplace
      rcases told_shot T e2 hin with ⟨misc', s', k', hshot', -, P'⟩ | ⟨-, hl⟩
      · right; right
        obtain ⟨g1, hg1, hg2⟩ := spot_mem (P'.frames S) hmem
        rw [hSo] at hg1
        have hpid' : s'.pid.getD 0 = s.pid.getD 0 := by
          rw [← hpid, ← hp', P'.pid]
        have hg1' : (f.1, g1.2) ∈ stackOf (options.testBit 3) pre1.reverse misc' s' := by
          have : g1 = (f.1, g1.2) := Prod.ext hg2.1.symm rfl
          rw [← this]; exact hg1
        refine ⟨g1.2, ⟨pre1, m1, misc', s', k', post1, e1, hshot', hpid', hg1', ?_, ?_⟩, ?_, ?_⟩
        · rw [← hpid]; exact hmaps hre
        · rw [← hpid]; exact hexecs hex
        · intro hn
          refine hx1 ?_
          cases x with
          | none => rfl
          | some y => have := hg2.2; rw [hn] at this; exact this.elim
        · intro bb hbb
          have hsh2 := hg2.2
          rw [hbb] at hsh2
          cases x with
          | none => exact hsh2.elim
          | some y =>
            obtain ⟨k1, mm, mp, k2, ⟨c2, hc2, z, hz, hzp, rfl⟩, k4⟩ := hx2 y rfl
            refine ⟨k1, mm, k2, ?_⟩
            obtain ⟨m', hm', ha⟩ := stack_from hg1 hbb
            have hm't : m' ∈ pre ++ m :: post := by
              have : m' ∈ pre ++ [m] := by rw [e1]; exact List.mem_append_left _ (List.mem_reverse.1 hm')
              rcases List.mem_append.1 this with h | h
              · exact List.mem_append_left _ h
              · rw [List.mem_singleton.1 h]; simp
            have hzt : Titled z := by
              obtain ⟨u, v, huv⟩ := List.append_of_mem hc2
              rw [huv] at hrep
              obtain ⟨pre2, m2, post2, a2, b2, B2, f1, f2, -, -⟩ := told_split hrep
              refine told_shot_titled T (h := pre2.reverse) (fun x hx => hnt x ?_) f2 (c := c2) (by simp) hz
              rw [f1]; exact List.mem_append_left _ (List.mem_reverse.1 hx)
            exact hshows _ cfg hcfg _ _ _ ⟨hnt m' hm't bb ha, ow, y, z, hag _ hc'm y (Converter.used_refs (S := S) (.inr ⟨_, hmem, rfl⟩)),
              hag _ hc2 z (Converter.used_refs hz), hzp, hzt, hsh2, k4⟩
      · rcases hl S _ hmem with ⟨h1, -⟩ | h1
        · exact .inl h1
        · right; left
          have h3 : f.1 = 0 ∧ x = none := by
            have := Prod.mk.inj h1
            exact this
          exact ⟨h3.1, hx1 h3.2⟩
    clear hp2
    generalize smp.locationId = lids at hall
    generalize Converter.frames S c = fs at hall hfr
    generalize stackOf (options.testBit 3) pre.reverse misc s = gs at hfr
    induction hall generalizing gs with
    | nil => cases hfr; exact .nil
    | cons hh _ ih =>
      cases hfr with
      | cons h1 h2 => exact .cons (conv _ _ _ h1 hh) (ih _ h2)

/-- The place of a call that a record leads to. -/
theorem RanAny.place {M : Machine} {ids : List (Bytes × Bytes)} {labels options : Nat} {threadTypes : List (Nat × Bytes)} {st : Data.St}
    {ps : List Converter.ProcessProfile} {pre post : List Msg} {m : Msg} {cfg : Normalizer.Config} {S : Converter.Setup} {cbs : List Callback}
    {L : Converter.Log} {Q : SampleCtx → Prop}
    (R : RanAny M ids labels options threadTypes st ps (pre ++ m :: post) cfg S cbs L)
    (hQ : ∀ x, Told cfg (pre.reverse.map normView) (normView m) x → ∃ x1 c x2, x = x1 ++ .sample c :: x2 ∧ Q c)
    (hacc : ∀ c, Q c → c.attrIndex < st.base.info.attrs.length ∧ c.lost = false) :
    ∃ A x1 c x2 B LA LB slot, cbs = A ++ (x1 ++ .sample c :: x2) ++ B ∧ L = LA ++ (.sample c, some slot) :: LB ∧
      Converter.hist LB = (A ++ x1).reverse ∧ Each (Told cfg) [] (pre.map normView) A ∧
      Told cfg (pre.reverse.map normView) (normView m) (x1 ++ .sample c :: x2) ∧ Q c := by
  have hrep := R.told
  rw [List.map_append, List.map_cons] at hrep
  obtain ⟨A, rest, hcbs, hA, x, B, hxB, hx, hB⟩ := each_append _ _ hrep
  rw [List.append_nil, ← List.map_reverse] at hx
  obtain ⟨x1, c, x2, rfl, hq⟩ := hQ x hx
  subst hxB
  have hlen : S.attrs.length = st.base.info.attrs.length := by rw [R.attrs]; exact List.length_map _
  have hhist := (Converter.accepted_samples_placed R.conv).2.1
  have hsplit : Converter.hist L = (x2 ++ B).reverse ++ .sample c :: (A ++ x1).reverse := by
    rw [hhist, hcbs]; simp
  obtain ⟨LA, o, LB, rfl, hLA, hLB⟩ := log_split hsplit
  obtain ⟨st', -, -, h0, -⟩ := Converter.convert_state R.conv
  have hacc : Converter.Accepted S c := by
    refine ⟨by rw [hlen]; exact (hacc c hq).1, fun hl => ?_⟩
    rw [(hacc c hq).2] at hl; cases hl.1
  have ho : o.isSome := (h0.acc (.sample c, o) (by simp)).2 ⟨c, rfl, hacc⟩
  obtain ⟨slot, rfl⟩ := Option.isSome_iff_exists.1 ho
  exact ⟨A, x1, c, x2, B, LA, LB, slot, by rw [hcbs]; simp, rfl, hLB, hA, hx, hq⟩

/-- It counts there. -/
theorem RanAny.counts_at {M : Machine} {ids : List (Bytes × Bytes)} {labels options : Nat} {threadTypes : List (Nat × Bytes)} {st : Data.St}
    {ps : List Converter.ProcessProfile} {t : List Msg} {cfg : Normalizer.Config} {S : Converter.Setup} {cbs : List Callback}
    {LA LB : Converter.Log} {c : SampleCtx} {slot : Converter.Slot}
    (R : RanAny M ids labels options threadTypes st ps t cfg S cbs (LA ++ (.sample c, some slot) :: LB))
    (hk : c.attrIndex < st.base.info.attrs.length) {p : Converter.ProcessProfile} {smp : Profile.Sample} (hp1 : ps[slot.1]? = some p)
    (hp2 : p.data.sample[slot.2]? = some smp) : 1 ≤ smp.value.getD (2 * c.attrIndex) 0 := by
  have hlen : S.attrs.length = st.base.info.attrs.length := by rw [R.attrs]; exact List.length_map _
  have hv := (((Converter.sample_values_partial R.conv hp1 hp2).2 c.attrIndex (by rw [hlen]; exact hk)).1)
  rw [List.getD_eq_getElem?_getD, hv, Option.getD_some]
  have : (c, slot) ∈ (Converter.placed (LA ++ (.sample c, some slot) :: LB)).filter
      (fun q => decide (q.2 = (slot.1, slot.2) ∧ q.1.attrIndex = c.attrIndex)) :=
    List.mem_filter.2 ⟨Converter.mem_placed.2 ⟨LA, LB, rfl⟩, by simp⟩
  have := List.length_pos_of_mem this
  omega

/-- What is shown of the records that reach the converter, with what is known of the mappings shown. -/
theorem shot_shown_from {M : Machine} {ids : List (Bytes × Bytes)} {labels options : Nat} {threadTypes : List (Nat × Bytes)} {b : Bytes}
    {ps : List Converter.ProcessProfile} {st : Data.St} (hb : File.readBytes { env := M.env } b = some (some st))
    (hc : Calm options st.events)
    (h : rawToProfiles M ids labels options threadTypes b = some ps) {t pre post : List Msg} {m : Msg} {misc k : Nat} {s : Serial.SampleEvent}
    (hprep : ∀ r, parseEvents M (rawOpts M options) true true true (withBuildIds M.env.md5 ids st.base.info st.events) st.events = some r →
      r.1.map normView = t.map normView) (hnt : AllNamed t) (hm : t = pre ++ m :: post)
    (hshot : Shot st.base.info.attrs M.traceBase t m misc s k) (hk : k < st.base.info.attrs.length)
    {shows : Profile.Profile → Profile.Mapping → Serial.MMap → Prop}
    (hshows : ∀ r cfg, Normalizer.mkConfig (normInput M (withBuildIds M.env.md5 ids st.base.info st.events) r) = some cfg → ∀ p m b,
      Shown cfg.ids p m b → shows p m b) :
    ∃ p ∈ ps, p.pid = (if options.testBit 0 then s.pid.getD 0 else 0) ∧ ∃ smp ∈ p.data.sample, 1 ≤ smp.value.getD (2 * k) 0 ∧
      All₂ (ShowsSpot shows (HeldAny st.base.info.attrs M.traceBase (options.testBit 3) t (pre ++ [m]) (s.pid.getD 0)) p.data)
        (stackOf (options.testBit 3) pre.reverse misc s) smp.locationId := by
  obtain ⟨cfg, S, cbs, L, R⟩ := ran_any hb hc h hprep
  subst hm
  obtain ⟨A, x1, c, x2, B, LA, LB, slot, hcbs, rfl, hLB, hA, hx, hidx, P⟩ := R.place (fun x hx => shot_told R.tuned hx hshot) (fun c hc => ⟨by rw [hc.1]; exact hk, hc.2.lost⟩)
  obtain ⟨p, smp, hp1, hp2, hpid, hall⟩ := R.frames_at hnt hcbs hLB hA hx hshot P hshows
  refine ⟨p, List.mem_of_getElem? hp1, hpid, smp, List.mem_of_getElem? hp2, ?_, hall⟩
  have := R.counts_at (by rw [hidx]; exact hk) hp1 hp2
  rw [hidx] at this
  exact this

/-- C135. What the profiles made from the bytes of a recording show of all that is sampled, with or without traces of ARM SPE: what a sample
record samples, and each record of a trace. One of the profiles — that of the process, if there is one for each process — has
a profile sample that counts for the event, and its frames are those of the stack, one by one: at the same address, and in the
mapping that something sampled of the process with this address in its stack had there, the same one or one before it, between which
the process has neither mapped anything there nor executed another program. A record of a trace counts for the first event; its process is
that of the thread in its context packet (`threadHome`); its stack is its instruction. Whatever the bytes are, if mappings
have names, those of huge pages and parts of one mapping are not among them (`Steady`) and no process has the name of the
mapping of lost samples (`Calm`). -/
theorem shot_shown_partial {M : Machine} {ids : List (Bytes × Bytes)} {labels options : Nat} {threadTypes : List (Nat × Bytes)} {b : Bytes}
    {ps : List Converter.ProcessProfile} {st : Data.St} (hb : File.readBytes { env := M.env } b = some (some st))
    (hc : Calm options st.events) (hs : Steady st.events)
    (h : rawToProfiles M ids labels options threadTypes b = some ps) {t pre post : List Msg} {m : Msg} {misc k : Nat} {s : Serial.SampleEvent}
    (ht : Timeline st.base.info.attrs st.events t) (hm : t = pre ++ m :: post)
    (hshot : Shot st.base.info.attrs M.traceBase t m misc s k) (hk : k < st.base.info.attrs.length) :
    ∃ p ∈ ps, p.pid = (if options.testBit 0 then s.pid.getD 0 else 0) ∧ ∃ smp ∈ p.data.sample, 1 ≤ smp.value.getD (2 * k) 0 ∧
      All₂ (ShowsSpot ShowsArea (HeldAny st.base.info.attrs M.traceBase (options.testBit 3) t (pre ++ [m]) (s.pid.getD 0)) p.data)
        (stackOf (options.testBit 3) pre.reverse misc s) smp.locationId := by
  have hts : t = sortEvents (withBuildIds M.env.md5 ids st.base.info st.events) st.events := timeline_sort (by rw [attrs_kept]; exact ht)
  refine shot_shown_from hb hc h (fun r hr => by rw [prep_steady (read_shaped hb) hs hr, ← hts]) (fun x hx => hs.named x ?_) hm hshot hk
    fun _ _ _ _ _ _ hsh => by
      obtain ⟨hn, o, x, y, h1, h2, h3, h4, h5, h6⟩ := hsh
      exact shown_area h1 h2 h3 h4 hn h5 h6
  rw [hts] at hx
  exact (sort_perm (withBuildIds M.env.md5 ids st.base.info st.events) st.events).mem_iff.1 hx

theorem last_ne (cross : Bool) (l : Spe.Last) : 1 ≤ (l.bytes cross).length := by
  cases l <;> simp [Spe.Last.bytes]

theorem traces_length (cross : Bool) : ∀ ts : List Spe.Traced, ts.length ≤ (ts.flatMap (Spe.Traced.bytes cross)).length
  | [] => Nat.le_refl _
  | t :: ts => by
    have h1 := traces_length cross ts
    have h2 := last_ne cross t.last
    rw [List.flatMap_cons, List.length_append, Spe.Traced.bytes, List.length_append, List.length_cons]
    omega

/-- The records of trace data are those that were traced, whatever the address of the data is. -/
theorem traceRecords_encoded {ts : List Spe.Traced} (hf : ∀ t ∈ ts, t.Fits) (base : Nat) :
    traceRecords base (ts.flatMap (Spe.Traced.bytes false)) = ts.map Spe.Traced.record := by
  have hl := traces_length false ts
  obtain ⟨d, h1, -⟩ := Spe.decodeAll_encoded ts hf base false {} ((ts.flatMap (Spe.Traced.bytes false)).length - ts.length)
  unfold traceRecords
  rw [show ts.length + 1 + ((ts.flatMap (Spe.Traced.bytes false)).length - ts.length) = (ts.flatMap (Spe.Traced.bytes false)).length + 1 by omega] at h1
  unfold Spe.start at h1
  rw [h1]
  rfl

/-- The frames of a record of a trace: its instruction, after nothing for data. -/
theorem stack_traced {h t : List Msg} {r : Spe.Record} {pid : Nat} (e : (tracedSample t r).pid.getD 0 = pid) {data : Bool} {P : Spot → Nat → Prop}
    {l : List Nat} (h4 : All₂ P (stackOf data h 0 (tracedSample t r)) l) :
    ∃ d id, l = d ++ [id] ∧ d.length = (if data then 1 else 0) ∧ P (spotOf h pid r.ip.addr (modeOf 0)) id := by
  unfold stackOf at h4
  rw [e] at h4
  have hcs : callerSpots h (tracedSample t r) = [] := rfl
  have hbs : branchSpots h (tracedSample t r) = [] := rfl
  rw [hcs, hbs] at h4
  by_cases hd : data = true
  · rw [if_pos hd] at h4 ⊢
    cases h4 with
    | cons _ h5 =>
      cases h5 with
      | cons h6 h7 =>
        cases h7
        exact ⟨[_], _, rfl, rfl, h6⟩
  · rw [if_neg hd] at h4 ⊢
    cases h4 with
    | cons h6 h7 =>
      cases h7
      exact ⟨[], _, rfl, rfl, h6⟩

/-- C135 for what is traced: each record that the processor has traced is shown, at its instruction, in the process of its
thread. -/
theorem traced_shown_partial {M : Machine} {ids : List (Bytes × Bytes)} {labels options : Nat} {threadTypes : List (Nat × Bytes)} {b : Bytes}
    {ps : List Converter.ProcessProfile} {st : Data.St} (hb : File.readBytes { env := M.env } b = some (some st))
    (hc : Calm options st.events) (hs : Steady st.events)
    (h : rawToProfiles M ids labels options threadTypes b = some ps) {t pre post : List Msg} {m : Msg} {a : Serial.Auxtrace}
    (ht : Timeline st.base.info.attrs st.events t) (hm : t = pre ++ m :: post) (hspe : speTrace t = true) (hbody : m.body = .auxtrace a)
    {ts : List Spe.Traced} (hf : ∀ x ∈ ts, x.Fits) (ha : a.trace = ts.flatMap (Spe.Traced.bytes false)) {x : Spe.Traced} (hx : x ∈ ts)
    (hattrs : st.base.info.attrs ≠ []) {pid : Nat} (hpid : pid = if x.record.context.id = 0 then 0 else (threadHome t x.record.context.id).getD 0) :
    ∃ p ∈ ps, p.pid = (if options.testBit 0 then pid else 0) ∧ ∃ smp ∈ p.data.sample, 1 ≤ smp.value.getD 0 0 ∧
      ∃ data id, smp.locationId = data ++ [id] ∧ data.length = (if options.testBit 3 then 1 else 0) ∧
        ShowsSpot ShowsArea (HeldAny st.base.info.attrs M.traceBase (options.testBit 3) t (pre ++ [m]) pid) p.data
          (spotOf pre.reverse pid x.record.ip.addr (modeOf 0)) id := by
  have hr : x.record ∈ traceRecords M.traceBase a.trace := by
    rw [ha, traceRecords_encoded hf]
    exact List.mem_map_of_mem hx
  obtain ⟨p, hp, h1, smp, h2, h3, h4⟩ := shot_shown_partial hb hc hs h ht hm (.traced hspe hbody hr) (List.length_pos_iff.2 hattrs)
  have e : ((tracedSample t x.record).pid.getD 0) = pid := hpid.symm
  rw [e] at h1 h4
  refine ⟨p, hp, h1, smp, h2, h3, ?_⟩
  exact stack_traced e h4

/-! ### When traces are looked at -/

theorem readBody_trace {env : Serial.Env} {ser : Attr.Ser} {e : Event.RawEvent} {a : Serial.Auxtrace}
    (h : Serial.readBody env ser e = some (some (.auxtrace a))) : e.type = 71 := by
  have hw : ∀ {α : Type} {x : Option α} {f : α → Serial.SampleInfo → Body}, Serial.withInfo ser e x f = some (some (.auxtrace a)) →
      (∀ b i, f b i ≠ .auxtrace a) → e.type = 71 := by
    intro α x f h hf
    obtain ⟨b, i, -, hb⟩ := withInfo_ok h
    exact absurd hb.symm (hf b i)
  have hp : ∀ {α : Type} {x : Option α} {f : α → Body}, Serial.plain x f = some (some (.auxtrace a)) → (∀ b, f b ≠ .auxtrace a) → e.type = 71 := by
    intro α x f h hf
    obtain ⟨b, -, hb⟩ := plain_ok h
    exact absurd hb.symm (hf b)
  unfold Serial.readBody at h
  rcases either h with ⟨-, h⟩ | ⟨-, h⟩
  · obtain ⟨s, -, h2⟩ := Option.map_eq_some_iff.1 h
    obtain ⟨s', -, h3⟩ := Option.map_eq_some_iff.1 h2
    cases h3
  rcases either h with ⟨-, h⟩ | ⟨-, h⟩
  · exact hw h fun _ _ h => by cases h
  rcases either h with ⟨-, h⟩ | ⟨-, h⟩
  · split at h
    · cases h
    · cases h
    · exact hw h fun _ _ h => by cases h
  iterate 13
    rcases either h with ⟨-, h⟩ | ⟨-, h⟩
    · exact hw h fun _ _ h => by cases h
  rcases either h with ⟨-, h⟩ | ⟨-, h⟩
  · exact hp h fun _ h => by cases h
  rcases either h with ⟨ht, -⟩ | ⟨-, h⟩
  · exact ht
  iterate 7
    rcases either h with ⟨-, h⟩ | ⟨-, h⟩
    · exact hp h fun _ h => by cases h
  cases h

/-- Trace data has no time: whatever the bytes are, it is looked at before all records that have one, if all events record it. -/
theorem trace_unstamped {env : Serial.Env} {b : Bytes} {st : Data.St} (hb : File.readBytes { env := env } b = some (some st)) {m : Msg}
    (hm : m ∈ st.events) {a : Serial.Auxtrace} (ha : m.body = .auxtrace a) : m.timestamp = 0 := by
  have hQ : FromEvents (fun m => (m.type = 71 → m.timestamp = 0) ∧ ∀ a, m.body = .auxtrace a → m.type = 71) := by
    refine ⟨fun {env ser e m} _ _ h => ?_, fun a ht hq => ⟨hq.1, fun _ _ => ht⟩⟩
    unfold Serial.serialize at h
    split at h
    · cases h
    · cases h
    · rename_i hbd
      cases h
      refine ⟨fun ht => ?_, fun a hba => ?_⟩
      · have ht : e.type = 71 := ht
        show Serial.timeOf _ = 0
        unfold Serial.timeOf
        simp only [ht]
        rfl
      · exact readBody_trace (hbd.trans (congrArg (fun b => some (some b)) hba))
  have := read_all hQ hb m hm
  exact this.1 (this.2 a ha)

/-- So a record of a trace is looked up only among the mappings recorded without a time, if all events record it. -/
theorem traced_untimed {env : Serial.Env} {b : Bytes} {st : Data.St} (hb : File.readBytes { env := env } b = some (some st))
    {t pre post : List Msg} {m : Msg} {a : Serial.Auxtrace} (ht : Timeline st.base.info.attrs st.events t) (hm : t = pre ++ m :: post)
    (hbody : m.body = .auxtrace a) (htime : ∀ x ∈ st.base.info.attrs, x.attr.sampleType.testBit 2 = true)
    {pid ip : Nat} {o : Serial.MMap} (ho : (spotOf pre.reverse pid ip (modeOf 0)).2 = some o) :
    ∃ m' ∈ pre, areaOf m' = some o ∧ m'.timestamp = 0 := by
  obtain ⟨m', hm', harea⟩ := spotOf_from ho
  have hin := List.mem_reverse.1 hm'
  refine ⟨m', hin, harea, ?_⟩
  rcases ht with ⟨-, hp, hall⟩ | ⟨⟨x, hx, h0⟩, -⟩
  · have hmt : m ∈ st.events := by
      have : m ∈ t.filter (fun y => y.timestamp = m.timestamp) := List.mem_filter.2 ⟨by rw [hm]; simp, by simp⟩
      rw [hall] at this
      exact (List.mem_filter.1 this).1
    have hz := trace_unstamped hb hmt hbody
    rw [hm, List.pairwise_append] at hp
    have := hp.2.2 m' hin m List.mem_cons_self
    omega
  · rw [htime x hx] at h0
    cases h0

/-! ### Examples -/

section
open Verif.File (exFile exMetadata fileImage)
open Verif.Serial (exMsg exMap exSample exInfo exEnv)

/-- Two records of thread 10, at two instructions. -/
def exTraced : List Spe.Traced :=
  [⟨[.addr 0 0x4200, .context 0 10, .counter 0 500], .endOfRecord⟩, ⟨[.pad, .addr 0 0x4300, .context 0 10], .timestamp 77⟩]

def infoMsg : Msg := exMsg 70 0 (.auxtraceInfo { type := 4, priv := [9] })

def traceMsg (ts : List Spe.Traced) : Msg :=
  exMsg 71 0 (.auxtrace { size := (ts.flatMap (Spe.Traced.bytes false)).length, trace := ts.flatMap (Spe.Traced.bytes false) })

/-- A mapping from before the recording, a trace, and a sample of the same process. -/
def exTraceMsgs : List Msg := [mapMsg 0, infoMsg, traceMsg exTraced, commMsg 10 1 (ascii "sh"), sampleMsg 2 0x4400 3]

theorem exTraced_fit : ∀ x ∈ exTraced, x.Fits := by
  intro t ht
  simp only [exTraced, List.mem_cons, List.not_mem_nil, or_false] at ht
  rcases ht with rfl | rfl <;>
  · refine ⟨?_, ?_⟩
    · intro p hp
      simp only [List.mem_cons, List.not_mem_nil, or_false] at hp
      rcases hp with rfl | rfl | rfl <;> simp [Spe.Pkt.Fits]
    · simp [Spe.Last.Fits]

/-- The trace at a place, if the recording meets the conditions of `traced_shown_partial`: the process and the name for each record. -/
def traceAtB (options : Nat) (st : Data.St) (n : Nat) : Option (List Nat × List (Nat × Option Bytes)) :=
  match st.events[n]? with
  | some m =>
    match m.body with
    | .auxtrace a =>
      if calmB options st.events && steadyB st.events && speTrace st.events && inOrderB st.base.info.attrs st.events && decide (0 < st.base.info.attrs.length)
          && decide (a.trace = exTraced.flatMap (Spe.Traced.bytes false)) then
        some (exTraced.map (fun x => (threadHome st.events x.record.context.id).getD 0),
          exTraced.map (fun x => (spotOf (st.events.take n).reverse 10 x.record.ip.addr (modeOf 0)).map id (Option.map Serial.MMap.filename)))
      else none
    | _ => none
  | none => none

theorem traceAt_of {options : Nat} {st : Data.St} {n : Nat} {r : List Nat × List (Nat × Option Bytes)} (h : traceAtB options st n = some r) :
    Calm options st.events ∧ Steady st.events ∧ ∃ pre m post a, Timeline st.base.info.attrs st.events (pre ++ m :: post) ∧
      speTrace (pre ++ m :: post) = true ∧ m.body = .auxtrace a ∧ a.trace = exTraced.flatMap (Spe.Traced.bytes false) ∧ st.base.info.attrs ≠ [] ∧
      exTraced.map (fun x => (threadHome (pre ++ m :: post) x.record.context.id).getD 0) = r.1 ∧
      exTraced.map (fun x => (spotOf pre.reverse 10 x.record.ip.addr (modeOf 0)).map id (Option.map Serial.MMap.filename)) = r.2 := by
  unfold traceAtB at h
  split at h
  · rename_i m hm
    split at h
    · rename_i a ha
      split at h
      · rename_i hc
        cases h
        simp only [Bool.and_eq_true, decide_eq_true_eq] at hc
        obtain ⟨⟨⟨⟨⟨h1, h2⟩, h3⟩, h4⟩, h5⟩, h6⟩ := hc
        have e : st.events = st.events.take n ++ m :: st.events.drop (n + 1) := by
          obtain ⟨hlt, he⟩ := List.getElem?_eq_some_iff.1 hm
          rw [← he, ← List.drop_eq_getElem_cons hlt, List.take_append_drop]
        refine ⟨calm_of h1, steady_of h2, st.events.take n, m, st.events.drop (n + 1), a, ?_, ?_, ha, h6, List.length_pos_iff.1 h5, ?_, rfl⟩
        · rw [← e]; exact inOrder_of h4
        · rw [← e]; exact h3
        · rw [← e]
      · cases h
    · cases h
  · cases h

/-- The conditions are met by the bytes of a recording with a trace of two records of a process, whose thread is named only afterwards: both are
shown, in the mapping from before the recording. -/
example : (∀ x ∈ exTraced, x.Fits) ∧ ∃ st, File.readBytes { env := exEnv } (fileImage (recordingOf exTraceMsgs)) = some (some st) ∧
    Calm 1 st.events ∧ Steady st.events ∧ (∃ pre m post a, Timeline st.base.info.attrs st.events (pre ++ m :: post) ∧
      speTrace (pre ++ m :: post) = true ∧ m.body = .auxtrace a ∧ a.trace = exTraced.flatMap (Spe.Traced.bytes false) ∧ st.base.info.attrs ≠ [] ∧
      exTraced.map (fun x => (threadHome (pre ++ m :: post) x.record.context.id).getD 0) = [10, 10] ∧
      exTraced.map (fun x => (spotOf pre.reverse 10 x.record.ip.addr (modeOf 0)).map id (Option.map Serial.MMap.filename)) =
        [(0x4200, some (ascii "/usr/lib/libc.so")), (0x4300, some (ascii "/usr/lib/libc.so"))]) ∧
    (rawToProfiles exMachine [] 0 1 [] (fileImage (recordingOf exTraceMsgs))).map layout =
      some [[[[1, 2, 0x4200], [2, 2, 0x4300]], [[1, 0, 1], [2, 0x4000, 0x5000]], [[1], [2]]],
        [[[1, 2, 0x4400]], [[1, 0, 1], [2, 0x4000, 0x5000]], [[1]]]] := by
  refine ⟨exTraced_fit, ?_⟩
  have h1 : ((File.readBytes { env := exEnv } (fileImage (recordingOf exTraceMsgs))).bind id).bind (fun st => traceAtB 1 st 2) = some ([10, 10],
        [(0x4200, some (ascii "/usr/lib/libc.so")), (0x4300, some (ascii "/usr/lib/libc.so"))]) := by
    decide +kernel
  have h2 : (rawToProfiles exMachine [] 0 1 [] (fileImage (recordingOf exTraceMsgs))).map layout =
      some [[[[1, 2, 0x4200], [2, 2, 0x4300]], [[1, 0, 1], [2, 0x4000, 0x5000]], [[1], [2]]],
        [[[1, 2, 0x4400]], [[1, 0, 1], [2, 0x4000, 0x5000]], [[1]]]] := by decide +kernel
  cases hr : File.readBytes { env := exEnv } (fileImage (recordingOf exTraceMsgs)) with
  | none => rw [hr] at h1; cases h1
  | some o =>
    cases o with
    | none => rw [hr] at h1; cases h1
    | some st =>
      rw [hr] at h1
      obtain ⟨k1, k2, k3⟩ := traceAt_of h1
      exact ⟨st, rfl, k1, k2, k3, h2⟩

/-- C135 fails for mappings made during the recording: the mapping stands before the trace in the file, and both records of the
trace are in it, but they are shown in no mapping, at address 0, because traces have no time and are looked at first. The sample is
shown in it. -/
theorem traced_mapped_violated :
    (rawToProfiles exMachine [] 0 1 [] (fileImage (recordingOf [commMsg 10 1 (ascii "sh"), mapMsg 2, infoMsg, traceMsg exTraced,
      sampleMsg 2 0x4400 3]))).map layout =
      some [[[[1, 0, 0]], [[1, 0, 1]], [[1]]], [[[1, 2, 0x4400]], [[1, 0, 1], [2, 0x4000, 0x5000]], [[1]]]] := by decide +kernel

/-- C135 fails for threads whose number is used again: the records are traced in process 10, of which thread 12 is one when the trace ends;
another process has it at the end of the recording, and that one is charged. -/
theorem traced_thread_violated :
    (rawToProfiles exMachine [] 0 1 [] (fileImage (recordingOf [mapMsg 0,
      exMsg 7 0 (.fork { pid := 10, ppid := 1, tid := 12, ptid := 1, time := 0, info := { exInfo with time := some 0 } }), infoMsg,
      traceMsg [⟨[.addr 0 0x4200, .context 0 12], .endOfRecord⟩],
      exMsg 7 0 (.fork { pid := 20, ppid := 1, tid := 12, ptid := 1, time := 5, info := { exInfo with time := some 5 } })]))).map
        (fun l => l.map (fun p => (p.pid, p.data.sample.length))) = some [(20, 1)] := by decide +kernel

end

end Verif.Whole
