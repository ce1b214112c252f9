import Verif.Whole.Trail

/-!
# What profiles show of a sample
-/

namespace Verif.Whole
open Verif.Serial (Msg Body)
open Verif.Normalizer (Each Ev Callback SampleCtx MapRef)

/-- The samples that a record leads to if it is no trace data: one, or lost ones. -/
theorem told_sample {cfg : Normalizer.Config} {past : List Ev} {m : Msg} {x : List Callback}
    (hspe : cfg.hasSpe = false ∨ ∀ a, m.body ≠ .auxtrace a)
    (h : Told cfg past (normView m) x) {c : SampleCtx} (hc : .sample c ∈ x) :
    (∃ s idx, m.body = .sample s ∧ Normalizer.eventIndexFor cfg s.id = some idx ∧ x = [.sample c] ∧
      Normalizer.Reported cfg past (some m.misc) (normSample s) none idx c) ∨
    (c.main = none ∧ ∀ S, ∀ f ∈ Converter.frames S c, (f.1 = lostAddress ∧ ∃ r, f.2 = some r ∧ r.mapping.filename = ascii "[lost]") ∨ f = (0, none)) := by
  obtain ⟨h, -⟩ := h
  have nil : x ≠ [] := by rintro rfl; cases hc
  have mm : ∀ b, Normalizer.ReportsMmap cfg b x → False := by
    intro b hb
    unfold Normalizer.ReportsMmap at hb
    split at hb
    · exact nil hb
    · obtain ⟨r, rfl, -⟩ := hb
      cases List.mem_singleton.1 hc
  have lost : ∀ l, Normalizer.ReportsLost cfg l x → (c.main = none ∧ ∀ S, ∀ f ∈ Converter.frames S c,
      (f.1 = lostAddress ∧ ∃ r, f.2 = some r ∧ r.mapping.filename = ascii "[lost]") ∨ f = (0, none)) := by
    intro l hl
    unfold Normalizer.ReportsLost at hl
    split at hl
    · exact absurd hl nil
    · obtain ⟨r, rfl, hr, -⟩ := hl
      have := List.eq_of_mem_replicate hc
      injection this with this
      subst this
      refine ⟨rfl, fun S f hf => ?_⟩
      unfold Converter.frames Converter.codeFrames at hf
      rw [List.mem_append, List.mem_cons, List.mem_append] at hf
      rcases hf with hf | hf | hf | hf
      · split at hf
        · exact .inr (List.mem_singleton.1 hf)
        · cases hf
      · refine .inl ⟨?_, r, by rw [hf]; rfl, hr⟩
        rw [hf]
        unfold Converter.leaf
        simp only [reduceCtorEq, if_false]
        decide
      · unfold Converter.callers at hf
        split at hf <;> cases hf
      · unfold Converter.branches at hf
        split at hf <;> cases hf
  unfold normView at h
  cases hb : m.body with
  | mmap b => rw [hb] at h; exact (mm _ h).elim
  | ksymbol k =>
    rw [hb] at h
    unfold Normalizer.Reports at h
    simp only at h
    split at h
    · exact (mm _ h).elim
    · exact absurd h nil
  | comm d =>
    rw [hb] at h
    obtain ⟨q, rfl, -⟩ := h
    cases List.mem_singleton.1 hc
  | lostSamples l =>
    rw [hb] at h
    unfold Normalizer.Reports at h
    simp only at h
    split at h
    · exact .inr (lost _ h)
    · exact absurd h nil
  | lost l =>
    rw [hb] at h
    unfold Normalizer.Reports at h
    simp only at h
    split at h
    · exact absurd h nil
    · exact .inr (lost _ h)
  | sample s =>
    rw [hb] at h
    have h : Normalizer.ReportsSample cfg past (some m.misc) (normSample s) x := h
    unfold Normalizer.ReportsSample at h
    split at h
    · exact absurd h nil
    · rename_i idx hi
      obtain ⟨c', rfl, hr⟩ := h
      cases List.mem_singleton.1 hc
      exact .inl ⟨s, idx, rfl, hi, rfl, hr⟩
  | auxtrace a =>
    rw [hb] at h
    unfold Normalizer.Reports at h
    rcases hspe with hspe | hspe
    · simp only [hspe] at h
      exact absurd h nil
    · exact absurd hb (hspe a)
  | _ => rw [hb] at h; exact absurd h nil

/-- The areas of a history have names, unless they are not where programs used to be loaded. -/
def AllNamed (h : List Msg) : Prop := ∀ m ∈ h, ∀ b, areaOf m = some b → Nameable b

/-- The first address of a mapping is where programs used to be loaded only if it starts there. -/
theorem first_load {m : Normalizer.MMapEv} (h : m.first = 0x400000) : m.start = 0x400000 := by
  unfold Normalizer.MMapEv.first at h
  split at h
  · omega
  · exact h

theorem shows_titled {ids : Normalizer.Ids} {r : MapRef} {m : Normalizer.MMapEv} (h : Normalizer.Shows ids (some r) (some m))
    (hm : m.filename ≠ [] ∨ m.start ≠ 0x400000) : Titled r := by
  by_cases hs : m.start = 0x400000
  · have hm : m.filename ≠ [] := hm.resolve_right (fun h => h hs)
    refine .inl ?_
    rw [titled_shows h hm]
    exact hm
  · refine .inr (fun he => hs (first_load ?_))
    have h : Normalizer.Describes ids r.mapping m := h
    rw [← h.first]
    exact he

theorem main_titled {cfg : Normalizer.Config} {h : List Msg} (hn : AllNamed h) {pid : Nat} {m : Normalizer.MMapEv}
    (hm : Normalizer.mainOf cfg (h.map normView) pid = some m) : m.filename ≠ [] ∨ m.start ≠ 0x400000 := by
  obtain ⟨e, h1, h2⟩ := mainOf_from _ _ _ hm
  obtain ⟨x, hx, rfl⟩ := List.mem_map.1 h1
  rw [mapping_view] at h2
  obtain ⟨b, hb, rfl⟩ := Option.map_eq_some_iff.1 h2
  exact hn x hx b hb

theorem told_titled {cfg : Normalizer.Config} (hspe : cfg.hasSpe = false) {h : List Msg} (hn : AllNamed h) {m : Msg} {x : List Callback}
    (ht : Told cfg (h.map normView) (normView m) x) {c : SampleCtx} (hc : .sample c ∈ x) {S : Converter.Setup} {y : MapRef}
    (hy : c.main = some y ∨ ∃ f ∈ Converter.frames S c, f.2 = some y) : Titled y := by
  rcases told_sample (.inl hspe) ht hc with ⟨s, idx, -, -, -, hr⟩ | ⟨h1, h2⟩
  · rcases hy with hy | ⟨f, hf, hfy⟩
    · have hm := ht.2 c hc hr.lost
      unfold Normalizer.MainShown at hm
      simp only at hm
      rw [hy] at hm
      split at hm
      · rename_i k hk
        exact shows_titled hm (main_titled hn hk)
      · split at hm
        · split at hm
          · obtain ⟨r, hr, -, hr2, -⟩ := hm
            cases hr
            exact .inr hr2
          · split at hm
            · cases hk : Normalizer.mainOf cfg (h.map normView) (2 ^ 32 - 1) with
              | none => rw [hk] at hm; exact hm.elim
              | some k => rw [hk] at hm; exact shows_titled hm (main_titled hn hk)
            · cases hm
        · cases hm
    · obtain ⟨g, hg, hs⟩ := spot_mem (frames_view (S := S) hr) hf
      have h2 := hs.2
      rw [hfy] at h2
      cases hb : g.2 with
      | none => rw [hb] at h2; exact h2.elim
      | some b =>
        rw [hb] at h2
        obtain ⟨m', hm', ha⟩ := stack_from hg hb
        exact shows_titled h2 (hn m' hm' b ha)
  · rcases hy with hy | ⟨f, hf, hfy⟩
    · rw [h1] at hy; cases hy
    · rcases h2 S f hf with ⟨-, r, hr, hn⟩ | rfl
      · rw [hfy] at hr
        cases hr
        exact .inl (by rw [hn]; decide)
      · cases hfy

/-- The records of the calls. -/
theorem told_split {cfg : Normalizer.Config} {t : List Msg} {A B : List Callback} {cb : Callback}
    (h : Each (Told cfg) [] (t.map normView) (A ++ cb :: B)) : ∃ pre m post a b B', t = pre ++ m :: post ∧
      Told cfg (pre.reverse.map normView) (normView m) (a ++ cb :: b) ∧ B = b ++ B' ∧
      Each (Told cfg) (normView m :: pre.reverse.map normView) (post.map normView) B' := by
  obtain ⟨pre, e, post, a, b, B', h1, h2, h3, h4⟩ := each_split _ h
  obtain ⟨pre', q, rfl, rfl, hq⟩ := List.map_eq_append_iff.1 h1
  obtain ⟨m, post', rfl, rfl, rfl⟩ := List.map_eq_cons_iff.1 hq
  rw [List.append_nil, ← List.map_reverse] at h2 h4
  exact ⟨pre', m, post', a, b, B', rfl, h2, h3, h4⟩

theorem hexDigits_plain : ∀ (fuel v : Nat), ∀ c ∈ Normalizer.hexDigits fuel v, c ∈ ascii "0123456789abcdef" := by
  have hd : ∀ n, n < 16 → Util.hexDigit n ∈ ascii "0123456789abcdef" := by decide +kernel
  intro fuel
  induction fuel with
  | zero =>
    intro v c hc
    unfold Normalizer.hexDigits at hc
    cases hc
  | succ fuel ih =>
    intro v c hc
    unfold Normalizer.hexDigits at hc
    split at hc
    · rename_i hv
      rw [List.mem_singleton.1 hc]; exact hd v hv
    · rcases List.mem_append.1 hc with hc | hc
      · exact ih _ c hc
      · rw [List.mem_singleton.1 hc]; exact hd _ (Nat.mod_lt _ (by decide))

theorem upTo_self : ∀ (l : Bytes), (∀ c ∈ l, c ≠ 0) → l.takeWhile (· ≠ 0) = l
  | [], _ => rfl
  | c :: l, h => by
    rw [List.takeWhile_cons, if_pos (decide_eq_true (h c List.mem_cons_self)), upTo_self l fun x hx => h x (List.mem_cons_of_mem _ hx)]

theorem hex_upTo (fuel v : Nat) : (Normalizer.hexDigits fuel v).takeWhile (· ≠ 0) = Normalizer.hexDigits fuel v :=
  upTo_self _ fun c hc h => absurd (h ▸ hexDigits_plain fuel v c hc) (by decide)

/-- The contents of a mapping of a profile. -/
theorem shown_area {cfg : Normalizer.Config} {o : List Normalizer.Mapping} {x y : MapRef} {b : Serial.MMap} {p : Profile.Profile}
    {m : Profile.Mapping} (hx : Normalizer.Agrees o x) (hy : Normalizer.Agrees o y) (hxy : y.ptr = x.ptr) (ht : Titled y) (hb : Nameable b)
    (hd : Normalizer.Describes cfg.ids x.mapping (toEv b)) (hm : Converter.ShowsMapping p m y.mapping) : ShowsArea p m b := by
  obtain ⟨r, x0, x1, x2, x3, x4, x5, x6⟩ := hx
  obtain ⟨r', y0, y1, y2, y3, y4, y5, y6⟩ := hy
  rw [hxy, x0] at y0
  cases y0
  obtain ⟨m1, m2, m3, m4, m5⟩ := hm
  have hname : x.mapping.filename = b.filename := by
    rcases hd.name with e | ⟨e1, e2⟩
    · exact e
    · rcases hb with hb | hb
      · exact absurd e1 hb
      · exact absurd e2 hb
  have hn : y.mapping.filename = b.filename := by
    rcases x6 with x6 | x6
    · rcases y6 with y6 | ⟨y6, y7⟩
      · rw [← y6, x6, hname]
      · rcases ht with ht | ht
        · exact absurd y6 ht
        · exact absurd y7 ht
    · obtain ⟨x6, x7⟩ := x6
      rw [hname] at x6
      rcases hb with hb | hb
      · exact absurd x6 hb
      · rw [hd.first] at x7
        exact absurd (first_load x7) hb
  refine ⟨?_, ?_, ?_, fun hb => ?_, fun hb => ?_, fun z hz hz0 => ?_⟩
  · rw [m1, ← y1, x1, hd.first, first_ev]
  · rw [m2, ← y2, x2, hd.limit]; rfl
  · rw [m3, ← y3, x3, hd.offset]; rfl
  · rw [m4, hn]
    unfold Normalizer.nameOrMd5
    rw [if_neg hb]
  · rw [m4, hn, ← y4, x4, hd.md5]
    unfold Normalizer.nameOrMd5
    rw [if_pos hb]
    exact congrArg some (hex_upTo _ _)
  · rw [m5, ← y5, x5]
    have := hd.buildId
    unfold Normalizer.getBuildId at this
    have e : (toEv b).buildId = some z := hz
    simp only [e, Option.getD_some] at this
    rw [if_pos hz0] at this
    obtain ⟨q, -, hq⟩ := Option.map_eq_some_iff.1 this
    rw [← hq]

theorem owner_lt {attrs : List Attr.ProtoFileAttr} {id : Option Nat} {k : Nat} (h : owner attrs id = some k) : k < attrs.length := by
  unfold owner at h
  split at h
  · cases h; omega
  · obtain ⟨i, -, h⟩ := Option.bind_eq_some_iff.1 h
    have := List.mem_of_find?_eq_some h
    rw [List.mem_reverse, List.mem_range] at this
    exact this

theorem log_split {L : Converter.Log} {A B : List Callback} {cb : Callback} (h : Converter.hist L = A ++ cb :: B) :
    ∃ LA o LB, L = LA ++ (cb, o) :: LB ∧ Converter.hist LA = A ∧ Converter.hist LB = B := by
  unfold Converter.hist at h
  obtain ⟨LA, q, rfl, h1, h2⟩ := List.map_eq_append_iff.1 h
  obtain ⟨⟨cb', o⟩, LB, rfl, h3, h4⟩ := List.map_eq_cons_iff.1 h2
  cases h3
  exact ⟨LA, o, LB, rfl, h1, h4⟩

/-- What the mapping of a frame and the mapping shown for it have in common. -/
structure Shown (ids : Normalizer.Ids) (p : Profile.Profile) (m : Profile.Mapping) (b : Serial.MMap) : Prop where
  named : Nameable b
  same : ∃ o x y, Normalizer.Agrees o x ∧ Normalizer.Agrees o y ∧ y.ptr = x.ptr ∧ Titled y ∧ Normalizer.Describes ids x.mapping (toEv b) ∧
    Converter.ShowsMapping p m y.mapping

/-- A conversion: what the converter is told of the records `t`, and what it makes of that. -/
structure Ran (M : Machine) (ids : List (Bytes × Bytes)) (labels options : Nat) (threadTypes : List (Nat × Bytes)) (st : Data.St)
    (ps : List Converter.ProcessProfile) (t : List Msg) (cfg : Normalizer.Config) (S : Converter.Setup) (cbs : List Callback) (L : Converter.Log) :
    Prop where
  conv : Converter.convert S cbs = some (ps, L)
  sane : Converter.Sane S cbs
  told : Each (Told cfg) [] (t.map normView) cbs
  spe : cfg.hasSpe = false
  config : ∃ r, Normalizer.mkConfig (normInput M (withBuildIds M.env.md5 ids st.base.info st.events) r) = some cfg
  refs : ∃ o, ∀ cb ∈ cbs, ∀ x ∈ cb.refs, Normalizer.Agrees o x
  owner : ∀ id, Normalizer.eventIndexFor cfg id = owner st.base.info.attrs id
  new : Normalizer.useLostSample st.base.info.version = some cfg.useLostSample
  options : S.options = options
  labels : S.labels = labels
  threadTypes : S.threadTypes = threadTypes
  attrs : S.attrs = st.base.info.attrs.map attrRec

theorem ran {M : Machine} {ids : List (Bytes × Bytes)} {labels options : Nat} {threadTypes : List (Nat × Bytes)} {b : Bytes}
    {ps : List Converter.ProcessProfile} {st : Data.St} (hb : File.readBytes { env := M.env } b = some (some st))
    (hc : Calm options st.events) (hspe : speTrace st.events = false)
    (h : rawToProfiles M ids labels options threadTypes b = some ps) {t : List Msg}
    (hprep : ∀ r, parseEvents M (rawOpts M options) true true true (withBuildIds M.env.md5 ids st.base.info st.events) st.events = some r →
      r.1.map normView = t.map normView) :
    ∃ cfg S cbs L, Ran M ids labels options threadTypes st ps t cfg S cbs L := by
  have hsh := read_shaped hb
  unfold rawToProfiles at h
  rw [hb] at h
  obtain ⟨r, L, h1, h2⟩ := staged h
  obtain ⟨g1, g2⟩ := given hsh hc h1
  have hconv := h2
  unfold Converter.protoToProfiles at hconv
  cases hp : Normalizer.process (normInput M (withBuildIds M.env.md5 ids st.base.info st.events) r.1) with
  | none => rw [hp] at hconv; cases hconv
  | some cbs =>
    rw [hp] at hconv
    simp only at hconv
    obtain ⟨cfg, hcfg, hrep⟩ := Normalizer.process_main _ cbs g1.typed hp
    have hperm := sort_perm (withBuildIds M.env.md5 ids st.base.info st.events) st.events
    obtain ⟨ow, -, hag⟩ := Normalizer.process_refs hp
    refine ⟨cfg, _, cbs, L, hconv, g2 cbs hp _ rfl, ?_, ?_, ⟨_, hcfg⟩, ⟨ow, hag⟩, fun id => (owner_eq hcfg id).trans rfl, (config_parts hcfg).1,
      rfl, rfl, rfl, rfl⟩
    · have e : (normInput M (withBuildIds M.env.md5 ids st.base.info st.events) r.1).events = t.map normView := hprep r h1
      rw [← e]
      exact hrep
    · rw [(config_parts hcfg).2.1, ← hspe, ← speTrace_eq]
      exact same_any hperm (prep_spec rfl rfl hsh h1).1 _ (fun _ => rfl)

theorem Ran.attrs_length {M : Machine} {ids : List (Bytes × Bytes)} {labels options : Nat} {threadTypes : List (Nat × Bytes)} {st : Data.St}
    {ps : List Converter.ProcessProfile} {t : List Msg} {cfg : Normalizer.Config} {S : Converter.Setup} {cbs : List Callback} {L : Converter.Log}
    (R : Ran M ids labels options threadTypes st ps t cfg S cbs L) : S.attrs.length = st.base.info.attrs.length := by
  rw [R.attrs]; exact List.length_map _

/-- What is shown of a sample in its place. -/
theorem Ran.frames_at {M : Machine} {ids : List (Bytes × Bytes)} {labels options : Nat} {threadTypes : List (Nat × Bytes)} {st : Data.St}
    {ps : List Converter.ProcessProfile} {pre post : List Msg} {m : Msg} {cfg : Normalizer.Config} {S : Converter.Setup} {cbs : List Callback}
    {LA LB : Converter.Log} {c : SampleCtx} {slot : Converter.Slot} {s : Serial.SampleEvent} {k : Nat}
    (R : Ran M ids labels options threadTypes st ps (pre ++ m :: post) cfg S cbs (LA ++ (.sample c, some slot) :: LB))
    (hnt : AllNamed (pre ++ m :: post)) {A B : List Callback} (hcbs : cbs = A ++ .sample c :: B) (hLB : Converter.hist LB = A.reverse)
    (hA : Each (Told cfg) [] (pre.map normView) A) (hx : Told cfg (pre.reverse.map normView) (normView m) [.sample c])
    (hr : Normalizer.Reported cfg (pre.reverse.map normView) (some m.misc) (normSample s) none k c)
    {shows : Profile.Profile → Profile.Mapping → Serial.MMap → Prop}
    (hshows : ∀ r cfg, Normalizer.mkConfig (normInput M (withBuildIds M.env.md5 ids st.base.info st.events) r) = some cfg → ∀ p m b,
      Shown cfg.ids p m b → shows p m b) :
    ∃ p smp, ps[slot.1]? = some p ∧ p.data.sample[slot.2]? = some smp ∧ p.pid = (if options.testBit 0 then s.pid.getD 0 else 0) ∧
      All₂ (ShowsSpot shows (Held st.base.info.attrs (options.testBit 3) (pre ++ [m]) (s.pid.getD 0)) p.data)
        (stackOf (options.testBit 3) pre.reverse m.misc s) smp.locationId := by
  obtain ⟨r0, hcfg⟩ := R.config
  obtain ⟨ow, hag⟩ := R.refs
  have hconv := R.conv
  have hsane := R.sane
  have hspe := R.spe
  have howner := R.owner
  have hrep := R.told
  rw [List.map_append, List.map_cons] at hrep
  have hSo := R.options
  have hpid : Converter.pidOf c = s.pid.getD 0 := by
    unfold Converter.pidOf; rw [hr.sample]; rfl
  obtain ⟨p, smp, hp1, hp2, hall⟩ := Converter.mappings_shown hconv hsane
  refine ⟨p, smp, hp1, hp2, ?_, ?_⟩
  · obtain ⟨st2, bb, mm, r1, -, hinv, -, hmeta, -, hpp, -⟩ := Converter.profile_at hconv hsane hp1
    obtain ⟨m2, q1, q2⟩ := hinv.spid (c, slot) (Converter.mem_placed.2 ⟨LA, LB, rfl⟩)
    rw [hmeta] at q1
    cases q1
    rw [hpp, q2, hpid]
    unfold Converter.Setup.home Converter.Setup.grouped
    rw [hSo]
  · -- its frames
    have hfr := frames_view (S := S) hr
    rw [hSo] at hfr
    have conv : ∀ (f : Converter.Frame) (g : Spot) (id : Nat), IsSpot cfg.ids f g →
        Converter.ShowsFrame S cbs ((.sample c, some slot) :: LB) (Converter.pidOf c) p.data f id →
        ShowsSpot shows (Held st.base.info.attrs (options.testBit 3) (pre ++ [m]) (s.pid.getD 0)) p.data g id := by
      rintro f g id ⟨hfg, -⟩ ⟨hid, l, hl1, hl2, x, hsrc, hx1, hx2⟩
      refine ⟨hid, l, hl1, hl2.trans hfg, ?_⟩
      rw [← hfg]
      obtain ⟨A', c', slot', B', hL', hp', hmem, hex, hre⟩ := hsrc
      have hpart : Each (Told cfg) [] ((pre ++ [m]).map normView) (A ++ [.sample c]) := by
        rw [List.map_append]
        refine each_join _ _ hA ⟨[.sample c], [], rfl, ?_, rfl⟩
        rw [List.append_nil, ← List.map_reverse]
        exact hx
      have hq : A ++ [.sample c] = (Converter.hist B').reverse ++ .sample c' :: (Converter.hist A').reverse := by
        have := congrArg (fun l => (Converter.hist l).reverse) hL'
        simp only [Converter.hist, List.map_cons, List.map_append, List.reverse_cons, List.reverse_append] at this
        unfold Converter.hist at hLB
        rw [hLB, List.reverse_reverse] at this
        rw [this]
        simp [Converter.hist]
      rw [hq] at hpart
      obtain ⟨pre1, m1, post1, a, b', B1, e1, e2, e3, e4⟩ := told_split hpart
      have hin : Callback.sample c' ∈ a ++ .sample c' :: b' := by simp
      rcases told_sample (.inl hspe) e2 hin with ⟨s', idx, hb', hi', -, hr'⟩ | ⟨-, hl⟩
      · right; right
        obtain ⟨g1, hg1, hg2⟩ := spot_mem (frames_view (S := S) hr') hmem
        rw [hSo] at hg1
        have hB1 : ∀ {P : Callback → Bool}, (Converter.hist A').any P = false → B1.any P = false := by
          intro P hP
          rw [← List.any_reverse, e3, List.any_append, Bool.or_eq_false_iff] at hP
          exact hP.2
        have hpid' : s'.pid.getD 0 = s.pid.getD 0 := by
          rw [← hpid, ← hp']
          unfold Converter.pidOf; rw [hr'.sample]; rfl
        have hg1' : (f.1, g1.2) ∈ stackOf (options.testBit 3) pre1.reverse m1.misc s' := by
          have : g1 = (f.1, g1.2) := Prod.ext hg2.1.symm rfl
          rw [← this]; exact hg1
        refine ⟨g1.2, ⟨pre1, m1, s', post1, e1, hb', ?_, hpid', hg1', ?_, ?_⟩, ?_, ?_⟩
        · rw [← howner, hi']; simp
        · rw [← hpid]; exact no_maps e4 (hB1 hre)
        · rw [← hpid]; exact no_execs e4 (hB1 hex)
        · intro hn
          refine hx1 ?_
          cases x with
          | none => rfl
          | some y => have := hg2.2; rw [hn] at this; exact this.elim
        · intro bb hbb
          have hsh2 := hg2.2
          rw [hbb] at hsh2
          cases x with
          | none => exact hsh2.elim
          | some y =>
            obtain ⟨k1, mm, mp, k2, ⟨c2, hc2, z, hz, hzp, rfl⟩, k4⟩ := hx2 y rfl
            refine ⟨k1, mm, k2, ?_⟩
            obtain ⟨m', hm', ha⟩ := stack_from hg1 hbb
            have hm't : m' ∈ pre ++ m :: post := by
              have : m' ∈ pre ++ [m] := by rw [e1]; exact List.mem_append_left _ (List.mem_reverse.1 hm')
              rcases List.mem_append.1 this with h | h
              · exact List.mem_append_left _ h
              · rw [List.mem_singleton.1 h]; simp
            have hc'm : Callback.sample c' ∈ cbs := by
              have : Callback.sample c' ∈ A ++ [.sample c] := by rw [hq]; simp
              rw [hcbs]
              rcases List.mem_append.1 this with h | h
              · exact List.mem_append_left _ h
              · rw [List.mem_singleton.1 h]; simp
            have hzt : Titled z := by
              obtain ⟨u, v, huv⟩ := List.append_of_mem hc2
              rw [← List.map_cons, ← List.map_append, huv] at hrep
              obtain ⟨pre2, m2, post2, a2, b2, B2, f1, f2, -, -⟩ := told_split hrep
              refine told_titled hspe (h := pre2.reverse) (fun x hx => hnt x ?_) f2 (c := c2) (by simp) hz
              rw [f1]; exact List.mem_append_left _ (List.mem_reverse.1 hx)
            exact hshows _ cfg hcfg _ _ _ ⟨hnt m' hm't bb ha, ow, y, z, hag _ hc'm y (Converter.used_refs (S := S) (.inr ⟨_, hmem, rfl⟩)),
              hag _ hc2 z (Converter.used_refs hz), hzp, hzt, hsh2, k4⟩
      · rcases hl S _ hmem with ⟨h1, -⟩ | h1
        · exact .inl h1
        · right; left
          have h3 : f.1 = 0 ∧ x = none := by
            have := Prod.mk.inj h1
            exact this
          exact ⟨h3.1, hx1 h3.2⟩
    clear hp2
    generalize smp.locationId = lids at hall
    generalize Converter.frames S c = fs at hall hfr
    generalize stackOf (options.testBit 3) pre.reverse m.misc s = gs at hfr
    induction hall generalizing gs with
    | nil => cases hfr; exact .nil
    | cons hh _ ih =>
      cases hfr with
      | cons h1 h2 => exact .cons (conv _ _ _ h1 hh) (ih _ h2)

/-- The place of a sample. -/
theorem Ran.place {M : Machine} {ids : List (Bytes × Bytes)} {labels options : Nat} {threadTypes : List (Nat × Bytes)} {st : Data.St}
    {ps : List Converter.ProcessProfile} {pre post : List Msg} {m : Msg} {cfg : Normalizer.Config} {S : Converter.Setup} {cbs : List Callback}
    {L : Converter.Log} {s : Serial.SampleEvent} {k : Nat}
    (R : Ran M ids labels options threadTypes st ps (pre ++ m :: post) cfg S cbs L) (hbody : m.body = .sample s)
    (hk : Verif.Whole.owner st.base.info.attrs s.id = some k) :
    ∃ A B c LA LB slot, cbs = A ++ .sample c :: B ∧ L = LA ++ (.sample c, some slot) :: LB ∧ Converter.hist LA = B.reverse ∧
      Converter.hist LB = A.reverse ∧ Each (Told cfg) [] (pre.map normView) A ∧
      Told cfg (pre.reverse.map normView) (normView m) [.sample c] ∧
      Normalizer.Reported cfg (pre.reverse.map normView) (some m.misc) (normSample s) none k c := by
  have hrep := R.told
  rw [List.map_append, List.map_cons] at hrep
  obtain ⟨A, rest, hcbs, hA, hrest⟩ := each_append _ _ hrep
  obtain ⟨x, B, hxB, hx, hB⟩ := hrest
  rw [List.append_nil, ← List.map_reverse] at hx
  have hx1 := hx.1
  unfold normView at hx1
  rw [hbody] at hx1
  have hx1 : Normalizer.ReportsSample cfg (pre.reverse.map normView) (some m.misc) (normSample s) x := hx1
  unfold Normalizer.ReportsSample at hx1
  rw [show (normSample s).id = s.id from rfl, R.owner, hk] at hx1
  obtain ⟨c, rfl, hr⟩ := hx1
  subst hxB
  have hhist := (Converter.accepted_samples_placed R.conv).2.1
  have hsplit : Converter.hist L = B.reverse ++ .sample c :: A.reverse := by
    rw [hhist, hcbs]; simp
  obtain ⟨LA, o, LB, rfl, hLA, hLB⟩ := log_split hsplit
  obtain ⟨st', -, -, h0, -⟩ := Converter.convert_state R.conv
  have hacc : Converter.Accepted S c := by
    refine ⟨?_, fun hl => ?_⟩
    · rw [hr.index, R.attrs_length]; exact owner_lt hk
    · rw [hr.lost] at hl; cases hl.1
  have ho : o.isSome := (h0.acc (.sample c, o) (by simp)).2 ⟨c, rfl, hacc⟩
  obtain ⟨slot, rfl⟩ := Option.isSome_iff_exists.1 ho
  exact ⟨A, B, c, LA, LB, slot, hcbs, rfl, hLA, hLB, hA, hx, hr⟩

/-- The sample counts there. -/
theorem Ran.counts_at {M : Machine} {ids : List (Bytes × Bytes)} {labels options : Nat} {threadTypes : List (Nat × Bytes)} {st : Data.St}
    {ps : List Converter.ProcessProfile} {t : List Msg} {cfg : Normalizer.Config} {S : Converter.Setup} {cbs : List Callback}
    {LA LB : Converter.Log} {c : SampleCtx} {slot : Converter.Slot}
    (R : Ran M ids labels options threadTypes st ps t cfg S cbs (LA ++ (.sample c, some slot) :: LB))
    (hk : c.attrIndex < st.base.info.attrs.length) {p : Converter.ProcessProfile} {smp : Profile.Sample} (hp1 : ps[slot.1]? = some p)
    (hp2 : p.data.sample[slot.2]? = some smp) : 1 ≤ smp.value.getD (2 * c.attrIndex) 0 := by
  have hv := (((Converter.sample_values_partial R.conv hp1 hp2).2 c.attrIndex (by rw [R.attrs_length]; exact hk)).1)
  rw [List.getD_eq_getElem?_getD, hv, Option.getD_some]
  have : (c, slot) ∈ (Converter.placed (LA ++ (.sample c, some slot) :: LB)).filter
      (fun q => decide (q.2 = (slot.1, slot.2) ∧ q.1.attrIndex = c.attrIndex)) :=
    List.mem_filter.2 ⟨Converter.mem_placed.2 ⟨LA, LB, rfl⟩, by simp⟩
  have := List.length_pos_of_mem this
  omega

/-- What is shown of the events that reach the converter, with what is known of the mappings shown. -/
theorem sample_shown_from {M : Machine} {ids : List (Bytes × Bytes)} {labels options : Nat} {threadTypes : List (Nat × Bytes)} {b : Bytes}
    {ps : List Converter.ProcessProfile} {st : Data.St} (hb : File.readBytes { env := M.env } b = some (some st))
    (hc : Calm options st.events) (hspe : speTrace st.events = false)
    (h : rawToProfiles M ids labels options threadTypes b = some ps) {t pre post : List Msg} {m : Msg} {s : Serial.SampleEvent} {k : Nat}
    (hprep : ∀ r, parseEvents M (rawOpts M options) true true true (withBuildIds M.env.md5 ids st.base.info st.events) st.events = some r →
      r.1.map normView = t.map normView) (hnt : AllNamed t) (hm : t = pre ++ m :: post) (hbody : m.body = .sample s)
    (hk : owner st.base.info.attrs s.id = some k) {shows : Profile.Profile → Profile.Mapping → Serial.MMap → Prop}
    (hshows : ∀ r cfg, Normalizer.mkConfig (normInput M (withBuildIds M.env.md5 ids st.base.info st.events) r) = some cfg → ∀ p m b,
      Shown cfg.ids p m b → shows p m b) :
    ∃ p ∈ ps, p.pid = (if options.testBit 0 then s.pid.getD 0 else 0) ∧ ∃ smp ∈ p.data.sample, 1 ≤ smp.value.getD (2 * k) 0 ∧
      All₂ (ShowsSpot shows (Held st.base.info.attrs (options.testBit 3) (pre ++ [m]) (s.pid.getD 0)) p.data)
        (stackOf (options.testBit 3) pre.reverse m.misc s) smp.locationId := by
  obtain ⟨cfg, S, cbs, L, R⟩ := ran hb hc hspe h hprep
  subst hm
  obtain ⟨A, B, c, LA, LB, slot, hcbs, rfl, -, hLB, hA, hx, hr⟩ := R.place hbody hk
  obtain ⟨p, smp, hp1, hp2, hpid, hall⟩ := R.frames_at hnt hcbs hLB hA hx hr hshows
  refine ⟨p, List.mem_of_getElem? hp1, hpid, smp, List.mem_of_getElem? hp2, ?_, hall⟩
  have := R.counts_at (by rw [hr.index]; exact owner_lt hk) hp1 hp2
  rw [hr.index] at this
  exact this

/-- `sample_shown_partial` with what is known of the mappings shown. -/
theorem sample_shown_by {M : Machine} {ids : List (Bytes × Bytes)} {labels options : Nat} {threadTypes : List (Nat × Bytes)} {b : Bytes}
    {ps : List Converter.ProcessProfile} {st : Data.St} (hb : File.readBytes { env := M.env } b = some (some st))
    (hc : Calm options st.events) (hs : Steady st.events) (hspe : speTrace st.events = false)
    (h : rawToProfiles M ids labels options threadTypes b = some ps) {t pre post : List Msg} {m : Msg} {s : Serial.SampleEvent} {k : Nat}
    (ht : Timeline st.base.info.attrs st.events t) (hm : t = pre ++ m :: post) (hbody : m.body = .sample s)
    (hk : owner st.base.info.attrs s.id = some k) {shows : Profile.Profile → Profile.Mapping → Serial.MMap → Prop}
    (hshows : ∀ r cfg, Normalizer.mkConfig (normInput M (withBuildIds M.env.md5 ids st.base.info st.events) r) = some cfg → ∀ p m b,
      Shown cfg.ids p m b → shows p m b) :
    ∃ p ∈ ps, p.pid = (if options.testBit 0 then s.pid.getD 0 else 0) ∧ ∃ smp ∈ p.data.sample, 1 ≤ smp.value.getD (2 * k) 0 ∧
      All₂ (ShowsSpot shows (Held st.base.info.attrs (options.testBit 3) (pre ++ [m]) (s.pid.getD 0)) p.data)
        (stackOf (options.testBit 3) pre.reverse m.misc s) smp.locationId := by
  have hts : t = sortEvents (withBuildIds M.env.md5 ids st.base.info st.events) st.events := timeline_sort (by rw [attrs_kept]; exact ht)
  refine sample_shown_from hb hc hspe h (fun r hr => by rw [prep_steady (read_shaped hb) hs hr, ← hts]) (fun x hx => hs.named x ?_) hm hbody hk hshows
  rw [hts] at hx
  exact (sort_perm (withBuildIds M.env.md5 ids st.base.info st.events) st.events).mem_iff.1 hx

/-- C109. What the profiles made from the bytes of a recording show of a sample: one of the profiles — that of the process of the sample, if
there is one for each process — has a profile sample that counts for the event of the sample, and its frames are those of the stack
of the sample, one by one: at the same address, and in the mapping that a sample of the process with this address in its stack
had there, the same one or one before it, between which the process has neither mapped anything there nor executed another program. The
mapping is shown with its range, its offset in the file, the name of the file and the build ID recorded with it. Whatever the bytes
are, if mappings have names, those of huge pages and parts of one mapping are not among them (`Steady`), no process has the name of the
mapping of lost samples (`Calm`) and there is no trace data of ARM SPE. -/
theorem sample_shown_partial {M : Machine} {ids : List (Bytes × Bytes)} {labels options : Nat} {threadTypes : List (Nat × Bytes)} {b : Bytes}
    {ps : List Converter.ProcessProfile} {st : Data.St} (hb : File.readBytes { env := M.env } b = some (some st))
    (hc : Calm options st.events) (hs : Steady st.events) (hspe : speTrace st.events = false)
    (h : rawToProfiles M ids labels options threadTypes b = some ps) {t pre post : List Msg} {m : Msg} {s : Serial.SampleEvent} {k : Nat}
    (ht : Timeline st.base.info.attrs st.events t) (hm : t = pre ++ m :: post) (hbody : m.body = .sample s)
    (hk : owner st.base.info.attrs s.id = some k) :
    ∃ p ∈ ps, p.pid = (if options.testBit 0 then s.pid.getD 0 else 0) ∧ ∃ smp ∈ p.data.sample, 1 ≤ smp.value.getD (2 * k) 0 ∧
      All₂ (ShowsSpot ShowsArea (Held st.base.info.attrs (options.testBit 3) (pre ++ [m]) (s.pid.getD 0)) p.data)
        (stackOf (options.testBit 3) pre.reverse m.misc s) smp.locationId := 
  sample_shown_by hb hc hs hspe h ht hm hbody hk fun _ _ _ _ _ _ hsh => by
    obtain ⟨hn, o, x, y, h1, h2, h3, h4, h5, h6⟩ := hsh
    exact shown_area h1 h2 h3 h4 hn h5 h6

/-! ### Examples -/

section
open Verif.File (exFile exMetadata fileImage)
open Verif.Serial (exMsg exMap exSample exInfo exEnv)

def steadyB (l : List Msg) : Bool :=
  l.all (fun m => match areaOf m with | some b => decide (Nameable b) | none => true) &&
  l.all (fun m => match m.body with | .mmap b => !HugePages.isHugePage (hugeMap false b) | _ => true) &&
  l.all (fun m => l.all (fun m' => match m.body, m'.body with | .mmap b, .mmap b' => !decide (Continues b b') | _, _ => true))

theorem steady_of {l : List Msg} (h : steadyB l = true) : Steady l := by
  unfold steadyB at h
  simp only [Bool.and_eq_true, List.all_eq_true] at h
  obtain ⟨⟨h1, h2⟩, h3⟩ := h
  refine ⟨fun m hm b hb => ?_, fun m hm b hb hh => ?_, fun m hm m' hm' b b' hb hb' hh => ?_⟩
  · have := h1 m hm
    rw [hb] at this
    simpa using this
  · have := h2 m hm
    rw [hb] at this
    simp only at this
    rw [(HugePages.isHugePage_iff (hugeMap false b)).2 hh] at this
    cases this
  · have := h3 m hm m' hm'
    rw [hb, hb'] at this
    simp only [Bool.not_eq_true', decide_eq_false_iff_not] at this
    exact this hh

def inOrderB (attrs : List Attr.ProtoFileAttr) (l : List Msg) : Bool :=
  attrs.all (fun a => a.attr.sampleType.testBit 2) && decide (l.Pairwise (fun a b => a.timestamp ≤ b.timestamp))

theorem inOrder_of {attrs : List Attr.ProtoFileAttr} {l : List Msg} (h : inOrderB attrs l = true) : Timeline attrs l l := by
  unfold inOrderB at h
  simp only [Bool.and_eq_true, List.all_eq_true, decide_eq_true_eq] at h
  exact .inl ⟨h.1, h.2, fun _ => rfl⟩

/-- The stack of the sample at a place, as addresses and names, if the recording meets the conditions of `sample_shown_partial`. -/
def stackAtB (options : Nat) (st : Data.St) (n : Nat) : Option (Option Nat × List (Nat × Option Bytes)) :=
  match st.events[n]? with
  | some m =>
    match m.body with
    | .sample s =>
      if calmB options st.events && steadyB st.events && !speTrace st.events && inOrderB st.base.info.attrs st.events then
        some (owner st.base.info.attrs s.id, (stackOf (options.testBit 3) (st.events.take n).reverse m.misc s).map (fun g => (g.1, g.2.map (·.filename))))
      else none
    | _ => none
  | none => none

theorem stackAt_of {options : Nat} {st : Data.St} {n : Nat} {k : Option Nat} {r : List (Nat × Option Bytes)} (h : stackAtB options st n = some (k, r)) :
    Calm options st.events ∧ Steady st.events ∧ speTrace st.events = false ∧ ∃ pre m post s, Timeline st.base.info.attrs st.events (pre ++ m :: post) ∧
      m.body = .sample s ∧ owner st.base.info.attrs s.id = k ∧
      (stackOf (options.testBit 3) pre.reverse m.misc s).map (fun g => (g.1, g.2.map (·.filename))) = r := by
  unfold stackAtB at h
  split at h
  · rename_i m hm
    split at h
    · rename_i s hs
      split at h
      · rename_i hc
        cases h
        simp only [Bool.and_eq_true, Bool.not_eq_true'] at hc
        obtain ⟨⟨⟨h1, h2⟩, h3⟩, h4⟩ := hc
        refine ⟨calm_of h1, steady_of h2, h3, st.events.take n, m, st.events.drop (n + 1), s, ?_, hs, rfl, rfl⟩
        have : st.events = st.events.take n ++ m :: st.events.drop (n + 1) := by
          obtain ⟨hlt, he⟩ := List.getElem?_eq_some_iff.1 hm
          rw [← he, ← List.drop_eq_getElem_cons hlt, List.take_append_drop]
        rw [← this]
        exact inOrder_of h4
      · cases h
    · cases h
  · cases h

/-- A sample with a call chain: a mark, its own address, and two return addresses, the second in no mapping. -/
def chainMsg (ip time : Nat) : Msg :=
  exMsg 9 2 (.sample { exSample with ip := some ip, time := some time, callchain := [2 ^ 64 - 512, ip, 0x4301, 0x9000], branches := [], addr := some 0x4400 })

/-- Ranges, offsets, names and build IDs of mappings. -/
def mapsOf (ps : List Converter.ProcessProfile) : List (List (List Nat × List Bytes)) :=
  ps.map fun p => p.data.mapping.map (fun m => ([m.memoryStart, m.memoryLimit, m.fileOffset],
    [p.data.stringTable.getD m.filename.toNat [], p.data.stringTable.getD m.buildId.toNat []]))

def exStack : List Msg := [commMsg 10 1 (ascii "sh"), mapMsg 2, sampleMsg 2 0x4200 3, chainMsg 0x4100 4]

/-- The conditions are met by the bytes of a recording with a sample that has a stack of three: the data, the instruction and its caller. -/
example : ∃ st, File.readBytes { env := exEnv } (fileImage (recordingOf exStack)) = some (some st) ∧
    Calm 9 st.events ∧ Steady st.events ∧ speTrace st.events = false ∧ (∃ pre m post s, Timeline st.base.info.attrs st.events (pre ++ m :: post) ∧
      m.body = .sample s ∧ owner st.base.info.attrs s.id = some 0 ∧ (stackOf true pre.reverse m.misc s).map (fun g => (g.1, g.2.map (·.filename))) =
        [(0x4400, some (ascii "/usr/lib/libc.so")), (0x4100, some (ascii "/usr/lib/libc.so")), (0x4300, some (ascii "/usr/lib/libc.so"))]) ∧
    (rawToProfiles exMachine [] 0 9 [] (fileImage (recordingOf exStack))).map layout =
      some [[[[1, 0, 0], [2, 2, 0x4200], [3, 2, 0x4400], [4, 2, 0x4100], [5, 2, 0x4300]], [[1, 0, 1], [2, 0x4000, 0x5000]], [[1, 2], [3, 4, 5]]]] ∧
    (rawToProfiles exMachine [] 0 9 [] (fileImage (recordingOf exStack))).map mapsOf =
      some [[([0, 1, 0], [[], []]), ([0x4000, 0x5000, 0x2000], [ascii "/usr/lib/libc.so", ascii "abcd0102"])]] := by
  have h1 : ((File.readBytes { env := exEnv } (fileImage (recordingOf exStack))).bind id).bind (fun st => stackAtB 9 st 3) = some (some 0,
        [(0x4400, some (ascii "/usr/lib/libc.so")), (0x4100, some (ascii "/usr/lib/libc.so")), (0x4300, some (ascii "/usr/lib/libc.so"))]) := by
    decide +kernel
  have h2 : (rawToProfiles exMachine [] 0 9 [] (fileImage (recordingOf exStack))).map layout =
      some [[[[1, 0, 0], [2, 2, 0x4200], [3, 2, 0x4400], [4, 2, 0x4100], [5, 2, 0x4300]], [[1, 0, 1], [2, 0x4000, 0x5000]], [[1, 2], [3, 4, 5]]]] := by
    decide +kernel
  have h3 : (rawToProfiles exMachine [] 0 9 [] (fileImage (recordingOf exStack))).map mapsOf =
      some [[([0, 1, 0], [[], []]), ([0x4000, 0x5000, 0x2000], [ascii "/usr/lib/libc.so", ascii "abcd0102"])]] := by decide +kernel
  cases hr : File.readBytes { env := exEnv } (fileImage (recordingOf exStack)) with
  | none => rw [hr] at h1; cases h1
  | some o =>
    cases o with
    | none => rw [hr] at h1; cases h1
    | some st =>
      rw [hr] at h1
      obtain ⟨k1, k2, k3, k4⟩ := stackAt_of h1
      exact ⟨st, rfl, k1, k2, k3, k4, h2, h3⟩

/-- The mapping after that of the example, in memory and in the file. -/
def nextMsg (time : Nat) : Msg :=
  exMsg 10 (2 + 2 ^ 14) (.mmap { exMap with start := 0x5000, pgoff := 0x3000, info := { exInfo with time := some time } })

/-- C109 fails for mappings that go on where another one ends: one mapping is shown for both, which the recording does not have. -/
theorem sample_shown_merged_violated :
    (rawToProfiles exMachine [] 0 1 [] (fileImage (recordingOf [mapMsg 2, nextMsg 3, sampleMsg 2 0x4200 4]))).map mapsOf =
      some [[([0, 1, 0], [[], []]), ([0x4000, 0x6000, 0x2000], [ascii "/usr/lib/libc.so", ascii "abcd0102"])]] := by decide +kernel

end

end Verif.Whole
