import Verif.Normalizer.Run
import Verif.Normalizer.Tables
import Verif.Normalizer.Main

/-! # Properties of the normalizer -/

namespace Verif.Normalizer

/-! ## C33: which mapping an address gets -/

/-- Everything the handler is told follows from the history of events: each sample, lost sample, mapping
and command name is reported as `Spec.lean` says. -/
theorem process_reports (inp : Input) (cbs : List Callback) (ht : ∀ e ∈ inp.events, e.Typed)
    (h : process inp = some cbs) :
    ∃ cfg, mkConfig inp = some cfg ∧ ReportsAll cfg [] inp.events cbs := by
  unfold process at h
  cases hc : mkConfig inp with
  | none => rw [hc] at h; cases h
  | some cfg =>
    rw [hc] at h
    cases hr : runFrom cfg {} inp.events with
    | none => simp [hr] at h
    | some r =>
      simp [hr] at h
      refine ⟨cfg, rfl, ?_⟩
      rw [← h]
      exact (run_ok inp.events (inv2_init cfg) ht hr).2

/-- A mapping at 4096..8192 that a newer one overlaps. -/
def overlapped : Input :=
  { attrs := [{}]
    events := [.mmap { pid := 1, start := 4096, len := 4096, filename := ascii "/a" },
               .mmap { pid := 1, start := 6144, len := 4096, filename := ascii "/b" },
               .fork 2 1 2,
               .sample (some 2) { pid := some 2, ip := 7000, callchain := [2 ^ 64 - 512, 5000] }] }

/-- The first address of a mapping reported for a call, and those of its frames. -/
def seen : Callback → List (Option Nat)
  | .sample c => (c.sampleMap.map (·.mapping.start)) :: c.callchain.map (fun l => l.mapping.map (·.mapping.start))
  | _ => []

/-- The hypotheses are met: the child of a fork has the parent's mappings, the newer one above the older. -/
example : (∀ e ∈ overlapped.events, e.Typed) ∧
    (process overlapped).map (·.map seen) = some [[], [], [some 6144, none, some 4096]] := by
  refine ⟨?_, by decide +kernel⟩
  intro e he m hm
  simp only [overlapped, List.mem_cons, List.not_mem_nil, or_false] at he
  rcases he with rfl | rfl | rfl | rfl <;> simp only [Ev.mapping, reduceCtorEq, Option.some.injEq] at hm
  all_goals subst hm; simp [MMapEv.Typed]

theorem expected_covers {es : List Ev} {pid x : Nat} {ctx : ACtx} {m : MMapEv} (h : expected es pid x ctx = some m) :
    m.covers x = true := by
  rw [expected_eq] at h
  repeat' split at h
  all_goals first | cases h | exact newest_covers _ _ _ _ h

/-- Does a mapping contain an address? -/
def Contains (x : Nat) (r : MapRef) : Prop := r.mapping.start ≤ x ∧ x < r.mapping.limit

theorem shows_contains {ids : Ids} {es : List Ev} {pid x : Nat} {ctx : ACtx} {o : Option MapRef} {r : MapRef}
    (h : Shows ids o (expected es pid x ctx)) (hr : o = some r) : Contains x r := by
  subst hr
  cases he : expected es pid x ctx with
  | none => rw [he] at h; exact h.elim
  | some m =>
    rw [he] at h
    have hc := expected_covers he
    unfold MMapEv.covers at hc
    rw [decide_eq_true_eq] at hc
    have hd : Describes ids r.mapping m := h
    unfold Contains
    rw [hd.first, hd.limit]
    exact ⟨hc.2.1, hc.2.2⟩

/-- The addresses of a sample lie in the mappings given for them. -/
structure Located (c : SampleCtx) : Prop where
  ip : ∀ r, c.sampleMap = some r → Contains c.sample.ip r
  addr : ∀ a r, c.sample.addr = some a → c.addrMap = some r → Contains a r
  chain : ∀ l ∈ c.callchain, ∀ r, l.mapping = some r → Contains l.ip r
  branches : ∀ b ∈ c.branchStack, (∀ r, b.from_.mapping = some r → Contains b.from_.ip r) ∧
    (∀ r, b.to.mapping = some r → Contains b.to.ip r)

theorem reported_located {cfg : Config} {es : List Ev} {hm : Option Nat} {s : SampleEv} {rc : Option Spe.Record}
    {idx : Nat} {c : SampleCtx} (h : Reported cfg es hm s rc idx c) : Located c := by
  constructor
  · intro r hr; rw [h.sample]; exact shows_contains h.ip hr
  · intro a r ha hr
    have := h.addr
    rw [← h.sample, ha] at this
    exact shows_contains this hr
  · intro l hl r hr
    obtain ⟨f, -, h1, h2⟩ := h.chain.left l hl
    cases hf : f.2 with
    | none => rw [hf, hr] at h2; exact h2.elim
    | some ctx =>
      rw [hf] at h2
      rw [h1]
      exact shows_contains h2 hr
  · intro b hb
    obtain ⟨bs, sb, e, h1, h2⟩ := h.branches
    rw [e, List.mem_append] at hb
    rcases hb with hb | hb
    · obtain ⟨f, -, g1, g2, -, -, -, -, -, -, g3, g4⟩ := h1.left b hb
      exact ⟨fun r hr => by rw [g1]; exact shows_contains g3 hr, fun r hr => by rw [g2]; exact shows_contains g4 hr⟩
    · obtain ⟨r', -, -, g1, g2, g3, -, g4⟩ := h2 b hb
      refine ⟨fun r hr => ?_, fun r hr => by rw [g3]; exact shows_contains g4 hr⟩
      rw [g1]
      rw [g2] at hr
      exact shows_contains h.ip hr

theorem lost_member {cfg : Config} {l : LostEv} {cbs : List Callback} {c : SampleCtx} (h : ReportsLost cfg l cbs)
    (hc : Callback.sample c ∈ cbs) : c.lost = true := by
  unfold ReportsLost at h
  split at h
  · subst h; cases hc
  · obtain ⟨r, rfl, -⟩ := h
    rw [List.mem_replicate] at hc
    have := hc.2
    injection this with this
    rw [this]

theorem mmap_member {cfg : Config} {m : MMapEv} {cbs : List Callback} {c : SampleCtx} (h : ReportsMmap cfg m cbs)
    (hc : Callback.sample c ∈ cbs) : False := by
  unfold ReportsMmap at h
  split at h
  · subst h; cases hc
  · obtain ⟨r, rfl, -⟩ := h
    simp at hc

theorem reports_located {cfg : Config} {es : List Ev} {e : Ev} {cbs : List Callback} {c : SampleCtx}
    (h : Reports cfg es e cbs) (hc : Callback.sample c ∈ cbs) (hl : c.lost = false) : Located c := by
  have nil : cbs = [] → Located c := by intro h0; subst h0; cases hc
  cases e with
  | mmap m => rw [Reports] at h; exact (mmap_member h hc).elim
  | comm misc c' => rw [Reports] at h; obtain ⟨b, rfl, -⟩ := h; simp at hc
  | fork => exact nil h
  | cgroup => exact nil h
  | lostSamples l =>
    rw [Reports] at h
    split at h
    · rw [lost_member h hc] at hl; cases hl
    · exact nil h
  | lost l =>
    rw [Reports] at h
    split at h
    · exact nil h
    · rw [lost_member h hc] at hl; cases hl
  | sample misc s =>
    rw [Reports] at h
    unfold ReportsSample at h
    split at h
    · exact nil h
    · obtain ⟨c', rfl, h⟩ := h
      simp at hc
      rw [hc]
      exact reported_located h
  | auxtraceInfo => exact nil h
  | auxtrace data =>
    rw [Reports] at h
    split at h
    · cases data with
      | none => rw [ReportsTrace] at h; exact nil h
      | some data =>
        rw [ReportsTrace] at h
        obtain ⟨rs, d, -, h⟩ := h
        obtain ⟨r, -, c', e, h⟩ := h.left _ hc
        injection e with e
        rw [e]
        exact reported_located h
    · exact nil h
  | ksymbol =>
    rw [Reports] at h
    split at h
    · exact (mmap_member h hc).elim
    · exact nil h
  | other => exact nil h

theorem reportsAll_located {cfg : Config} (es : List Ev) : ∀ {past : List Ev} {cbs : List Callback} {c : SampleCtx},
    ReportsAll cfg past es cbs → Callback.sample c ∈ cbs → c.lost = false → Located c := by
  induction es with
  | nil => intro past cbs c h hc; rw [ReportsAll] at h; subst h; cases hc
  | cons e es ih =>
    intro past cbs c h hc hl
    obtain ⟨a, b, rfl, h1, h2⟩ := h
    rcases List.mem_append.1 hc with hc | hc
    · exact reports_located h1 hc hl
    · exact ih h2 hc hl

/-- Whatever the history, every address of a reported sample lies in the mapping given for it. -/
theorem mapping_contains (inp : Input) (cbs : List Callback) (ht : ∀ e ∈ inp.events, e.Typed)
    (h : process inp = some cbs) (c : SampleCtx) (hc : .sample c ∈ cbs) (hl : c.lost = false) : Located c := by
  obtain ⟨cfg, -, h⟩ := process_reports inp cbs ht h
  exact reportsAll_located _ h hc hl

/-- In a history without an `exec` over mappings, and without a fork onto a stale process number from a process
without mappings, the mapping used for an address is the one the process really has there. The full property
drops these two conditions: see `lookup_exec_violated` and `lookup_fork_violated`. -/
theorem lookup_ideal_partial (es : List Ev) (h : Plain es) (pid x : Nat) : newest es pid x = ideal es pid x :=
  plain_ideal es h pid x

/-- A plain history with a fork and an exec. -/
example : Plain [.comm 8192 { pid := 5, tid := 5 }, .fork 2 1 2, .mmap { pid := 1, start := 4096, len := 4096 }] ∧
    (newest [.comm 8192 { pid := 5, tid := 5 }, .fork 2 1 2, .mmap { pid := 1, start := 4096, len := 4096 }] 2 5000).isSome := by
  refine ⟨⟨⟨⟨trivial, ?_, ?_⟩, ?_, ?_⟩, ?_, ?_⟩, by decide⟩
  · intro pid h; cases h
  · intro c p t h; cases h
  · intro pid h; cases h
  · intro c p t h hm
    injection h with h1 h2 h3
    subst h1; subst h2
    decide
  · intro pid h
    simp only [Ev.execs, Bool.and_eq_true, beq_iff_eq] at h
    rw [← h.1.1]
    decide
  · intro c p t h; cases h

/-- The full property fails: after an `exec` the old mappings of the process are still used. -/
theorem lookup_exec_violated :
    ∃ (inp : Input) (c : SampleCtx) (cbs : List Callback), (∀ e ∈ inp.events, e.Typed) ∧
      process inp = some (cbs ++ [.sample c]) ∧ inp.events = [
        .mmap { pid := 1, start := 4096, len := 4096, filename := ascii "/old" },
        .comm 8192 { pid := 1, tid := 1, comm := ascii "new" },
        .sample (some 2) { pid := some 1, ip := 5000 }] ∧
      ideal (inp.events.take 2).reverse 1 5000 = none ∧
      c.sampleMap.map (·.mapping.filename) = some (ascii "/old") := by
  let inp : Input := { attrs := [{ commExec := true }], events := [
        .mmap { pid := 1, start := 4096, len := 4096, filename := ascii "/old" },
        .comm 8192 { pid := 1, tid := 1, comm := ascii "new" },
        .sample (some 2) { pid := some 1, ip := 5000 }] }
  refine ⟨inp, { misc := some 2, sample := { pid := some 1, ip := 5000 }, sampleMap := some ⟨0, ⟨ascii "/old", ⟨[], .missing⟩, 4096, 8192, 0, 0⟩⟩ },
    [.mmap 1 ⟨0, ⟨ascii "/old", ⟨[], .missing⟩, 4096, 8192, 0, 0⟩⟩, .comm { pid := 1, tid := 1, comm := ascii "new" } true],
    ?_, by decide +kernel, rfl, by decide, by decide⟩
  intro e he m hm
  simp only [inp, List.mem_cons, List.not_mem_nil, or_false] at he
  rcases he with rfl | rfl | rfl <;> simp only [Ev.mapping, reduceCtorEq, Option.some.injEq] at hm
  subst hm; simp [MMapEv.Typed]

/-- The full property fails: a process number is reused by a fork from a process without mappings, and keeps the
mappings of the dead process. -/
theorem lookup_fork_violated :
    ∃ (inp : Input) (c : SampleCtx) (cbs : List Callback), (∀ e ∈ inp.events, e.Typed) ∧
      process inp = some (cbs ++ [.sample c]) ∧ inp.events = [
        .mmap { pid := 7, start := 4096, len := 4096, filename := ascii "/old" },
        .fork 7 2 7,
        .sample (some 2) { pid := some 7, ip := 5000 }] ∧
      ideal (inp.events.take 2).reverse 7 5000 = none ∧
      c.sampleMap.map (·.mapping.filename) = some (ascii "/old") := by
  let inp : Input := { attrs := [{}], events := [
        .mmap { pid := 7, start := 4096, len := 4096, filename := ascii "/old" },
        .fork 7 2 7,
        .sample (some 2) { pid := some 7, ip := 5000 }] }
  refine ⟨inp, { misc := some 2, sample := { pid := some 7, ip := 5000 }, main := some ⟨0, ⟨ascii "/old", ⟨[], .missing⟩, 4096, 8192, 0, 0⟩⟩, sampleMap := some ⟨0, ⟨ascii "/old", ⟨[], .missing⟩, 4096, 8192, 0, 0⟩⟩ },
    [.mmap 7 ⟨0, ⟨ascii "/old", ⟨[], .missing⟩, 4096, 8192, 0, 0⟩⟩],
    ?_, by decide +kernel, rfl, by decide, by decide⟩
  intro e he m hm
  simp only [inp, List.mem_cons, List.not_mem_nil, or_false] at he
  rcases he with rfl | rfl | rfl <;> simp only [Ev.mapping, reduceCtorEq, Option.some.injEq] at hm
  subst hm; simp [MMapEv.Typed]

/-! ## C34: build IDs -/

/-- The conditions under which two build IDs can be compared: no NUL, and lengths within `size_t`. -/
def Comparable (recs : List BuildIdRec) (m : MMapEv) : Prop :=
  (0 : UInt8) ∉ m.buildId.getD [] ∧ (m.buildId.getD []).length < 2 ^ 64 ∧ ∀ r ∈ recs, r.hash.length < 2 ^ 63

theorem lastNamed_mem {recs : List BuildIdRec} {name : Bytes} {r : BuildIdRec} (h : lastNamed recs name = some r) :
    r ∈ recs := by
  obtain ⟨pre, post, rfl, -, -⟩ := lastNamed_some h
  simp

/-- The build ID of a mapping: the mmap event's own if it has one (the source tells whether it agrees, up to
trailing zeros, with the file-name table); else the one of the last record for the file name; else, for a mapping
named `[kernel.kallsyms]…`, the kernel's; else none. -/
theorem buildId_precedence (inp : Input) (cfg : Config) (hcfg : mkConfig inp = some cfg) (m : MMapEv)
    (hm : Comparable inp.buildIds m) :
    ∃ b, getBuildId cfg.ids m = some b ∧
      let own := m.buildId.getD []
      let name := nameOrMd5 m.filename m.md5
      let listed := ((lastNamed inp.buildIds name).map (fun r => hexOf r.hash)).getD []
      b.value = (if own ≠ [] then own else if listed ≠ [] then listed
        else if kernelPrefix.isPrefixOf name then kernelId inp.buildIds else []) ∧
      (own ≠ [] → (b.source = .mmapSame ∧ (PadOf listed own ∨ PadOf own listed)) ∨
        (b.source = .mmapDiff ∧ ¬ (PadOf listed own ∨ PadOf own listed))) ∧
      (own = [] → listed ≠ [] → ∃ pre r post, inp.buildIds = pre ++ r :: post ∧ nameOrMd5 r.filename r.md5 = name ∧
        (∀ x ∈ post, nameOrMd5 x.filename x.md5 ≠ name) ∧
        b.source = if (lastNamed pre name).any (fun o => o.hash != r.hash) then .ambiguous
          else if r.injected then .injected else .filename) ∧
      (own = [] → listed = [] → b.source = if kernelPrefix.isPrefixOf name then .kernelPrefix else .missing) := by
  have hids : cfg.ids = inp.buildIds.foldl addBuildId {} := by
    unfold mkConfig at hcfg
    cases hu : useLostSample inp.perfVersion with
    | none => rw [hu] at hcfg; cases hcfg
    | some u => rw [hu] at hcfg; simp at hcfg; rw [← hcfg]
  have hv := table_value inp.buildIds (nameOrMd5 m.filename m.md5)
  have hk := table_kernel inp.buildIds
  rw [← hids] at hv hk
  unfold getBuildId
  dsimp only
  have hval : ((cfg.ids.byName (nameOrMd5 m.filename m.md5)).getD ⟨[], .missing⟩).value =
      ((lastNamed inp.buildIds (nameOrMd5 m.filename m.md5)).map (fun r => hexOf r.hash)).getD [] := by
    rw [← hv]
    cases cfg.ids.byName (nameOrMd5 m.filename m.md5) <;> rfl
  rw [hval]
  by_cases ho : m.buildId.getD [] = []
  · rw [if_neg (fun h => h ho)]
    cases hl : lastNamed inp.buildIds (nameOrMd5 m.filename m.md5) with
    | none =>
      rw [hl] at hv
      simp only [Option.map_none, Option.getD_none, ne_eq, not_true_eq_false, if_false]
      by_cases hp : kernelPrefix.isPrefixOf (nameOrMd5 m.filename m.md5) = true
      · rw [if_pos hp]
        exact ⟨_, rfl, by simp [ho, hp, hk], fun h => absurd ho h, fun _ h => h.elim, fun _ _ => by simp [hp]⟩
      · rw [if_neg hp]
        exact ⟨_, rfl, by simp [ho, hp], fun h => absurd ho h, fun _ h => h.elim, fun _ _ => by simp [hp]⟩
    | some r =>
      simp only [Option.map_some, Option.getD_some]
      by_cases hh : hexOf r.hash = []
      · rw [if_neg (fun h => h hh)]
        by_cases hp : kernelPrefix.isPrefixOf (nameOrMd5 m.filename m.md5) = true
        · rw [if_pos hp]
          exact ⟨_, rfl, by simp [ho, hp, hk, hh], fun h => absurd ho h, fun _ h => absurd hh h, fun _ _ => by simp [hp]⟩
        · rw [if_neg hp]
          exact ⟨_, rfl, by simp [ho, hp, hh], fun h => absurd ho h, fun _ h => absurd hh h, fun _ _ => by simp [hp]⟩
      · rw [if_pos hh]
        obtain ⟨pre, post, e, hn, hpost⟩ := lastNamed_some hl
        have ht := table_entry pre post r _ hn hpost
        rw [← e, ← hids] at ht
        refine ⟨_, rfl, ?_, fun h => absurd ho h, ?_, fun _ h => absurd h hh⟩
        · rw [ht]; simp [ho, hh]
        · intro _ _
          refine ⟨pre, r, post, e, hn, hpost, ?_⟩
          rw [ht]
          rfl
  · rw [if_pos ho]
    have hlen : (((lastNamed inp.buildIds (nameOrMd5 m.filename m.md5)).map (fun r => hexOf r.hash)).getD []).length < 2 ^ 64 ∧
        (0 : UInt8) ∉ (((lastNamed inp.buildIds (nameOrMd5 m.filename m.md5)).map (fun r => hexOf r.hash)).getD []) := by
      cases hl : lastNamed inp.buildIds (nameOrMd5 m.filename m.md5) with
      | none => simp
      | some r =>
        refine ⟨?_, hexOf_noNul _⟩
        simp only [Option.map_some, Option.getD_some, hexOf_length]
        have := hm.2.2 r (lastNamed_mem hl)
        omega
    obtain ⟨b, h1, h2⟩ := isSameBuildId_noNul hlen.2 hm.1 hlen.1 hm.2.1
    rw [h1]
    refine ⟨_, rfl, by simp [ho], ?_, fun h => absurd h ho, fun h => absurd h ho⟩
    intro _
    cases b with
    | true => exact Or.inl ⟨rfl, h2.1 rfl⟩
    | false => exact Or.inr ⟨rfl, fun h => by have := h2.2 h; cases this⟩

/-- Build ID records: two for the same file, and the kernel's. -/
def someIds : Input :=
  { buildIds := [{ hash := [1, 2], filename := ascii "/a" }, { hash := [3], filename := ascii "/a", injected := true },
                 { hash := [9], filename := ascii "[kernel.kallsyms]", misc := 1 },
                 { hash := [7, 0], filename := ascii "/b" }] }

/-- The hypotheses are met, and every source occurs. -/
example : (∀ m ∈ [({ filename := ascii "/a" } : MMapEv), { filename := ascii "/b" }, { filename := ascii "/c" },
        { filename := ascii "[kernel.kallsyms]_text" }, { filename := ascii "/b", buildId := some (ascii "07") },
        { filename := ascii "/b", buildId := some (ascii "08") }], Comparable someIds.buildIds m) ∧
    (mkConfig someIds).map (fun cfg => [({ filename := ascii "/a" } : MMapEv), { filename := ascii "/b" }, { filename := ascii "/c" },
        { filename := ascii "[kernel.kallsyms]_text" }, { filename := ascii "/b", buildId := some (ascii "07") },
        { filename := ascii "/b", buildId := some (ascii "08") }].map (getBuildId cfg.ids)) = some [
      some ⟨ascii "03", .ambiguous⟩, some ⟨ascii "0700", .filename⟩, some ⟨[], .missing⟩, some ⟨ascii "09", .kernelPrefix⟩,
      some ⟨ascii "07", .mmapSame⟩, some ⟨ascii "08", .mmapDiff⟩] := by
  refine ⟨?_, by decide +kernel⟩
  intro m hm
  simp only [List.mem_cons, List.not_mem_nil, or_false] at hm
  rcases hm with rfl | rfl | rfl | rfl | rfl | rfl <;>
    refine ⟨by decide, by decide, ?_⟩ <;> intro r hr <;>
    simp only [someIds, List.mem_cons, List.not_mem_nil, or_false] at hr <;>
    rcases hr with rfl | rfl | rfl | rfl <;> decide

/-! ## C35: the normalizer does not abort -/

/-- The normalizer finishes exactly when every mapping ends below `2^64` and is not empty, if the version of perf can
be read and the build IDs of mmap events have no NUL. The full property has none of these conditions: see
`abort_wrap_violated`, `abort_version_violated` and `abort_buildId_violated`. -/
theorem process_total_partial (inp : Input) (ht : ∀ e ∈ inp.events, e.Typed)
    (hv : useLostSample inp.perfVersion ≠ none)
    (hb : ∀ e ∈ inp.events, ∀ m, e.mapping = some m → Comparable inp.buildIds m) :
    (process inp ≠ none) ↔ ∀ e ∈ inp.events, ∀ m, e.mapping = some m → m.Fits := by
  cases hu : useLostSample inp.perfVersion with
  | none => exact absurd hu hv
  | some u =>
    have hc : ∃ cfg, mkConfig inp = some cfg := by unfold mkConfig; rw [hu]; exact ⟨_, rfl⟩
    obtain ⟨cfg, hc⟩ := hc
    have hr := run_total (cfg := cfg) inp.events (inv2_init cfg) ht (fun e he m hm _ => by
      obtain ⟨b, h, -⟩ := buildId_precedence inp cfg hc m (hb e he m hm)
      exact ⟨b, h⟩)
    rw [← hr]
    unfold process
    rw [hc]
    cases hrr : runFrom cfg {} inp.events with
    | none => simp [hrr]
    | some r => simp [hrr]

/-- The hypotheses are met by a history that finishes. -/
example : useLostSample overlapped.perfVersion ≠ none ∧
    (∀ e ∈ overlapped.events, ∀ m, e.mapping = some m → Comparable overlapped.buildIds m) ∧ process overlapped ≠ none := by
  refine ⟨by decide, ?_, by decide +kernel⟩
  intro e he m hm
  simp only [overlapped, List.mem_cons, List.not_mem_nil, or_false] at he
  rcases he with rfl | rfl | rfl | rfl <;> simp only [Ev.mapping, reduceCtorEq, Option.some.injEq] at hm
  all_goals subst hm; exact ⟨by decide, by decide, by intro r hr; cases hr⟩

/-- A mapping that reaches the end of the address space aborts the normalizer. -/
theorem abort_wrap_violated :
    process { events := [.mmap { start := 2 ^ 64 - 4096, len := 4096, filename := ascii "[vsyscall]" }] } = none := by
  decide +kernel

/-- So does a version of perf with a number of ten digits. -/
theorem abort_version_violated : process { perfVersion := some (ascii "5.2147483648") } = none := by decide +kernel

/-- So does an mmap event whose build ID has trailing NULs, if the table has the bytes before them. -/
theorem abort_buildId_violated :
    process { buildIds := [{ hash := [0xab], filename := ascii "/a" }], events := [
      .mmap { start := 4096, len := 4096, filename := ascii "/a", buildId := some (ascii "ab" ++ [0, 0, 0, 0]) }] } = none := by
  decide +kernel

theorem takeWhile_app {l r : Bytes} (h : ∀ c ∈ l, isDigit c = true) (hr : ∀ c, r.head? = some c → isDigit c = false) :
    (l ++ r).takeWhile isDigit = l ∧ (l ++ r).dropWhile isDigit = r := by
  induction l with
  | nil =>
    cases r with
    | nil => exact ⟨rfl, rfl⟩
    | cons c t => simp [hr c rfl]
  | cons c l ih =>
    have := ih (fun c hc => h c (List.mem_cons_of_mem _ hc))
    simp [h c (by simp), this]

/-- Lost samples are counted by the lost-samples events for perf 6.1 and later, by the lost events before. -/
theorem useLostSample_spec (d1 d2 rest : Bytes) (h1 : d1 ≠ []) (h2 : d2 ≠ []) (hd1 : ∀ c ∈ d1, isDigit c = true)
    (hd2 : ∀ c ∈ d2, isDigit c = true) (hr : ∀ c, rest.head? = some c → isDigit c = false)
    (hc : ∀ c ∈ rest, c ≠ 0 ∧ c ≠ 10 ∧ c ≠ 13) (hs1 : decVal d1 < 2 ^ 31) (hs2 : decVal d2 < 2 ^ 31) :
    useLostSample (some (d1 ++ 46 :: (d2 ++ rest))) =
      some (decide (decVal d1 > 6 ∨ (decVal d1 = 6 ∧ decVal d2 ≥ 1))) := by
  have hz : ∀ l : Bytes, (∀ c ∈ l, isDigit c = true) → (0 : UInt8) ∉ l := by
    intro l h h0
    have := h 0 h0
    revert this; decide
  have hn : (0 : UInt8) ∉ d1 ++ 46 :: (d2 ++ rest) := by
    simp only [List.mem_append, List.mem_cons, not_or]
    exact ⟨hz _ hd1, by decide, hz _ hd2, fun h => (hc 0 h).1 rfl⟩
  obtain ⟨a1, a2⟩ := takeWhile_app (l := d1) (r := 46 :: (d2 ++ rest)) hd1 (by intro c h; simp at h; rw [← h]; decide)
  obtain ⟨b1, b2⟩ := takeWhile_app (l := d2) (r := rest) hd2 hr
  have hmv : matchVersion (d1 ++ 46 :: (d2 ++ rest)) = some (d1, d2) := by
    unfold matchVersion
    simp only [cStr_of_noNul hn, a1, a2, b1, b2]
    exact if_pos ⟨h1, h2, by rw [List.all_eq_true]; intro c h; simp [(hc c h).2]⟩
  unfold useLostSample
  rw [Option.getD_some, hmv]
  exact if_neg (by omega)

example : useLostSample (some (ascii "6.1.23-rc2")) = some true ∧ useLostSample (some (ascii "6.0")) = some false ∧
    useLostSample (some (ascii "7.0")) = some true ∧ useLostSample (some (ascii "5.19")) = some false := by decide

/-! ## C47: names of shared objects

The two characterisations, `isDeleted_iff` and `isVersioned_iff`, stand in `Main.lean`. -/

example : isDeletedSharedObject (ascii "/lib/a.so.1 (deleted)") = some true ∧
    isDeletedSharedObject (ascii "/lib/a.song (deleted)") = some false ∧
    isVersionedSharedObject (ascii "/lib/a.so.1") = true := by decide +kernel

/-- The test for a deleted shared object is answered for every path that does not end in `.so`. The full property
is that it is answered for every path: see `isDeleted_violated`. -/
theorem isDeleted_total_partial (s : Bytes) (h : ¬ ∃ x, x ≠ [] ∧ s = x ++ ascii ".so") :
    isDeletedSharedObject s ≠ none := by
  intro hn
  obtain ⟨⟨i, h1, h2, h3⟩, -⟩ := isDeleted_none.1 hn
  obtain ⟨a, b, e, ha⟩ := at_iff.1 h2
  have hb : b = [] := by
    have := congrArg List.length e
    simp [ascii] at this
    apply List.eq_nil_of_length_eq_zero
    omega
  apply h
  refine ⟨a, ?_, by rw [e, hb]; simp⟩
  intro h0; rw [h0] at ha; simp at ha; omega

example : ¬ ∃ x, x ≠ [] ∧ ascii "/lib/a.so.1" = x ++ ascii ".so" := by
  rintro ⟨x, -, h⟩
  have := congrArg List.getLast? h
  rw [List.getLast?_append] at this
  simp [ascii] at this

/-- For a path that ends in `.so`, an exception is thrown. -/
theorem isDeleted_violated : isDeletedSharedObject (ascii "a.so") = none := by decide +kernel

/-! ## C67: to which event a sample belongs -/

/-- With one event every sample belongs to it. Else a sample belongs to the last event that lists its ID, and a
sample whose ID no event lists is dropped. -/
theorem eventIndex_spec (inp : Input) (cfg : Config) (hcfg : mkConfig inp = some cfg) (id : Option Nat) :
    (inp.attrs.length = 1 → eventIndexFor cfg id = some 0) ∧
    (inp.attrs.length ≠ 1 → ∀ k, eventIndexFor cfg id = some k ↔
      ∃ i, id = some i ∧ ∃ a : AttrRec, inp.attrs[k]? = some a ∧ i ∈ a.ids ∧
        ∀ (k' : Nat) (a' : AttrRec), k < k' → inp.attrs[k']? = some a' → i ∉ a'.ids) := by
  have hcf : cfg.numAttrs = inp.attrs.length ∧ cfg.eventIndex = indexTable 0 inp.attrs (fun _ => none) := by
    unfold mkConfig at hcfg
    cases hu : useLostSample inp.perfVersion with
    | none => rw [hu] at hcfg; cases hcfg
    | some u => rw [hu] at hcfg; simp at hcfg; rw [← hcfg]; exact ⟨rfl, rfl⟩
  unfold eventIndexFor
  rw [hcf.1]
  refine ⟨fun h => if_pos h, ?_⟩
  intro h k
  rw [if_neg h]
  cases id with
  | none => simp
  | some i =>
    dsimp only
    rw [hcf.2]
    simp only [Option.some.injEq, exists_eq_left']
    rcases indexTable_spec inp.attrs 0 (fun _ => none) i with ⟨h1, h2⟩ | ⟨k0, a0, h1, h2, h3, h4⟩
    · rw [h2]
      constructor
      · intro h; cases h
      · rintro ⟨a, h3, h4, -⟩; exact absurd h4 (h1 k a h3)
    · rw [h4]
      simp only [Nat.zero_add, Option.some.injEq]
      constructor
      · rintro rfl; exact ⟨a0, h1, h2, h3⟩
      · rintro ⟨a, g1, g2, g3⟩
        rcases Nat.lt_trichotomy k0 k with hlt | he | hlt
        · exact absurd g2 (h3 k a hlt g1)
        · exact he
        · exact absurd h2 (g3 k0 a0 hlt h1)

/-- Two events share an ID: the later one gets the sample. -/
example : (mkConfig { attrs := [{ ids := [1, 2] }, { ids := [2, 3] }] }).map (fun c =>
    [some 1, some 2, some 3, some 4, none].map (eventIndexFor c)) = some [some 0, some 1, some 1, none, none] := by
  decide +kernel

/-! ## C68: lost samples -/

/-- The address of a lost sample lies in its mapping if no process is named `[lost]`. The full property has no such
condition: see `lost_located_violated`. -/
theorem lost_located_partial (inp : Input) (cbs : List Callback) (ht : ∀ e ∈ inp.events, e.Typed)
    (hn : ∀ misc c, .comm misc c ∈ inp.events → ¬ (c.comm = ascii "[lost]" ∧ c.md5 = inp.lostMd5))
    (h : process inp = some cbs) (c : SampleCtx) (hc : .sample c ∈ cbs) (hl : c.lost = true) :
    ∃ r, c.sampleMap = some r ∧ Contains c.sample.ip r := by
  unfold process at h
  cases hcf : mkConfig inp with
  | none => rw [hcf] at h; cases h
  | some cfg =>
    rw [hcf] at h
    have hl5 : cfg.lostMd5 = inp.lostMd5 := by
      unfold mkConfig at hcf
      cases hu : useLostSample inp.perfVersion with
      | none => rw [hu] at hcf; cases hcf
      | some u => rw [hu] at hcf; simp at hcf; rw [← hcf]
    cases hr : runFrom cfg {} inp.events with
    | none => simp [hr] at h
    | some r =>
      simp [hr] at h
      subst h
      exact run_lost inp.events (inv2_init cfg) ⟨fun _ _ h => (by cases h), fun _ _ h => (by cases h)⟩ ht
        (fun m c hm => by unfold NamedLost; rw [hl5]; exact hn m c hm) hr c hc hl

/-- A history with lost samples. -/
example : (process { attrs := [{}], events := [.comm 0 { pid := 7, tid := 7, comm := ascii "x" },
      .lost { num := 2, pid := 7, tid := 7 }] }).map (fun l => l.map (fun cb => match cb with
        | .sample c => (c.lost, c.sampleMap.map (·.mapping.start)) | _ => (false, none))) =
    some [(false, none), (true, some 0x9000000000000000), (true, some 0x9000000000000000)] := by decide +kernel

/-- A process named `[lost]` gets the mapping of lost samples placed at 0. -/
theorem lost_located_violated :
    ∃ (inp : Input) (c : SampleCtx) (cbs : List Callback), process inp = some (cbs ++ [.sample c]) ∧
      c.lost = true ∧ ∃ r, c.sampleMap = some r ∧ ¬ Contains c.sample.ip r := by
  let inp : Input := { attrs := [{}], events := [
        .comm 0 { pid := 7, tid := 7, comm := ascii "[lost]" },
        .sample (some 1) { pid := some 7, ip := 5000 },
        .lost { num := 1, pid := 7, tid := 7 }] }
  refine ⟨inp, { sample := { id := some 0, pid := some 7, tid := some 7, ip := 9 * 2 ^ 60 },
                 sampleMap := some ⟨0, ⟨ascii "[lost]", ⟨[], .missing⟩, 0, 1, 0, 0⟩⟩, lost := true },
    [.comm { pid := 7, tid := 7, comm := ascii "[lost]" } true,
     .sample { misc := some 1, sample := { pid := some 7, ip := 5000 },
               main := some ⟨0, ⟨ascii "[lost]", ⟨[], .missing⟩, 0, 1, 0, 0⟩⟩ }],
    by decide +kernel, rfl, _, rfl, ?_⟩
  unfold Contains
  decide

/-! ## C69: the main mapping of a process -/

/-- The main mapping reported with a sample follows from the history as `mainOf` and `MainShown` say. -/
theorem process_main (inp : Input) (cbs : List Callback) (ht : ∀ e ∈ inp.events, e.Typed)
    (h : process inp = some cbs) :
    ∃ cfg, mkConfig inp = some cfg ∧
      Each (fun past e cbs => Reports cfg past e cbs ∧ ∀ c, .sample c ∈ cbs → c.lost = false → MainShown cfg past c)
        [] inp.events cbs := by
  unfold process at h
  cases hc : mkConfig inp with
  | none => rw [hc] at h; cases h
  | some cfg =>
    rw [hc] at h
    cases hr : runFrom cfg {} inp.events with
    | none => simp [hr] at h
    | some r =>
      simp [hr] at h
      refine ⟨cfg, rfl, ?_⟩
      rw [← h]
      exact run_main inp.events (inv2_init cfg) ⟨fun _ => trivial, fun _ => rfl⟩ ht hr

/-- A shared object first, then the executable; then an exec, and a kernel thread. -/
example : (process { attrs := [{ commExec := true }], events := [
      .mmap { pid := 1, start := 4096, len := 4096, filename := ascii "/lib/a.so" },
      .mmap { pid := 1, start := 8192, len := 4096, filename := ascii "/bin/x" },
      .sample (some 2) { pid := some 1, ip := 5000 },
      .comm 8192 { pid := 1, tid := 1, comm := ascii "y" },
      .sample (some 2) { pid := some 1, ip := 5000 },
      .sample (some 1) { pid := some 1, ip := 5000 }] }).map (fun l => l.map (fun cb => match cb with
        | .sample c => c.main.map (·.mapping.filename) | _ => none)) =
    some [none, none, some (ascii "/bin/x"), none, none, some (ascii "y")] := by decide +kernel

/-! ## C70: what is known about the whole recording -/

/-- The process of a thread, told by the last comm or fork event of the recording that names the thread. -/
def threadPid : List Ev → Nat → Option Nat
  | [], _ => none
  | .fork pid _ t :: es, tid => (threadPid es tid).or (if t = tid then some pid else none)
  | .comm _ c :: es, tid => (threadPid es tid).or (if c.tid = tid then some c.pid else none)
  | _ :: es, tid => threadPid es tid

theorem tidToPid_fold (es : List Ev) (tid : Nat) : ∀ f : Nat → Option Nat,
    es.foldl (fun f e => match e with
      | .fork pid _ tid => upd f tid (some pid)
      | .comm _ c => upd f c.tid (some c.pid)
      | _ => f) f tid = (threadPid es tid).or (f tid) := by
  induction es with
  | nil => intro f; rfl
  | cons e es ih =>
    intro f
    rw [List.foldl_cons, ih]
    cases e with
    | fork pid pp t =>
      have : threadPid (.fork pid pp t :: es) tid = (threadPid es tid).or (if t = tid then some pid else none) := rfl
      rw [this, Option.or_assoc]
      dsimp only
      unfold upd
      by_cases h : t = tid
      · rw [if_pos h.symm, if_pos h]; rfl
      · rw [if_neg (fun e => h e.symm), if_neg h]; rfl
    | comm m c =>
      have : threadPid (.comm m c :: es) tid = (threadPid es tid).or (if c.tid = tid then some c.pid else none) := rfl
      rw [this, Option.or_assoc]
      dsimp only
      unfold upd
      by_cases h : c.tid = tid
      · rw [if_pos h.symm, if_pos h]; rfl
      · rw [if_neg (fun e => h e.symm), if_neg h]; rfl
    | _ => rfl

/-- Trace data is decoded if the recording has a trace of the SPE kind; the records then get the process of their thread;
`exec` is known to be reported if some event says so. -/
theorem config_spec (inp : Input) (cfg : Config) (hcfg : mkConfig inp = some cfg) :
    (cfg.hasSpe = true ↔ .auxtraceInfo 4 ∈ inp.events) ∧
    (.auxtraceInfo 4 ∈ inp.events → ∀ tid, cfg.tidToPid tid = threadPid inp.events tid) ∧
    (cfg.commExec = true ↔ ∃ a ∈ inp.attrs, a.commExec = true) ∧
    useLostSample inp.perfVersion = some cfg.useLostSample := by
  unfold mkConfig at hcfg
  cases hu : useLostSample inp.perfVersion with
  | none => rw [hu] at hcfg; cases hcfg
  | some u =>
    rw [hu] at hcfg
    simp at hcfg
    subst hcfg
    have hsp : hasSpe inp.events = true ↔ .auxtraceInfo 4 ∈ inp.events := by
      unfold hasSpe
      rw [List.any_eq_true]
      constructor
      · rintro ⟨e, he, h⟩
        cases e <;> simp at h
        subst h; exact he
      · intro h; exact ⟨_, h, by simp⟩
    refine ⟨hsp, ?_, by simp, rfl⟩
    intro h tid
    dsimp only
    rw [if_pos (hsp.2 h)]
    exact (tidToPid_fold inp.events tid (fun _ => none)).trans (by simp)

/-- A thread that is named twice. -/
example : (mkConfig { attrs := [{}, { commExec := true }], events := [.auxtraceInfo 4, .fork 7 1 8, .comm 0 { pid := 9, tid := 8 }] }).map
    (fun c => (c.hasSpe, c.tidToPid 8, c.tidToPid 7, c.commExec)) = some (true, some 9, none, true) := by decide +kernel

/-! ## C33: address contexts, C34: kernel names -/

/-- The context of a sample is that of its cpumode, the low three bits of the flags in its header:
1 kernel, 2 user, 3 hypervisor, 4 guest kernel, 5 guest user; no header or any other mode leaves it
open. -/
theorem contextFromHeader_iff (hm : Option Nat) (c : ACtx) :
    contextFromHeader hm = c ↔
      (c = .hostKernel ∧ ∃ m, hm = some m ∧ m % 8 = 1) ∨
      (c = .hostUser ∧ ∃ m, hm = some m ∧ m % 8 = 2) ∨
      (c = .hypervisor ∧ ∃ m, hm = some m ∧ m % 8 = 3) ∨
      (c = .guestKernel ∧ ∃ m, hm = some m ∧ m % 8 = 4) ∨
      (c = .guestUser ∧ ∃ m, hm = some m ∧ m % 8 = 5) ∨
      (c = .unknown ∧ ∀ m, hm = some m → m % 8 = 0 ∨ 5 < m % 8) := by
  cases hm with
  | none => simp [contextFromHeader, eq_comm]
  | some m =>
    have : m % 8 < 8 := Nat.mod_lt _ (by decide)
    have h8 : m % 8 = 0 ∨ m % 8 = 1 ∨ m % 8 = 2 ∨ m % 8 = 3 ∨ m % 8 = 4 ∨ m % 8 = 5 ∨ m % 8 = 6 ∨
        m % 8 = 7 := by omega
    rcases h8 with h | h | h | h | h | h | h | h <;> simp [contextFromHeader, h, eq_comm]

example : contextFromHeader (some 0x4002) = .hostUser ∧ contextFromHeader (some 1) = .hostKernel := by
  decide

/-- The names that stand for the kernel itself. -/
theorem isKernelNonModuleName_iff (name : Bytes) :
    isKernelNonModuleName name = true ↔ ∃ rest,
      name = ascii "[kernel.kallsyms]" ++ rest ∨ name = ascii "[guest.kernel.kallsyms" ++ rest ∨
      name = ascii "[vdso]" ++ rest ∨ name = ascii "[vsyscall]" ++ rest := by
  have h : ∀ p : Bytes, p.isPrefixOf name = true ↔ ∃ rest, name = p ++ rest := by
    intro p
    rw [List.isPrefixOf_iff_prefix]
    exact ⟨fun ⟨r, h⟩ => ⟨r, h.symm⟩, fun ⟨r, h⟩ => ⟨r, h.symm⟩⟩
  simp only [isKernelNonModuleName, List.any_cons, List.any_nil, Bool.or_false, Bool.or_eq_true, h]
  constructor
  · rintro (⟨r, h⟩ | ⟨r, h⟩ | ⟨r, h⟩ | ⟨r, h⟩)
    · exact ⟨r, .inl h⟩
    · exact ⟨r, .inr (.inl h)⟩
    · exact ⟨r, .inr (.inr (.inl h))⟩
    · exact ⟨r, .inr (.inr (.inr h))⟩
  · rintro ⟨r, h | h | h | h⟩
    · exact .inl ⟨r, h⟩
    · exact .inr (.inl ⟨r, h⟩)
    · exact .inr (.inr (.inl ⟨r, h⟩))
    · exact .inr (.inr (.inr ⟨r, h⟩))

example : isKernelNonModuleName (ascii "[kernel.kallsyms]_text") = true ∧
    isKernelNonModuleName (ascii "[kernel]") = false := by decide

end Verif.Normalizer
