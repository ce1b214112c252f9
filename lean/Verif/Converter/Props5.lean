import Verif.Converter.Props4
import Verif.Converter.NoAbort
import Verif.Normalizer.Refs

/-!
# Properties of the converter: no abort, and the whole way from a recording to profiles (C77, C79)
-/

namespace Verif.Converter
open Verif.Profile Verif.Builder
open Verif.Normalizer (Bytes Source MapRef Loc BranchPair SampleEv SampleCtx Callback ACtx AttrRec
  contextFromHeader nameOrMd5 upd Input process Agrees Ranges Located Contains)

/-! ## C77: no abort -/

theorem accepted_cons (S : Setup) (cb : Callback) (t : List Callback) :
    acceptedSamples S (cb :: t) = acceptedSamples S [cb] ++ acceptedSamples S t := by
  unfold acceptedSamples
  rw [← List.filterMap_append]; rfl

theorem le_sum_mem {n : Nat} {l : List Nat} (h : n ∈ l) : n ≤ l.sum := by
  induction l with
  | nil => cases h
  | cons a t ih =>
    rw [List.sum_cons]
    rcases List.mem_cons.1 h with rfl | h
    · omega
    · have := ih h; omega

theorem run_ok {S : Setup} (hf : S.options.testBit 1 = false) (cbs : List Callback) : ∀ {st : State} {L : Log},
    Inv0 S st L → Inv (fun _ _ => True) S st L → Sane S (cbs.reverse ++ hist L) →
    (∀ pid m, .mmap pid m ∈ cbs → m.mapping.start ≤ m.mapping.limit) →
    (∀ c ∈ acceptedSamples S cbs, SampleOk S c) →
    ((placed L).map (fun p => weightOf S p.1)).sum + ((acceptedSamples S cbs).map (weightOf S)).sum < 2 ^ 63 →
    ∃ r, run S st L cbs = some r := by
  induction cbs with
  | nil => intro st L _ _ _ _ _ _; exact ⟨_, rfl⟩
  | cons cb t ih =>
    intro st L h0 h hsane hm hok hw
    rw [accepted_cons] at hok hw
    rw [List.map_append, List.sum_append] at hw
    rw [List.reverse_cons, List.append_assoc] at hsane
    -- one step
    have one : ∃ st' o, step S st cb = some (st', o) := by
      cases cb with
      | comm c x => exact ⟨_, _, rfl⟩
      | mmap pid m =>
        have := hm pid m (by simp)
        simp only [step]
        rw [if_neg]
        · exact ⟨_, _, rfl⟩
        · rw [List.any_eq_true]
          rintro ⟨e, -, he⟩
          simp only [Bool.and_eq_true, decide_eq_true_eq] at he
          omega
      | sample c =>
        simp only [step]
        by_cases ht : takes S c = true
        · rw [if_pos ht]
          have ha : Accepted S c := by
            unfold takes at ht
            simp only [Bool.and_eq_true, decide_eq_true_eq, Bool.not_eq_true', Setup.dropLost] at ht
            refine ⟨ht.1, fun e => ?_⟩
            rw [e.1, e.2] at ht; simp at ht
          have hcs : acceptedSamples S [Callback.sample c] = [c] := by simp [acceptedSamples, ha]
          rw [hcs] at hok hw
          simp only [List.map_cons, List.map_nil, List.sum_cons, List.sum_nil, Nat.add_zero] at hw
          have hsmall : ∀ p ∈ placed L, weightOf S p.1 < 2 ^ 63 := by
            intro p hp
            have : weightOf S p.1 ≤ ((placed L).map (fun p => weightOf S p.1)).sum :=
              le_sum_mem (List.mem_map_of_mem (f := fun p : SampleCtx × Slot => weightOf S p.1) hp)
            omega
          obtain ⟨r, hr⟩ := takeSample_ok h0 h hf (hok c (by simp)) ⟨ha.1, hsmall, by omega⟩ (fun _ _ => trivial)
          rw [hr]; exact ⟨_, _, rfl⟩
        · rw [if_neg ht]; exact ⟨_, _, rfl⟩
    obtain ⟨st', o, hs⟩ := one
    have h0' := step_inv0 h0 hs
    have hp : ((placed ((cb, o) :: L)).map (fun p => weightOf S p.1)).sum ≤
        ((placed L).map (fun p => weightOf S p.1)).sum + ((acceptedSamples S [cb]).map (weightOf S)).sum := by
      cases o with
      | none => rw [placed_none]; omega
      | some slot =>
        obtain ⟨c, rfl, ha⟩ := (h0'.acc _ List.mem_cons_self).1 rfl
        rw [placed_some]
        have hcs : acceptedSamples S [Callback.sample c] = [c] := by simp [acceptedSamples, ha]
        rw [hcs]
        simp only [List.map_cons, List.map_nil, List.sum_cons, List.sum_nil]
        omega
    obtain ⟨r, hr⟩ := ih (st := st') (L := (cb, o) :: L) h0' (step_inv h0 h hsane.drop (fun _ _ _ _ => trivial) hs)
      (by rw [hist_cons]; exact hsane) (fun p m hm' => hm p m (List.mem_cons_of_mem _ hm'))
      (fun c hc => hok c (List.mem_append_right _ hc)) (by omega)
    refine ⟨r, ?_⟩
    rw [run, hs]
    exact hr

/-- C77. The conversion finishes if no mapping ends before it starts, the addresses of samples lie in the mappings
given for them, the weights add up to less than 2^63, failing on a mismatch of main mappings is not asked
for and, unless profiles are grouped by process, process 0 executes nothing. The full property has none of
these conditions: see `abort_location_violated` and `abort_overflow_violated`. -/
theorem converts_all_partial {S : Setup} {cbs : List Callback} (hs : Sane S cbs) (hf : S.options.testBit 1 = false)
    (hm : ∀ pid m, .mmap pid m ∈ cbs → m.mapping.start ≤ m.mapping.limit)
    (hok : ∀ c ∈ acceptedSamples S cbs, SampleOk S c)
    (hw : ((acceptedSamples S cbs).map (weightOf S)).sum < 2 ^ 63) : ∃ ps L, convert S cbs = some (ps, L) := by
  obtain ⟨r, hr⟩ := run_ok hf cbs (inv0_init S) (inv_init _ S) (by simpa [hist] using hs.reverse) hm hok
    (by simpa [placed] using hw)
  exact ⟨profiles r.1, r.2, by unfold convert; rw [hr]; rfl⟩

theorem ex_ok : ∀ c ∈ acceptedSamples exS exCbs, SampleOk exS c := by
  have hacc : acceptedSamples exS exCbs = [exC 5 5000 20 0, exC 5 5000 10 1, exC 6 5000 30 1, exC 5 5001 40 1] := by
    decide +kernel
  have hfr : ∀ c ∈ acceptedSamples exS exCbs, ∀ f ∈ frames exS c, f.2 = some exM ∨ f.2 = some exN := by decide +kernel
  have hr : RangeOk (some exM) ∧ RangeOk (some exN) := by
    constructor <;> intro x hx <;> cases hx <;> decide +kernel
  intro c hc
  have hc2 := hfr c hc
  rw [hacc] at hc
  have hmain : c.main = some exM ∧ c.sampleMap = some exM := by
    simp only [List.mem_cons, List.not_mem_nil, or_false] at hc
    rcases hc with rfl | rfl | rfl | rfl <;> exact ⟨rfl, rfl⟩
  refine ⟨by rw [hmain.1]; exact hr.1, ?_, ?_, ?_⟩
  · intro f hf
    rcases hc2 f hf with e | e <;> rw [e]
    · exact hr.1
    · exact hr.2
  · rw [hmain.2]
    intro m hm _
    cases hm
    simp only [List.mem_cons, List.not_mem_nil, or_false] at hc
    rcases hc with rfl | rfl | rfl | rfl <;> decide +kernel
  · intro h; exact absurd h (by decide +kernel)

/-- The hypotheses are met by a conversion with two profiles. -/
example : Sane exS exCbs ∧ exS.options.testBit 1 = false ∧
    (∀ pid m, .mmap pid m ∈ exCbs → m.mapping.start ≤ m.mapping.limit) ∧ (∀ c ∈ acceptedSamples exS exCbs, SampleOk exS c) ∧
    ((acceptedSamples exS exCbs).map (weightOf exS)).sum = 121 := by
  refine ⟨ex_sane, by decide +kernel, ?_, ex_ok, by decide +kernel⟩
  intro pid m hm
  simp only [exCbs, List.mem_cons, reduceCtorEq, List.not_mem_nil, or_false, Callback.mmap.injEq] at hm
  rcases hm with ⟨-, rfl⟩ | ⟨-, rfl⟩ <;> decide +kernel

/-- A sample outside its mapping aborts the conversion. -/
theorem abort_location_violated : convert exS [.sample (exC 5 50000 20 0)] = none := by
  have : (convert exS [.sample (exC 5 50000 20 0)]).isNone = true := by decide +kernel
  exact Option.isNone_iff_eq_none.1 this

/-- Two samples of period 2^62 overflow their sum. -/
theorem abort_overflow_violated :
    let c : SampleCtx := { exC 5 5000 20 0 with sample := { (exC 5 5000 20 0).sample with period := 2 ^ 62 } }
    convert exS [.sample c, .sample c] = none := by
  intro c
  have : (convert exS [.sample c, .sample c]).isNone = true := by decide +kernel
  exact Option.isNone_iff_eq_none.1 this

/-! ## From a recording to profiles -/

/-- The mappings a sample uses are among those it carries. -/
theorem used_refs {S : Setup} {c : SampleCtx} {x : MapRef} (h : c.main = some x ∨ ∃ f ∈ frames S c, f.2 = some x) :
    x ∈ (Callback.sample c).refs := by
  simp only [Normalizer.Callback.refs, List.mem_append, Option.mem_toList]
  rcases h with h | ⟨f, hf, hx⟩
  · exact .inl (.inl (.inl (.inl h)))
  · unfold frames codeFrames at hf
    rw [List.mem_append, List.mem_cons, List.mem_append] at hf
    rcases hf with hf | hf | hf | hf
    · split at hf
      · rw [List.mem_singleton] at hf; subst hf
        exact .inl (.inl (.inr hx))
      · cases hf
    · subst hf
      exact .inl (.inl (.inl (.inr hx)))
    · refine .inl (.inr ?_)
      unfold callers at hf
      obtain ⟨l, hl, hlf⟩ := List.mem_filterMap.1 hf
      have hl : l ∈ c.callchain := by
        have := List.mem_of_mem_drop hl
        have := (List.mem_filter.1 this).1
        split at this
        · exact (List.takeWhile_sublist _).subset this
        · exact this
      refine List.mem_filterMap.2 ⟨l, hl, ?_⟩
      cases hm : l.mapping with
      | none => rw [hm] at hlf; cases hlf
      | some r =>
        rw [hm, Option.bind_some] at hlf
        split at hlf
        · cases hlf; exact hx
        · cases hlf
    · refine .inr ?_
      unfold branches at hf
      split at hf
      · obtain ⟨l, hl, hlf⟩ := List.mem_filterMap.1 hf
        refine List.mem_flatMap.2 ⟨l, hl, List.mem_append_left _ ?_⟩
        cases hm : l.from_.mapping with
        | none => rw [hm] at hlf; cases hlf
        | some r =>
          rw [hm, Option.bind_some] at hlf
          split at hlf
          · cases hlf; exact Option.mem_toList.2 hx
          · cases hlf
      · cases hf

/-- Every frame of a located sample is at address 0 or within its mapping. -/
theorem frames_located {S : Setup} {c : SampleCtx} (h : Located c) : ∀ f ∈ frames S c, AddrOk f.1 f.2 := by
  intro f hf m hm h0
  unfold frames codeFrames at hf
  rw [List.mem_append, List.mem_cons, List.mem_append] at hf
  rcases hf with hf | hf | hf | hf
  · split at hf
    · rw [List.mem_singleton] at hf; subst hf
      simp only at hm h0 ⊢
      rw [hm, if_neg (by simp)] at h0 ⊢
      cases ha : c.sample.addr with
      | none => rw [ha] at h0; exact absurd rfl h0
      | some a => exact h.addr a m ha hm
    · cases hf
  · subst hf
    simp only [leaf] at hm h0 ⊢
    rw [hm, if_neg (by simp)] at h0 ⊢
    exact h.ip m hm
  · unfold callers at hf
    obtain ⟨l, hl, hlf⟩ := List.mem_filterMap.1 hf
    have hl : l ∈ c.callchain := by
      have := List.mem_of_mem_drop hl
      have := (List.mem_filter.1 this).1
      split at this
      · exact (List.takeWhile_sublist _).subset this
      · exact this
    cases hr : l.mapping with
    | none => rw [hr] at hlf; cases hlf
    | some r =>
      rw [hr, Option.bind_some] at hlf
      split at hlf
      · cases hlf
        simp only [Option.some.injEq] at hm
        subst hm
        have := h.chain l hl _ hr
        unfold Contains at this
        simp only
        omega
      · cases hlf
  · unfold branches at hf
    split at hf
    · obtain ⟨l, hl, hlf⟩ := List.mem_filterMap.1 hf
      cases hr : l.from_.mapping with
      | none => rw [hr] at hlf; cases hlf
      | some r =>
        rw [hr, Option.bind_some] at hlf
        split at hlf
        · cases hlf
          simp only [Option.some.injEq] at hm
          subst hm
          exact (h.branches l hl).1 _ hr
        · cases hlf
    · cases hf

/-- What a lost sample carries. -/
def LostShape (c : SampleCtx) : Prop :=
  c.addrMap = none ∧ c.callchain = [] ∧ c.branchStack = []

theorem reports_lost {cfg : Normalizer.Config} {es : List Normalizer.Ev} {e : Normalizer.Ev} {cbs : List Callback} {c : SampleCtx}
    (h : Normalizer.Reports cfg es e cbs) (hc : Callback.sample c ∈ cbs) (hl : c.lost = true) : LostShape c := by
  have nil : cbs = [] → LostShape c := by intro h0; subst h0; cases hc
  have lost : ∀ {l}, Normalizer.ReportsLost cfg l cbs → LostShape c := by
    intro l h
    unfold Normalizer.ReportsLost at h
    split at h
    · exact nil h
    · obtain ⟨r, rfl, -⟩ := h
      rw [List.mem_replicate] at hc
      have := hc.2
      injection this with this
      rw [this]; exact ⟨rfl, rfl, rfl⟩
  cases e with
  | mmap m => rw [Normalizer.Reports] at h; exact (Normalizer.mmap_member h hc).elim
  | comm misc c' => rw [Normalizer.Reports] at h; obtain ⟨b, rfl, -⟩ := h; simp at hc
  | fork => exact nil h
  | cgroup => exact nil h
  | lostSamples l =>
    rw [Normalizer.Reports] at h
    split at h
    · exact lost h
    · exact nil h
  | lost l =>
    rw [Normalizer.Reports] at h
    split at h
    · exact nil h
    · exact lost h
  | sample misc s =>
    rw [Normalizer.Reports] at h
    unfold Normalizer.ReportsSample at h
    split at h
    · exact nil h
    · obtain ⟨c', rfl, h⟩ := h
      simp at hc
      rw [hc, h.lost] at hl; cases hl
  | auxtraceInfo => exact nil h
  | auxtrace data =>
    rw [Normalizer.Reports] at h
    split at h
    · cases data with
      | none => rw [Normalizer.ReportsTrace] at h; exact nil h
      | some data =>
        rw [Normalizer.ReportsTrace] at h
        obtain ⟨rs, d, -, h⟩ := h
        obtain ⟨r, -, c', e, h⟩ := h.left _ hc
        injection e with e
        rw [e, h.lost] at hl; cases hl
    · exact nil h
  | ksymbol =>
    rw [Normalizer.Reports] at h
    split at h
    · exact (Normalizer.mmap_member h hc).elim
    · exact nil h
  | other => exact nil h

theorem reportsAll_lost {cfg : Normalizer.Config} (es : List Normalizer.Ev) : ∀ {past : List Normalizer.Ev} {cbs : List Callback} {c : SampleCtx},
    Normalizer.ReportsAll cfg past es cbs → Callback.sample c ∈ cbs → c.lost = true → LostShape c := by
  induction es with
  | nil => intro past cbs c h hc; rw [Normalizer.ReportsAll] at h; subst h; cases hc
  | cons e es ih =>
    intro past cbs c h hc hl
    obtain ⟨a, b, rfl, h1, h2⟩ := h
    rcases List.mem_append.1 hc with hc | hc
    · exact reports_lost h1 hc hl
    · exact ih h2 hc hl

/-- A recording: its events are well-typed and no process has the name of the mapping of lost samples. -/
structure Recording (inp : Input) : Prop where
  typed : ∀ e ∈ inp.events, e.Typed
  lost : ∀ misc c, .comm misc c ∈ inp.events → ¬ (c.comm = ascii "[lost]" ∧ c.md5 = inp.lostMd5)

/-- All samples of a recording, the lost ones too, are located. -/
theorem all_located {inp : Input} {cbs : List Callback} (hr : Recording inp) (h : process inp = some cbs) {c : SampleCtx}
    (hc : .sample c ∈ cbs) : Located c := by
  cases hl : c.lost with
  | false => exact Normalizer.mapping_contains inp cbs hr.typed h c hc hl
  | true =>
    obtain ⟨cfg, -, hrep⟩ := Normalizer.process_reports inp cbs hr.typed h
    obtain ⟨s1, s2, s3⟩ := reportsAll_lost _ hrep hc hl
    obtain ⟨r, r1, r2⟩ := Normalizer.lost_located_partial inp cbs hr.typed hr.lost h c hc hl
    refine ⟨?_, ?_, ?_, ?_⟩
    · intro x hx; rw [r1] at hx; cases hx; exact r2
    · intro a x _ hx; rw [s1] at hx; cases hx
    · rw [s2]; intro l hl; cases hl
    · rw [s3]; intro l hl; cases hl

theorem ranges_of_agrees {o : List Normalizer.Mapping} (ho : Ranges o) {x : MapRef} (h : Agrees o x) :
    x.mapping.start < x.mapping.limit := by
  obtain ⟨r, h1, h2, h3, -⟩ := h
  have := ho r (List.mem_of_getElem? h1)
  omega

theorem accepted_mem {S : Setup} {cbs : List Callback} {c : SampleCtx} (h : c ∈ acceptedSamples S cbs) : .sample c ∈ cbs := by
  unfold acceptedSamples at h
  obtain ⟨cb, h1, h2⟩ := List.mem_filterMap.1 h
  split at h2
  · split at h2
    · cases h2; exact h1
    · cases h2
  · cases h2

theorem samples_ok {inp : Input} {cbs : List Callback} (hr : Recording inp) (h : process inp = some cbs) (S : Setup) :
    ∀ c ∈ acceptedSamples S cbs, SampleOk S c := by
  intro c hc
  have hc := accepted_mem hc
  have hl := all_located hr h hc
  obtain ⟨o, ho, ha⟩ := Normalizer.process_refs h
  have rng : ∀ x, (c.main = some x ∨ ∃ f ∈ frames S c, f.2 = some x) → x.mapping.start ≤ x.mapping.limit := by
    intro x hx
    have := ranges_of_agrees ho (ha _ hc x (used_refs hx))
    omega
  refine ⟨fun x hx => rng x (.inl hx), fun f hf x hx => rng x (.inr ⟨f, hf, hx⟩), ?_, ?_⟩
  · intro m hm _; exact hl.ip m hm
  · intro _ m hm h0
    cases hd : c.sample.addr with
    | none => rw [hd] at h0; exact absurd rfl h0
    | some a => exact hl.addr a m hd hm

/-- What the converter is given with a recording. -/
def setupOf (inp : Input) (eventTypes : List (Option Bytes)) (commandLine : Option Bytes) (labels options : Nat)
    (threadTypes : List (Nat × Bytes)) : Setup :=
  { attrs := inp.attrs, eventTypes, perfVersion := inp.perfVersion, commandLine, labels, options, threadTypes }

/-- C77. The conversion of a recording to profiles finishes if every mapping ends below `2^64` and is not empty, the
version of perf can be read, the build IDs of mmap events have no NUL, no process is called `[lost]`, the
weights of the samples add up to less than `2^63`, and the two conditions on the options of
`converts_all_partial` hold. The full property has none of these: see `abort_named_lost_violated`, the
violations above and those of C35. -/
theorem proto_converts_partial (inp : Input) (eventTypes : List (Option Bytes)) (commandLine : Option Bytes)
    (labels options : Nat) (threadTypes : List (Nat × Bytes)) (hr : Recording inp)
    (hv : Normalizer.useLostSample inp.perfVersion ≠ none)
    (hb : ∀ e ∈ inp.events, ∀ m, e.mapping = some m → Normalizer.Comparable inp.buildIds m)
    (hm : ∀ e ∈ inp.events, ∀ m, e.mapping = some m → m.Fits)
    (hf : options.testBit 1 = false)
    (hc : ∀ cbs, process inp = some cbs → Sane (setupOf inp eventTypes commandLine labels options threadTypes) cbs ∧
      ((acceptedSamples (setupOf inp eventTypes commandLine labels options threadTypes) cbs).map
        (weightOf (setupOf inp eventTypes commandLine labels options threadTypes))).sum < 2 ^ 63) :
    ∃ ps L, protoToProfiles inp eventTypes commandLine labels options threadTypes = some (ps, L) := by
  have hp := (Normalizer.process_total_partial inp hr.typed hv hb).2 hm
  cases h : process inp with
  | none => exact absurd h hp
  | some cbs =>
    obtain ⟨h1, h2⟩ := hc cbs h
    obtain ⟨o, ho, ha⟩ := Normalizer.process_refs h
    obtain ⟨ps, L, hcv⟩ := converts_all_partial h1 hf (fun pid m hmm => by
      have := ranges_of_agrees ho (ha _ hmm m (by simp [Normalizer.Callback.refs]))
      omega) (samples_ok hr h _) h2
    refine ⟨ps, L, ?_⟩
    unfold protoToProfiles
    rw [h]
    exact hcv

/-- A recording with a shared object, a lost sample and two samples of a process with a call chain. -/
def exRec : Input :=
  { attrs := [{ samplePeriod := 3 }], events := [
      .comm 0 { pid := 7, tid := 7, comm := ascii "x" },
      .mmap { pid := 7, start := 4096, len := 4096, filename := ascii "/bin/a" },
      .sample (some 2) { pid := some 7, tid := some 7, ip := 5000, callchain := [2 ^ 64 - 512, 5000, 5100] },
      .sample (some 2) { pid := some 7, tid := some 7, ip := 5000, callchain := [2 ^ 64 - 512, 5000, 5100] },
      .lost { num := 1, pid := 7, tid := 7 }] }

theorem exRec_ok : Recording exRec := by
  refine ⟨?_, ?_⟩
  · intro e he
    simp only [exRec, List.mem_cons, List.not_mem_nil, or_false] at he
    rcases he with rfl | rfl | rfl | rfl | rfl <;> intro m hm <;>
      simp only [Normalizer.Ev.mapping, reduceCtorEq, Option.some.injEq] at hm
    subst hm; simp [Normalizer.MMapEv.Typed]
  · intro misc c he
    simp only [exRec, List.mem_cons, List.not_mem_nil, or_false, Normalizer.Ev.comm.injEq, reduceCtorEq] at he
    obtain ⟨-, rfl⟩ := he
    decide +kernel

example : (protoToProfiles exRec [some (ascii "cycles")] none 0 1 []).map (fun r => r.1.map (fun p =>
    p.data.sample.map (·.value))) = some [[[2, 6], [1, 3]]] := by decide +kernel

/-- A process called `[lost]` aborts the conversion at its first lost sample. -/
theorem abort_named_lost_violated :
    protoToProfiles { attrs := [{}], events := [
        .comm 0 { pid := 7, tid := 7, comm := ascii "[lost]" },
        .sample (some 1) { pid := some 7, ip := 5000 },
        .lost { num := 1, pid := 7, tid := 7 }] } [] none 0 1 [] = none := by
  have : (protoToProfiles { attrs := [{}], events := [
        .comm 0 { pid := 7, tid := 7, comm := ascii "[lost]" },
        .sample (some 1) { pid := some 7, ip := 5000 },
        .lost { num := 1, pid := 7, tid := 7 }] } [] none 0 1 []).isNone = true := by decide +kernel
  exact Option.isNone_iff_eq_none.1 this

/-! ## C79: addresses lie in the mappings shown for them -/

/-- C79. In the profiles of a recording, for every accepted sample and each of its frames, the location has the address of
the frame and the address is 0 or lies within the mapping of the location. -/
theorem addresses_in_mappings (inp : Input) (eventTypes : List (Option Bytes)) (commandLine : Option Bytes)
    (labels options : Nat) (threadTypes : List (Nat × Bytes)) (hr : Recording inp) {ps : List ProcessProfile}
    {A B : Log} {c : SampleCtx} {slot : Slot}
    (h : protoToProfiles inp eventTypes commandLine labels options threadTypes = some (ps, A ++ (.sample c, some slot) :: B))
    (hs : Sane (setupOf inp eventTypes commandLine labels options threadTypes) (hist (A ++ (.sample c, some slot) :: B))) :
    ∃ p smp, ps[slot.1]? = some p ∧ p.data.sample[slot.2]? = some smp ∧
      All₂ (fun (f : Frame) id => ∃ l, 0 < id ∧ p.data.location[id - 1]? = some l ∧ l.address = f.1 ∧
          (l.mappingId = 0 → f.1 = 0) ∧
          (l.mappingId ≠ 0 → ∃ m, p.data.mapping[l.mappingId - 1]? = some m ∧
            (f.1 ≠ 0 → m.memoryStart ≤ f.1 ∧ f.1 < m.memoryLimit)))
        (frames (setupOf inp eventTypes commandLine labels options threadTypes) c) smp.locationId := by
  unfold protoToProfiles at h
  cases hp : process inp with
  | none => rw [hp] at h; cases h
  | some cbs =>
    rw [hp] at h
    simp only at h
    change convert (setupOf inp eventTypes commandLine labels options threadTypes) cbs = _ at h
    generalize setupOf inp eventTypes commandLine labels options threadTypes = S at h hs ⊢
    have hh : hist (A ++ (.sample c, some slot) :: B) = cbs.reverse := (accepted_samples_placed h).2.1
    have hs' : Sane S cbs := by
      rw [hh] at hs
      have := hs.reverse
      rwa [List.reverse_reverse] at this
    obtain ⟨p, smp, h1, h2, h3⟩ := mappings_shown h hs'
    refine ⟨p, smp, h1, h2, All₂.imp ?_ h3⟩
    rintro f id ⟨h0, l, l1, l2, r, l3, l4, l5⟩
    obtain ⟨A', c', slot', B', e, -, hmem, -⟩ := l3
    have hc' : Callback.sample c' ∈ cbs := by
      have : Callback.sample c' ∈ hist (A ++ (.sample c, some slot) :: B) := by
        rw [e]; simp [hist]
      rw [hh] at this
      exact List.mem_reverse.1 this
    have hloc := frames_located (all_located hr hp hc') _ hmem
    refine ⟨l, h0, l1, l2, ?_, ?_⟩
    · intro hz
      cases r with
      | none => exact frames_none (f.1, none) hmem rfl
      | some x => have := (l5 x rfl).1; omega
    · intro hz
      cases r with
      | none => exact absurd (l4 rfl) hz
      | some x =>
        obtain ⟨-, m, mp, m1, ⟨c2, k1, y, k2, k3, k4⟩, m3⟩ := l5 x rfl
        refine ⟨m, m1, fun hne => ?_⟩
        obtain ⟨o, ho, ha⟩ := Normalizer.process_refs hp
        obtain ⟨r1, a1, a2, a3, -⟩ := ha _ hc' x (used_refs (.inr ⟨_, hmem, rfl⟩))
        obtain ⟨r2, b1, b2, b3, -⟩ := ha _ k1 y (used_refs k2)
        rw [k3, a1] at b1
        cases b1
        have := hloc x rfl hne
        rw [m3.1, m3.2.1, ← k4, ← b2, ← b3, a2, a3]
        exact this

/-- A frame of the kernel is shown with the mapping the kernel had before: after the second mmap event of the kernel the
address 5000 lies in `[b]`, yet the second sample there is shown in `[a]`. -/
theorem stale_kernel_violated :
    let inp : Input := { attrs := [{}], events := [
      .mmap { pid := 2 ^ 32 - 1, start := 4096, len := 4096, filename := ascii "[a]" },
      .sample (some 1) { pid := some 7, tid := some 7, ip := 5000 },
      .mmap { pid := 2 ^ 32 - 1, start := 4096, len := 4096, filename := ascii "[b]" },
      .sample (some 1) { pid := some 7, tid := some 8, ip := 5000 }] }
    ((process inp).map (fun cbs => cbs.map (fun cb => match cb with
      | .sample c => c.sampleMap.map (·.mapping.filename) | _ => none)) =
        some [none, some (ascii "[a]"), none, some (ascii "[b]")]) ∧
    (protoToProfiles inp [] none 2 1 []).map (fun r => r.1.map (fun p => [0, 1].map (namesAt p.data))) =
      some [[some [some (ascii "[a]")], some [some (ascii "[a]")]]] := by
  intro inp
  exact ⟨by decide +kernel, by decide +kernel⟩

end Verif.Converter
