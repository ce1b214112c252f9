import Verif.Converter.Final2

/-!
# Properties of the converter (C36–C41, C71–C77)

`convert S cbs = some (ps, L)`: the callbacks `cbs` of the normalizer are converted to the profiles `ps`;
`L` tells which profile sample each accepted sample was added to. `none` is an abort or undefined
behaviour. The words used here are defined in `Verif.Converter.Spec`.
-/

namespace Verif.Converter
open Verif.Profile Verif.Builder
open Verif.Normalizer (Bytes Source MapRef Loc BranchPair SampleEv SampleCtx Callback ACtx AttrRec
  contextFromHeader nameOrMd5 upd)

/-! ## A recording used as an example -/

/-- Two events, the second without a name but with a period; grouped by process; labels for process, thread
and comm. -/
def exS : Setup :=
  { attrs := [{}, { samplePeriod := 7 }], eventTypes := [some (ascii "cycles"), none], options := 1, labels := 19,
    perfVersion := some (ascii "6.1") }
def exM : MapRef :=
  ⟨0, { filename := ascii "/bin/a", buildId := ⟨ascii "ab", .filename⟩, start := 4096, limit := 8192, fileOffset := 0, md5 := 0 }⟩
def exN : MapRef :=
  ⟨1, { filename := ascii "/lib/b", buildId := ⟨[], .missing⟩, start := 8192, limit := 12288, fileOffset := 64, md5 := 0 }⟩
/-- A sample with a call chain. -/
def exC (pid ip t e : Nat) : SampleCtx :=
  { sample := { ip, pid := some pid, tid := some pid, timeNs := some t, period := if e = 0 then 100 else 0 },
    main := some exM, sampleMap := some exM, attrIndex := e,
    callchain := [⟨2 ^ 64 - 512, none⟩, ⟨ip, some exM⟩, ⟨9000, some exN⟩] }
def exCbs : List Callback :=
  [.mmap 5 exM, .mmap 5 exN, .comm { pid := 5, tid := 5, comm := ascii "a", md5 := 0 } false,
   .sample (exC 5 5000 20 0), .sample (exC 5 5000 10 1), .sample (exC 6 5000 30 1), .sample (exC 5 5001 40 1),
   .sample { exC 5 5001 40 1 with attrIndex := 9 }]

theorem ex_converts : ∃ ps L, convert exS exCbs = some (ps, L) ∧ ps.length = 2 ∧
    L = [(.sample { exC 5 5001 40 1 with attrIndex := 9 }, none), (.sample (exC 5 5001 40 1), some (0, 1)),
      (.sample (exC 6 5000 30 1), some (1, 0)), (.sample (exC 5 5000 10 1), some (0, 0)),
      (.sample (exC 5 5000 20 0), some (0, 0)), (.comm { pid := 5, tid := 5, comm := ascii "a", md5 := 0 } false, none),
      (.mmap 5 exN, none), (.mmap 5 exM, none)] ∧
    ps.map (·.pid) = [5, 6] ∧ ps.map (fun p => p.data.sample.map (·.value)) = [[[1, 100, 1, 7], [0, 0, 1, 7]], [[0, 0, 1, 7]]] ∧
    ps.map (fun p => (p.minNs, p.maxNs)) = [(10, 40), (30, 30)] := by
  have h1 : (convert exS exCbs).map (fun r => r.1.length) = some 2 := by decide +kernel
  have h2 : (convert exS exCbs).map (fun r => r.2) = some [(.sample { exC 5 5001 40 1 with attrIndex := 9 }, none),
      (.sample (exC 5 5001 40 1), some (0, 1)),
      (.sample (exC 6 5000 30 1), some (1, 0)), (.sample (exC 5 5000 10 1), some (0, 0)),
      (.sample (exC 5 5000 20 0), some (0, 0)), (.comm { pid := 5, tid := 5, comm := ascii "a", md5 := 0 } false, none),
      (.mmap 5 exN, none), (.mmap 5 exM, none)] := by decide +kernel
  have h3 : (convert exS exCbs).map (fun r => r.1.map (·.pid)) = some [5, 6] := by decide +kernel
  have h4 : (convert exS exCbs).map (fun r => r.1.map (fun p => p.data.sample.map (·.value))) =
      some [[[1, 100, 1, 7], [0, 0, 1, 7]], [[0, 0, 1, 7]]] := by decide +kernel
  have h5 : (convert exS exCbs).map (fun r => r.1.map (fun p => (p.minNs, p.maxNs))) = some [(10, 40), (30, 30)] := by
    decide +kernel
  cases hc : convert exS exCbs with
  | none => rw [hc] at h1; cases h1
  | some r =>
    rw [hc] at h1 h2 h3 h4 h5
    exact ⟨r.1, r.2, rfl, Option.some.inj h1, Option.some.inj h2, Option.some.inj h3, Option.some.inj h4, Option.some.inj h5⟩

/-! ## C36: samples and weights are conserved -/

theorem hist_reverse_accepted (S : Setup) (cbs : List Callback) :
    acceptedSamples S cbs.reverse = (acceptedSamples S cbs).reverse := by
  unfold acceptedSamples; rw [List.filterMap_reverse]

/-- C36. Every accepted sample is added to one profile sample, in either grouping mode, and nothing else is;
the profile sample exists. No profile sample is without one. -/
theorem accepted_samples_placed {S : Setup} {cbs : List Callback} {ps : List ProcessProfile} {L : Log}
    (h : convert S cbs = some (ps, L)) :
    (placed L).reverse.map (·.1) = acceptedSamples S cbs ∧ hist L = cbs.reverse ∧
    (∀ q ∈ placed L, ∃ p, ps[q.2.1]? = some p ∧ q.2.2 < p.data.sample.length) ∧
    ∀ (b i : Nat) p s, ps[b]? = some p → p.data.sample[i]? = some s → ∃ q ∈ placed L, q.2 = (b, i) := by
  obtain ⟨st, -, rfl, h0, h4⟩ := convert_state h
  refine ⟨?_, h4, ?_, ?_⟩
  · rw [List.map_reverse, placed_accepted h0.acc, h4, hist_reverse_accepted, List.reverse_reverse]
  · intro q hq
    have hs := h0.place q hq
    unfold SlotOk samplesOf at hs
    cases hb : st.builders[q.2.1]? with
    | none => rw [hb] at hs; simp at hs
    | some b =>
      rw [hb] at hs
      have : q.2.1 < st.metas.length := by rw [h0.len]; exact (List.getElem?_eq_some_iff.1 hb).1
      refine ⟨_, profiles_get.2 ⟨b, _, hb, List.getElem?_eq_getElem this, rfl⟩, ?_⟩
      have e := congrArg List.length (finalize_values b)
      simp only [List.length_map] at e
      simp only [e]
      simpa using hs
  · intro b i p s hp hs
    obtain ⟨B, m, hb, -, rfl⟩ := profiles_get.1 hp
    simp only at hs
    have e := congrArg (fun l => l[i]?) (finalize_values B)
    simp only [List.getElem?_map] at e
    rw [hs] at e
    cases hx : B.profile.sample[i]? with
    | none => rw [hx] at e; cases e
    | some s0 => exact h0.used b i s0 (by rw [samplesOf_some hb]; exact hx)

theorem profiles_total {st : State} (hl : st.metas.length = st.builders.length) (j : Nat) :
    (((profiles st).flatMap (·.data.sample)).map (fun s => s.value.getD j 0)).sum =
      total (fun s => s.value.getD j 0) st.builders := by
  have key : ∀ b : Builder, ((finalize b).2.profile.sample.map (fun s => s.value.getD j 0)).sum =
      (b.profile.sample.map (fun s => s.value.getD j 0)).sum := by
    intro b
    have := congrArg (fun l => (l.map (fun v : List Int => v.getD j 0)).sum) (finalize_values b)
    simpa [List.map_map, Function.comp_def] using this
  unfold total profiles
  generalize st.builders = bs, st.metas = ms at hl
  induction bs generalizing ms with
  | nil => simp
  | cons b t ih =>
    cases ms with
    | nil => simp at hl
    | cons m ms =>
      simp only [List.zip_cons_cons, List.map_cons, List.flatMap_cons, List.map_append, List.sum_append, List.sum_cons]
      rw [key, ih ms (by simpa using hl)]

/-- C36. For every event, the sample counts of all profiles add up to the number of accepted samples of the
event, and the weights to the sum of their weights. -/
theorem counts_and_weights_conserved_partial {S : Setup} {cbs : List Callback} {ps : List ProcessProfile} {L : Log}
    (h : convert S cbs = some (ps, L)) {e : Nat} (he : e < S.attrs.length) :
    ((ps.flatMap (·.data.sample)).map (fun s => s.value.getD (2 * e) 0)).sum =
      (((acceptedSamples S cbs).filter (fun c => decide (c.attrIndex = e))).length : Int) ∧
    ((∀ c ∈ acceptedSamples S cbs, weightOf S c < 2 ^ 63) →
      ((ps.flatMap (·.data.sample)).map (fun s => s.value.getD (2 * e + 1) 0)).sum =
        ((((acceptedSamples S cbs).filter (fun c => decide (c.attrIndex = e))).map (weightOf S)).sum : Nat)) := by
  obtain ⟨st, -, rfl, h0, h4⟩ := convert_state h
  have hacc := placed_accepted h0.acc
  rw [h4, hist_reverse_accepted] at hacc
  obtain ⟨t1, t2⟩ := h0.tot e he
  have hf : (ofEvent (placed L) e).map (·.1) = ((acceptedSamples S cbs).filter (fun c => decide (c.attrIndex = e))).reverse := by
    unfold ofEvent
    rw [← List.filter_reverse, ← hacc, List.filter_map]; rfl
  refine ⟨?_, ?_⟩
  · rw [profiles_total h0.len, t1]
    have := congrArg List.length hf
    simp only [List.length_map, List.length_reverse] at this
    rw [this]
  · intro hw
    rw [profiles_total h0.len, t2]
    have : (ofEvent (placed L) e).map (fun p => weight S p.1) =
        ((acceptedSamples S cbs).filter (fun c => decide (c.attrIndex = e))).reverse.map (fun c => (weightOf S c : Int)) := by
      rw [← hf, List.map_map]
      apply List.map_congr_left
      intro p hp
      have hm : p.1 ∈ acceptedSamples S cbs := by
        have : p.1 ∈ (placed L).map (·.1) := List.mem_map_of_mem (List.mem_filter.1 hp).1
        rw [hacc] at this; exact List.mem_reverse.1 this
      exact weight_eq (hw _ hm)
    rw [this, List.map_reverse, List.sum_reverse]
    generalize (acceptedSamples S cbs).filter _ = l
    induction l with
    | nil => rfl
    | cons c t ih => simp only [List.map_cons, List.sum_cons, ih]; omega

example : (acceptedSamples exS exCbs).length = 4 ∧ ∀ c ∈ acceptedSamples exS exCbs, weightOf exS c < 2 ^ 63 := by
  decide +kernel

/-! ## C39: the weight of a sample -/

/-- C39. The values of a profile sample: for every event the number of accepted samples added to it, and the
sum of their weights, where a weight is the sample's period if positive, else the event's period if
positive, else 1 (`weightOf`). -/
theorem sample_values_partial {S : Setup} {cbs : List Callback} {ps : List ProcessProfile} {L : Log}
    (h : convert S cbs = some (ps, L)) {b i : Nat} {p : ProcessProfile} {s : Sample} (hp : ps[b]? = some p)
    (hs : p.data.sample[i]? = some s) :
    s.value.length = 2 * S.attrs.length ∧ ∀ e, e < S.attrs.length →
      s.value[2 * e]? = some (((placed L).filter (fun q => decide (q.2 = (b, i) ∧ q.1.attrIndex = e))).length : Int) ∧
      ((∀ c ∈ acceptedSamples S cbs, weightOf S c < 2 ^ 63) → s.value[2 * e + 1]? =
        some ((((placed L).filter (fun q => decide (q.2 = (b, i) ∧ q.1.attrIndex = e))).map (fun q => weightOf S q.1)).sum : Nat)) := by
  obtain ⟨st, -, rfl, h0, h4⟩ := convert_state h
  have hacc := placed_accepted h0.acc
  rw [h4, hist_reverse_accepted] at hacc
  obtain ⟨B, m, hb, -, rfl⟩ := profiles_get.1 hp
  simp only at hs
  have hv := finalize_values B
  have : ∃ s0, B.profile.sample[i]? = some s0 ∧ s0.value = s.value := by
    have e := congrArg (fun l => l[i]?) hv
    simp only [List.getElem?_map] at e
    rw [hs] at e
    cases hx : B.profile.sample[i]? with
    | none => rw [hx] at e; cases e
    | some s0 => rw [hx] at e; exact ⟨s0, rfl, (Option.some.inj e).symm⟩
  obtain ⟨s0, hs0, e0⟩ := this
  obtain ⟨v1, v2⟩ := h0.val b i s0 (by rw [samplesOf_some hb]; exact hs0)
  rw [← e0]
  refine ⟨v1, fun e he => ⟨(v2 e he).1, fun hw => ?_⟩⟩
  rw [(v2 e he).2]
  unfold here
  have : ((placed L).filter (fun q => decide (q.2 = (b, i) ∧ q.1.attrIndex = e))).map (fun q => weight S q.1) =
      ((placed L).filter (fun q => decide (q.2 = (b, i) ∧ q.1.attrIndex = e))).map (fun q => (weightOf S q.1 : Int)) := by
    apply List.map_congr_left
    intro q hq
    have hm : q.1 ∈ acceptedSamples S cbs := by
      have : q.1 ∈ (placed L).map (·.1) := List.mem_map_of_mem (List.mem_filter.1 hq).1
      rw [hacc] at this; exact List.mem_reverse.1 this
    exact weight_eq (hw _ hm)
  rw [this]
  generalize (placed L).filter _ = l
  congr 1
  induction l with
  | nil => rfl
  | cons c t ih => simp only [List.map_cons, List.sum_cons, ih]; omega

/-- C39 fails for a period of 2^63 or more: it becomes a negative weight. -/
theorem weight_violated : ∃ S cbs ps L, convert S cbs = some (ps, L) ∧
    (acceptedSamples S cbs).map (weightOf S) = [2 ^ 63 + 1] ∧
    ps.map (fun p => p.data.sample.map (·.value)) = [[[1, -(2 ^ 63) + 1]]] := by
  let S : Setup := { attrs := [{}] }
  let cbs : List Callback := [.sample { sample := { pid := some 1, period := 2 ^ 63 + 1 } }]
  have h : (convert S cbs).map (fun r => r.1.map (fun p => p.data.sample.map (·.value))) = some [[[1, -(2 ^ 63) + 1]]] := by
    decide +kernel
  cases hc : convert S cbs with
  | none => rw [hc] at h; cases h
  | some r =>
    rw [hc] at h
    exact ⟨S, cbs, r.1, r.2, hc, by decide +kernel, Option.some.inj h⟩

end Verif.Converter
