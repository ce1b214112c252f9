import Verif.Converter.Props2

/-!
# Properties of the converter: times, statistics, mappings, types (C40, C41, C73–C76)
-/

namespace Verif.Converter
open Verif.Profile Verif.Builder
open Verif.Normalizer (Bytes Source MapRef Loc BranchPair SampleEv SampleCtx Callback ACtx AttrRec
  contextFromHeader nameOrMd5 upd)

/-! ## C40: time stamps -/

/-- C40. The times of a profile are the extrema of the non-zero time stamps of its samples, 0 if there are
none; its samples are those of its process (of any process, with process id 0, when all share a
profile). -/
theorem times_are_extrema_partial {S : Setup} {cbs : List Callback} {ps : List ProcessProfile} {L : Log}
    (h : convert S cbs = some (ps, L)) (hs : Sane S cbs) {i : Nat} {p : ProcessProfile} (hp : ps[i]? = some p)
    (hf : ∀ c ∈ acceptedSamples S cbs, c.sample.timeNs.getD 0 < 2 ^ 63) :
    (timesIn L i = [] → p.minNs = 0 ∧ p.maxNs = 0) ∧
    (timesIn L i ≠ [] → ∃ lo ∈ timesIn L i, ∃ hi ∈ timesIn L i, p.minNs = (lo : Nat) ∧ p.maxNs = (hi : Nat) ∧
      ∀ t ∈ timesIn L i, lo ≤ t ∧ t ≤ hi) ∧
    ∀ q ∈ placed L, q.2.1 = i → p.pid = if S.options.testBit 0 then pidOf q.1 else 0 := by
  obtain ⟨st, b, m, h1, h0, hinv, hb, hm, -, e1, e2, e3, -, -, -⟩ := profile_at h hs hp
  have h4 : hist L = cbs.reverse := (accepted_samples_placed h).2.1
  have hacc := placed_accepted h0.acc
  rw [h4, hist_reverse_accepted] at hacc
  have hf' : ∀ q ∈ placed L, q.1.sample.timeNs.getD 0 < 2 ^ 63 := by
    intro q hq
    have := List.mem_map_of_mem (f := (·.1)) hq
    rw [hacc] at this
    exact hf _ (List.mem_reverse.1 this)
  have ht := hinv.time i m hm
  rw [timesOf_eq hf'] at ht
  have hpos : ∀ t ∈ (timesIn L i).map (fun (t : Nat) => (t : Int)), 0 < t := by
    intro t ht'
    obtain ⟨x, x1, rfl⟩ := List.mem_map.1 ht'
    have : x ≠ 0 := by simpa using (List.mem_filter.1 x1).2
    omega
  obtain ⟨k1, k2, k3⟩ := metaOf_spec m.pid _ hpos
  rw [← ht] at k1 k2 k3
  refine ⟨?_, ?_, ?_⟩
  · intro e
    rw [e2, e3]; exact k1 (by rw [e]; rfl)
  · intro hne
    obtain ⟨k4, k5⟩ := k2 (by simpa using hne)
    obtain ⟨lo, l1, l2⟩ := List.mem_map.1 k4
    obtain ⟨hi, g1, g2⟩ := List.mem_map.1 k5
    refine ⟨lo, l1, hi, g1, by rw [e2]; exact l2.symm, by rw [e3]; exact g2.symm, ?_⟩
    intro t ht'
    have := k3 _ (List.mem_map_of_mem (f := fun (t : Nat) => (t : Int)) ht')
    omega
  · intro q hq e
    obtain ⟨m', q1, q2⟩ := hinv.spid q hq
    rw [e, hm] at q1; cases q1
    rw [e1, q2]; rfl

example : (∀ c ∈ acceptedSamples exS exCbs, c.sample.timeNs.getD 0 < 2 ^ 63) ∧
    (convert exS exCbs).map (fun r => timesIn r.2 0) = some [40, 10, 20] := by decide +kernel

/-- C40 fails for a time stamp of 2^63 or more, which becomes negative. -/
theorem times_violated : (convert exS [.sample (exC 5 5000 (2 ^ 63) 0)]).map (fun r => r.1.map (fun p => (p.minNs, p.maxNs))) =
    some [(-(2 ^ 63), -(2 ^ 63))] := by decide +kernel

/-- C73. Samples of a process that never executes another program all go to one profile, and when all
processes share a profile there is only one. -/
theorem one_profile {S : Setup} {cbs : List Callback} {ps : List ProcessProfile} {L : Log}
    (h : convert S cbs = some (ps, L)) (hs : Sane S cbs) {q q' : SampleCtx × Slot} (hq : q ∈ placed L) (hq' : q' ∈ placed L)
    (hp : S.options.testBit 0 = true → pidOf q.1 = pidOf q'.1 ∧ execs cbs (pidOf q.1) = false) : q.2.1 = q'.2.1 := by
  obtain ⟨st, h1, h2, -, h4⟩ := convert_state h
  have hi := run_known h1 hs
  obtain ⟨A, B, hL⟩ := mem_placed.1 hq
  obtain ⟨A', B', hL'⟩ := mem_placed.1 hq'
  have hx : S.home (pidOf q.1) = S.home (pidOf q'.1) ∧ execs cbs (S.home (pidOf q.1)) = false := by
    unfold Setup.home Setup.grouped
    cases hg : S.options.testBit 0 with
    | true =>
      obtain ⟨e1, e2⟩ := hp hg
      rw [if_pos rfl, if_pos rfl]; exact ⟨e1, e2⟩
    | false =>
      rcases hs with hs | hs
      · rw [hg] at hs; cases hs
      · exact ⟨rfl, hs⟩
  have sub : ∀ {A B : Log} {x}, L = A ++ x :: B → execs (hist A) (S.home (pidOf q.1)) = false := by
    intro A B x e
    have : execs (hist L) (S.home (pidOf q.1)) = false := by
      rw [h4]; unfold execs; rw [List.any_reverse]; exact hx.2
    rw [e] at this
    unfold hist execs at this ⊢
    rw [List.map_append, List.any_append, Bool.or_eq_false_iff] at this
    exact this.1
  have e1 := hi.held A q.1 q.2 B hL (sub hL)
  have e2 := hi.held A' q'.1 q'.2 B' hL' (by rw [← hx.1]; exact sub hL')
  rw [← hx.1, e1] at e2
  exact Option.some.inj e2

/-- C73, the converse: samples of different processes never share a profile when profiles are grouped by process. -/
theorem profiles_by_process {S : Setup} {cbs : List Callback} {ps : List ProcessProfile} {L : Log}
    (h : convert S cbs = some (ps, L)) (hg : S.options.testBit 0 = true) {q q' : SampleCtx × Slot} (hq : q ∈ placed L)
    (hq' : q' ∈ placed L) (he : q.2.1 = q'.2.1) : pidOf q.1 = pidOf q'.1 := by
  obtain ⟨st, h1, h2, -, h4⟩ := convert_state h
  have hi := run_known h1 (.inl hg)
  obtain ⟨m, q1, q2⟩ := hi.spid q hq
  obtain ⟨m', q1', q2'⟩ := hi.spid q' hq'
  rw [he, q1'] at q1; cases q1
  rw [q2] at q2'
  have := home_eq.1 q2' hg
  exact this

example : ∃ ps L, convert exS exCbs = some (ps, L) ∧ exS.options.testBit 0 = true ∧ execs exCbs 5 = false ∧
    ((placed L).filter (fun q => decide (pidOf q.1 = 5))).length = 3 := by
  obtain ⟨ps, L, h, -, rfl, -⟩ := ex_converts
  exact ⟨ps, _, h, by decide +kernel, by decide +kernel, by decide +kernel⟩

/-! ## C41: build ID statistics -/

/-- C41. The statistics of a profile: for each source, the frames of the accepted samples of its process whose mapping has
its build ID from there. (The data address frames of `kAddDataAddressFrames` are not counted.) -/
theorem stats_count_frames {S : Setup} {cbs : List Callback} {ps : List ProcessProfile} {L : Log}
    (h : convert S cbs = some (ps, L)) {p : ProcessProfile} (hp : p ∈ ps) (src : Source) :
    p.stats src = ((((acceptedSamples S cbs).filter (fun c => decide (pidOf c = p.pid))).flatMap codeFrames).filter
      (fun f => decide (srcOf f.2 = src))).length := by
  obtain ⟨st, -, rfl, h0, h4⟩ := convert_state h
  obtain ⟨i, hi⟩ := List.getElem?_of_mem hp
  obtain ⟨B, m, hb, -, rfl⟩ := profiles_get.1 hi
  have hacc := placed_accepted h0.acc
  rw [h4, hist_reverse_accepted] at hacc
  simp only
  rw [h0.stats]
  unfold framesFrom
  have : ((placed L).filter (fun p => decide (pidOf p.1 = m.pid))).map (·.1) = (((acceptedSamples S cbs).filter (fun c => decide (pidOf c = m.pid)))).reverse := by
    rw [← List.filter_reverse, ← hacc, List.filter_map]; rfl
  have e : ((placed L).filter (fun p => decide (pidOf p.1 = m.pid))).flatMap (fun p => codeFrames p.1) =
      (((acceptedSamples S cbs).filter (fun c => decide (pidOf c = m.pid)))).reverse.flatMap codeFrames := by
    rw [← this, List.flatMap_map]
  rw [e]
  generalize (acceptedSamples S cbs).filter _ = l
  induction l with
  | nil => rfl
  | cons c t ih =>
    rw [List.reverse_cons, List.flatMap_append, List.filter_append, List.length_append, ih, List.flatMap_cons,
      List.filter_append, List.length_append]
    simp; omega

theorem sum_flatMap_length {α β : Type} (l : List α) (f : α → List β) : (l.flatMap f).length = (l.map (fun a => (f a).length)).sum := by
  induction l with
  | nil => rfl
  | cons a t ih => rw [List.flatMap_cons, List.length_append, ih]; rfl

theorem count_by_event (l : List (SampleCtx × Slot)) (n : Nat) (h : ∀ q ∈ l, q.1.attrIndex < n) :
    ((List.range n).map (fun e => (l.filter (fun q => decide (q.1.attrIndex = e))).length)).sum = l.length := by
  have := sum_grouped l (fun q => q.1.attrIndex) n (fun _ => 1) h
  simp only [Nat.mul_one] at this
  rw [← this]
  clear this h
  induction l with
  | nil => rfl
  | cons a t ih => rw [List.map_cons, List.sum_cons, ih, List.length_cons]; omega

/-- C41. As documented, the sum over the statistics of a profile is the number of frames in the profile weighted by sample
count, if profiles are grouped by process, data address frames are not asked for and the process
does not execute another program. -/
theorem stats_sum_partial {S : Setup} {cbs : List Callback} {ps : List ProcessProfile} {L : Log}
    (h : convert S cbs = some (ps, L)) (hg : S.options.testBit 0 = true) (hd : S.options.testBit 3 = false)
    {p : ProcessProfile} (hp : p ∈ ps) (he : execs cbs p.pid = false) :
    ((sources.map p.stats).sum : Int) =
      (p.data.sample.map (fun s => ((List.range S.attrs.length).map (fun e => s.value.getD (2 * e) 0)).sum * (s.locationId.length : Int))).sum := by
  have hs : Sane S cbs := .inl hg
  have hst := fun src => stats_count_frames h hp src
  obtain ⟨i, hi⟩ := List.getElem?_of_mem hp
  obtain ⟨st, b, m, h1, h0, hinv, hb, hm, ed, e1, e2, e3, e4, hk, -⟩ := profile_at h hs hi
  have h4 : hist L = cbs.reverse := (accepted_samples_placed h).2.1
  have hacc := placed_accepted h0.acc
  rw [h4, hist_reverse_accepted] at hacc
  -- the samples of the process are those in the profile
  have hsame : ∀ q ∈ placed L, (pidOf q.1 = p.pid ↔ q.2.1 = i) := by
    intro q hq
    obtain ⟨m', q1, q2⟩ := hinv.spid q hq
    have hh : S.home (pidOf q.1) = pidOf q.1 := by unfold Setup.home Setup.grouped; rw [hg]; rfl
    rw [hh] at q2
    constructor
    · intro hpid
      obtain ⟨A, c, slot, B, maps, bm, k1, k2, -⟩ := hinv.first i b hb
      have hq' : (c, slot) ∈ placed L := mem_placed.2 ⟨A, B, k1⟩
      obtain ⟨m2, r1, r2⟩ := hinv.spid _ hq'
      simp only at r1 r2
      rw [k2, hm] at r1; cases r1
      have hh' : S.home (pidOf c) = pidOf c := by unfold Setup.home Setup.grouped; rw [hg]; rfl
      rw [hh'] at r2
      have := one_profile h hs hq hq' (fun _ => ⟨by show pidOf q.1 = pidOf c; rw [hpid, e1, r2], by rw [hpid]; exact he⟩)
      rw [this]; exact k2
    · intro e
      rw [e, hm] at q1; cases q1
      rw [e1, q2]
  -- both sides are sums over the samples of the profile
  have left : (sources.map p.stats).sum =
      (((placed L).filter (fun q => decide (q.2.1 = i))).map (fun q => (frames S q.1).length)).sum := by
    have : p.stats = fun src => ((((acceptedSamples S cbs).filter (fun c => decide (pidOf c = p.pid))).flatMap codeFrames).filter
      (fun f => decide (srcOf f.2 = src))).length := funext hst
    rw [this, sum_sources, sum_flatMap_length]
    have e5 : (placed L).filter (fun q => decide (q.2.1 = i)) = (placed L).filter (fun q => decide (pidOf q.1 = p.pid)) := by
      apply List.filter_congr
      intro q hq
      simp only [hsame q hq]
    have e6 : ((placed L).filter (fun q => decide (pidOf q.1 = p.pid))).map (fun q => (frames S q.1).length) =
        ((acceptedSamples S cbs).filter (fun c => decide (pidOf c = p.pid))).reverse.map (fun c => (codeFrames c).length) := by
      rw [← List.filter_reverse, ← hacc, List.filter_map, List.map_map]
      apply List.map_congr_left
      intro q _
      unfold frames; rw [hd]; rfl
    rw [e5, e6, List.map_reverse, List.sum_reverse]
  have lens : ∀ q ∈ placed L, q.2.1 = i → ∃ smp, b.profile.sample[q.2.2]? = some smp ∧ smp.locationId.length = (frames S q.1).length := by
    intro q hq e
    obtain ⟨A, B, hL⟩ := mem_placed.1 hq
    obtain ⟨b', smp, w1, w2, w3, -⟩ := hinv.shown A q.1 q.2 B hL
    rw [e, hb] at w1; cases w1
    refine ⟨smp, w2, ?_⟩
    generalize smp.locationId = ids at w3
    generalize frames S q.1 = fs at w3
    induction w3 with
    | nil => rfl
    | cons _ _ ih => simp [ih]
  have mid : (((placed L).filter (fun q => decide (q.2.1 = i))).map (fun q => (frames S q.1).length)).sum =
      ((List.range b.profile.sample.length).map (fun j => (((placed L).filter (fun q => decide (q.2.1 = i))).filter (fun q => decide (q.2.2 = j))).length *
        ((b.profile.sample[j]?).map (fun s => s.locationId.length)).getD 0)).sum := by
    rw [← sum_grouped ((placed L).filter (fun q => decide (q.2.1 = i))) (fun q => q.2.2) b.profile.sample.length
      (fun j => ((b.profile.sample[j]?).map (fun s => s.locationId.length)).getD 0)]
    · congr 1
      apply List.map_congr_left
      intro q hq
      obtain ⟨hq, hqi⟩ := List.mem_filter.1 hq
      obtain ⟨smp, w1, w2⟩ := lens q hq (of_decide_eq_true hqi)
      rw [w1]; exact w2.symm
    · intro q hq
      obtain ⟨hq, hqi⟩ := List.mem_filter.1 hq
      obtain ⟨smp, w1, w2⟩ := lens q hq (of_decide_eq_true hqi)
      exact (List.getElem?_eq_some_iff.1 w1).1
  rw [left, mid, ed]
  -- one profile sample
  have one : ∀ (j : Nat) s, b.profile.sample[j]? = some s →
      ((List.range S.attrs.length).map (fun e => s.value.getD (2 * e) 0)).sum =
        ((((placed L).filter (fun q => decide (q.2.1 = i))).filter (fun q => decide (q.2.2 = j))).length : Int) := by
    intro j s hj
    obtain ⟨v1, v2⟩ := sample_values_partial h hi (i := j) (s := s) (by rw [ed]; exact hj)
    have hidx : ∀ q ∈ ((placed L).filter (fun q => decide (q.2.1 = i))).filter (fun q => decide (q.2.2 = j)), q.1.attrIndex < S.attrs.length := by
      intro q hq
      have hq := (List.mem_filter.1 (List.mem_filter.1 hq).1).1
      have := List.mem_map_of_mem (f := (·.1)) hq
      rw [hacc] at this
      obtain ⟨cb, c1, c2⟩ := List.mem_filterMap.1 (List.mem_reverse.1 this)
      split at c2
      · split at c2
        · rename_i ha; cases c2; exact ha.1
        · cases c2
      · cases c2
    rw [← count_by_event _ _ hidx]
    have : ∀ e ∈ List.range S.attrs.length, s.value.getD (2 * e) 0 =
        ((((((placed L).filter (fun q => decide (q.2.1 = i))).filter (fun q => decide (q.2.2 = j))).filter (fun q => decide (q.1.attrIndex = e))).length : Nat) : Int) := by
      intro e hee
      rw [List.getD_eq_getElem?_getD, (v2 e (List.mem_range.1 hee)).1]
      simp only [Option.getD_some, List.filter_filter]
      congr 2
      apply List.filter_congr
      intro q _
      obtain ⟨qc, qs⟩ := q
      obtain ⟨qa, qb⟩ := qs
      simp only [Prod.mk.injEq, Bool.decide_and]
      cases decide (qa = i) <;> cases decide (qb = j) <;> cases decide (qc.attrIndex = e) <;> rfl
    rw [List.map_congr_left this]
    generalize List.range S.attrs.length = l
    induction l with
    | nil => rfl
    | cons x t ih => simp only [List.map_cons, List.sum_cons, ih]; omega
  have fin : ∀ (ss : List Sample) (cnt : Nat → Nat), (∀ (j : Nat) s, ss[j]? = some s →
      ((List.range S.attrs.length).map (fun e => s.value.getD (2 * e) 0)).sum = (cnt j : Int)) →
      ((((List.range ss.length).map (fun j => cnt j * ((ss[j]?).map (fun s => s.locationId.length)).getD 0)).sum : Nat) : Int) =
      (ss.map (fun s => ((List.range S.attrs.length).map (fun e => s.value.getD (2 * e) 0)).sum * (s.locationId.length : Int))).sum := by
    intro ss
    induction ss with
    | nil => intro cnt _; rfl
    | cons s t ih =>
      intro cnt hc
      rw [List.length_cons, List.range_succ_eq_map, List.map_cons, List.sum_cons, List.map_map, List.map_cons, List.sum_cons,
        hc 0 s rfl, ← ih (fun j => cnt (j + 1)) (fun j x hx => hc (j + 1) x hx)]
      simp [Function.comp_def]
  exact fin b.profile.sample (fun j => (((placed L).filter (fun q => decide (q.2.1 = i))).filter (fun q => decide (q.2.2 = j))).length) one

end Verif.Converter
