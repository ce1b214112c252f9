import Verif.Converter.Props

/-!
# Properties of the converter: merging, contents of profiles (C37, C38, C40, C41, C71–C74)
-/

namespace Verif.Converter
open Verif.Profile Verif.Builder
open Verif.Normalizer (Bytes Source MapRef Loc BranchPair SampleEv SampleCtx Callback ACtx AttrRec
  contextFromHeader nameOrMd5 upd)

theorem ex_sane : Sane exS exCbs := .inl (by decide +kernel)

/-! ## C37: when samples are merged -/

/-- C37, first half. Samples added to the same profile sample are of one process, which did not execute
another program in between, and have the same addresses and the same labels. The labels claim is for
samples whose numbers fit their types and of which no one leaves out a number that is zero in the other. In `L` the newest sample
comes first: `c` is the later one. -/
theorem merged_agree {S : Setup} {cbs : List Callback} {ps : List ProcessProfile} {A M B : Log} {c c' : SampleCtx}
    {s s' : Slot} (h : convert S cbs = some (ps, A ++ (.sample c, some s) :: (M ++ (.sample c', some s') :: B)))
    (hs : Sane S cbs) (he : s = s') :
    pidOf c = pidOf c' ∧ execs (hist M) (pidOf c) = false ∧ (frames S c).map (·.1) = (frames S c').map (·.1) ∧
    (SamePresence S.labels c c' → Fits c → Fits c' →
      labelsOf S (hist (M ++ (.sample c', some s') :: B)) c = labelsOf S (hist B) c') := by
  subst he
  obtain ⟨st, b, k, smp, hi, q1, q2, q3, q4, q5, -⟩ := pair_at h hs
  obtain ⟨b1, smp1, ak, z1, z2, z3, z4, -, z5⟩ := hi.keys _ _ _ q4
  obtain ⟨-, -, u3⟩ := z5 [] c _ rfl
  obtain ⟨v1, v2, v3⟩ := z5 ((.sample c, some s) :: M) c' B rfl
  rw [hist_cons, execs_cons, Bool.or_eq_false_iff] at v2
  refine ⟨v1.symm, v2.2, ?_, fun hq hf hf' => labels_of_akey hq hf hf' (u3.trans v3.symm)⟩
  obtain ⟨b2, s2, w1, w2, w3, -⟩ := hi.shown [] c s _ rfl
  obtain ⟨b3, s3, x1, x2, x3, -⟩ := hi.shown ((.sample c, some s) :: M) c' s B rfl
  rw [w1] at x1; cases x1
  rw [w2] at x2; cases x2
  have key : ∀ {L' : Log} {P : Nat} {fs : List Frame} {ids : List Nat}, All₂ (FrameShown (Known S cbs) S L' P b2) fs ids →
      fs.map (·.1) = ids.map (fun id => ((b2.profile.location[id - 1]?).map (·.address)).getD 0) := by
    intro L' P fs ids hh
    induction hh with
    | nil => rfl
    | cons hr _ ih =>
      obtain ⟨-, l, l1, l2, -⟩ := hr
      rw [List.map_cons, List.map_cons, ih, l1]
      simp [l2]
  rw [key w3, key x3]

/-- C37, second half. Two samples of a process that did not execute another program in between, whose stacks are
the same locations and whose labels are the same, are added to the same profile sample. -/
theorem agreeing_merged {S : Setup} {cbs : List Callback} {ps : List ProcessProfile} {A M B : Log} {c c' : SampleCtx}
    {s s' : Slot} (h : convert S cbs = some (ps, A ++ (.sample c, some s) :: (M ++ (.sample c', some s') :: B)))
    (hs : Sane S cbs) (hp : pidOf c = pidOf c') (he : execs (hist M) (pidOf c) = false) (hf : Fits c) (hf' : Fits c')
    (hst : stackAt ps s = stackAt ps s')
    (hl : labelsOf S (hist (M ++ (.sample c', some s') :: B)) c = labelsOf S (hist B) c') : s = s' := by
  obtain ⟨st, b, k, smp, hi, q1, q2, q3, q4, q5, q6⟩ := pair_at h hs
  have he' : execs (hist ((.sample c, some s) :: M)) (pidOf c') = false := by
    rw [hist_cons, execs_cons, ← hp, he]; rfl
  obtain ⟨k', hk'⟩ := hi.kept ((.sample c, some s) :: M) c' s' B rfl he'
  obtain ⟨b1, smp1, ak, z1, z2, z3, z4, -, z5⟩ := hi.keys _ _ _ hk'
  obtain ⟨-, -, v3⟩ := z5 ((.sample c, some s) :: M) c' B rfl
  have e1 := ((hi.ready _).keys _ _ q4).1
  have e2 := ((hi.ready _).keys _ _ hk').1
  rw [hp, e2] at e1
  have e1 := Option.some.inj e1
  rw [e1, q1] at z1; cases z1
  rw [q6 s b smp q1 q2, q6 s' b smp1 (by rw [e1]; exact q1) z2, q3, z3] at hst
  have ha := akey_of_labels hp hf hf' hl
  have : k = k' := (KeyRel.eq_iff (hi.bok _ _ q1).1.inv q5 z4).2 ⟨by rw [ha, v3], Option.some.inj hst⟩
  rw [this, hp, hk'] at q4
  exact (Option.some.inj q4).symm

/-- C37, in terms of the recording alone: with no new mapping over the stack of the earlier sample in between,
two accepted samples are merged exactly when they are of the same process, it did not execute another program in
between, and addresses and labels agree. -/
theorem merged_iff_partial {S : Setup} {cbs : List Callback} {ps : List ProcessProfile} {A M B : Log} {c c' : SampleCtx}
    {s s' : Slot} (h : convert S cbs = some (ps, A ++ (.sample c, some s) :: (M ++ (.sample c', some s') :: B)))
    (hs : Sane S cbs) (hr : ∀ f ∈ frames S c', remaps (hist M) (pidOf c) f.1 = false) (hf : Fits c) (hf' : Fits c')
    (hq : SamePresence S.labels c c') :
    s = s' ↔ pidOf c = pidOf c' ∧ execs (hist M) (pidOf c) = false ∧ (frames S c).map (·.1) = (frames S c').map (·.1) ∧
      labelsOf S (hist (M ++ (.sample c', some s') :: B)) c = labelsOf S (hist B) c' := by
  constructor
  · intro he
    obtain ⟨h1, h2, h3, h4⟩ := merged_agree h hs he
    exact ⟨h1, h2, h3, h4 hq hf hf'⟩
  · rintro ⟨hp, he, ha, hl⟩
    refine agreeing_merged h hs hp he hf hf' ?_ hl
    obtain ⟨st, b, k, smp, hi, q1, q2, q3, q4, q5, q6⟩ := pair_at h hs
    obtain ⟨b2, s2, w1, w2, -, w4, -⟩ := hi.shown [] c s _ rfl
    obtain ⟨b3, s3, x1, x2, -, x4, -⟩ := hi.shown ((.sample c, some s) :: M) c' s' B rfl
    have w5 := w4 rfl
    have x5 := x4 (by rw [hist_cons, execs_cons, ← hp, he]; rfl)
    rw [q6 s b2 s2 w1 w2, q6 s' b3 s3 x1 x2]
    congr 1
    have y1 : All₂ (fun (a : Nat) id => find (st.pids (pidOf c)).locs a = some id) ((frames S c).map (·.1)) s2.locationId := by
      refine All₂.map_iff.1 (All₂.imp ?_ w5)
      intro f id hh; exact hh rfl
    have y2 : All₂ (fun (a : Nat) id => find (st.pids (pidOf c)).locs a = some id) ((frames S c').map (·.1)) s3.locationId := by
      refine All₂.map_iff.1 (All₂.imp ?_ (All₂.with_mem x5))
      intro f id hh
      rw [hp]
      refine hh.2 ?_
      rw [hist_cons, remaps_cons, ← hp, hr f hh.1]; rfl
    rw [ha] at y1
    exact all2_same y1 y2

example : ∃ ps A c s M c' s' B, convert exS exCbs =
      some (ps, A ++ (.sample c, some s) :: (M ++ (.sample c', some s') :: B)) ∧ Sane exS exCbs ∧
    (∀ f ∈ frames exS c', remaps (hist M) (pidOf c) f.1 = false) ∧ Fits c ∧ Fits c' ∧ SamePresence exS.labels c c' ∧ s = s' ∧ c ≠ c' := by
  obtain ⟨ps, L, h, -, rfl, -⟩ := ex_converts
  have fits : ∀ t e, t < 100 → Fits (exC 5 5000 t e) := by
    intro t e ht
    refine ⟨?_, ?_, ?_, ?_, ?_⟩ <;> intro n hn <;> cases hn
    omega
  refine ⟨ps, [(.sample { exC 5 5001 40 1 with attrIndex := 9 }, none), (.sample (exC 5 5001 40 1), some (0, 1)),
      (.sample (exC 6 5000 30 1), some (1, 0))], exC 5 5000 10 1, (0, 0), [], exC 5 5000 20 0, (0, 0), _, h, ex_sane, ?_,
      fits _ _ (by omega), fits _ _ (by omega), ⟨fun _ _ _ => rfl, fun _ _ _ => rfl, fun _ _ _ => rfl, fun _ _ _ => rfl⟩, rfl, by decide +kernel⟩
  decide +kernel

/-- C37: without the condition on optional fields the claim fails: a sample without a thread id and one
with thread id 0 are merged, although only the second has a label `tid`. -/
theorem labels_violated : ∃ S cbs ps c s c' s' , convert S cbs =
      some (ps, [(.sample c, some s), (.sample c', some s')]) ∧ Sane S cbs ∧ s = s' ∧
    labelsOf S (hist [(.sample c', some s')]) c = [(ascii "tid", .num 0 [])] ∧ labelsOf S (hist []) c' = [] := by
  let S : Setup := { attrs := [{}], labels := 2, options := 1 }
  let cbs : List Callback := [.sample { sample := { pid := some 1 } }, .sample { sample := { pid := some 1, tid := some 0 } }]
  have h : (convert S cbs).map (fun r => r.2) = some [(.sample { sample := { pid := some 1, tid := some 0 } }, some (0, 0)),
    (.sample { sample := { pid := some 1 } }, some (0, 0))] := by decide +kernel
  cases hc : convert S cbs with
  | none => rw [hc] at h; cases h
  | some r =>
    rw [hc] at h
    have h := Option.some.inj h
    refine ⟨S, cbs, r.1, { sample := { pid := some 1, tid := some 0 } }, (0, 0), { sample := { pid := some 1 } }, (0, 0), ?_, .inl (by decide +kernel), rfl, by decide +kernel, by decide +kernel⟩
    rw [hc, ← h]

/-- C71. A profile sample shows every sample added to it: its stack, frame by frame, at the addresses of the
sample's stack. -/
theorem stack_shown {S : Setup} {cbs : List Callback} {ps : List ProcessProfile} {L : Log}
    (h : convert S cbs = some (ps, L)) (hs : Sane S cbs) {q : SampleCtx × Slot} (hq : q ∈ placed L) :
    ∃ p smp, ps[q.2.1]? = some p ∧ p.data.sample[q.2.2]? = some smp ∧
      smp.locationId.map (addressAt p.data) = (frames S q.1).map (fun f => some f.1) := by
  obtain ⟨st, h1, h2, -, -⟩ := convert_state h
  have hi := run_known h1 hs
  obtain ⟨A, B, hL⟩ := mem_placed.1 hq
  obtain ⟨b, smp, q1, q2, q3, -⟩ := hi.shown A q.1 q.2 B hL
  obtain ⟨p, p1, p2⟩ := builder_at h1 h2 hs q1
  refine ⟨p, smp, p1, by rw [p2]; exact q2, ?_⟩
  rw [p2]
  clear q2
  generalize smp.locationId = ids at q3
  generalize frames S q.1 = fs at q3
  induction q3 with
  | nil => rfl
  | cons hr _ ih =>
    rw [List.map_cons, List.map_cons, ih]
    congr 1
    obtain ⟨h0, l, l1, l2, -⟩ := hr
    unfold addressAt
    rw [if_neg (by omega), l1]; simp [l2]

/-- `labels_shown_partial` with demands only on the samples at the same addresses. -/
theorem labels_shown_by {S : Setup} {cbs : List Callback} {ps : List ProcessProfile} {L : Log}
    (h : convert S cbs = some (ps, L)) (hs : Sane S cbs)
    {A B : Log} {c : SampleCtx} {s : Slot} (hL : L = A ++ (.sample c, some s) :: B) (hf : Fits c)
    (hp : ∀ c' ∈ acceptedSamples S cbs, (frames S c').map (·.1) = (frames S c).map (·.1) → Fits c' ∧ SamePresence S.labels c' c) :
    ∃ p smp, ps[s.1]? = some p ∧ p.data.sample[s.2]? = some smp ∧
      smp.label.map (readLabel p.data) = (labelsOf S (hist B) c).map some := by
  obtain ⟨st, h1, h2, h0, h4⟩ := convert_state h
  have hacc := placed_accepted h0.acc
  rw [h4, hist_reverse_accepted] at hacc
  have mem : ∀ {A' B' : Log} {x : SampleCtx}, L = A' ++ (.sample x, some s) :: B' → x ∈ acceptedSamples S cbs := by
    intro A' B' x e
    have : (x, s) ∈ placed L := mem_placed.2 ⟨A', B', e⟩
    have := List.mem_map_of_mem (f := (·.1)) this
    rw [hacc] at this; exact List.mem_reverse.1 this
  have hi := run_known h1 hs
  obtain ⟨b, smp, q1, q2, q3, -, A0, c0, B0, q4, q5, q6, q7⟩ := hi.shown A c s B hL
  obtain ⟨b', smp', r1, r2, r3, -⟩ := hi.shown A0 c0 s B0 q4
  rw [q1] at r1
  cases r1
  rw [q2] at r2
  cases r2
  obtain ⟨p, p1, p2⟩ := builder_at h1 h2 hs q1
  refine ⟨p, smp, p1, by rw [p2]; exact q2, ?_⟩
  have hfr : ∀ {fs : List Frame} {ids : List Nat} {P : Frame → Nat → Prop}, (∀ f id, P f id → addressAt b.profile id = some f.1) →
      All₂ P fs ids → ids.map (addressAt b.profile) = fs.map (fun f => some f.1) := by
    intro fs ids P hP hall
    induction hall with
    | nil => rfl
    | cons hr _ ih => rw [List.map_cons, List.map_cons, ih, hP _ _ hr]
  have addr : (frames S c0).map (·.1) = (frames S c).map (·.1) := by
    have e1 := hfr (fun f id ⟨h0, l, l1, l2, _⟩ => by unfold addressAt; rw [if_neg (by omega), l1]; simp [l2]) q3
    have e2 := hfr (fun f id ⟨h0, l, l1, l2, _⟩ => by unfold addressAt; rw [if_neg (by omega), l1]; simp [l2]) r3
    rw [e1] at e2
    have := congrArg (List.map (fun o : Option Nat => o.getD 0)) e2
    rw [List.map_map, List.map_map] at this
    exact this.symm
  obtain ⟨f0, pr⟩ := hp c0 (mem q4) addr
  rw [p2, ← labels_of_akey pr f0 hf q6]
  have := q7 f0
  generalize smp.label = ls at this
  generalize labelsOf S (hist B0) c0 = ts at this
  induction this with
  | nil => rfl
  | cons hr _ ih => rw [List.map_cons, List.map_cons, ih, hr]

/-- C72. A profile sample carries the labels of every sample added to it, in order, if the numbers of the
accepted samples fit their types and none leaves out a number that is zero in another. -/
theorem labels_shown_partial {S : Setup} {cbs : List Callback} {ps : List ProcessProfile} {L : Log}
    (h : convert S cbs = some (ps, L)) (hs : Sane S cbs) (hf : ∀ c ∈ acceptedSamples S cbs, Fits c)
    (hp : ∀ c ∈ acceptedSamples S cbs, ∀ c' ∈ acceptedSamples S cbs, SamePresence S.labels c c')
    {A B : Log} {c : SampleCtx} {s : Slot} (hL : L = A ++ (.sample c, some s) :: B) :
    ∃ p smp, ps[s.1]? = some p ∧ p.data.sample[s.2]? = some smp ∧
      smp.label.map (readLabel p.data) = (labelsOf S (hist B) c).map some := by
  have mem : c ∈ acceptedSamples S cbs := by
    obtain ⟨st, h1, h2, h0, h4⟩ := convert_state h
    have hacc := placed_accepted h0.acc
    rw [h4, hist_reverse_accepted] at hacc
    have : (c, s) ∈ placed L := mem_placed.2 ⟨A, B, hL⟩
    have := List.mem_map_of_mem (f := (·.1)) this
    rw [hacc] at this; exact List.mem_reverse.1 this
  exact labels_shown_by h hs hL (hf c mem) (fun c' hc' _ => ⟨hf c' hc', hp c' hc' c mem⟩)

example : (∀ c ∈ acceptedSamples exS exCbs, Fits c) ∧
    (∀ c ∈ acceptedSamples exS exCbs, ∀ c' ∈ acceptedSamples exS exCbs, SamePresence exS.labels c c') ∧
    labelsOf exS (hist [(.comm { pid := 5, tid := 5, comm := ascii "a", md5 := 0 } false, none)]) (exC 5 5000 20 0) =
      [(ascii "pid", .num 5 []), (ascii "tid", .num 5 []), (ascii "comm", .str (ascii "a"))] := by
  have e : acceptedSamples exS exCbs = [exC 5 5000 20 0, exC 5 5000 10 1, exC 6 5000 30 1, exC 5 5001 40 1] := by
    decide +kernel
  rw [e]
  refine ⟨?_, ?_, by decide +kernel⟩
  · have fits : ∀ p ip t e, t < 100 → Fits (exC p ip t e) := by
      intro p ip t e ht
      refine ⟨?_, ?_, ?_, ?_, ?_⟩ <;> intro n hn <;> cases hn
      omega
    intro c hc
    simp only [List.mem_cons, List.not_mem_nil, or_false] at hc
    rcases hc with rfl | rfl | rfl | rfl <;> exact fits _ _ _ _ (by omega)
  · intro c hc c' hc'
    simp only [List.mem_cons, List.not_mem_nil, or_false] at hc hc'
    rcases hc with rfl | rfl | rfl | rfl <;> rcases hc' with rfl | rfl | rfl | rfl <;>
      exact ⟨fun _ _ _ => rfl, fun _ _ _ => rfl, fun _ _ _ => rfl, fun _ _ _ => rfl⟩

/-! ## C38: profiles are in order -/

/-- The ids of locations and mappings are 1, 2, …; samples name existing locations, locations existing
mappings, and only the location at address 0 has no mapping. -/
structure InOrder (p : Profile) : Prop where
  locIds : p.location.map (·.id) = List.range' 1 p.location.length
  mapIds : p.mapping.map (·.id) = List.range' 1 p.mapping.length
  sampleLocs : ∀ s ∈ p.sample, ∀ id ∈ s.locationId, ∃ l ∈ p.location, l.id = id
  locMaps : ∀ l ∈ p.location, l.mappingId ≠ 0 → ∃ m ∈ p.mapping, m.id = l.mappingId
  noMap : ∀ l ∈ p.location, l.mappingId = 0 → l.address = 0

theorem range_of_ids {α : Type} (f : α → Nat) (l : List α) (h : ∀ (i : Nat) x, l[i]? = some x → f x = i + 1) :
    l.map f = List.range' 1 l.length := by
  apply List.ext_getElem?
  intro i
  rw [List.getElem?_map]
  cases hx : l[i]? with
  | none =>
    rw [List.getElem?_eq_none (by simpa using List.getElem?_eq_none_iff.1 hx)]; rfl
  | some x =>
    have hi := (List.getElem?_eq_some_iff.1 hx).1
    rw [List.getElem?_range' (by simpa using hi), Option.map_some, h i x hx, Nat.one_mul, Nat.add_comm]

/-- C38. Every profile is in order, and each of its samples has two values for each event. -/
theorem profiles_in_order_partial {S : Setup} {cbs : List Callback} {ps : List ProcessProfile} {L : Log}
    (h : convert S cbs = some (ps, L)) (hs : Sane S cbs) {p : ProcessProfile} (hp : p ∈ ps) :
    InOrder p.data ∧ (∀ s ∈ p.data.sample, s.value.length = 2 * S.attrs.length) ∧
      p.data.sampleType.length = 2 * S.attrs.length := by
  obtain ⟨i, hi⟩ := List.getElem?_of_mem hp
  obtain ⟨st, b, m, h1, h0, hinv, hb, hm, e, -, -, -, -, hk, -⟩ := profile_at h hs hi
  refine ⟨?_, ?_, ?_⟩
  · rw [e]
    refine ⟨range_of_ids _ _ (fun i l hl => (hk.loc i l hl).1), range_of_ids _ _ hk.map, ?_, ?_, ?_⟩
    · intro s hs' id hid
      obtain ⟨k1, k2⟩ := hk.samp s hs' id hid
      have : id - 1 < b.profile.location.length := by omega
      refine ⟨b.profile.location[id - 1], List.getElem_mem this, ?_⟩
      rw [(hk.loc (id - 1) _ (List.getElem?_eq_getElem this)).1]; omega
    · intro l hl hne
      obtain ⟨j, hj⟩ := List.getElem?_of_mem hl
      have k := (hk.loc j l hj).2.1
      have : l.mappingId - 1 < b.profile.mapping.length := by omega
      refine ⟨b.profile.mapping[l.mappingId - 1], List.getElem_mem this, ?_⟩
      rw [hk.map (l.mappingId - 1) _ (List.getElem?_eq_getElem this)]; omega
    · intro l hl hz
      obtain ⟨j, hj⟩ := List.getElem?_of_mem hl
      exact (hk.loc j l hj).2.2.1 hz
  · intro s hs'
    obtain ⟨j, hj⟩ := List.getElem?_of_mem hs'
    exact (sample_values_partial h hi hj).1
  · obtain ⟨A, c, slot, B, maps, bm, -, -, -, k4, k5⟩ := hinv.first i b hb
    obtain ⟨c1, c2, -⟩ := created_spec k4
    rw [e, k5.types, (addComments_same S bm c2.inv).2.2.1, c1.types]
    have key : ∀ {α β : Type} {R : α → β → Prop} {as : List α} {bs : List β}, All₂ R as bs → as.length = bs.length := by
      intro α β R as bs hh
      induction hh with
      | nil => rfl
      | cons _ _ ih => simp [ih]
    rw [key (newProfile_types S).1]
    generalize S.attrs.length = n
    induction n with
    | zero => rfl
    | succ n ih => rw [List.range_succ, List.flatMap_append, List.length_append, ih]; simp [typeNames]; omega

example : ∃ ps L p, convert exS exCbs = some (ps, L) ∧ Sane exS exCbs ∧ p ∈ ps := by
  obtain ⟨ps, L, h, hl, -⟩ := ex_converts
  exact ⟨ps, L, _, h, ex_sane, List.getElem_mem (n := 0) (by omega)⟩

/-- C38 fails when all processes share a profile and process 0 executes a program: cached location ids of another
process are used in the new profile, where they do not exist. -/
theorem in_order_violated : ∃ S cbs ps L, convert S cbs = some (ps, L) ∧ ∃ p ∈ ps, ∃ s ∈ p.data.sample,
    ∃ id ∈ s.locationId, ∀ l ∈ p.data.location, l.id ≠ id := by
  let S : Setup := { attrs := [{}], labels := 8 }
  let smp : Nat → SampleCtx := fun ip => { sample := { ip, pid := some 5 }, main := some exM, sampleMap := some exM }
  let cbs : List Callback := [.sample (smp 5000), .sample (smp 5001),
    .comm { pid := 0, tid := 0, comm := ascii "a", md5 := 0 } true, .sample (smp 5002), .sample { smp 5001 with misc := some 2 }]
  have h : (convert S cbs).map (fun r => r.1.map (fun p => (p.data.location.map (·.id), p.data.sample.map (·.locationId)))) =
    some [([1, 2], [[1], [2]]), ([1], [[2]])] := by decide +kernel
  cases hc : convert S cbs with
  | none => rw [hc] at h; cases h
  | some r =>
    rw [hc] at h
    have h := Option.some.inj h
    have h := congrArg (fun l => l[1]?) h
    simp only [List.getElem?_map] at h
    cases hp : r.1[1]? with
    | none => rw [hp] at h; cases h
    | some p =>
      rw [hp] at h
      have h := Option.some.inj h
      simp only [Prod.mk.injEq] at h
      have hm : [2] ∈ p.data.sample.map (·.locationId) := by rw [h.2]; exact List.mem_cons_self
      obtain ⟨s, s1, s2⟩ := List.mem_map.1 hm
      refine ⟨S, cbs, r.1, r.2, hc, p, List.mem_of_getElem? hp, s, s1, 2, by rw [s2]; exact List.mem_cons_self, ?_⟩
      intro l hl e
      have : l.id ∈ p.data.location.map (·.id) := List.mem_map_of_mem hl
      rw [h.1, e] at this
      simp at this

end Verif.Converter
