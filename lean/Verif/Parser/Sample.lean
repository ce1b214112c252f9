import Verif.Parser.Lemmas

/-! # Lemmas about the parser: samples -/

namespace Verif.Parser
open Verif.AddressMapper (Req specRun specLookup)

/-- The address written for an address by a mapper. -/
def tr (O : Opts) (m : Mapper) (a : Nat) : Nat :=
  if O.remap then
    match AddressMapper.getMappedAddressIDAndOffset m a with
    | some (some (x, _, _)) => x
    | _ => mark a
  else a

/-- File and offset, given the regions. -/
def locR (evs : List Ev) (reg : Nat → Option (Nat × Nat)) (a : Nat) : At :=
  match reg a with
  | some (j, off) => { name := some ((((evs[j]?).bind (·.mmap)).getD {}).filename), offset := off }
  | none => {}

/-- The counters after a lookup. -/
def hit (reg : Nat → Option (Nat × Nat)) (hits : Nat → Option Nat) (a : Nat) : Nat → Option Nat :=
  match reg a with
  | some (j, _) => upd hits j ((hits j).map (· + 1))
  | none => hits

/-- The files of all regions are known. -/
def Files (evs : List Ev) (reg : Nat → Option (Nat × Nat)) (files : List Bytes) : Prop :=
  ∀ a j off, reg a = some (j, off) → ∃ e, evs[j]? = some e ∧ (e.mmap.getD {}).filename ∈ files

/-- The situation in which the addresses of a sample are looked up. -/
structure Ready (O : Opts) (S : Nat) (starts : Nat → Nat) (evs : List Ev) (pid : Nat) (m : Mapper) (qs : List Req)
    (reg : Nat → Option (Nat × Nat)) (st : State) : Prop where
  mapper : st.mappers pid = some m
  ok : MOk O S starts m qs
  page : ∃ k, k ≤ 60 ∧ O.page = 2 ^ k
  regs : reg = specLookup (specRun O.page [] qs).2
  files : Files evs reg st.files

theorem page_ne {O : Opts} (h : ∃ k, k ≤ 60 ∧ O.page = 2 ^ k) : O.page ≠ 0 := by
  obtain ⟨k, _, hk⟩ := h
  rw [hk]
  exact Nat.ne_of_gt (Nat.two_pow_pos k)

variable {O : Opts} {S : Nat} {starts : Nat → Nat} {evs : List Ev} {pid : Nat} {m : Mapper} {qs : List Req}
  {reg : Nat → Option (Nat × Nat)} {st : State}

theorem Ready.hits (h : Ready O S starts evs pid m qs reg st) (H : Nat → Option Nat) :
    Ready O S starts evs pid m qs reg { st with hits := H } := ⟨h.mapper, h.ok, h.page, h.regs, h.files⟩

theorem Ready.stats (h : Ready O S starts evs pid m qs reg st) (H : Stats) :
    Ready O S starts evs pid m qs reg { st with stats := H } := ⟨h.mapper, h.ok, h.page, h.regs, h.files⟩

theorem mapIp_ready (h : Ready O S starts evs pid m qs reg st) {a : Nat} (ha : a < 2 ^ 64) :
    mapIp O evs pid st a = some ({ st with hits := hit reg st.hits a },
      { addr := tr O m a, loc := locR evs reg a, ok := (reg a).isSome }) := by
  have hreg : reg a = specLookup (specRun O.page [] qs).2 a := by rw [h.regs]
  rcases look h.ok (page_ne h.page) ha with ⟨x, hx, h1, h2, off, h3, h4, h5, _⟩ | ⟨h1, h2⟩
  · rw [h4] at hreg
    obtain ⟨e, he, hf⟩ := h.files a x.r.id off hreg
    simp only [mapIp, mapperFor_hit h.mapper, h3, he, hf, if_true, hit, hreg, tr, locR, Option.bind_some]
    rw [h5]
    cases O.remap <;> simp
  · rw [h2] at hreg
    simp only [mapIp, mapperFor_hit h.mapper, h1, hit, hreg, tr, locR]
    obtain ⟨k, hk, hp⟩ := h.page
    rw [hp, mark_page hk]
    simp

/-! ## Call chains -/

theorem mapChain_ready {orig ip : Nat} (hip : ip = tr O m orig) : ∀ {st : State} (l : List Nat),
    Ready O S starts evs pid m qs reg st →
    (∀ a ∈ l.filter (fun a => isCode a && decide (a ≠ orig)), a < 2 ^ 64) →
    mapChain O evs pid orig ip st l = some
      ({ st with hits := (l.filter (fun a => isCode a && decide (a ≠ orig))).foldl (hit reg) st.hits },
       l.map (fun a => if isCode a then tr O m a else a),
       (l.filter (fun a => isCode a && decide (a ≠ orig))).map (locR evs reg),
       (l.filter (fun a => isCode a && decide (a ≠ orig))).all (fun a => (reg a).isSome))
  | st, [], _, _ => rfl
  | st, e :: t, h, hl => by
    by_cases hc : isCode e = true
    · have hc' : ¬ e ≥ 2 ^ 64 - 4095 := by
        unfold isCode at hc
        simpa using hc
      by_cases he : e = orig
      · have hf : (e :: t).filter (fun a => isCode a && decide (a ≠ orig)) =
            t.filter (fun a => isCode a && decide (a ≠ orig)) := by
          rw [List.filter_cons_of_neg (by simp [he])]
        rw [hf] at hl ⊢
        simp only [mapChain, if_neg hc', if_pos he, mapChain_ready hip t h hl, Option.map_some, List.map_cons,
          if_pos hc]
        rw [hip, he]
      · have hf : (e :: t).filter (fun a => isCode a && decide (a ≠ orig)) =
            e :: t.filter (fun a => isCode a && decide (a ≠ orig)) := by
          rw [List.filter_cons_of_pos (by simp [hc, he])]
        rw [hf] at hl ⊢
        simp only [mapChain, if_neg hc', if_neg he, mapIp_ready h (hl e (by simp))]
        rw [mapChain_ready hip t (h.hits _) (fun a ha => hl a (List.mem_cons_of_mem _ ha))]
        simp only [Option.map_some, List.map_cons, if_pos hc, List.foldl_cons, List.all_cons]
    · have hc' : e ≥ 2 ^ 64 - 4095 := by
        unfold isCode at hc
        simp only [decide_eq_true_eq] at hc
        omega
      have hf : (e :: t).filter (fun a => isCode a && decide (a ≠ orig)) =
          t.filter (fun a => isCode a && decide (a ≠ orig)) := by
        rw [List.filter_cons_of_neg (by simp [hc])]
      rw [hf] at hl ⊢
      simp only [mapChain, if_pos hc', mapChain_ready hip t h hl, Option.map_some, List.map_cons, if_neg hc]

/-! ## Branch stacks -/

/-- What is reported about a branch. -/
def pbranch (f : Nat → At) (b : Branch) : PBranch :=
  { mispredicted := b.mispredicted, predicted := b.predicted, inTransaction := b.inTransaction,
    abort := b.abort, cycles := b.cycles, spec := b.spec, src := f b.src, dst := f b.dst }

theorem mapEntries_ready : ∀ {st : State} (l : List Branch), Ready O S starts evs pid m qs reg st →
    (∀ a ∈ l.flatMap (fun b => [b.src, b.dst]), a < 2 ^ 64) →
    mapEntries O evs pid st l = some
      ({ st with hits := (l.flatMap (fun b => [b.src, b.dst])).foldl (hit reg) st.hits },
       l.map (fun b => { b with src := tr O m b.src, dst := tr O m b.dst }),
       l.map (pbranch (locR evs reg)),
       (l.flatMap (fun b => [b.src, b.dst])).all (fun a => (reg a).isSome))
  | st, [], _, _ => rfl
  | st, b :: t, h, hl => by
    simp only [List.flatMap_cons, List.cons_append, List.nil_append] at hl ⊢
    simp only [mapEntries, mapIp_ready h (hl b.src (by simp))]
    rw [mapIp_ready (h.hits _) (hl b.dst (by simp))]
    simp only []
    rw [mapEntries_ready t ((h.hits _).hits _) (fun a ha => hl a (by simp [ha]))]
    simp only [Option.map_some, List.map_cons, List.foldl_cons, List.all_cons, pbranch, Bool.and_assoc]

theorem takeWhile_not_null (bs : List Branch) : ∀ b ∈ front bs, b.null = false := by
  unfold front
  induction bs with
  | nil => simp
  | cons b t ih =>
    rw [List.takeWhile_cons]
    cases hb : b.null with
    | true => simp
    | false =>
      simp only [Bool.not_false, if_true]
      intro c hc
      rcases List.mem_cons.1 hc with rfl | hc
      · exact hb
      · exact ih c hc

theorem mapBranches_ready {bs : List Branch} (h : Ready O S starts evs pid m qs reg st)
    (hl : ∀ a ∈ (usable bs).flatMap (fun b => [b.src, b.dst]), a < 2 ^ 64) :
    mapBranches O evs pid st bs = some
      ({ st with hits := ((usable bs).flatMap (fun b => [b.src, b.dst])).foldl (hit reg) st.hits },
       bs.map (fun b => if NullsLast bs && !b.null then { b with src := tr O m b.src, dst := tr O m b.dst } else b),
       (usable bs).map (pbranch (locR evs reg)),
       NullsLast bs && ((usable bs).flatMap (fun b => [b.src, b.dst])).all (fun a => (reg a).isSome)) := by
  have hany : ((bs.dropWhile (fun b => !b.null)).any (fun b => !b.null)) = !NullsLast bs := by
    unfold NullsLast
    rw [List.not_all_eq_any_not]
  unfold mapBranches
  simp only []
  rw [hany]
  cases hn : NullsLast bs with
  | false =>
    simp only [usable, hn, Bool.false_eq_true, if_false, Bool.not_false, if_true, List.flatMap_nil, List.foldl_nil,
      List.map_nil, Bool.false_and, List.map_id']
  | true =>
    have hu : usable bs = front bs := by simp [usable, hn]
    rw [hu] at hl ⊢
    simp only [Bool.not_true, Bool.false_eq_true, if_false]
    show Option.map _ (mapEntries O evs pid st (front bs)) = _
    rw [mapEntries_ready (front bs) h hl]
    simp only [Option.map_some, Option.some.injEq, Prod.mk.injEq, true_and, Bool.true_and, and_true]
    have hsplit : bs = front bs ++ bs.dropWhile (fun b => !b.null) := (List.takeWhile_append_dropWhile ..).symm
    conv => rhs; rw [hsplit, List.map_append]
    congr 1
    · apply List.map_congr_left
      intro b hb
      simp [takeWhile_not_null bs b hb]
    · symm
      rw [List.map_congr_left (g := id), List.map_id]
      intro b hb
      have : b.null = true := by
        unfold NullsLast at hn
        exact List.all_eq_true.1 hn b hb
      simp [this]

/-! ## Samples -/

theorem mapData_ready (h : Ready O S starts evs pid m qs reg st) {o : Option Nat}
    (hl : ∀ a ∈ (o.filter (· ≠ 0)).toList, a < 2 ^ 64) :
    mapData O evs pid st o = some
      ({ st with
          hits := (o.filter (· ≠ 0)).toList.foldl (hit reg) st.hits
          stats := { st.stats with
            dataSamples := st.stats.dataSamples + (o.filter (· ≠ 0)).toList.length
            dataMapped := st.stats.dataMapped + ((o.filter (· ≠ 0)).toList.filter (fun a => (reg a).isSome)).length } },
       o.map (fun a => if a = 0 then 0 else tr O m a),
       dataLoc (locR evs reg) o) := by
  cases o with
  | none => rfl
  | some a =>
    by_cases ha : a = 0
    · subst ha; rfl
    · have hf : (some a).filter (· ≠ 0) = some a := by simp [Option.filter, ha]
      rw [hf] at hl ⊢
      simp only [mapData, dataLoc, if_neg ha, mapIp_ready h (hl a (by simp)), Option.map_some, Option.toList_some,
        List.foldl_cons, List.foldl_nil, List.length_singleton]
      cases hr : (reg a).isSome with
      | true => simp [hr]
      | false => simp [hr]

theorem mapSample_spec {T : Nat → Option (List Req)} {s : Sample} {evs : List Ev} {st : State} (hp : ∃ k, k ≤ 60 ∧ O.page = 2 ^ k)
    (h : MRel O S starts st.mappers T) (hl : ∀ a ∈ lookups s, a < 2 ^ 64)
    (hf : ∀ qs, inherit T s.pid kernelPid s.pid = some qs → Files evs (specLookup (specRun O.page [] qs).2) st.files) :
    ∃ m ms qs, inherit T s.pid kernelPid s.pid = some qs ∧ MOk O S starts m qs ∧
      MRel O S starts ms (inherit T s.pid kernelPid) ∧
      mapSample O evs st s = some
        ({ st with
            mappers := ms
            hits := (lookups s).foldl (hit (specLookup (specRun O.page [] qs).2)) st.hits
            stats := sampleStats (specLookup (specRun O.page [] qs).2) s st.stats },
         replace (tr O m) s,
         { command := st.comms (s.pid, s.tid)
           here := locR evs (specLookup (specRun O.page [] qs).2) s.ip
           data := dataLoc (locR evs (specLookup (specRun O.page [] qs).2)) s.addr
           callchain := (s.callchain.filter (fun a => isCode a && decide (a ≠ s.ip))).map
             (locR evs (specLookup (specRun O.page [] qs).2))
           branches := (usable s.branches).map (pbranch (locR evs (specLookup (specRun O.page [] qs).2))) }) := by
  have ha : AddressMapper.AlignOK O.page := by
    obtain ⟨k, hk, hpk⟩ := hp
    exact Or.inr ⟨k, by omega, hpk⟩
  obtain ⟨m, ms, qs, h1, h2, h3, h4, h5, _⟩ := mapperFor_rel ha h s.pid kernelPid
  refine ⟨m, ms, qs, h3, h4, h5, ?_⟩
  generalize hreg : specLookup (specRun O.page [] qs).2 = reg at hf ⊢
  have hfs : Files evs reg st.files := by have := hf qs h3; rw [hreg] at this; exact this
  have hr : Ready O S starts evs s.pid m qs reg { st with mappers := ms } := ⟨h2, h4, hp, hreg.symm, hfs⟩
  have hfirst : mapIp O evs s.pid st s.ip = mapIp O evs s.pid { st with mappers := ms } s.ip := by
    simp only [mapIp, h1, mapperFor_hit h2]
  have hl1 : s.ip < 2 ^ 64 := hl _ (by simp [lookups])
  have hl2 : ∀ a ∈ (s.addr.filter (· ≠ 0)).toList, a < 2 ^ 64 := fun a ha => hl a (by
    unfold lookups
    exact List.mem_cons_of_mem _ (List.mem_append_left _ (List.mem_append_left _ ha)))
  have hl3 : ∀ a ∈ s.callchain.filter (fun a => isCode a && decide (a ≠ s.ip)), a < 2 ^ 64 := fun a ha => hl a (by
    unfold lookups
    exact List.mem_cons_of_mem _ (List.mem_append_left _ (List.mem_append_right _ ha)))
  have hl4 : ∀ a ∈ (usable s.branches).flatMap (fun b => [b.src, b.dst]), a < 2 ^ 64 := fun a ha => hl a (by
    unfold lookups
    exact List.mem_cons_of_mem _ (List.mem_append_right _ ha))
  unfold mapSample
  rw [hfirst, mapIp_ready hr hl1]
  simp only []
  have hr2 := hr.hits (hit reg st.hits s.ip)
  rw [mapData_ready hr2 hl2]
  simp only []
  have hr3 := (hr2.hits ((s.addr.filter (· ≠ 0)).toList.foldl (hit reg) (hit reg st.hits s.ip))).stats
    { st.stats with
        dataSamples := st.stats.dataSamples + (s.addr.filter (· ≠ 0)).toList.length
        dataMapped := st.stats.dataMapped + ((s.addr.filter (· ≠ 0)).toList.filter (fun a => (reg a).isSome)).length }
  rw [mapChain_ready rfl s.callchain hr3 hl3]
  simp only []
  rw [mapBranches_ready (hr3.hits _) hl4]
  simp only [Option.some.injEq, Prod.mk.injEq]
  refine ⟨?_, rfl, trivial⟩
  congr 1
  · simp only [lookups, List.foldl_cons, List.foldl_append]
  · simp only [sampleStats, allMapped, List.all_cons, List.all_append]
    congr 1
    cases (reg s.ip).isSome <;> cases NullsLast s.branches <;>
      cases (s.callchain.filter (fun a => isCode a && decide (a ≠ s.ip))).all (fun a => (reg a).isSome) <;>
      cases ((usable s.branches).flatMap (fun b => [b.src, b.dst])).all (fun a => (reg a).isSome) <;> rfl

end Verif.Parser
