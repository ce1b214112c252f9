import Verif.Converter.Counts

/-! # The counts over a run -/

namespace Verif.Converter
open Verif.Profile Verif.Builder
open Verif.Normalizer (Bytes Source MapRef Loc BranchPair SampleEv SampleCtx Callback ACtx AttrRec
  contextFromHeader nameOrMd5 upd)

/-- Samples of one event in one place. -/
def here (pl : List (SampleCtx × Slot)) (slot : Slot) (e : Nat) : List (SampleCtx × Slot) :=
  pl.filter (fun p => decide (p.2 = slot ∧ p.1.attrIndex = e))

/-- Samples of one event anywhere. -/
def ofEvent (pl : List (SampleCtx × Slot)) (e : Nat) : List (SampleCtx × Slot) :=
  pl.filter (fun p => decide (p.1.attrIndex = e))

/-- Frames of a process whose mapping has its build ID from a given source. -/
def framesFrom (pl : List (SampleCtx × Slot)) (pid : Nat) (src : Source) : Nat :=
  (((pl.filter (fun p => decide (pidOf p.1 = pid))).flatMap (fun p => codeFrames p.1)).filter
    (fun f => decide (srcOf f.2 = src))).length

structure Inv0 (S : Setup) (st : State) (L : Log) : Prop where
  len : st.metas.length = st.builders.length
  ptr : ∀ P bi, (st.pids P).builder = some bi → bi < st.builders.length
  tabs : Tables st.builders
  slot : ∀ P k s, find (st.pids P).samples k = some s → SlotOk st.builders s
  place : ∀ p ∈ placed L, SlotOk st.builders p.2
  val : ∀ (b i : Nat) s, (samplesOf st.builders b)[i]? = some s → s.value.length = 2 * S.attrs.length ∧
    ∀ e, e < S.attrs.length → s.value[2 * e]? = some ((here (placed L) (b, i) e).length : Int) ∧
      s.value[2 * e + 1]? = some ((here (placed L) (b, i) e).map (fun p => weight S p.1)).sum
  tot : ∀ e, e < S.attrs.length →
    total (fun s => s.value.getD (2 * e) 0) st.builders = ((ofEvent (placed L) e).length : Int) ∧
    total (fun s => s.value.getD (2 * e + 1) 0) st.builders = ((ofEvent (placed L) e).map (fun p => weight S p.1)).sum
  comm : ∀ P t, commOf st P t = commAt (hist L) P t
  stats : ∀ P src, st.stats P src = framesFrom (placed L) P src
  acc : ∀ e ∈ L, (e.2.isSome ↔ ∃ c, e.1 = .sample c ∧ Accepted S c)
  used : ∀ (b i : Nat) s, (samplesOf st.builders b)[i]? = some s → ∃ p ∈ placed L, p.2 = (b, i)

theorem placed_none (cb : Callback) (L : Log) : placed ((cb, none) :: L) = placed L := by
  cases cb <;> rfl

theorem placed_some (c : SampleCtx) (s : Slot) (L : Log) : placed ((.sample c, some s) :: L) = (c, s) :: placed L := rfl

theorem inv0_init (S : Setup) : Inv0 S {} [] := by
  refine ⟨rfl, ?_, ?_, ?_, ?_, ?_, ?_, ?_, ?_, ?_, ?_⟩
  · intro P bi h; cases h
  · intro b hb; cases hb
  · intro P k s h; simp [find] at h
  · intro p hp; cases hp
  · intro b i s h; simp [samplesOf] at h
  · intro e he; simp [total, ofEvent, placed]
  · intro P t; rfl
  · intro P src; rfl
  · intro e he; cases he
  · intro b i s h; simp [samplesOf] at h

theorem foldl_incStats (rs : List (Option MapRef)) (src : Source) : ∀ st : Source → Nat,
    (rs.foldl incStats st) src = st src + (rs.filter (fun r => decide (srcOf r = src))).length := by
  induction rs with
  | nil => intro st; rfl
  | cons r t ih =>
    intro st
    rw [List.foldl_cons, ih]
    have : incStats st r src = st src + if srcOf r = src then 1 else 0 := by
      unfold incStats
      show upd st (srcOf r) (st (srcOf r) + 1) src = _
      by_cases h : srcOf r = src
      · rw [if_pos h, ← h, upd_same]
      · rw [if_neg h, upd_other _ _ (fun e => h e.symm)]; rfl
    rw [this]
    by_cases h : srcOf r = src
    · rw [if_pos h, List.filter_cons_of_pos (by simpa using h)]; simp; omega
    · rw [if_neg h, List.filter_cons_of_neg (by simpa using h)]; rfl

theorem takes_iff (S : Setup) (c : SampleCtx) : takes S c = true ↔ Accepted S c := by
  unfold takes Accepted Setup.dropLost
  cases c.lost <;> cases S.options.testBit 4 <;> simp

theorem samplesOf_some {bs : List Builder} {b : Nat} {B : Builder} (h : bs[b]? = some B) :
    samplesOf bs b = B.profile.sample := by simp [samplesOf, h]

theorem slotOk_of {bs : List Builder} {s : Slot} {B : Builder} {x : Sample} (h : bs[s.1]? = some B)
    (hx : B.profile.sample[s.2]? = some x) : SlotOk bs s := by
  unfold SlotOk; rw [samplesOf_some h]; exact (List.getElem?_eq_some_iff.1 hx).1

/-- A replacement by a sample with one more hit. -/
theorem set_bumped {bs : List Builder} {slot : Slot} {b : Builder} {s s' : Sample}
    (hb : bs[slot.1]? = some b) (hs : b.profile.sample[slot.2]? = some s) (bs' : List Builder)
    (hbs' : bs' = bs.set slot.1 { b with profile := { b.profile with sample := b.profile.sample.set slot.2 s' } }) :
    (∀ j i : Nat, (samplesOf bs' j)[i]? = if (j, i) = slot then some s' else (samplesOf bs j)[i]?) ∧
    (∀ f, total f bs' = total f bs + (f s' - f s)) ∧ (∀ s, SlotOk bs' s ↔ SlotOk bs s) ∧
    bs'.length = bs.length := by
  subst hbs'
  have hlt := (List.getElem?_eq_some_iff.1 hs).1
  refine ⟨?_, ?_, ?_, by simp⟩
  · intro j i
    rw [samplesOf_set _ _ _ _ hb]
    by_cases hj : slot.1 = j
    · rw [if_pos hj]
      simp only [List.getElem?_set]
      by_cases hi : slot.2 = i
      · rw [if_pos hi, if_pos hlt, if_pos (by rw [← hj, ← hi])]
      · rw [if_neg hi, if_neg (by intro e; exact hi (by rw [← e]))]
        rw [← hj, samplesOf_some hb]
    · rw [if_neg hj, if_neg (by intro e; exact hj (by rw [← e]))]
  · intro f
    rw [total_set f _ _ _ _ hb]
    simp only [List.map_set]
    rw [sum_set _ _ (f s) _ (by simp [hs])]
    omega
  · intro t
    unfold SlotOk
    rw [samplesOf_set _ _ _ _ hb]
    by_cases hj : slot.1 = t.1
    · rw [if_pos hj, ← hj, samplesOf_some hb]; simp
    · rw [if_neg hj]

theorem find_cons {α β : Type} [DecidableEq α] (k : α) (v : β) (m : List (α × β)) (a : α) :
    find ((k, v) :: m) a = if k = a then some v else find m a := rfl

theorem getElem?_getD_int (l : List Int) (j : Nat) (x : Int) (h : l[j]? = some x) : l.getD j 0 = x := by
  simp [List.getD, h]

/-- Events other than the one that was hit. -/
theorem bumped_getD {S : Setup} {c : SampleCtx} {s s' : Sample} (h : Bumped S c s s') (e : Nat) :
    s'.value.getD (2 * e) 0 - s.value.getD (2 * e) 0 = (if c.attrIndex = e then 1 else 0) ∧
    s'.value.getD (2 * e + 1) 0 - s.value.getD (2 * e + 1) 0 = (if c.attrIndex = e then weight S c else 0) := by
  by_cases he : c.attrIndex = e
  · subst he
    obtain ⟨n, h1, h2⟩ := h.cnt
    obtain ⟨m, h3, h4⟩ := h.wgt
    rw [if_pos rfl, if_pos rfl, getElem?_getD_int _ _ _ h1, getElem?_getD_int _ _ _ h2, getElem?_getD_int _ _ _ h3,
      getElem?_getD_int _ _ _ h4]
    constructor <;> omega
  · rw [if_neg he, if_neg he]
    have h1 := h.rest (2 * e) (by omega) (by omega)
    have h2 := h.rest (2 * e + 1) (by omega) (by omega)
    simp only [List.getD, h1, h2]
    constructor <;> omega

theorem inv0_place {S : Setup} {st st1 : State} {L : Log} {c : SampleCtx} {slot : Slot} (h : Inv0 S st L)
    (hacc : Accepted S c)
    (bs : List Builder) (b : Builder) (s s' : Sample)
    (hsame : ∀ j i : Nat, (samplesOf bs j)[i]? = (samplesOf st.builders j)[i]? ∨
      ((j, i) = slot ∧ (samplesOf st.builders j)[i]? = none ∧ ∃ z, (samplesOf bs j)[i]? = some z ∧
        z.value = List.replicate (2 * S.attrs.length) 0))
    (hslots : ∀ t, SlotOk st.builders t → SlotOk bs t)
    (htot : ∀ e, e < S.attrs.length →
      total (fun s => s.value.getD (2 * e) 0) bs = total (fun s => s.value.getD (2 * e) 0) st.builders ∧
      total (fun s => s.value.getD (2 * e + 1) 0) bs = total (fun s => s.value.getD (2 * e + 1) 0) st.builders)
    (hb : bs[slot.1]? = some b) (hs : b.profile.sample[slot.2]? = some s) (hbump : Bumped S c s s')
    (hst : st1.builders = bs.set slot.1 { b with profile := { b.profile with sample := b.profile.sample.set slot.2 s' } })
    (hlen : st1.metas.length = st1.builders.length)
    (hptr : ∀ P bi, (st1.pids P).builder = some bi → bi < st1.builders.length)
    (htabs : Tables st1.builders)
    (hslot : ∀ P k t, find (st1.pids P).samples k = some t → t = slot ∨ ∃ k', find (st.pids P).samples k' = some t)
    (hcomm : ∀ P t, commOf st1 P t = commOf st P t)
    (hstats : st1.stats = upd st.stats (pidOf c) (((codeFrames c).map (·.2)).foldl incStats (st.stats (pidOf c)))) :
    Inv0 S st1 ((.sample c, some slot) :: L) := by
  obtain ⟨hget, htotal, hok, hlen'⟩ := set_bumped (s' := s') hb hs _ hst
  have hslotok : SlotOk bs slot := slotOk_of hb hs
  refine ⟨hlen, hptr, htabs, ?_, ?_, ?_, ?_, ?_, ?_, ?_, ?_⟩
  · intro P k t ht
    rw [hok]
    rcases hslot P k t ht with rfl | ⟨k', h'⟩
    · exact hslotok
    · exact hslots t (h.slot P k' t h')
  · intro p hp
    rw [placed_some] at hp
    rw [hok]
    rcases List.mem_cons.1 hp with rfl | hp
    · exact hslotok
    · exact hslots _ (h.place p hp)
  · -- values of one sample
    intro j i x hx
    rw [hget] at hx
    rw [placed_some]
    have hs0 : (samplesOf bs slot.1)[slot.2]? = some s := by rw [samplesOf_some hb]; exact hs
    -- the values before the hit
    have old : ∀ j i : Nat, ∀ y, (samplesOf bs j)[i]? = some y → y.value.length = 2 * S.attrs.length ∧
        ∀ e, e < S.attrs.length → y.value[2 * e]? = some ((here (placed L) (j, i) e).length : Int) ∧
          y.value[2 * e + 1]? = some ((here (placed L) (j, i) e).map (fun p => weight S p.1)).sum := by
      intro j i y hy
      rcases hsame j i with h1 | ⟨h1, h2, z, h3, h4⟩
      · exact h.val j i y (by rw [← h1]; exact hy)
      · rw [hy] at h3; cases h3
        have hno : ∀ e, here (placed L) (j, i) e = [] := by
          intro e
          apply List.filter_eq_nil_iff.2
          intro p hp hd
          have hd := (of_decide_eq_true hd).1
          have := h.place p hp
          rw [hd] at this
          exact absurd this (by unfold SlotOk; rw [List.getElem?_eq_none_iff] at h2; simp only; omega)
        rw [h4]
        refine ⟨by simp, ?_⟩
        intro e he
        rw [hno, List.getElem?_replicate, if_pos (by omega), List.getElem?_replicate, if_pos (by omega)]
        exact ⟨rfl, rfl⟩
    by_cases hji : (j, i) = slot
    · rw [if_pos hji] at hx
      cases hx
      subst hji
      obtain ⟨ol, ov⟩ := old j i s hs0
      refine ⟨hbump.len.trans ol, ?_⟩
      intro e he
      obtain ⟨o1, o2⟩ := ov e he
      by_cases hce : c.attrIndex = e
      · subst hce
        obtain ⟨n, n1, n2⟩ := hbump.cnt
        obtain ⟨m, m1, m2⟩ := hbump.wgt
        rw [o1] at n1; cases n1
        rw [o2] at m1; cases m1
        have : here ((c, (j, i)) :: placed L) (j, i) c.attrIndex = (c, (j, i)) :: here (placed L) (j, i) c.attrIndex := by
          simp [here]
        rw [this, n2, m2]
        simp; omega
      · have : here ((c, (j, i)) :: placed L) (j, i) e = here (placed L) (j, i) e := by
          simp [here, hce]
        rw [this, hbump.rest _ (by omega) (by omega), hbump.rest _ (by omega) (by omega)]
        exact ⟨o1, o2⟩
    · rw [if_neg hji] at hx
      have : ∀ e, here ((c, slot) :: placed L) (j, i) e = here (placed L) (j, i) e := by
        intro e
        unfold here
        rw [List.filter_cons_of_neg (by simpa using fun e => absurd e.symm hji)]
      obtain ⟨o1, o2⟩ := old j i x hx
      refine ⟨o1, fun e he => ?_⟩
      rw [this]; exact o2 e he
  · intro e he
    rw [placed_some, htotal, htotal, (htot e he).1, (htot e he).2, (h.tot e he).1, (h.tot e he).2,
      (bumped_getD hbump e).1, (bumped_getD hbump e).2]
    by_cases hce : c.attrIndex = e
    · rw [if_pos hce, if_pos hce]
      have : ofEvent ((c, slot) :: placed L) e = (c, slot) :: ofEvent (placed L) e := by simp [ofEvent, hce]
      rw [this]
      simp; omega
    · rw [if_neg hce, if_neg hce]
      have : ofEvent ((c, slot) :: placed L) e = ofEvent (placed L) e := by simp [ofEvent, hce]
      rw [this]; simp
  · intro P t
    rw [hcomm, h.comm]; rfl
  · intro P src
    rw [hstats, placed_some]
    by_cases hP : P = pidOf c
    · subst hP
      rw [upd_same, foldl_incStats, h.stats]
      unfold framesFrom
      rw [List.filter_cons_of_pos (by simp), List.flatMap_cons, List.filter_append, List.length_append,
        List.filter_map, List.length_map, Nat.add_comm]
      rfl
    · rw [upd_other _ _ hP, h.stats]
      unfold framesFrom
      rw [List.filter_cons_of_neg (by simpa using fun e => hP e.symm)]
  · intro e he
    rcases List.mem_cons.1 he with rfl | he
    · exact ⟨fun _ => ⟨c, rfl, hacc⟩, fun _ => rfl⟩
    · exact h.acc e he
  · intro j i x hx
    rw [hget] at hx
    rw [placed_some]
    by_cases hji : (j, i) = slot
    · exact ⟨_, List.mem_cons_self, hji.symm⟩
    · rw [if_neg hji] at hx
      rcases hsame j i with h1 | ⟨h1, -⟩
      · obtain ⟨p, p1, p2⟩ := h.used j i x (by rw [← h1]; exact hx)
        exact ⟨p, List.mem_cons_of_mem _ p1, p2⟩
      · exact absurd h1 hji

theorem getOrCreate_ptr {S : Setup} {st st' : State} {c : SampleCtx} {bi : Nat}
    (h : getOrCreate S st c = some (bi, st')) (hp : ∀ P bi, (st.pids P).builder = some bi → bi < st.builders.length) :
    ∀ P bi, (st'.pids P).builder = some bi → bi < st'.builders.length := by
  intro P bi hb
  rcases getOrCreate_some h with ⟨b, h1, hbb, -, rfl⟩ | ⟨maps, b, -, rfl, -, rfl⟩
  · exact hp P bi hb
  · simp only [List.length_append, List.length_singleton]
    simp only [upd] at hb
    split at hb
    · simp only at hb
      split at hb
      · simp only [Option.some.injEq] at hb; omega
      · have := hp _ _ hb; omega
    · split at hb
      · simp only [Option.some.injEq] at hb; omega
      · have := hp _ _ hb; omega

theorem takeSample_inv0 {S : Setup} {st st' : State} {L : Log} {c : SampleCtx} {slot : Slot} (h : Inv0 S st L)
    (hacc : Accepted S c) (ht : takeSample S st c = some (st', slot)) :
    Inv0 S st' ((.sample c, some slot) :: L) := by
  obtain ⟨bi, st1, b, a, h1, h2, h3, h4⟩ := takeSample_some ht
  obtain ⟨t1, s1, o1, -, l1⟩ := getOrCreate_builders h1 h.tabs
  have p1 := getOrCreate_pids h1
  have q1 := getOrCreate_ptr h1 h.ptr
  obtain ⟨bi1, be1⟩ := t1 b (List.mem_of_getElem? h2)
  have hk := makeKey_str S st1 c bi1
  obtain ⟨g, hst⟩ := pushAll_grow _ hk.inv (pushStack_some h3).2.2
  have gg := hk.grow.trans g
  -- the state before the sample is added
  have t2 : Tables (st1.builders.set bi a.w.b) := t1.set ⟨gg.inv, by rw [gg.err]; exact be1⟩
  have hb2 : (st1.builders.set bi a.w.b)[bi]? = some a.w.b := by
    have := (List.getElem?_eq_some_iff.1 h2).1
    simp [this]
  have s2 : ∀ j, samplesOf (st1.builders.set bi a.w.b) j = samplesOf st.builders j := by
    intro j
    rw [samplesOf_set _ _ _ _ h2, ← s1]
    split
    · rename_i e; rw [← e, samplesOf_some h2]; exact gg.sample
    · rfl
  have o2 : ∀ f, total f (st1.builders.set bi a.w.b) = total f st.builders := by
    intro f
    rw [total_set f _ _ _ _ h2, o1, show a.w.b.profile.sample = b.profile.sample from gg.sample]
    omega
  have hstats : a.stats = ((codeFrames c).map (·.2)).foldl incStats (st.stats (pidOf c)) := by
    rw [hst]
    have := flagged_counted S c
    rw [← this, List.map_map, (p1 0).2.2.2]
    rfl
  obtain ⟨bs, B, s, s', e1, e2, e3, e4, e5, e6, e7⟩ := addOrUpdate_some h4
  simp only at e4 e5 e6 e7
  have pids2 : ∀ P, (upd st1.pids (pidOf c) { st1.pids (pidOf c) with locs := a.w.locs, maps := a.w.maps } P).samples =
      (st.pids P).samples ∧
      (upd st1.pids (pidOf c) { st1.pids (pidOf c) with locs := a.w.locs, maps := a.w.maps } P).comms = (st.pids P).comms ∧
      (upd st1.pids (pidOf c) { st1.pids (pidOf c) with locs := a.w.locs, maps := a.w.maps } P).builder = (st1.pids P).builder := by
    intro P
    by_cases hP : P = pidOf c
    · subst hP; rw [upd_same]; exact ⟨(p1 _).1, (p1 _).2.1, rfl⟩
    · rw [upd_other _ _ hP]; exact ⟨(p1 P).1, (p1 P).2.1, rfl⟩
  have hstats' : st'.stats = upd st.stats (pidOf c) (((codeFrames c).map (·.2)).foldl incStats (st.stats (pidOf c))) := by
    rw [e6, ← hstats, (p1 0).2.2.2]
  rcases e7 with ⟨f1, rfl, f3⟩ | ⟨f1, b0, f2, rfl, rfl, f3⟩
  · refine inv0_place h hacc _ B s s' (fun j i => .inl (by rw [s2])) ?_ ?_ e1 e2 e3 e4 ?_ ?_ ?_ ?_ ?_ hstats'
    · intro t ht'; unfold SlotOk; rw [s2]; exact ht'
    · intro e _; exact ⟨o2 _, o2 _⟩
    · rw [e5, e4]; simp [l1 h.len]
    · intro P bj hb
      rw [e4]
      rw [f3, (pids2 P).2.2] at hb
      simpa using q1 P bj hb
    · rw [e4]
      obtain ⟨i1, i2⟩ := t2 B (List.mem_of_getElem? e1)
      exact t2.set ⟨sinv_congr i1 rfl rfl, i2⟩
    · intro P k t hk'
      rw [f3, (pids2 P).1] at hk'
      exact .inr ⟨k, hk'⟩
    · intro P t
      unfold commOf
      rw [f3, (pids2 P).2.1]
  · rw [hb2] at f2
    cases f2
    have ns := newSample_sample S c { (makeKey S st1 c b).1 with stack := a.stack } gg.inv
    generalize hN : newSample S c { (makeKey S st1 c b).1 with stack := a.stack } a.w.b = N at ns f3 e1 e4
    have hset : ∀ j, samplesOf ((st1.builders.set bi a.w.b).set bi N) j =
        if bi = j then N.profile.sample else samplesOf st.builders j := by
      intro j; rw [samplesOf_set _ _ _ _ hb2, s2]
    have hold : samplesOf st.builders bi = a.w.b.profile.sample := by rw [← s2, samplesOf_some hb2]
    refine inv0_place h hacc _ B s s' ?_ ?_ ?_ e1 e2 e3 e4 ?_ ?_ ?_ ?_ ?_ hstats'
    · intro j i
      rw [hset]
      by_cases hj : bi = j
      · subst hj
        rw [if_pos rfl, hold, ns.2.2.2]
        rcases Nat.lt_trichotomy i a.w.b.profile.sample.length with hi | hi | hi
        · exact .inl (List.getElem?_append_left hi)
        · refine .inr ⟨by rw [hi], by rw [hi]; simp, _, by rw [hi]; simp; rfl, rfl⟩
        · refine .inl ?_
          rw [List.getElem?_eq_none (by simp; omega), List.getElem?_eq_none (by omega)]
      · rw [if_neg hj]; exact .inl rfl
    · intro t ht'
      unfold SlotOk
      rw [hset]
      split
      · rename_i e
        unfold SlotOk at ht'
        rw [← e, hold] at ht'
        rw [ns.2.2.2]; simp; omega
      · exact ht'
    · intro e he
      constructor
      · rw [total_set _ _ _ _ _ hb2, o2, ns.2.2.2]
        simp only [List.map_append, List.sum_append, List.map_cons, List.map_nil, List.sum_cons, List.sum_nil]
        rw [getElem?_getD_int _ _ 0 (by rw [List.getElem?_replicate, if_pos (by omega)])]
        omega
      · rw [total_set _ _ _ _ _ hb2, o2, ns.2.2.2]
        simp only [List.map_append, List.sum_append, List.map_cons, List.map_nil, List.sum_cons, List.sum_nil]
        rw [getElem?_getD_int _ _ 0 (by rw [List.getElem?_replicate, if_pos (by omega)])]
        omega
    · rw [e5, e4]; simp [l1 h.len]
    · intro P bj hb
      rw [e4]
      have hb' : (st1.pids P).builder = some bj := by
        rw [← (pids2 P).2.2]
        rw [f3] at hb
        by_cases hP : P = pidOf c
        · subst hP; rw [upd_same] at hb; exact hb
        · rw [upd_other _ _ hP] at hb; exact hb
      simpa using q1 P bj hb'
    · rw [e4]
      have t3 : Tables ((st1.builders.set bi a.w.b).set bi N) := t2.set ⟨ns.1, by rw [ns.2.1, gg.err]; exact be1⟩
      obtain ⟨i1, i2⟩ := t3 B (List.mem_of_getElem? e1)
      exact t3.set ⟨sinv_congr i1 rfl rfl, i2⟩
    · intro P k t hk'
      rw [f3] at hk'
      by_cases hP : P = pidOf c
      · subst hP
        rw [upd_same] at hk'
        simp only [find_cons] at hk'
        split at hk'
        · exact .inl (Option.some.inj hk').symm
        · rw [(pids2 _).1] at hk'; exact .inr ⟨k, hk'⟩
      · rw [upd_other _ _ hP, (pids2 P).1] at hk'
        exact .inr ⟨k, hk'⟩
    · intro P t
      unfold commOf
      rw [f3]
      by_cases hP : P = pidOf c
      · subst hP; rw [upd_same]; simp only; rw [(pids2 _).2.1]
      · rw [upd_other _ _ hP, (pids2 P).2.1]

theorem inv0_quiet {S : Setup} {st : State} {L : Log} (h : Inv0 S st L) (cb : Callback) (pids : Nat → PidInfo)
    (hb : ∀ P bi, (pids P).builder = some bi → (st.pids P).builder = some bi)
    (hs : ∀ P k s, find (pids P).samples k = some s → find (st.pids P).samples k = some s)
    (hc : ∀ P t, (find (pids P).comms t).getD [] = commAt (cb :: hist L) P t)
    (hacc : ¬ ∃ c, cb = .sample c ∧ Accepted S c) :
    Inv0 S { st with pids := pids } ((cb, none) :: L) := by
  refine ⟨h.len, fun P bi e => h.ptr P bi (hb P bi e), h.tabs, fun P k s e => h.slot P k s (hs P k s e), ?_, ?_, ?_, hc, ?_, ?_, ?_⟩
  · rw [placed_none]; exact h.place
  · rw [placed_none]; exact h.val
  · rw [placed_none]; exact h.tot
  · rw [placed_none]; exact h.stats
  · intro e he
    rcases List.mem_cons.1 he with rfl | he
    · exact ⟨fun x => (by cases x), fun x => absurd x hacc⟩
    · exact h.acc e he
  · rw [placed_none]; exact h.used

theorem step_inv0 {S : Setup} {st st' : State} {L : Log} {cb : Callback} {o : Option Slot} (h : Inv0 S st L)
    (hs : step S st cb = some (st', o)) : Inv0 S st' ((cb, o) :: L) := by
  cases cb with
  | comm c x =>
    rw [step] at hs
    simp only [Option.some.injEq, Prod.mk.injEq] at hs
    obtain ⟨rfl, rfl⟩ := hs
    refine inv0_quiet h _ _ ?_ ?_ ?_ (by rintro ⟨c, e, -⟩; cases e)
    · intro P bi hb
      by_cases hP : P = c.pid
      · subst hP
        rw [upd_same] at hb
        cases x with
        | true => cases hb
        | false => exact hb
      · rw [upd_other _ _ hP] at hb; exact hb
    · intro P k s hb
      by_cases hP : P = c.pid
      · subst hP
        rw [upd_same] at hb
        cases x with
        | true => simp [find] at hb
        | false => exact hb
      · rw [upd_other _ _ hP] at hb; exact hb
    · intro P t
      have hc := h.comm P t
      unfold commOf at hc
      simp only [commAt]
      by_cases hP : c.pid = P
      · subst hP
        rw [upd_same, if_pos rfl]
        simp only [find_cons]
        by_cases ht : c.tid = t
        · rw [if_pos ht, if_pos ht]; rfl
        · rw [if_neg ht, if_neg ht]
          cases x with
          | true => rfl
          | false => exact hc
      · rw [upd_other _ _ (fun e => hP e.symm), if_neg hP]; exact hc
  | mmap pid m =>
    rw [step] at hs
    simp only at hs
    split at hs
    · cases hs
    · simp only [Option.some.injEq, Prod.mk.injEq] at hs
      obtain ⟨rfl, rfl⟩ := hs
      refine inv0_quiet h _ _ ?_ ?_ ?_ (by rintro ⟨c, e, -⟩; cases e)
      · intro P bi hb
        by_cases hP : P = pid
        · subst hP; rw [upd_same] at hb; exact hb
        · rw [upd_other _ _ hP] at hb; exact hb
      · intro P k s hb
        by_cases hP : P = pid
        · subst hP; rw [upd_same] at hb; exact hb
        · rw [upd_other _ _ hP] at hb; exact hb
      · intro P t
        have hc := h.comm P t
        unfold commOf at hc
        simp only [commAt]
        by_cases hP : P = pid
        · subst hP; rw [upd_same]; exact hc
        · rw [upd_other _ _ hP]; exact hc
  | sample c =>
    rw [step] at hs
    split at hs
    · rename_i ht
      cases hk : takeSample S st c with
      | none => rw [hk] at hs; cases hs
      | some r =>
        rw [hk] at hs
        simp only [Option.map_some, Option.some.injEq, Prod.mk.injEq] at hs
        obtain ⟨rfl, rfl⟩ := hs
        exact takeSample_inv0 h ((takes_iff S c).1 ht) hk
    · rename_i ht
      simp only [Option.some.injEq, Prod.mk.injEq] at hs
      obtain ⟨rfl, rfl⟩ := hs
      refine inv0_quiet h _ st.pids (fun _ _ h => h) (fun _ _ _ h => h) (fun P t => h.comm P t) ?_
      rintro ⟨c', e, ha⟩
      injection e with e
      subst e
      exact ht ((takes_iff S _).2 ha)

theorem run_inv0 {S : Setup} (cbs : List Callback) : ∀ {st st' : State} {L L' : Log}, Inv0 S st L →
    run S st L cbs = some (st', L') → Inv0 S st' L' ∧ hist L' = cbs.reverse ++ hist L := by
  induction cbs with
  | nil => intro st st' L L' h hr; simp only [run, Option.some.injEq, Prod.mk.injEq] at hr; obtain ⟨rfl, rfl⟩ := hr; exact ⟨h, rfl⟩
  | cons cb t ih =>
    intro st st' L L' h hr
    rw [run] at hr
    split at hr
    · cases hr
    · rename_i st1 o hs
      obtain ⟨h1, h2⟩ := ih (step_inv0 h hs) hr
      refine ⟨h1, ?_⟩
      rw [h2]; simp [hist]

end Verif.Converter
