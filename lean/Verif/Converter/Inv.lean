import Verif.Converter.Taken

/-! # The invariant of the converter -/

namespace Verif.Converter
open Verif.Profile Verif.Builder
open Verif.Normalizer (Bytes Source MapRef Loc BranchPair SampleEv SampleCtx Callback ACtx AttrRec
  contextFromHeader nameOrMd5 upd)

/-- The non-zero time stamps of the samples in a profile, newest first. -/
def timesOf (L : Log) (bi : Nat) : List Int :=
  ((placed L).filter (fun p => decide (p.2.1 = bi))).filterMap (fun p =>
    if p.1.sample.timeNs.getD 0 ≠ 0 then some (toInt64 (p.1.sample.timeNs.getD 0)) else none)

/-- The times of a process after these time stamps. -/
def metaOf (pid : Nat) (ts : List Int) : Meta := ts.foldr (fun t m => m.update t) { pid := pid }

/-- A frame is shown by a location. -/
def FrameShown (G : Nat → Normalizer.Mapping → Prop) (S : Setup) (L : Log) (P : Nat) (b : Builder) (f : Frame) (id : Nat) : Prop :=
  0 < id ∧ ∃ l, b.profile.location[id - 1]? = some l ∧ l.address = f.1 ∧
    ∃ r, Src S L P f.1 r ∧ Mapped G b l.mappingId r

structure Inv (G : Nat → Normalizer.Mapping → Prop) (S : Setup) (st : State) (L : Log) : Prop where
  bok : ∀ (bi : Nat) b, st.builders[bi]? = some b → BOk b ∧ b.profile.location ≠ []
  own : ∀ P Q bi, (st.pids (S.home P)).builder = some bi → (st.pids (S.home Q)).builder = some bi → S.home P = S.home Q
  ready : ∀ P, Ready G S st L P
  keys : ∀ P k slot, find (st.pids P).samples k = some slot →
    ∃ b smp ak, st.builders[slot.1]? = some b ∧ b.profile.sample[slot.2]? = some smp ∧ smp.locationId = k.stack ∧
      KeyRel b k ak ∧ (∃ A c B, L = A ++ (.sample c, some slot) :: B) ∧ ∀ A c B, L = A ++ (.sample c, some slot) :: B →
        pidOf c = P ∧ execs (hist A) P = false ∧ akey S (hist B) c = ak
  kept : ∀ A c slot B, L = A ++ (.sample c, some slot) :: B → execs (hist A) (pidOf c) = false →
    ∃ k, find (st.pids (pidOf c)).samples k = some slot
  shown : ∀ A c slot B, L = A ++ (.sample c, some slot) :: B →
    ∃ b smp, st.builders[slot.1]? = some b ∧ b.profile.sample[slot.2]? = some smp ∧
      All₂ (FrameShown G S ((.sample c, some slot) :: B) (pidOf c) b) (frames S c) smp.locationId ∧
      (execs (hist A) (pidOf c) = false → All₂ (fun (f : Frame) id => remaps (hist A) (pidOf c) f.1 = false →
        find (st.pids (pidOf c)).locs f.1 = some id) (frames S c) smp.locationId) ∧
      ∃ A0 c0 B0, L = A0 ++ (.sample c0, some slot) :: B0 ∧ pidOf c0 = pidOf c ∧
        akey S (hist B0) c0 = akey S (hist B) c ∧
        (Fits c0 → All₂ (fun l t => readLabel b.profile l = some t) smp.label (labelsOf S (hist B0) c0))
  time : ∀ (bi : Nat) m, st.metas[bi]? = some m → m = metaOf m.pid (timesOf L bi)
  mpid : ∀ P bi, (st.pids (S.home P)).builder = some bi → ∃ m, st.metas[bi]? = some m ∧ m.pid = S.home P
  spid : ∀ p ∈ placed L, ∃ m, st.metas[p.2.1]? = some m ∧ m.pid = S.home (pidOf p.1)
  first : ∀ (bi : Nat) b, st.builders[bi]? = some b → ∃ A c slot B maps bm, L = A ++ (.sample c, some slot) :: B ∧
    slot.1 = bi ∧ (∀ p ∈ placed B, p.2.1 ≠ bi) ∧ addMain [] (newProfile S) c.main = some (maps, bm) ∧
    BExt (addComments S bm) b
  held : ∀ A c slot B, L = A ++ (.sample c, some slot) :: B → execs (hist A) (S.home (pidOf c)) = false →
    (st.pids (S.home (pidOf c))).builder = some slot.1

theorem inv_init (G) (S : Setup) : Inv G S {} [] := by
  have nil : ∀ {A : Log} {x : Callback × Option Slot} {B : Log}, ¬ ([] : Log) = A ++ x :: B := by
    intro A x B h; cases A <;> cases h
  refine ⟨?_, ?_, ?_, ?_, ?_, ?_, ?_, ?_, ?_, ?_, ?_⟩
  · intro bi b h; cases h
  · intro P Q bi h; cases h
  · intro P
    refine ⟨fun _ => ⟨rfl, rfl, rfl⟩, ?_, ?_⟩
    · intro bi b h; cases h
    · intro k s h; cases h
  · intro P k slot h; simp [find] at h
  · intro A c slot B h; exact absurd h nil
  · intro A c slot B h; exact absurd h nil
  · intro bi m h; cases h
  · intro P bi h; cases h
  · intro p hp; cases hp
  · intro bi b h; cases h
  · intro A c slot B h; exact absurd h nil

theorem decomp_none {cb : Callback} {L A B : Log} {c : SampleCtx} {slot : Slot}
    (h : (cb, none) :: L = A ++ (.sample c, some slot) :: B) :
    ∃ A', A = (cb, none) :: A' ∧ L = A' ++ (.sample c, some slot) :: B := by
  cases A with
  | nil => cases h
  | cons x A' =>
    rw [List.cons_append, List.cons.injEq] at h
    exact ⟨A', by rw [h.1], h.2⟩

theorem decomp_some {c' c : SampleCtx} {s' slot : Slot} {L A B : Log}
    (h : (.sample c', some s') :: L = A ++ (.sample c, some slot) :: B) :
    (A = [] ∧ c' = c ∧ s' = slot ∧ L = B) ∨
    ∃ A', A = (.sample c', some s') :: A' ∧ L = A' ++ (.sample c, some slot) :: B := by
  cases A with
  | nil =>
    rw [List.nil_append, List.cons.injEq, Prod.mk.injEq] at h
    obtain ⟨⟨h1, h2⟩, h3⟩ := h
    injection h1 with h1
    injection h2 with h2
    exact .inl ⟨rfl, h1, h2, h3⟩
  | cons x A' =>
    rw [List.cons_append, List.cons.injEq] at h
    exact .inr ⟨A', by rw [h.1], h.2⟩

theorem hist_cons (e : Callback × Option Slot) (L : Log) : hist (e :: L) = e.1 :: hist L := rfl

/-- A callback that takes no sample. -/
theorem inv_quiet {G} {S : Setup} {st : State} {L : Log} (h : Inv G S st L) (cb : Callback) (pids : Nat → PidInfo)
    (hp : ∀ P, (execs [cb] P = false ∧ (pids P).builder = (st.pids P).builder ∧ (pids P).maps = (st.pids P).maps ∧
        (pids P).samples = (st.pids P).samples ∧
        ∀ a id, find (pids P).locs a = some id ↔ (find (st.pids P).locs a = some id ∧ remaps [cb] P a = false)) ∨
      (execs [cb] P = true ∧ (pids P).builder = none ∧ (pids P).locs = [] ∧ (pids P).maps = [] ∧ (pids P).samples = []))
    (hl : ∀ P, (st.pids P).locs = [] → (pids P).locs = [])
    (hsane : Sane S (cb :: hist L)) : Inv G S { st with pids := pids } ((cb, none) :: L) := by
  -- a process whose home was dropped was dropped itself
  have home : ∀ P, execs [cb] (S.home P) = true → execs [cb] P = true := by
    intro P he
    unfold Setup.home Setup.grouped at he
    rcases hsane with hs | hs
    · rw [hs, if_pos rfl] at he; exact he
    · cases hb : S.options.testBit 0 with
      | true => rw [hb, if_pos rfl] at he; exact he
      | false =>
        rw [hb, if_neg (by simp)] at he
        rw [execs_cons, he] at hs
        cases hs
  have hb : ∀ P bi, (pids (S.home P)).builder = some bi → (st.pids (S.home P)).builder = some bi := by
    intro P bi e
    rcases hp (S.home P) with ⟨-, h1, -⟩ | ⟨-, h1, -⟩
    · rw [← h1]; exact e
    · rw [h1] at e; cases e
  have src : ∀ P a r, execs [cb] P = false → remaps [cb] P a = false → Src S L P a r → Src S ((cb, none) :: L) P a r := by
    rintro P a r he hr ⟨A, c, slot, B, rfl, h2, h3, h4, h5⟩
    refine ⟨(cb, none) :: A, c, slot, B, rfl, h2, h3, ?_, ?_⟩
    · rw [hist_cons, execs_cons, he, h4]; rfl
    · rw [hist_cons, remaps_cons, hr, h5]; rfl
  refine ⟨h.bok, fun P Q bi e e' => h.own P Q bi (hb P bi e) (hb Q bi e'), ?_, ?_, ?_, ?_, ?_, ?_, ?_, ?_, ?_⟩
  · intro P
    rcases hp P with ⟨x1, x2, x3, x4, x5⟩ | ⟨x1, x2, x3, x4, x5⟩
    · have hH : execs [cb] (S.home P) = false := by
        cases e : execs [cb] (S.home P) with
        | false => rfl
        | true => rw [home P e] at x1; cases x1
      have hB : (pids (S.home P)).builder = (st.pids (S.home P)).builder := by
        rcases hp (S.home P) with ⟨-, y, -⟩ | ⟨y, -⟩
        · exact y
        · rw [hH] at y; cases y
      refine ⟨?_, ?_, ?_⟩
      · intro e
        simp only at e
        rw [hB] at e
        obtain ⟨i1, i2, i3⟩ := (h.ready P).idle e
        exact ⟨hl P i1, x3.trans i2, x4.trans i3⟩
      · intro bi b e hb'
        have hw := (h.ready P).work bi b (hb P bi e) hb'
        refine ⟨hw.bok, ?_, ?_⟩
        · intro a id hf
          simp only at hf
          obtain ⟨hf, hr⟩ := (x5 a id).1 hf
          obtain ⟨w1, l, w2, w3, r, w4, w5⟩ := hw.locs a id hf
          exact ⟨w1, l, w2, w3, r, src P a r x1 hr w4, w5⟩
        · simp only [x3]; exact hw.maps
      · intro k slot hf
        simp only at hf
        rw [x4] at hf
        simp only
        rw [hB]
        exact (h.ready P).keys k slot hf
    · refine ⟨fun _ => ⟨x3, x4, x5⟩, ?_, ?_⟩
      · intro bi b e hb'
        simp only [x3, x4]
        exact WorkOk.empty (h.bok bi b hb').1
      · intro k slot hf
        simp only [x5, find] at hf
        cases hf
  · intro P k slot hf
    simp only at hf
    rcases hp P with ⟨x1, x2, x3, x4, x5⟩ | ⟨x1, x2, x3, x4, x5⟩
    · rw [x4] at hf
      obtain ⟨b, smp, ak, k1, k2, k3, k4, ⟨A1, c1, B1, k9⟩, k5⟩ := h.keys P k slot hf
      refine ⟨b, smp, ak, k1, k2, k3, k4, ⟨(cb, none) :: A1, c1, B1, by rw [k9]; rfl⟩, ?_⟩
      intro A c B hL0
      obtain ⟨A', e, hL⟩ := decomp_none hL0
      subst e
      obtain ⟨k6, k7, k8⟩ := k5 A' c B hL
      exact ⟨k6, by rw [hist_cons, execs_cons, x1, k7]; rfl, k8⟩
    · rw [x5] at hf; simp [find] at hf
  · intro A c slot B hL0 he
    obtain ⟨A', e, hL⟩ := decomp_none hL0
    subst e
    rw [hist_cons, execs_cons, Bool.or_eq_false_iff] at he
    rcases hp (pidOf c) with ⟨x1, x2, x3, x4, x5⟩ | ⟨x1, -⟩
    · simp only [x4]; exact h.kept A' c slot B hL he.2
    · rw [he.1] at x1; cases x1
  · intro A c slot B hL0
    obtain ⟨A', e, hL⟩ := decomp_none hL0
    subst e
    obtain ⟨b, smp, k1, k2, k3, k4, A0, c0, B0, k5, k6⟩ := h.shown A' c slot B hL
    refine ⟨b, smp, k1, k2, k3, ?_, (cb, none) :: A0, c0, B0, by rw [k5]; rfl, k6⟩
    intro he
    rw [hist_cons, execs_cons, Bool.or_eq_false_iff] at he
    rcases hp (pidOf c) with ⟨x1, x2, x3, x4, x5⟩ | ⟨x1, -⟩
    · refine All₂.imp ?_ (k4 he.2)
      intro f id hfi hr
      rw [hist_cons, remaps_cons, Bool.or_eq_false_iff] at hr
      exact (x5 _ _).2 ⟨hfi hr.2, hr.1⟩
    · rw [he.1] at x1; cases x1
  · intro bi m hm
    unfold timesOf
    rw [placed_none]
    exact h.time bi m hm
  · intro P bi e; exact h.mpid P bi (hb P bi e)
  · rw [placed_none]; exact h.spid
  · intro bi b hb'
    obtain ⟨A, c, slot, B, maps, bm, k1, k2⟩ := h.first bi b hb'
    exact ⟨(cb, none) :: A, c, slot, B, maps, bm, by rw [k1]; rfl, k2⟩
  · intro A c slot B hL0 he
    obtain ⟨A', e, hL⟩ := decomp_none hL0
    subst e
    rw [hist_cons, execs_cons, Bool.or_eq_false_iff] at he
    rcases hp (S.home (pidOf c)) with ⟨x1, x2, -⟩ | ⟨x1, -⟩
    · exact x2.trans (h.held A' c slot B hL he.2)
    · rw [he.1] at x1; cases x1

theorem FrameShown.ext {G} {S : Setup} {L : Log} {P : Nat} {b b' : Builder} (h : BExt b b') {f : Frame} {id : Nat}
    (hf : FrameShown G S L P b f id) : FrameShown G S L P b' f id := by
  obtain ⟨h0, l, h1, h2, r, h3, h4⟩ := hf
  exact ⟨h0, l, h.loc _ _ h1, h2, r, h3, h4.ext h⟩

/-- Builders other than that of the sample stay, that of the sample grows. -/
theorem Taken.grows {G} {S : Setup} {st st' : State} {L : Log} {c : SampleCtx} {slot : Slot} (h : Taken G S st st' L c slot)
    {j : Nat} {b : Builder} (hb : st.builders[j]? = some b) (hbok : ∀ (bi : Nat) b, st.builders[bi]? = some b → BOk b) :
    ∃ b', st'.builders[j]? = some b' ∧ BExt b b' ∧ BOk b' := by
  by_cases hj : j = slot.1
  · subst hj
    obtain ⟨b0, b', ids, smp, k, h1, h2, h3, h4, -⟩ := h.main
    rcases h1 with ⟨-, h1, -⟩ | ⟨-, h1, -⟩
    · rw [hb] at h1; cases h1
      exact ⟨b', h2, h3, h4⟩
    · have := (List.getElem?_eq_some_iff.1 hb).1
      omega
  · exact ⟨b, by rw [h.rest j hj]; exact hb, BExt.refl b, hbok j b hb⟩

theorem timesOf_same (L : Log) (c : SampleCtx) (slot : Slot) : timesOf ((.sample c, some slot) :: L) slot.1 =
    (if c.sample.timeNs.getD 0 ≠ 0 then [toInt64 (c.sample.timeNs.getD 0)] else []) ++ timesOf L slot.1 := by
  unfold timesOf
  rw [placed_some, List.filter_cons_of_pos (by simp)]
  by_cases h : c.sample.timeNs.getD 0 = 0
  · rw [List.filterMap_cons_none (by simp [h]), if_neg (by simpa using h)]; rfl
  · rw [List.filterMap_cons_some (b := toInt64 (c.sample.timeNs.getD 0)) (by simp [h]), if_pos h]; rfl

theorem timesOf_other (L : Log) (c : SampleCtx) (slot : Slot) {bi : Nat} (h : slot.1 ≠ bi) :
    timesOf ((.sample c, some slot) :: L) bi = timesOf L bi := by
  unfold timesOf
  rw [placed_some, List.filter_cons_of_neg (by simpa using h)]

theorem metaOf_pid (p : Nat) (ts : List Int) : (metaOf p ts).pid = p := by
  induction ts with
  | nil => rfl
  | cons t r ih => exact ih

theorem stamp_metaOf (c : SampleCtx) (p : Nat) (ts : List Int) : stamp c (metaOf p ts) =
    metaOf p ((if c.sample.timeNs.getD 0 ≠ 0 then [toInt64 (c.sample.timeNs.getD 0)] else []) ++ ts) := by
  unfold stamp
  split <;> rfl

theorem stamp_pid (c : SampleCtx) (m : Meta) : (stamp c m).pid = m.pid := by
  unfold stamp; split <;> rfl

theorem mem_placed {L : Log} {p : SampleCtx × Slot} : p ∈ placed L ↔ ∃ A B, L = A ++ (.sample p.1, some p.2) :: B := by
  unfold placed
  rw [List.mem_filterMap]
  constructor
  · rintro ⟨e, he, hx⟩
    obtain ⟨A, B, rfl⟩ := List.append_of_mem he
    refine ⟨A, B, ?_⟩
    split at hx
    · cases hx; rfl
    · cases hx
  · rintro ⟨A, B, rfl⟩
    exact ⟨(.sample p.1, some p.2), by simp, rfl⟩

theorem home_eq {S : Setup} {P Q : Nat} : S.home P = S.home Q ↔ (S.grouped = true → P = Q) := by
  unfold Setup.home
  cases S.grouped <;> simp

theorem inv_taken {G} {S : Setup} {st st' : State} {L : Log} {c : SampleCtx} {slot : Slot} (h0 : Inv0 S st L)
    (h : Inv G S st L) (ht : Taken G S st st' L c slot) : Inv G S st' ((.sample c, some slot) :: L) := by
  have hgr := fun {j b} hb => ht.grows (j := j) (b := b) hb (fun bi b hb => (h.bok bi b hb).1)
  obtain ⟨b0, b, ids, smp, k, m1, m2, m3, m4, m5, m6, m7, m8, m9, m10, m11, m12⟩ := ht.main
  -- the builder of a home
  have hbu : ∀ Q, (st'.pids (S.home Q)).builder =
      if S.home Q = S.home (pidOf c) then some slot.1 else (st.pids (S.home Q)).builder := fun Q => ht.builder _
  have other : ∀ Q bi, S.home Q ≠ S.home (pidOf c) → (st.pids (S.home Q)).builder = some bi → bi ≠ slot.1 := by
    intro Q bi hQ hb e
    subst e
    rcases m1 with ⟨x, -⟩ | ⟨-, x, -⟩
    · exact hQ (h.own Q (pidOf c) _ hb x)
    · have := h0.ptr _ _ hb; omega
  -- slots of the past are in the builder's past
  have fresh : ∀ P k' s, find (st.pids P).samples k' = some s → ∀ Q bi, (st.pids (S.home Q)).builder = some bi →
      s.1 = bi → S.home P = S.home Q := by
    intro P k' s hf Q bi hb e
    obtain ⟨x, -⟩ := (h.ready P).keys k' s hf
    exact h.own P Q _ x (by rw [e]; exact hb)
  -- the mapping back
  have back : ∀ j b', st'.builders[j]? = some b' → j ≠ slot.1 → st.builders[j]? = some b' := by
    intro j b' hb hj; rw [← ht.rest j hj]; exact hb
  have newkeys : ∀ P k' s, find (st'.pids P).samples k' = some s →
      (P = pidOf c ∧ k' = k ∧ s = slot) ∨ find (st.pids P).samples k' = some s := by
    intro P k' s hf
    by_cases hP : P = pidOf c
    · subst hP
      rcases m12 with ⟨-, x⟩ | ⟨-, x, -⟩
      · rw [x] at hf; exact .inr hf
      · rw [x, find_cons] at hf
        split at hf
        · rename_i e; injection hf with hf; exact .inl ⟨rfl, e.symm, hf.symm⟩
        · exact .inr hf
    · rw [(ht.others P hP).2.2] at hf; exact .inr hf
  have findk : find (st'.pids (pidOf c)).samples k = some slot := by
    rcases m12 with ⟨x, y⟩ | ⟨-, y, -⟩
    · rw [y]; exact x
    · rw [y, find_cons, if_pos rfl]
  have mono : ∀ P a i, find (st.pids P).locs a = some i → find (st'.pids P).locs a = some i := by
    intro P a i hf
    by_cases hP : P = pidOf c
    · subst hP; exact ht.mono a i hf
    · rw [(ht.others P hP).1]; exact hf
  -- the ready state of each process
  have hready : ∀ P, Ready G S st' ((.sample c, some slot) :: L) P := by
    intro P
    refine ⟨?_, ?_, ?_⟩
    · intro e
      rw [hbu] at e
      split at e
      · cases e
      · rename_i hP
        have hP' : P ≠ pidOf c := fun e => hP (by rw [e])
        obtain ⟨x1, x2, x3⟩ := ht.others P hP'
        rw [x1, x2, x3]
        exact (h.ready P).idle e
    · intro bi b' e hb'
      rw [hbu] at e
      split at e
      · rename_i hP
        injection e with e
        subst e
        rw [m2] at hb'
        cases hb'
        by_cases hP' : P = pidOf c
        · subst hP'; exact m6
        · obtain ⟨x1, x2, x3⟩ := ht.others P hP'
          rw [x1, x2]
          rcases m1 with ⟨y1, y2, -⟩ | ⟨y1, -⟩
          · have hw := (h.ready P).work slot.1 b0 (by rw [hP]; exact y1) y2
            exact (hw.ext m3 m4).src (fun a id r _ hs => hs.sample c _)
          · obtain ⟨z1, z2, -⟩ := (h.ready P).idle (by rw [hP]; exact y1)
            rw [z1, z2]
            exact WorkOk.empty m4
      · rename_i hP
        have hne := other P bi hP e
        have hP' : P ≠ pidOf c := fun e => hP (by rw [e])
        obtain ⟨x1, x2, x3⟩ := ht.others P hP'
        rw [x1, x2]
        exact ((h.ready P).work bi b' e (back _ _ hb' hne)).src (fun a id r _ hs => hs.sample c _)
    · intro k' s hf
      rcases newkeys P k' s hf with ⟨rfl, rfl, rfl⟩ | hf
      · exact ⟨by rw [hbu, if_pos rfl], b, smp, m2, m8, m9.trans m10.symm⟩
      · obtain ⟨x1, b1, smp1, x2, x3, x4⟩ := (h.ready P).keys k' s hf
        obtain ⟨b2, y1, y2, -⟩ := hgr x2
        obtain ⟨smp2, y3, y4, -⟩ := y2.samp _ _ x3
        refine ⟨?_, b2, smp2, y1, y3, y4.trans x4⟩
        rw [hbu]
        split
        · rename_i hP
          rcases m1 with ⟨z1, -⟩ | ⟨z1, -⟩
          · rw [hP, z1] at x1; exact x1
          · rw [hP, z1] at x1; cases x1
        · exact x1
  refine ⟨?_, ?_, hready, ?_, ?_, ?_, ?_, ?_, ?_, ?_, ?_⟩
  · intro bi b' hb'
    by_cases hj : bi = slot.1
    · subst hj; rw [m2] at hb'; cases hb'; exact ⟨m4, m5⟩
    · exact h.bok bi b' (back _ _ hb' hj)
  · intro P Q bi hP hQ
    rw [hbu] at hP hQ
    split at hP <;> split at hQ
    · rename_i x y; rw [x, y]
    · rename_i x y; injection hP with hP; exact absurd hP.symm (other Q bi y hQ)
    · rename_i x y; injection hQ with hQ; exact absurd hQ.symm (other P bi x hP)
    · exact h.own P Q bi hP hQ
  · -- keys
    intro P k' s hf
    rcases newkeys P k' s hf with ⟨rfl, rfl, rfl⟩ | hf'
    · refine ⟨b, smp, _, m2, m8, m9.trans m10.symm, m11, ⟨[], c, L, rfl⟩, ?_⟩
      intro A c' B hL0
      rcases decomp_some hL0 with ⟨rfl, rfl, -, rfl⟩ | ⟨A', rfl, hL⟩
      · exact ⟨rfl, rfl, rfl⟩
      · rcases m12 with ⟨x, y⟩ | ⟨-, -, x, -⟩
        · obtain ⟨b1, smp1, ak, z1, z2, z3, z4, -, z5⟩ := h.keys _ _ _ x
          obtain ⟨z6, z7, z8⟩ := z5 A' c' B hL
          obtain ⟨b2, y1, y2, -⟩ := hgr z1
          rw [m2] at y1; cases y1
          refine ⟨z6, by rw [hist_cons, execs_cons, z7]; rfl, ?_⟩
          rw [z8]
          exact ((KeyRel.eq_iff m4.inv (z4.ext y2.str) m11).1 rfl).1
        · exact absurd (h0.place (c', s) (mem_placed.2 ⟨A', B, hL⟩)) x
    · obtain ⟨b1, smp1, ak, z1, z2, z3, z4, ⟨A1, c1, B1, k9⟩, z5⟩ := h.keys P k' s hf'
      obtain ⟨b2, y1, y2, -⟩ := hgr z1
      obtain ⟨smp2, y3, y4, -⟩ := y2.samp _ _ z2
      refine ⟨b2, smp2, ak, y1, y3, y4.trans z3, z4.ext y2.str, ⟨(.sample c, some slot) :: A1, c1, B1, by rw [k9]; rfl⟩, ?_⟩
      intro A c' B hL0
      rcases decomp_some hL0 with ⟨rfl, rfl, rfl, rfl⟩ | ⟨A', rfl, hL⟩
      · -- the sample just taken is in this slot
        rcases m12 with ⟨x, y⟩ | ⟨-, -, x, -⟩
        · -- the slot belongs to one key of one process
          obtain ⟨b3, smp3, ak3, w1, w2, w3, w4, -, w5⟩ := h.keys _ _ _ x
          obtain ⟨u1, u2, u3⟩ := z5 A1 c1 B1 k9
          obtain ⟨v1, v2, v3⟩ := w5 A1 c1 B1 k9
          refine ⟨v1.symm.trans u1, rfl, ?_⟩
          rw [← u3, v3]
          obtain ⟨b4, y5, y6, -⟩ := hgr w1
          rw [m2] at y5; cases y5
          exact ((KeyRel.eq_iff m4.inv m11 (w4.ext y6.str)).1 rfl).1
        · exact absurd (h0.slot _ _ _ hf') x
      · obtain ⟨z6, z7, z8⟩ := z5 A' c' B hL
        exact ⟨z6, by rw [hist_cons, execs_cons, z7]; rfl, z8⟩
  · -- kept
    intro A c' s B hL0 he
    rcases decomp_some hL0 with ⟨rfl, rfl, rfl, rfl⟩ | ⟨A', rfl, hL⟩
    · exact ⟨k, findk⟩
    · rw [hist_cons, execs_cons, Bool.or_eq_false_iff] at he
      obtain ⟨k', hk'⟩ := h.kept A' c' s B hL he.2
      by_cases hP : pidOf c' = pidOf c
      · rw [hP] at hk' ⊢
        rcases m12 with ⟨x, y⟩ | ⟨x, y, -⟩
        · rw [y]; exact ⟨k', hk'⟩
        · refine ⟨k', ?_⟩
          rw [y, find_cons, if_neg (fun e => by rw [e] at x; rw [x] at hk'; cases hk')]
          exact hk'
      · rw [(ht.others _ hP).2.2]; exact ⟨k', hk'⟩
  · -- shown
    intro A c' s B hL0
    rcases decomp_some hL0 with ⟨rfl, rfl, rfl, rfl⟩ | ⟨A', rfl, hL⟩
    · refine ⟨b, smp, m2, m8, ?_, ?_, ?_⟩
      · rw [m9]
        exact All₂.imp (fun f id hf => m6.locs _ _ hf) m7
      · intro _
        rw [m9]
        refine All₂.imp ?_ m7
        intro f id hf _
        exact hf
      · rcases m12 with ⟨x, y⟩ | ⟨-, -, x, hlab⟩
        · obtain ⟨b3, smp3, ak3, w1, w2, w3, w4, ⟨A1, c1, B1, hL1⟩, w5⟩ := h.keys _ _ _ x
          obtain ⟨b5, smp5, s1, s2, s3, s4, A0, c0, B0, s5, s6, s7, s8⟩ := h.shown A1 c1 slot B1 hL1
          rw [w1] at s1; cases s1
          rw [w2] at s2; cases s2
          obtain ⟨b4, y5, y6, -⟩ := hgr w1
          rw [m2] at y5; cases y5
          obtain ⟨smp2, y7, y8, y9⟩ := y6.samp _ _ w2
          rw [m8] at y7; cases y7
          obtain ⟨v1, v2, v3⟩ := w5 A1 c1 B1 hL1
          refine ⟨(.sample c, some slot) :: A0, c0, B0, by rw [s5]; rfl, s6.trans v1, ?_, ?_⟩
          · rw [s7, v3]
            exact ((KeyRel.eq_iff m4.inv (w4.ext y6.str) m11).1 rfl).1
          · intro hf
            rw [y9]
            exact All₂.imp (fun l t hr => readLabel_ext y6.str hr) (s8 hf)
        · exact ⟨[], c, L, rfl, rfl, rfl, hlab⟩
    · obtain ⟨b5, smp5, s1, s2, s3, s4, A0, c0, B0, s5, s6, s7, s8⟩ := h.shown A' c' s B hL
      obtain ⟨b4, y5, y6, -⟩ := hgr s1
      obtain ⟨smp2, y7, y8, y9⟩ := y6.samp _ _ s2
      refine ⟨b4, smp2, y5, y7, ?_, ?_, (.sample c, some slot) :: A0, c0, B0, by rw [s5]; rfl, s6, s7, ?_⟩
      · rw [y8]; exact All₂.imp (fun f id hf => hf.ext y6) s3
      · intro he
        rw [hist_cons, execs_cons, Bool.or_eq_false_iff] at he
        rw [y8]
        refine All₂.imp ?_ (s4 he.2)
        intro f id hfi hr
        rw [hist_cons, remaps_cons, Bool.or_eq_false_iff] at hr
        exact mono _ _ _ (hfi hr.2)
      · intro hf
        rw [y9]
        exact All₂.imp (fun l t hr => readLabel_ext y6.str hr) (s8 hf)
  · -- time
    intro bi m hm
    rcases m1 with ⟨-, -, x⟩ | ⟨-, x1, x, -⟩
    · rw [x, List.getElem?_modify] at hm
      by_cases hj : slot.1 = bi
      · subst hj
        cases hq : st.metas[slot.1]? with
        | none => rw [hq] at hm; cases hm
        | some m0 =>
          rw [hq] at hm
          simp only [if_true, Option.map_eq_map, Option.map_some, Option.some.injEq] at hm
          have := h.time slot.1 m0 hq
          subst hm
          rw [timesOf_same, stamp_pid, ← stamp_metaOf, ← this]
      · rw [timesOf_other _ _ _ hj]
        exact h.time bi m (by simpa [hj] using hm)
    · rw [x] at hm
      by_cases hj : slot.1 = bi
      · subst hj
        rw [x1, ← h0.len, List.getElem?_concat_length] at hm
        injection hm with hm
        subst hm
        have hnone : timesOf L slot.1 = [] := by
          unfold timesOf
          rw [List.filter_eq_nil_iff.2]
          · rfl
          · intro p hp hd
            have hd := of_decide_eq_true hd
            have hs := h0.place p hp
            unfold SlotOk samplesOf at hs
            rw [hd, x1] at hs
            simp at hs
        rw [timesOf_same, hnone, stamp_pid, ← stamp_metaOf]
        rfl
      · rw [timesOf_other _ _ _ hj]
        have : bi < st.metas.length := by
          have := (List.getElem?_eq_some_iff.1 hm).1
          simp only [List.length_append, List.length_singleton] at this
          rw [h0.len] at this ⊢
          omega
        rw [List.getElem?_append_left this] at hm
        exact h.time bi m hm
  · -- pid of a meta
    intro P bi e
    rw [hbu] at e
    rcases m1 with ⟨y, -, x⟩ | ⟨-, x1, x, -⟩
    · have : (st.pids (S.home P)).builder = some bi := by
        split at e
        · rename_i hP; injection e with e; rw [hP, y, e]
        · exact e
      obtain ⟨m, q1, q2⟩ := h.mpid P bi this
      rw [x, List.getElem?_modify, q1]
      split
      · exact ⟨_, rfl, by rw [stamp_pid]; exact q2⟩
      · exact ⟨m, rfl, q2⟩
    · split at e
      · rename_i hP
        injection e with e
        subst e
        rw [x, x1, ← h0.len, List.getElem?_concat_length]
        exact ⟨_, rfl, by rw [stamp_pid, hP]⟩
      · obtain ⟨m, q1, q2⟩ := h.mpid P bi e
        rw [x, List.getElem?_append_left (List.getElem?_eq_some_iff.1 q1).1]
        exact ⟨m, q1, q2⟩
  · intro p hp
    rw [placed_some] at hp
    have old : ∀ (j : Nat) m, st.metas[j]? = some m → ∃ m', st'.metas[j]? = some m' ∧ m'.pid = m.pid := by
      intro j m hm
      rcases m1 with ⟨y, -, x⟩ | ⟨-, x1, x, -⟩
      · rw [x, List.getElem?_modify, hm]
        split
        · exact ⟨_, rfl, by rw [stamp_pid]⟩
        · exact ⟨m, rfl, rfl⟩
      · rw [x, List.getElem?_append_left (List.getElem?_eq_some_iff.1 hm).1]
        exact ⟨m, hm, rfl⟩
    rcases List.mem_cons.1 hp with rfl | hp
    · rcases m1 with ⟨y, -, x⟩ | ⟨-, x1, x, -⟩
      · obtain ⟨m, q1, q2⟩ := h.mpid _ _ y
        obtain ⟨m', q3, q4⟩ := old _ _ q1
        exact ⟨m', q3, q4.trans q2⟩
      · simp only
        rw [x, x1, ← h0.len, List.getElem?_concat_length]
        exact ⟨_, rfl, by rw [stamp_pid]⟩
    · obtain ⟨m, q1, q2⟩ := h.spid p hp
      obtain ⟨m', q3, q4⟩ := old _ _ q1
      exact ⟨m', q3, q4.trans q2⟩
  · -- first
    intro bi b' hb'
    by_cases hj : bi = slot.1
    · subst hj
      rw [m2] at hb'; cases hb'
      rcases m1 with ⟨-, y, -⟩ | ⟨-, x1, -, maps, bm, x2, x3⟩
      · obtain ⟨A, c', s, B, maps, bm, k1, k2, k3, k4, k5⟩ := h.first _ _ y
        exact ⟨(.sample c, some slot) :: A, c', s, B, maps, bm, by rw [k1]; rfl, k2, k3, k4, k5.trans m3⟩
      · refine ⟨[], c, slot, L, maps, bm, rfl, rfl, ?_, x2, by rw [← x3]; exact m3⟩
        intro p hp e
        have hs := h0.place p hp
        unfold SlotOk samplesOf at hs
        rw [e, x1] at hs
        simp at hs
    · obtain ⟨A, c', s, B, maps, bm, k1, k2⟩ := h.first _ _ (back _ _ hb' hj)
      exact ⟨(.sample c, some slot) :: A, c', s, B, maps, bm, by rw [k1]; rfl, k2⟩
  · -- held
    intro A c' s B hL0 he
    rw [hbu]
    rcases decomp_some hL0 with ⟨rfl, rfl, rfl, rfl⟩ | ⟨A', rfl, hL⟩
    · rw [if_pos rfl]
    · rw [hist_cons, execs_cons, Bool.or_eq_false_iff] at he
      have hh := h.held A' c' s B hL he.2
      split
      · rename_i hP
        rw [hP] at hh
        rcases m1 with ⟨z1, -⟩ | ⟨z1, -⟩
        · rw [z1] at hh; exact hh
        · rw [z1] at hh; cases hh
      · exact hh

theorem find_filter {α β : Type} [DecidableEq α] (p : α → Bool) (l : List (α × β)) (a : α) :
    find (l.filter (fun x => p x.1)) a = if p a then find l a else none := by
  induction l with
  | nil => cases p a <;> rfl
  | cons x r ih =>
    by_cases hx : p x.1 = true
    · rw [List.filter_cons_of_pos (by simpa using hx), find_cons, find_cons, ih]
      by_cases e : x.1 = a
      · rw [if_pos e, if_pos e, ← e, if_pos hx]
      · rw [if_neg e, if_neg e]
    · rw [List.filter_cons_of_neg (by simpa using hx), ih, find_cons]
      by_cases e : x.1 = a
      · rw [← e, if_neg hx]; simp [hx]
      · rw [if_neg e]

theorem Sane.tail {S : Setup} {cb : Callback} {h : List Callback} (hs : Sane S (cb :: h)) : Sane S h := by
  rcases hs with hs | hs
  · exact .inl hs
  · rw [execs_cons, Bool.or_eq_false_iff] at hs; exact .inr hs.2

theorem Sane.drop {S : Setup} {a h : List Callback} (hs : Sane S (a ++ h)) : Sane S h := by
  induction a with
  | nil => exact hs
  | cons x r ih => exact ih hs.tail

theorem step_inv {G} {S : Setup} {st st' : State} {L : Log} {cb : Callback} {o : Option Slot} (h0 : Inv0 S st L)
    (h : Inv G S st L) (hsane : Sane S (cb :: hist L))
    (hg : ∀ c, cb = .sample c → ∀ x : MapRef, (c.main = some x ∨ ∃ f ∈ frames S c, f.2 = some x) → G x.ptr x.mapping)
    (hs : step S st cb = some (st', o)) : Inv G S st' ((cb, o) :: L) := by
  cases cb with
  | comm c x =>
    rw [step] at hs
    simp only [Option.some.injEq, Prod.mk.injEq] at hs
    obtain ⟨rfl, rfl⟩ := hs
    refine inv_quiet h _ _ ?_ ?_ hsane
    · intro P
      have hr : ∀ a, remaps [Callback.comm c x] P a = false := fun a => rfl
      have he : execs [Callback.comm c x] P = (x && c.pid == P) := by simp [execs]
      by_cases hP : P = c.pid
      · subst hP
        rw [upd_same, he]
        cases x with
        | true => exact .inr ⟨by simp, rfl, rfl, rfl, rfl⟩
        | false => exact .inl ⟨rfl, rfl, rfl, rfl, fun a id => by simp [hr]⟩
      · rw [upd_other _ _ hP, he]
        refine .inl ⟨?_, rfl, rfl, rfl, fun a id => by simp [hr]⟩
        have : (c.pid == P) = false := by simpa using fun e => hP e.symm
        rw [this, Bool.and_false]
    · intro P hl
      by_cases hP : P = c.pid
      · subst hP
        rw [upd_same]
        cases x with
        | true => rfl
        | false => exact hl
      · rw [upd_other _ _ hP]; exact hl
  | mmap pid m =>
    rw [step] at hs
    split at hs
    · cases hs
    · simp only [Option.some.injEq, Prod.mk.injEq] at hs
      obtain ⟨rfl, rfl⟩ := hs
      refine inv_quiet h _ _ ?_ ?_ hsane
      · intro P
        refine .inl ?_
        have he : execs [Callback.mmap pid m] P = false := rfl
        have hr : ∀ a, remaps [Callback.mmap pid m] P a =
          (pid == P && decide (m.mapping.start ≤ a) && decide (a < m.mapping.limit)) := fun a => by simp [remaps]
        by_cases hP : P = pid
        · subst hP
          rw [upd_same]
          refine ⟨he, rfl, rfl, rfl, fun a id => ?_⟩
          have hff := find_filter (fun a => !(decide (m.mapping.start ≤ a) && decide (a < m.mapping.limit))) (st.pids P).locs a
          refine (show _ ↔ _ from Eq.to_iff (congrArg (· = some id) hff)).trans ?_
          rw [hr]
          by_cases hd : (decide (m.mapping.start ≤ a) && decide (a < m.mapping.limit)) = true
          · simp [hd]
          · simp only [Bool.not_eq_true] at hd
            simp [hd]
        · rw [upd_other _ _ hP]
          refine ⟨he, rfl, rfl, rfl, fun a id => ?_⟩
          have : (pid == P) = false := by simpa using fun e => hP e.symm
          rw [hr, this]; simp
      · intro P hl
        by_cases hP : P = pid
        · subst hP
          rw [upd_same]
          show List.filter _ _ = _
          rw [hl]; rfl
        · rw [upd_other _ _ hP]; exact hl
  | sample c =>
    rw [step] at hs
    split at hs
    · cases ht : takeSample S st c with
      | none => rw [ht] at hs; cases hs
      | some r =>
        rw [ht] at hs
        simp only [Option.map_some, Option.some.injEq, Prod.mk.injEq] at hs
        obtain ⟨rfl, rfl⟩ := hs
        exact inv_taken h0 h (takeSample_taken h0 (h.ready _) (hg c rfl) ht)
    · simp only [Option.some.injEq, Prod.mk.injEq] at hs
      obtain ⟨rfl, rfl⟩ := hs
      refine inv_quiet h _ _ (fun P => .inl ⟨rfl, rfl, rfl, rfl, fun a id => ?_⟩) (fun P hl => hl) hsane
      have : remaps [Callback.sample c] P a = false := rfl
      simp [this]

theorem run_inv {G} {S : Setup} (cbs : List Callback) : ∀ {st st' : State} {L L' : Log}, Inv0 S st L → Inv G S st L →
    Sane S (cbs.reverse ++ hist L) →
    (∀ c, .sample c ∈ cbs → ∀ x : MapRef, (c.main = some x ∨ ∃ f ∈ frames S c, f.2 = some x) → G x.ptr x.mapping) →
    run S st L cbs = some (st', L') → Inv G S st' L' := by
  induction cbs with
  | nil =>
    intro st st' L L' h0 h _ _ hr
    simp only [run, Option.some.injEq, Prod.mk.injEq] at hr
    obtain ⟨rfl, rfl⟩ := hr; exact h
  | cons cb t ih =>
    intro st st' L L' h0 h hsane hg hr
    rw [run] at hr
    split at hr
    · cases hr
    · rename_i st1 o hs
      rw [List.reverse_cons, List.append_assoc] at hsane
      refine ih (step_inv0 h0 hs) (step_inv h0 h hsane.drop ?_ hs) (by rw [hist_cons]; exact hsane) ?_ hr
      · intro c e; exact hg c (by rw [e]; simp)
      · intro c e; exact hg c (List.mem_cons_of_mem _ e)

end Verif.Converter
