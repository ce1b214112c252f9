import Verif.Normalizer.Lost

/-! # Main mappings -/

namespace Verif.Normalizer
open Verif.IntervalMap

/-! ## Names -/

/-- A path is a deleted shared object when, past its first byte, it has `.so` followed by `.`, `_` or a blank, and then
`(deleted)`. -/
theorem isDeleted_iff (s : Bytes) : isDeletedSharedObject s = some true ↔
    ∃ x c y z, x ≠ [] ∧ (c = 46 ∨ c = 95 ∨ c = 32) ∧ s = x ++ ascii ".so" ++ (c :: y) ++ ascii "(deleted)" ++ z := by
  rw [isDeleted_true]
  constructor
  · rintro ⟨i, hi, ⟨h1, c, h2, h3⟩, j, hj, h4⟩
    obtain ⟨x, t, e, hx⟩ := at_iff.1 h1
    obtain ⟨u, z, e', hu⟩ := at_iff.1 h4
    have hx0 : x ≠ [] := by intro h; rw [h] at hx; simp at hx; omega
    have hlen : (ascii ".so").length = 3 := rfl
    -- the byte after `.so`
    cases t with
    | nil =>
      rw [e] at h2
      rw [List.getElem?_eq_none (by simp [hlen, hx])] at h2
      cases h2
    | cons c' y =>
      have hc' : c' = c := by
        rw [e, List.getElem?_append_right (by simp [hlen, hx])] at h2
        simp [hlen, hx] at h2
        exact h2
      subst hc'
      have hj' : i + 4 ≤ j := by
        rcases Nat.lt_or_ge j (i + 4) with h | h
        · have : j = i + 3 := by omega
          subst this
          have hb : s[i + 3]? = some 40 := by
            rw [e', List.append_assoc, List.getElem?_append_right (by omega)]
            simp [hu, ascii]
          rw [h2] at hb
          cases hb
          exact absurd h3 (by unfold isSep; decide)
        · exact h
      -- cut the rest
      have hd : y = (u.drop (i + 4)) ++ ascii "(deleted)" ++ z := by
        have := congrArg (List.drop (i + 4)) (e.symm.trans e')
        rw [List.drop_append, List.drop_append] at this
        simp only [List.length_append, hlen, hx] at this
        rw [List.drop_eq_nil_of_le (by simp [hx]), List.drop_eq_nil_of_le (by simp [hlen])] at this
        simp only [List.nil_append, show i + 4 - (i + 3) = 1 by omega, List.drop_succ_cons, List.drop_zero] at this
        rw [this, List.append_assoc, List.append_assoc, List.drop_append_of_le_length (by omega)]
      refine ⟨x, c', u.drop (i + 4), z, hx0, h3, ?_⟩
      rw [e, hd]
      simp [List.append_assoc]
  · rintro ⟨x, c, y, z, hx, hc, rfl⟩
    have hl : 1 ≤ x.length := by cases x with
      | nil => exact absurd rfl hx
      | cons => simp
    refine ⟨x.length, hl, ⟨at_iff.2 ⟨x, c :: y ++ ascii "(deleted)" ++ z, by simp [List.append_assoc], rfl⟩, c, ?_, hc⟩,
      x.length + 4 + y.length, by omega, at_iff.2 ⟨x ++ ascii ".so" ++ c :: y, z, by simp [List.append_assoc], ?_⟩⟩
    · rw [List.append_assoc, List.append_assoc, List.append_assoc, List.getElem?_append_right (by omega)]
      simp [ascii]
    · simp [ascii]; omega

/-- A path is a versioned shared object when it has `.so.` past its first byte. -/
theorem isVersioned_iff (s : Bytes) : isVersionedSharedObject s = true ↔
    ∃ x y, x ≠ [] ∧ s = x ++ ascii ".so." ++ y := by
  unfold isVersionedSharedObject
  rw [findFrom_isSome]
  constructor
  · rintro ⟨i, hi, h⟩
    obtain ⟨x, y, e, hx⟩ := at_iff.1 h
    exact ⟨x, y, by intro h0; rw [h0] at hx; simp at hx; omega, e⟩
  · rintro ⟨x, y, hx, e⟩
    refine ⟨x.length, ?_, at_iff.2 ⟨x, y, e, rfl⟩⟩
    cases x with
    | nil => exact absurd rfl hx
    | cons => simp

theorem pre_iff {p s : Bytes} : p.isPrefixOf s = true ↔ ∃ x, s = p ++ x := by
  rw [isPrefixOf_iff]

theorem suf_iff {p s : Bytes} : p.isSuffixOf s = true ↔ ∃ x, s = x ++ p := by
  rw [isSuffixOf_iff]

theorem canBeMain_iff (name : Bytes) : canBeMain name = some true ↔ MainName name := by
  unfold canBeMain MainName
  rw [← suf_iff, ← suf_iff, ← isDeleted_iff, ← isVersioned_iff, ← pre_iff, ← pre_iff, ← suf_iff, ← pre_iff, ← pre_iff,
    ← suf_iff, ← pre_iff]
  unfold isVirtualMapping kernelPrefix
  obtain ⟨b, hb⟩ := canBeMain_total name
  unfold canBeMain at hb
  by_cases h1 : (ascii ".ko").isSuffixOf name = true
  · simp [h1]
  · by_cases h2 : (ascii ".so").isSuffixOf name = true
    · simp [h1, h2]
    · rw [if_neg h1, if_neg h2] at hb ⊢
      cases hd : isDeletedSharedObject name with
      | none => rw [hd] at hb; cases hb
      | some d =>
        cases d with
        | true => simp [h1, h2]
        | false =>
          simp only [h1, h2, Bool.false_eq_true, false_or, Option.some.injEq, Bool.and_eq_true, Bool.not_eq_true',
            Bool.or_eq_false_iff, Bool.and_eq_false_iff, not_or, Bool.not_eq_true, not_and]
          constructor
          · rintro ⟨⟨⟨a, ⟨⟨⟨b, c⟩, d⟩, e⟩⟩, f⟩, g⟩
            refine ⟨a, b, ?_, d, e, f, g⟩
            intro hp
            rcases c with c | c
            · rw [hp] at c; cases c
            · exact c
          · rintro ⟨a, b, c, d, e, f, g⟩
            refine ⟨⟨⟨a, ⟨⟨b, ?_⟩, d⟩, e⟩, f⟩, g⟩
            cases hp : (ascii "[").isPrefixOf name with
            | false => exact Or.inl rfl
            | true => exact Or.inr (c hp)

/-! ## The invariant -/

/-- The tables of main mappings and command names. -/
structure MainInv (cfg : Config) (es : List Ev) (st : State) : Prop where
  main : ∀ pid, Points cfg.ids st.owned (st.execs pid) (mainOf cfg es pid)
  comm : ∀ pid, st.comms pid = commOf es pid

theorem MainInv.grow {cfg : Config} {es : List Ev} {st st' : State} (h : MainInv cfg es st) (hg : Grow st.owned st'.owned)
    (he : st'.execs = st.execs) (hc : st'.comms = st.comms) : MainInv cfg es st' :=
  ⟨fun pid => by rw [he]; exact (h.main pid).grow hg, fun pid => by rw [hc]; exact h.comm pid⟩

theorem points_none {ids : Ids} {o : List Mapping} {p : Option Nat} {m : Option MMapEv} (h : Points ids o p m) :
    p = none ↔ m = none := by
  cases p <;> cases m <;> first | exact h.elim | simp

theorem kernelGuess_execs (st : State) (m : MMapEv) (p : Nat) : (kernelGuess st m p).execs =
    if m.pid = kernelPid ∧ kernelPrefix.isPrefixOf m.filename then upd st.execs m.pid (some p) else st.execs := by
  unfold kernelGuess; split <;> rfl

theorem renameOld_execs (st : State) (m : MMapEv) (mp : Mapping) : (renameOld st m mp).execs = st.execs := by
  unfold renameOld
  split
  · rfl
  · split
    · rfl
    · split <;> rfl

open Classical in
theorem guessMain_execs {st st' : State} {m : MMapEv} {mp : Mapping} {p : Nat} (h : guessMain st m mp p = some st')
    (hf : mp.start = m.first) (cur : Option MMapEv) (hc : st.execs m.pid = none ↔ cur = none) :
    st'.execs = if TakesOver m cur then upd st.execs m.pid (some p) else st.execs := by
  have hk : (m.pid = kernelPid ∧ kernelPrefix.isPrefixOf m.filename = true) ↔
      (m.pid = 2 ^ 32 - 1 ∧ ∃ x, m.filename = ascii "[kernel.kallsyms]" ++ x) := by
    rw [← pre_iff]; exact Iff.rfl
  unfold guessMain at h
  unfold TakesOver
  rw [← hf]
  by_cases h1 : mp.start = 0x8048000 ∨ mp.start = 0x400000
  · rw [if_pos h1] at h
    cases h
    rw [if_pos]
    rcases h1 with h1 | h1
    · exact Or.inl h1
    · exact Or.inr (Or.inl h1)
  · rw [if_neg h1] at h
    dsimp only at h
    have hr := renameOld_execs st m mp
    generalize renameOld st m mp = s1 at h hr
    by_cases h2 : (st.execs m.pid).isSome = true
    · rw [if_pos h2] at h
      cases h
      rw [kernelGuess_execs, hr]
      have hcur : cur ≠ none := fun e => by rw [hc.2 e] at h2; cases h2
      by_cases h3 : m.pid = kernelPid ∧ kernelPrefix.isPrefixOf m.filename = true
      · rw [if_pos h3, if_pos (Or.inr (Or.inr (Or.inr (hk.1 h3))))]
      · rw [if_neg h3, if_neg]
        rintro (h | h | h | h)
        · exact h1 (Or.inl h)
        · exact h1 (Or.inr h)
        · exact hcur h.1
        · exact h3 (hk.2 h)
    · rw [if_neg h2] at h
      have hcur : cur = none := hc.1 (by simpa using h2)
      obtain ⟨b, hb⟩ := canBeMain_total m.filename
      rw [hb] at h
      cases b with
      | true =>
        cases h
        dsimp only
        rw [hr, if_pos (Or.inr (Or.inr (Or.inl ⟨hcur, (canBeMain_iff _).1 hb⟩)))]
      | false =>
        cases h
        rw [kernelGuess_execs, hr]
        by_cases h3 : m.pid = kernelPid ∧ kernelPrefix.isPrefixOf m.filename = true
        · rw [if_pos h3, if_pos (Or.inr (Or.inr (Or.inr (hk.1 h3))))]
        · rw [if_neg h3, if_neg]
          rintro (h | h | h | h)
          · exact h1 (Or.inl h)
          · exact h1 (Or.inr h)
          · have := (canBeMain_iff _).2 h.2
            rw [hb] at this
            cases this
          · exact h3 (hk.2 h)

theorem updateMmap_main {cfg : Config} {es : List Ev} {st st' : State} {cbs : List Callback} (m : MMapEv) (e : Ev)
    (he : e.mapping = some m) (ht : m.Typed) (h : Inv cfg.ids es st) (hm : MainInv cfg es st)
    (hs : updateMmap cfg st m = some (st', cbs)) : MainInv cfg (e :: es) st' := by
  have hcomm : ∀ pid, commOf (e :: es) pid = commOf es pid := by
    intro pid
    cases e <;> simp only [Ev.mapping, reduceCtorEq] at he <;> rfl
  have hmain : ∀ pid, mainOf cfg (e :: es) pid =
      open Classical in if pid = m.pid ∧ m.len ≠ 0 ∧ TakesOver m (mainOf cfg es pid) then some m else mainOf cfg es pid := by
    intro pid
    cases e <;> simp only [Ev.mapping, reduceCtorEq] at he <;> simp only [mainOf, Ev.mapping, he]
  have hframe := updateMmap_frame m ht h hs
  refine ⟨?_, fun pid => by rw [hcomm, updateMmap_comms hs]; exact hm.comm pid⟩
  unfold updateMmap at hs
  by_cases hl : m.len = 0
  · rw [if_pos hl] at hs
    cases hs
    intro pid
    rw [hmain, if_neg (fun h => h.2.1 hl)]
    exact hm.main pid
  · rw [if_neg hl] at hs
    cases hb : getBuildId cfg.ids m with
    | none => rw [hb] at hs; cases hs
    | some bid =>
      rw [hb] at hs
      dsimp only at hs
      cases hset : set ((st.maps m.pid).getD []) (mkMapping bid m).start (mkMapping bid m).limit st.owned.length with
      | none => rw [hset] at hs; cases hs
      | some im =>
        rw [hset] at hs
        dsimp only at hs
        generalize hst1 : ({ st with owned := st.owned ++ [mkMapping bid m], maps := upd st.maps m.pid (some im) } : State)
          = st1 at hs
        cases hg : guessMain st1 m (mkMapping bid m) st.owned.length with
        | none => rw [hg] at hs; cases hs
        | some s2 =>
          rw [hg] at hs
          simp only [Option.map_some, Option.some.injEq, Prod.mk.injEq] at hs
          obtain ⟨e1, -⟩ := hs
          subst e1
          have hlt : (mkMapping bid m).start < (mkMapping bid m).limit := by
            simp only [IntervalMap.set] at hset
            split at hset
            · assumption
            · cases hset
          have hnw : m.start + m.len < 2 ^ 64 := by
            rcases (fits_iff bid m ht hl).1 hlt with h' | h'
            · exact absurd h' hl
            · exact h'.1
          have hd := describes_mk cfg.ids m bid hnw hb
          have ho : st1.owned = st.owned ++ [mkMapping bid m] := by rw [← hst1]
          have hex : st1.execs = st.execs := by rw [← hst1]
          have hlen : st1.owned.length = st.owned.length + 1 := by rw [ho]; simp
          obtain ⟨k1, k2, k3, k4, k5, k6, k7⟩ := guessMain_spec st1 s2 m _ _ (by omega)
            (by intro pid q hq; rw [hex] at hq; have := h.execs pid q hq; omega) hg
          have hnewp : Points cfg.ids s2.owned (some st.owned.length) (some m) := by
            apply Points.grow k2
            exact ⟨mkMapping bid m, by rw [ho]; simp, hd⟩
          have hgx := guessMain_execs hg (mkMapping_first bid m hnw).1 (mainOf cfg es m.pid)
            (by rw [hex]; exact points_none (hm.main m.pid))
          intro pid
          rw [hmain, hgx, hex]
          by_cases hp : pid = m.pid
          · subst hp
            by_cases hto : TakesOver m (mainOf cfg es m.pid)
            · rw [if_pos hto, if_pos ⟨rfl, hl, hto⟩]
              unfold upd
              rw [if_pos rfl]
              exact hnewp
            · rw [if_neg hto, if_neg (fun h0 : _ ∧ _ ∧ _ => hto h0.2.2)]
              exact (hm.main m.pid).grow hframe.1
          · have : (open Classical in if TakesOver m (mainOf cfg es m.pid) then upd st.execs m.pid (some st.owned.length)
                else st.execs) pid = st.execs pid := by
              split
              · unfold upd; rw [if_neg hp]
              · rfl
            rw [this, if_neg (fun h0 : _ ∧ _ ∧ _ => hp h0.1)]
            exact (hm.main pid).grow hframe.1

theorem getOrAddFake_tables (st : State) (comm : Bytes) (bid : BuildId) (md5 start : Nat) :
    Grow st.owned (getOrAddFake st comm bid md5 start).1.owned ∧
    (getOrAddFake st comm bid md5 start).1.execs = st.execs ∧
    (getOrAddFake st comm bid md5 start).1.comms = st.comms := by
  unfold getOrAddFake
  split
  · exact ⟨Grow.refl _, rfl, rfl⟩
  · exact ⟨Grow.append _ _, rfl, rfl⟩

theorem points_shows {ids : Ids} {st : State} {p : Option Nat} {m : Option MMapEv} (h : Points ids st.owned p m) :
    Shows ids (p.bind st.ref) m := by
  cases p with
  | none => cases m <;> exact h
  | some p =>
    cases m with
    | none => exact h.elim
    | some m =>
      obtain ⟨r, h1, h2⟩ := h
      have : (some p).bind st.ref = some ⟨p, r⟩ := by simp [State.ref, h1]
      rw [this]
      exact h2

theorem mainMapping_main {cfg : Config} {es : List Ev} {st : State} (hi : Inv2 cfg es st) (h : MainInv cfg es st)
    (c : SampleCtx) (hc : c.main = (mainMapping st (c.sample.pid.getD 0) (contextFromHeader c.misc)).2.bind
        (mainMapping st (c.sample.pid.getD 0) (contextFromHeader c.misc)).1.ref) :
    MainInv cfg es (mainMapping st (c.sample.pid.getD 0) (contextFromHeader c.misc)).1 ∧ MainShown cfg es c := by
  unfold MainShown
  dsimp only
  rw [hc]
  generalize c.sample.pid.getD 0 = pid
  generalize contextFromHeader c.misc = ctx
  have hp := h.main pid
  unfold mainMapping
  cases he : st.execs pid with
  | some p =>
    rw [he] at hp
    cases hmn : mainOf cfg es pid with
    | none => rw [hmn] at hp; exact hp.elim
    | some m =>
      rw [hmn] at hp
      exact ⟨h, points_shows (p := some p) (m := some m) hp⟩
  | none =>
    rw [he] at hp
    cases hmn : mainOf cfg es pid with
    | some m => rw [hmn] at hp; exact hp.elim
    | none =>
      dsimp only
      by_cases hk : ctx = .hostKernel
      · rw [if_pos hk, if_pos hk]
        rw [← h.comm pid]
        cases hcm : st.comms pid with
        | none =>
          dsimp only
          by_cases hz : pid = 0
          · rw [if_pos hz, if_pos hz]
            exact ⟨h, points_shows (h.main (2 ^ 32 - 1))⟩
          · rw [if_neg hz, if_neg hz]
            exact ⟨h, rfl⟩
        | some cm =>
          dsimp only
          have hkm := h.main (2 ^ 32 - 1)
          generalize hbid : threadBuildId st = bid
          obtain ⟨t1, t2, t3⟩ := getOrAddFake_tables st cm.comm bid cm.md5 0
          obtain ⟨-, -, r, f3, f4, f5, f6⟩ := getOrAddFake_fake hi.fake cm.comm bid cm.md5 0 (by decide)
          refine ⟨h.grow t1 t2 t3, r, f3, f4, f6, ?_⟩
          rw [f5, ← hbid]
          unfold threadBuildId
          cases hke : st.execs (2 ^ 32 - 1) with
          | none =>
            rw [hke] at hkm
            cases hkn : mainOf cfg es (2 ^ 32 - 1) with
            | none => rfl
            | some k => rw [hkn] at hkm; exact hkm.elim
          | some p =>
            rw [hke] at hkm
            cases hkn : mainOf cfg es (2 ^ 32 - 1) with
            | none => rw [hkn] at hkm; exact hkm.elim
            | some k =>
              rw [hkn] at hkm
              obtain ⟨rr, g1, g2⟩ := hkm
              dsimp only
              rw [g2.buildId, g1]
              rfl
      · rw [if_neg hk, if_neg hk]
        exact ⟨h, rfl⟩

theorem handleSample_main {cfg : Config} {es : List Ev} {st st' : State} {misc : Option Nat} {s : SampleEv}
    {spe : Option Spe.Record} {cbs : List Callback} (hi : Inv2 cfg es st) (h : MainInv cfg es st)
    (hs : handleSample cfg st misc s spe = some (st', cbs)) :
    MainInv cfg es st' ∧ ∀ c, .sample c ∈ cbs → MainShown cfg es c := by
  unfold handleSample at hs
  split at hs
  · cases hs; exact ⟨h, fun c hc => by cases hc⟩
  · dsimp only at hs
    repeat (split at hs; · cases hs)
    rename_i sm _ _ am _ _ ch _ _ br _ _ sb _
    cases hs
    have hm := fun c => mainMapping_main (c := c) hi h
    refine ⟨(hm { misc := misc, sample := s, main := (mainMapping st (s.pid.getD 0) (contextFromHeader misc)).2.bind (mainMapping st (s.pid.getD 0) (contextFromHeader misc)).1.ref } rfl).1, ?_⟩
    intro c hc
    rw [List.mem_singleton] at hc
    injection hc with hc
    apply (hm c _).2
    rw [hc]

theorem handleRecords_main {cfg : Config} {es : List Ev} (rs : List Spe.Record) : ∀ {st st' : State} {cbs : List Callback},
    Inv2 cfg es st → MainInv cfg es st → handleRecords cfg st rs = some (st', cbs) →
    MainInv cfg es st' ∧ ∀ c, .sample c ∈ cbs → MainShown cfg es c := by
  induction rs with
  | nil => intro st st' cbs _ h hs; cases hs; exact ⟨h, fun c hc => by cases hc⟩
  | cons r rs ih =>
    intro st st' cbs hi h hs
    rw [handleRecords] at hs
    obtain ⟨s0, c0, a1, a2, -⟩ := handleSample_inv2 hi none (speSample cfg r) (some r)
    rw [a1] at hs
    dsimp only at hs
    rw [Option.map_eq_some_iff] at hs
    obtain ⟨⟨a, b⟩, h2, h3⟩ := hs
    cases h3
    obtain ⟨b1, b2⟩ := handleSample_main hi h a1
    obtain ⟨c1, c2⟩ := ih a2 b1 h2
    refine ⟨c1, fun c hc => ?_⟩
    rcases List.mem_append.1 hc with hc | hc
    · exact b2 c hc
    · exact c2 c hc

theorem handleLost_main {cfg : Config} {es : List Ev} {st : State} (h : MainInv cfg es st) (l : LostEv) :
    MainInv cfg es (handleLost cfg st l).1 ∧ ∀ c, .sample c ∈ (handleLost cfg st l).2 → c.lost = true := by
  unfold handleLost
  cases eventIndexFor cfg (some l.id) with
  | none => exact ⟨h, fun c hc => by cases hc⟩
  | some idx =>
    dsimp only
    obtain ⟨t1, t2, t3⟩ := getOrAddFake_tables st (ascii "[lost]") ⟨[], .missing⟩ cfg.lostMd5 (9 * 2 ^ 60)
    refine ⟨h.grow t1 t2 t3, ?_⟩
    intro c hc
    rw [List.mem_replicate] at hc
    have hc := hc.2
    injection hc with hc
    rw [hc]

theorem MainInv.skip {cfg : Config} {es : List Ev} {st : State} (h : MainInv cfg es st) (e : Ev)
    (hm : ∀ pid, mainOf cfg (e :: es) pid = mainOf cfg es pid) (hc : ∀ pid, commOf (e :: es) pid = commOf es pid) :
    MainInv cfg (e :: es) st :=
  ⟨fun pid => by rw [hm]; exact h.main pid, fun pid => by rw [hc]; exact h.comm pid⟩

theorem mainOf_plain (cfg : Config) (e : Ev) (es : List Ev) (pid : Nat) (h1 : ∀ c p t, e ≠ .fork c p t)
    (h2 : ∀ m c, e ≠ .comm m c) (h3 : e.mapping = none) :
    mainOf cfg (e :: es) pid = mainOf cfg es pid ∧ commOf (e :: es) pid = commOf es pid := by
  cases e with
  | mmap m => cases h3
  | comm m c => exact absurd rfl (h2 _ _)
  | fork c p t => exact absurd rfl (h1 _ _ _)
  | ksymbol a b c d f =>
    refine ⟨?_, rfl⟩
    have : mainOf cfg (.ksymbol a b c d f :: es) pid = match (Ev.ksymbol a b c d f).mapping with
      | some m => open Classical in if pid = m.pid ∧ m.len ≠ 0 ∧ TakesOver m (mainOf cfg es pid) then some m else mainOf cfg es pid
      | none => mainOf cfg es pid := rfl
    rw [this, h3]
  | _ => exact ⟨rfl, rfl⟩

/-- One event. -/
theorem step_main {cfg : Config} {es : List Ev} {st st' : State} {cbs : List Callback} (hi : Inv2 cfg es st)
    (h : MainInv cfg es st) (e : Ev) (ht : e.Typed) (hs : step cfg st e = some (st', cbs)) :
    MainInv cfg (e :: es) st' ∧ ∀ c, .sample c ∈ cbs → c.lost = false → MainShown cfg es c := by
  have hrep := (step_ok hi e ht hs).2
  have mm : ∀ {m}, ReportsMmap cfg m cbs → ∀ c, .sample c ∈ cbs → c.lost = false → MainShown cfg es c := by
    intro m h0 c hc
    unfold ReportsMmap at h0
    split at h0
    · subst h0; cases hc
    · obtain ⟨r, rfl, -⟩ := h0; simp at hc
  have skip : ∀ {s1 : State}, MainInv cfg es s1 → (∀ c p t, e ≠ .fork c p t) → (∀ m c, e ≠ .comm m c) → e.mapping = none →
      MainInv cfg (e :: es) s1 := fun hs1 h1 h2 h3 =>
    hs1.skip e (fun pid => (mainOf_plain cfg e es pid h1 h2 h3).1) (fun pid => (mainOf_plain cfg e es pid h1 h2 h3).2)
  have lostCase : ∀ l, (handleLost cfg st l) = (st', cbs) → (∀ c p t, e ≠ .fork c p t) → (∀ m c, e ≠ .comm m c) →
      e.mapping = none → MainInv cfg (e :: es) st' ∧ ∀ c, .sample c ∈ cbs → c.lost = false → MainShown cfg es c := by
    intro l hl h1 h2 h3
    obtain ⟨a, b⟩ := handleLost_main h l
    rw [hl] at a b
    refine ⟨skip a h1 h2 h3, fun c hc hf => ?_⟩
    rw [b c hc] at hf
    cases hf
  cases e with
  | mmap m =>
    rw [step, Option.map_eq_some_iff] at hs
    obtain ⟨⟨a, b⟩, h1, h2⟩ := hs
    cases h2
    have := updateMmap_main m (.mmap m) rfl (ht m rfl) hi.inv h h1
    rw [Reports] at hrep
    exact ⟨⟨this.main, this.comm⟩, mm hrep⟩
  | comm misc c =>
    rw [step] at hs
    rw [Reports] at hrep
    obtain ⟨b, hb, hx⟩ := hrep
    simp only [Option.some.injEq, Prod.mk.injEq] at hs
    obtain ⟨e1, e2⟩ := hs
    refine ⟨?_, fun c' hc' => by rw [hb] at hc'; simp at hc'⟩
    have hbx : b = isExecComm cfg st misc c := by
      rw [hb] at e2
      simp only [List.cons.injEq, Callback.comm.injEq, true_and, and_true] at e2
      exact e2.symm
    rw [← hbx] at e1
    have hmain : ∀ pid, mainOf cfg (.comm misc c :: es) pid =
      open Classical in if pid = c.pid ∧ ExecComm cfg es misc c then none else mainOf cfg es pid := fun _ => rfl
    have hcomm : ∀ pid, commOf (.comm misc c :: es) pid =
      if pid = c.pid ∧ c.pid = c.tid then some c else commOf es pid := fun _ => rfl
    have hex : st'.execs = (if b = true then upd st.execs c.pid none else st.execs) ∧ st'.owned = st.owned ∧
        st'.comms = (if c.pid = c.tid then upd st.comms c.pid (some c) else st.comms) := by
      rw [← e1]
      cases b <;> by_cases hpt : c.pid = c.tid <;> simp [hpt]
    constructor
    · intro pid
      rw [hmain, hex.1, hex.2.1]
      by_cases hp : pid = c.pid ∧ ExecComm cfg es misc c
      · rw [if_pos hp, if_pos (hx.2 hp.2)]
        unfold upd
        rw [if_pos hp.1]
        trivial
      · rw [if_neg hp]
        have : (if b = true then upd st.execs c.pid none else st.execs) pid = st.execs pid := by
          split
          · rename_i hbt
            unfold upd
            rw [if_neg (fun h => hp ⟨h, hx.1 hbt⟩)]
          · rfl
        rw [this]
        exact h.main pid
    · intro pid
      rw [hcomm, hex.2.2, ← h.comm pid]
      by_cases hp : pid = c.pid ∧ c.pid = c.tid
      · rw [if_pos hp, if_pos hp.2]
        unfold upd
        rw [if_pos hp.1]
      · rw [if_neg hp]
        split
        · rename_i hbt
          unfold upd
          rw [if_neg (fun h => hp ⟨h, hbt⟩)]
        · rfl
  | fork pid ppid tid =>
    rw [step] at hs
    cases hs
    refine ⟨?_, fun c hc => by cases hc⟩
    have hmain : ∀ q, mainOf cfg (.fork pid ppid tid :: es) q =
      if q = pid then (mainOf cfg es ppid).or (mainOf cfg es q) else mainOf cfg es q := fun _ => rfl
    have hcomm : ∀ q, commOf (.fork pid ppid tid :: es) q =
      if q = pid then (commOf es ppid).or (commOf es q) else commOf es q := fun _ => rfl
    have inh : ∀ {α : Type} (f : Nat → Option α) (q : Nat), inherit f pid ppid q = if q = pid then (f ppid).or (f q) else f q := by
      intro α f q
      unfold inherit
      cases hf : f ppid with
      | none => simp
      | some v => simp [upd]
    have same : ∀ {α : Type} (o : Option α), o.or o = o := by intro α o; cases o <;> rfl
    unfold updateFork
    by_cases hpp : pid = ppid
    · rw [if_pos hpp]
      subst hpp
      refine h.skip _ (fun q => ?_) (fun q => ?_)
      · rw [hmain]
        split
        · rename_i hq; rw [hq, same]
        · rfl
      · rw [hcomm]
        split
        · rename_i hq; rw [hq, same]
        · rfl
    · rw [if_neg hpp]
      constructor
      · intro q
        dsimp only
        rw [hmain, inh]
        split
        · have h1 := h.main ppid
          have h2 := h.main q
          cases ha : st.execs ppid with
          | none =>
            rw [(points_none h1).1 ha]
            simpa using h2
          | some v =>
            cases hb : mainOf cfg es ppid with
            | none => rw [ha, hb] at h1; exact h1.elim
            | some w =>
              rw [ha, hb] at h1
              simpa using h1
        · exact h.main q
      · intro q
        dsimp only
        rw [hcomm, inh, h.comm, h.comm]
  | cgroup id path =>
    rw [step] at hs
    cases hs
    have := skip h (by intro _ _ _ h; cases h) (by intro _ _ h; cases h) rfl
    exact ⟨⟨this.main, this.comm⟩, fun c hc => by cases hc⟩
  | lostSamples l =>
    rw [step] at hs
    split at hs
    · injection hs with hs
      exact lostCase l hs (by intro _ _ _ h; cases h) (by intro _ _ h; cases h) rfl
    · cases hs
      exact ⟨skip h (by intro _ _ _ h; cases h) (by intro _ _ h; cases h) rfl, fun c hc => by cases hc⟩
  | lost l =>
    rw [step] at hs
    split at hs
    · cases hs
      exact ⟨skip h (by intro _ _ _ h; cases h) (by intro _ _ h; cases h) rfl, fun c hc => by cases hc⟩
    · injection hs with hs
      exact lostCase l hs (by intro _ _ _ h; cases h) (by intro _ _ h; cases h) rfl
  | sample misc s =>
    rw [step] at hs
    obtain ⟨a, b⟩ := handleSample_main hi h hs
    exact ⟨skip a (by intro _ _ _ h; cases h) (by intro _ _ h; cases h) rfl, fun c hc _ => b c hc⟩
  | auxtraceInfo t =>
    rw [step] at hs
    cases hs
    exact ⟨skip h (by intro _ _ _ h; cases h) (by intro _ _ h; cases h) rfl, fun c hc => by cases hc⟩
  | auxtrace data =>
    rw [step] at hs
    split at hs
    · cases data with
      | none =>
        cases hs
        exact ⟨skip h (by intro _ _ _ h; cases h) (by intro _ _ h; cases h) rfl, fun c hc => by cases hc⟩
      | some data =>
        rw [handleSpe] at hs
        split at hs
        · cases hs
        · obtain ⟨a, b⟩ := handleRecords_main _ hi h hs
          exact ⟨skip a (by intro _ _ _ h; cases h) (by intro _ _ h; cases h) rfl, fun c hc _ => b c hc⟩
    · cases hs
      exact ⟨skip h (by intro _ _ _ h; cases h) (by intro _ _ h; cases h) rfl, fun c hc => by cases hc⟩
  | ksymbol type flags addr len name =>
    rw [step] at hs
    rw [Reports] at hrep
    split at hs
    · rename_i hk
      rw [if_pos hk] at hrep
      have he : (Ev.ksymbol type flags addr len name).mapping = some
          { pid := 2 ^ 32 - 1, start := addr, len := len, pgoff := 0, filename := name } := by
        unfold Ev.mapping; exact if_pos hk
      exact ⟨updateMmap_main _ _ he (ht _ he) hi.inv h hs, mm hrep⟩
    · rename_i hk
      cases hs
      have he : (Ev.ksymbol type flags addr len name).mapping = none := by unfold Ev.mapping; exact if_neg hk
      exact ⟨skip h (by intro _ _ _ h; cases h) (by intro _ _ h; cases h) he, fun c hc => by cases hc⟩
  | other =>
    rw [step] at hs
    cases hs
    exact ⟨skip h (by intro _ _ _ h; cases h) (by intro _ _ h; cases h) rfl, fun c hc => by cases hc⟩

theorem run_main {cfg : Config} (es : List Ev) : ∀ {past : List Ev} {st st' : State} {cbs : List Callback},
    Inv2 cfg past st → MainInv cfg past st → (∀ e ∈ es, e.Typed) → runFrom cfg st es = some (st', cbs) →
    Each (fun past e cbs => Reports cfg past e cbs ∧ ∀ c, .sample c ∈ cbs → c.lost = false → MainShown cfg past c)
      past es cbs := by
  induction es with
  | nil => intro past st st' cbs _ _ _ hr; cases hr; rfl
  | cons e es ih =>
    intro past st st' cbs hi hl ht hr
    unfold runFrom at hr
    split at hr
    · cases hr
    · rename_i st1 cb h1
      rw [Option.map_eq_some_iff] at hr
      obtain ⟨⟨a, b⟩, h2, h3⟩ := hr
      cases h3
      have ht1 := ht e (by simp)
      obtain ⟨s1, s2⟩ := step_main hi hl e ht1 h1
      obtain ⟨r1, r2⟩ := step_ok hi e ht1 h1
      exact ⟨cb, b, rfl, ⟨r2, s2⟩, ih r1 s1 (fun e he => ht e (List.mem_cons_of_mem _ he)) h2⟩

end Verif.Normalizer
