import Verif.Normalizer.Spec
import Verif.Normalizer.Strings
import Verif.IntervalMap.Lemmas

/-! # The invariant of the normalizer -/

namespace Verif.Normalizer
open Verif.IntervalMap

/-! ## One mapping -/

theorem mkMapping_first (bid : BuildId) (m : MMapEv) (h : m.start + m.len < 2 ^ 64) :
    (mkMapping bid m).start = m.first ∧ (mkMapping bid m).limit = m.start + m.len := by
  unfold mkMapping MMapEv.first
  rw [Nat.mod_eq_of_lt h]
  refine ⟨?_, rfl⟩
  dsimp only
  split
  · omega
  · rfl

/-- The interval of a mapping is accepted exactly when the event fits. -/
theorem fits_iff (bid : BuildId) (m : MMapEv) (ht : m.Typed) (hl : m.len ≠ 0) :
    (mkMapping bid m).start < (mkMapping bid m).limit ↔ m.Fits := by
  unfold MMapEv.Fits
  rcases Nat.lt_or_ge (m.start + m.len) (2 ^ 64) with h | h
  · rw [(mkMapping_first bid m h).1, (mkMapping_first bid m h).2]
    simp [hl]
    omega
  · have e : (m.start + m.len) % 2 ^ 64 = m.start + m.len - 2 ^ 64 := by
      have := ht.2.1; have := ht.2.2.1
      rw [Nat.mod_eq_sub_mod h, Nat.mod_eq_of_lt (by omega)]
    have hc : ¬ (m.start ≤ 2 ^ 63 ∧ m.pgoff > 2 ^ 63 ∧ (m.start + m.len) % 2 ^ 64 > 2 ^ 63) := by
      have := ht.2.2.1
      rw [e]
      omega
    have e1 : (mkMapping bid m).start = m.start := by
      unfold mkMapping
      dsimp only
      rw [if_neg hc]
    have e2 : (mkMapping bid m).limit = m.start + m.len - 2 ^ 64 := by
      unfold mkMapping; exact e
    rw [e1, e2]
    have := ht.2.2.1
    constructor
    · intro; omega
    · rintro (h' | h')
      · exact absurd h' hl
      · omega

theorem describes_mk (ids : Ids) (m : MMapEv) (bid : BuildId) (h : m.start + m.len < 2 ^ 64)
    (hb : getBuildId ids m = some bid) : Describes ids (mkMapping bid m) m :=
  ⟨(mkMapping_first bid m h).1, (mkMapping_first bid m h).2, rfl, rfl, Or.inl rfl, hb⟩

/-! ## Growth of the owned mappings -/

/-- Mappings are only added; a mapping changes at most by getting a name. -/
def Grow (a b : List Mapping) : Prop :=
  ∀ (p : Nat) (r : Mapping), a[p]? = some r → ∃ r' : Mapping, b[p]? = some r' ∧ r'.start = r.start ∧ r'.limit = r.limit ∧
    r'.fileOffset = r.fileOffset ∧ r'.md5 = r.md5 ∧ r'.buildId = r.buildId ∧
    (r'.filename = r.filename ∨ (r.filename = [] ∧ r.start = 0x400000))

theorem Grow.refl (a : List Mapping) : Grow a a := fun _ r h => ⟨r, h, rfl, rfl, rfl, rfl, rfl, Or.inl rfl⟩

theorem Grow.trans {a b c : List Mapping} (h1 : Grow a b) (h2 : Grow b c) : Grow a c := by
  intro p r h
  obtain ⟨r', a1, a2, a3, a4, a5, a6, a7⟩ := h1 p r h
  obtain ⟨r'', b1, b2, b3, b4, b5, b6, b7⟩ := h2 p r' a1
  refine ⟨r'', b1, b2.trans a2, b3.trans a3, b4.trans a4, b5.trans a5, b6.trans a6, ?_⟩
  rcases a7 with e | e
  · rw [← e, ← a2]; exact b7
  · exact Or.inr e

theorem Grow.append (a b : List Mapping) : Grow a (a ++ b) := by
  intro p r h
  have hp : p < a.length := by
    rcases Nat.lt_or_ge p a.length with h' | h'
    · exact h'
    · rw [List.getElem?_eq_none_iff.2 h'] at h; cases h
  exact ⟨r, by rw [List.getElem?_append_left hp, h], rfl, rfl, rfl, rfl, rfl, Or.inl rfl⟩

theorem Grow.set (a : List Mapping) (o : Nat) (om : Mapping) (name : Bytes) (ho : a[o]? = some om)
    (hf : om.filename = []) (hs : om.start = 0x400000) : Grow a (a.set o { om with filename := name }) := by
  intro p r h
  by_cases hpo : o = p
  · subst hpo
    rw [ho] at h
    have e : om = r := Option.some.inj h
    subst e
    have : o < a.length := by
      rcases Nat.lt_or_ge o a.length with h' | h'
      · exact h'
      · rw [List.getElem?_eq_none_iff.2 h'] at ho; cases ho
    exact ⟨{ om with filename := name }, by rw [List.getElem?_set_self this], rfl, rfl, rfl, rfl, rfl, Or.inr ⟨hf, hs⟩⟩
  · exact ⟨r, by rw [List.getElem?_set_ne hpo, h], rfl, rfl, rfl, rfl, rfl, Or.inl rfl⟩

theorem Grow.length {a b : List Mapping} (h : Grow a b) : a.length ≤ b.length := by
  rcases Nat.lt_or_ge b.length a.length with hl | hl
  · obtain ⟨r', h1, -⟩ := h b.length a[b.length] (List.getElem?_eq_getElem hl)
    rw [List.getElem?_eq_none_iff.2 (Nat.le_refl _)] at h1
    cases h1
  · exact hl

/-- A pointer refers to a description of an event. -/
def Points (ids : Ids) (owned : List Mapping) : Option Nat → Option MMapEv → Prop
  | none, none => True
  | some p, some m => ∃ r, owned[p]? = some r ∧ Describes ids r m
  | _, _ => False

theorem Points.grow {ids : Ids} {a b : List Mapping} {p : Option Nat} {m : Option MMapEv} (hg : Grow a b)
    (h : Points ids a p m) : Points ids b p m := by
  cases p with
  | none => cases m <;> exact h
  | some p =>
    cases m with
    | none => exact h
    | some m =>
      obtain ⟨r, h1, h2⟩ := h
      obtain ⟨r', g1, g2, g3, g4, g5, g6, g7⟩ := hg p r h1
      refine ⟨r', g1, g2.trans h2.first, g3.trans h2.limit, g4.trans h2.offset, g5.trans h2.md5, ?_, ?_⟩
      · rcases g7 with e | ⟨e1, e2⟩
        · rw [e]; exact h2.name
        · rcases h2.name with e | e
          · refine Or.inr ⟨by rw [← e, e1], ?_⟩
            have := h2.first
            rw [e2] at this
            unfold MMapEv.first at this
            split at this
            · omega
            · exact this.symm
          · exact Or.inr e
      · rw [g6]; exact h2.buildId

/-- The invariant: `es` is the history, newest first. -/
structure Inv (ids : Ids) (es : List Ev) (st : State) : Prop where
  none_ : ∀ pid, st.maps pid = none → mapped es pid = false ∧ ∀ x, newest es pid x = none
  some_ : ∀ pid im, st.maps pid = some im → mapped es pid = true ∧ SortedDisjoint im ∧
    ∀ x, Points ids st.owned (at? im x) (newest es pid x)
  execs : ∀ pid p, st.execs pid = some p → p < st.owned.length
  fakes : ∀ k p, st.fakes k = some p → p < st.owned.length
  cgroups : ∀ id, st.cgroups id = cgroupPath es id

theorem inv_init (ids : Ids) : Inv ids [] {} where
  none_ _ _ := ⟨rfl, fun _ => rfl⟩
  some_ _ _ h := by cases h
  execs _ _ h := by cases h
  fakes _ _ h := by cases h
  cgroups _ := rfl

theorem Inv.lookup {ids : Ids} {es : List Ev} {st : State} (h : Inv ids es st) (pid ip : Nat) :
    Points ids st.owned (tryLookup st pid ip) (newest es pid ip) := by
  unfold tryLookup
  cases hm : st.maps pid with
  | none => rw [(h.none_ pid hm).2 ip]; trivial
  | some im =>
    obtain ⟨-, h2, h3⟩ := h.some_ pid im hm
    dsimp only
    rw [lookup_eq_at im h2]
    exact h3 ip

theorem newest_covers (es : List Ev) : ∀ pid x m, newest es pid x = some m → m.covers x = true := by
  induction es with
  | nil => intro pid x m h; cases h
  | cons e es ih =>
    intro pid x m h
    unfold newest at h
    split at h
    · cases h
    · rename_i heq
      cases heq
      split at h <;> exact ih _ _ _ h
    · rename_i heq
      cases heq
      split at h
      · split at h
        · rename_i hc
          cases h
          exact hc.2
        · exact ih _ _ _ h
      · exact ih _ _ _ h

theorem expected_eq (es : List Ev) (pid ip : Nat) (ctx : ACtx) :
    expected es pid ip ctx =
      if ip / 2 ^ 60 = 8 then none
      else if ctx = .guestKernel ∨ ctx = .guestUser ∨ ctx = .hypervisor then none
      else if newest es pid ip = none ∧ ctx ≠ .hostUser then newest es kernelPid ip else newest es pid ip := by
  unfold expected
  split
  · rfl
  · cases ctx <;> simp <;> cases newest es pid ip <;> simp

/-- Looking up an address never fails a check, and gives the expected mapping. -/
theorem Inv.getMapping {ids : Ids} {es : List Ev} {st : State} (h : Inv ids es st) (pid ip : Nat) (ctx : ACtx) :
    ∃ r, getMapping st pid ip ctx = some r ∧ Shows ids r (expected es pid ip ctx) := by
  rw [expected_eq]
  unfold Normalizer.getMapping
  by_cases h1 : ip / 2 ^ 60 = 8
  · rw [if_pos h1, if_pos h1]; exact ⟨none, rfl, trivial⟩
  · rw [if_neg h1, if_neg h1]
    by_cases h2 : ctx = .guestKernel ∨ ctx = .guestUser ∨ ctx = .hypervisor
    · rw [if_pos h2, if_pos h2]; exact ⟨none, rfl, trivial⟩
    · rw [if_neg h2, if_neg h2]
      have key : ∀ q m, Points ids st.owned q m → (∀ m', m = some m' → m'.covers ip = true) →
          ∃ r, checkFound st ip q = some r ∧ Shows ids r m := by
        intro q m hp hc
        cases q with
        | none =>
          cases m with
          | none => exact ⟨none, rfl, trivial⟩
          | some m => exact hp.elim
        | some p =>
          cases m with
          | none => exact hp.elim
          | some m =>
            obtain ⟨r, g1, g2⟩ := hp
            have hcov := hc m rfl
            unfold MMapEv.covers at hcov
            rw [decide_eq_true_eq] at hcov
            have er : st.ref p = some ⟨p, r⟩ := by unfold State.ref; rw [g1]; rfl
            simp only [checkFound]
            rw [er]
            dsimp only
            rw [g2.first, g2.limit, if_pos ⟨hcov.2.1, hcov.2.2⟩]
            exact ⟨some ⟨p, r⟩, rfl, g2⟩
      have hown := h.lookup pid ip
      have hker := h.lookup kernelPid ip
      dsimp only
      by_cases h3 : newest es pid ip = none ∧ ctx ≠ .hostUser
      · rw [if_pos h3]
        have hn : tryLookup st pid ip = none := by
          rw [h3.1] at hown
          cases hq : tryLookup st pid ip with
          | none => rfl
          | some q => rw [hq] at hown; exact hown.elim
        rw [if_pos ⟨hn, h3.2⟩]
        exact key _ _ hker (fun m' hm => newest_covers _ _ _ _ hm)
      · rw [if_neg h3]
        have hn : ¬ (tryLookup st pid ip = none ∧ ctx ≠ .hostUser) := by
          rintro ⟨a, b⟩
          apply h3
          refine ⟨?_, b⟩
          rw [a] at hown
          cases hq : newest es pid ip with
          | none => rfl
          | some q => rw [hq] at hown; exact hown.elim
        rw [if_neg hn]
        exact key _ _ hown (fun m' hm => newest_covers _ _ _ _ hm)

/-! ## Steps that do not change the mappings -/

/-- The state changes without a change of the processes' mappings. -/
theorem Inv.keep {ids : Ids} {es : List Ev} {st st' : State} (h : Inv ids es st) (hm : st'.maps = st.maps)
    (hg : Grow st.owned st'.owned) (he : ∀ pid p, st'.execs pid = some p → p < st'.owned.length)
    (hf : ∀ k p, st'.fakes k = some p → p < st'.owned.length) (hc : st'.cgroups = st.cgroups) : Inv ids es st' where
  none_ pid hp := h.none_ pid (by rw [← hm]; exact hp)
  some_ pid im hp := by
    obtain ⟨h1, h2, h3⟩ := h.some_ pid im (by rw [← hm]; exact hp)
    exact ⟨h1, h2, fun x => (h3 x).grow hg⟩
  execs := he
  fakes := hf
  cgroups id := by rw [hc]; exact h.cgroups id

/-- The history grows by an event without effect on mappings. -/
theorem Inv.skip {ids : Ids} {es : List Ev} {st : State} (h : Inv ids es st) (e : Ev)
    (hm : ∀ pid, mapped (e :: es) pid = mapped es pid)
    (hn : ∀ pid x, newest (e :: es) pid x = newest es pid x)
    (hc : ∀ id, cgroupPath (e :: es) id = cgroupPath es id) : Inv ids (e :: es) st where
  none_ pid hp := by rw [hm]; refine ⟨(h.none_ pid hp).1, fun x => ?_⟩; rw [hn]; exact (h.none_ pid hp).2 x
  some_ pid im hp := by
    rw [hm]
    refine ⟨(h.some_ pid im hp).1, (h.some_ pid im hp).2.1, fun x => ?_⟩
    rw [hn]
    exact (h.some_ pid im hp).2.2 x
  execs := h.execs
  fakes := h.fakes
  cgroups id := by rw [hc]; exact h.cgroups id

/-! ## Mmap -/

theorem guessMain_spec (st st' : State) (m : MMapEv) (mp : Mapping) (p : Nat)
    (hp : p < st.owned.length) (he : ∀ pid q, st.execs pid = some q → q < st.owned.length)
    (h : guessMain st m mp p = some st') :
    st'.maps = st.maps ∧ Grow st.owned st'.owned ∧ st'.fakes = st.fakes ∧ st'.comms = st.comms ∧
    st'.cgroups = st.cgroups ∧ st'.hadMmap = st.hadMmap ∧
    (∀ pid q, st'.execs pid = some q → q < st'.owned.length) := by
  have hupd : ∀ (n : Nat), p < n → ∀ (f : Nat → Option Nat), (∀ pid q, f pid = some q → q < n) →
      ∀ pid q, upd f m.pid (some p) pid = some q → q < n := by
    intro n hn f hf pid q hq
    unfold upd at hq
    split at hq
    · cases hq; exact hn
    · exact hf pid q hq
  unfold guessMain at h
  by_cases h1 : mp.start = 0x8048000 ∨ mp.start = 0x400000
  · rw [if_pos h1] at h
    cases h
    exact ⟨rfl, Grow.refl _, rfl, rfl, rfl, rfl, hupd _ hp _ he⟩
  · rw [if_neg h1] at h
    dsimp only at h
    generalize hst1 : renameOld st m mp = st1 at h
    have k : st1.maps = st.maps ∧ Grow st.owned st1.owned ∧ st1.fakes = st.fakes ∧ st1.comms = st.comms ∧
        st1.cgroups = st.cgroups ∧ st1.hadMmap = st.hadMmap ∧ st1.execs = st.execs ∧
        st1.owned.length = st.owned.length := by
      rw [← hst1]
      unfold renameOld
      split
      · exact ⟨rfl, Grow.refl _, rfl, rfl, rfl, rfl, rfl, rfl⟩
      · split
        · exact ⟨rfl, Grow.refl _, rfl, rfl, rfl, rfl, rfl, rfl⟩
        · rename_i o _ om hom
          split
          · rename_i hc
            exact ⟨rfl, Grow.set _ _ _ _ hom hc.2.1 hc.1, rfl, rfl, rfl, rfl, rfl, by simp⟩
          · exact ⟨rfl, Grow.refl _, rfl, rfl, rfl, rfl, rfl, rfl⟩
    obtain ⟨k1, k2, k3, k4, k5, k6, k7, k8⟩ := k
    have fin1 : ∀ s : State, s = { st1 with execs := upd st1.execs m.pid (some p) } →
        s.maps = st.maps ∧ Grow st.owned s.owned ∧ s.fakes = st.fakes ∧ s.comms = st.comms ∧
        s.cgroups = st.cgroups ∧ s.hadMmap = st.hadMmap ∧ (∀ pid q, s.execs pid = some q → q < s.owned.length) := by
      intro s hs
      subst hs
      exact ⟨k1, k2, k3, k4, k5, k6, hupd _ (by rw [k8]; exact hp) _ (by rw [k7, k8]; exact he)⟩
    have fin2 : st1.maps = st.maps ∧ Grow st.owned st1.owned ∧ st1.fakes = st.fakes ∧ st1.comms = st.comms ∧
        st1.cgroups = st.cgroups ∧ st1.hadMmap = st.hadMmap ∧
        (∀ pid q, st1.execs pid = some q → q < st1.owned.length) :=
      ⟨k1, k2, k3, k4, k5, k6, by rw [k7, k8]; exact he⟩
    have fin3 : (kernelGuess st1 m p).maps = st.maps ∧ Grow st.owned (kernelGuess st1 m p).owned ∧
        (kernelGuess st1 m p).fakes = st.fakes ∧ (kernelGuess st1 m p).comms = st.comms ∧
        (kernelGuess st1 m p).cgroups = st.cgroups ∧ (kernelGuess st1 m p).hadMmap = st.hadMmap ∧
        (∀ pid q, (kernelGuess st1 m p).execs pid = some q → q < (kernelGuess st1 m p).owned.length) := by
      unfold kernelGuess
      split
      · exact fin1 _ rfl
      · exact fin2
    split at h
    · cases h; exact fin3
    · split at h
      · cases h
      · cases h; exact fin1 _ rfl
      · cases h; exact fin3

theorem guessMain_total (st : State) (m : MMapEv) (mp : Mapping) (p : Nat) : ∃ st', guessMain st m mp p = some st' := by
  unfold guessMain
  split
  · exact ⟨_, rfl⟩
  · dsimp only
    split
    · exact ⟨_, rfl⟩
    · obtain ⟨b, hb⟩ := canBeMain_total m.filename
      rw [hb]
      cases b <;> exact ⟨_, rfl⟩

theorem updateMmap_inv {cfg : Config} {es : List Ev} {st st' : State} {cbs : List Callback} (m : MMapEv) (e : Ev)
    (he : e.mapping = some m) (ht : m.Typed) (h : Inv cfg.ids es st)
    (hs : updateMmap cfg st m = some (st', cbs)) : Inv cfg.ids (e :: es) st' := by
  have hmapped : ∀ pid, mapped (e :: es) pid = ((m.pid == pid && m.len != 0) || mapped es pid) := by
    intro pid
    cases e <;> simp only [Ev.mapping, reduceCtorEq] at he <;> simp only [mapped, Ev.mapping, he]
  have hnew : ∀ pid x, newest (e :: es) pid x = if m.pid = pid ∧ m.covers x then some m else newest es pid x := by
    intro pid x
    cases e <;> simp only [Ev.mapping, reduceCtorEq] at he <;> simp only [newest, Ev.mapping, he]
  have hcg : ∀ id, cgroupPath (e :: es) id = cgroupPath es id := by
    intro id
    cases e <;> simp only [Ev.mapping, reduceCtorEq] at he <;> rfl
  unfold updateMmap at hs
  by_cases hl : m.len = 0
  · rw [if_pos hl] at hs
    cases hs
    refine h.skip e (fun pid => ?_) (fun pid x => ?_) hcg
    · rw [hmapped, hl]; simp
    · rw [hnew]
      simp [MMapEv.covers, hl]
  · rw [if_neg hl] at hs
    cases hb : getBuildId cfg.ids m with
    | none => rw [hb] at hs; cases hs
    | some bid =>
      rw [hb] at hs
      dsimp only at hs
      cases hset : set ((st.maps m.pid).getD []) (mkMapping bid m).start (mkMapping bid m).limit st.owned.length with
      | none => rw [hset] at hs; cases hs
      | some im =>
        rw [hset] at hs
        dsimp only at hs
        generalize hst1 : ({ st with owned := st.owned ++ [mkMapping bid m], maps := upd st.maps m.pid (some im) } : State)
          = st1 at hs
        cases hg : guessMain st1 m (mkMapping bid m) st.owned.length with
        | none => rw [hg] at hs; cases hs
        | some s2 =>
          rw [hg] at hs
          simp only [Option.map_some, Option.some.injEq, Prod.mk.injEq] at hs
          obtain ⟨e1, -⟩ := hs
          subst e1
          have hlt : (mkMapping bid m).start < (mkMapping bid m).limit := by
            simp only [IntervalMap.set] at hset
            split at hset
            · assumption
            · cases hset
          have hfit := (fits_iff bid m ht hl).1 hlt
          have hnw : m.start + m.len < 2 ^ 64 := by
            rcases hfit with h' | h'
            · exact absurd h' hl
            · exact h'.1
          obtain ⟨f1, f2⟩ := mkMapping_first bid m hnw
          have hd := describes_mk cfg.ids m bid hnw hb
          have ho : st1.owned = st.owned ++ [mkMapping bid m] := by rw [← hst1]
          have hmp : st1.maps = upd st.maps m.pid (some im) := by rw [← hst1]
          have hex : st1.execs = st.execs := by rw [← hst1]
          have hfk : st1.fakes = st.fakes := by rw [← hst1]
          have hlen : st1.owned.length = st.owned.length + 1 := by rw [ho]; simp
          have hg1 : Grow st.owned st1.owned := by rw [ho]; exact Grow.append _ _
          obtain ⟨k1, k2, k3, k4, k5, k6, k7⟩ := guessMain_spec st1 s2 m _ _ (by omega)
            (by intro pid q hq; rw [hex] at hq; have := h.execs pid q hq; omega) hg
          have hbase : SortedDisjoint ((st.maps m.pid).getD []) ∧
              ∀ x, Points cfg.ids st.owned (at? ((st.maps m.pid).getD []) x) (newest es m.pid x) := by
            cases hmm : st.maps m.pid with
            | none =>
              refine ⟨sortedDisjoint_nil, fun x => ?_⟩
              rw [(h.none_ m.pid hmm).2 x]
              trivial
            | some im0 => exact ⟨(h.some_ m.pid im0 hmm).2.1, (h.some_ m.pid im0 hmm).2.2⟩
          obtain ⟨s1, s3⟩ := step_spec _ im hbase.1 (.set _ _ _) hset
          have hgall : Grow st.owned s2.owned := hg1.trans k2
          have hnewp : Points cfg.ids s2.owned (some st.owned.length) (some m) := by
            apply Points.grow k2
            exact ⟨mkMapping bid m, by rw [ho]; simp, hd⟩
          have hcov : ∀ x, m.covers x = decide ((mkMapping bid m).start ≤ x ∧ x < (mkMapping bid m).limit) := by
            intro x
            unfold MMapEv.covers
            rw [f1, f2]
            simp [hl]
          constructor
          · intro pid hp
            rw [k1, hmp] at hp
            unfold upd at hp
            split at hp
            · cases hp
            · rename_i hne
              have hne' : ¬ m.pid = pid := fun e => hne e.symm
              obtain ⟨a, b⟩ := h.none_ pid hp
              refine ⟨?_, fun x => ?_⟩
              · rw [hmapped, a]; simp [hne']
              · rw [hnew, if_neg (fun hc => hne' hc.1)]; exact b x
          · intro pid im' hp
            rw [k1, hmp] at hp
            unfold upd at hp
            split at hp
            · rename_i heq
              have ei : im = im' := Option.some.inj hp
              subst ei
              subst heq
              refine ⟨by rw [hmapped]; simp [hl], s1, fun x => ?_⟩
              rw [s3 x, hnew]
              by_cases hx : (mkMapping bid m).start ≤ x ∧ x < (mkMapping bid m).limit
              · have ht' : Op.touches x (Op.set (mkMapping bid m).start (mkMapping bid m).limit st.owned.length) = true := by
                  simpa [Op.touches] using hx
                rw [if_pos ht', if_pos ⟨rfl, by rw [hcov]; simpa using hx⟩]
                exact hnewp
              · have ht' : ¬ Op.touches x (Op.set (mkMapping bid m).start (mkMapping bid m).limit st.owned.length) = true := by
                  simpa [Op.touches] using hx
                rw [if_neg ht', if_neg (fun hc => hx (by have := hc.2; rw [hcov] at this; simpa using this))]
                exact (hbase.2 x).grow hgall
            · rename_i hne
              have hne' : ¬ m.pid = pid := fun e => hne e.symm
              obtain ⟨a, b, c⟩ := h.some_ pid im' hp
              refine ⟨by rw [hmapped, a]; simp, b, fun x => ?_⟩
              rw [hnew, if_neg (fun hc => hne' hc.1)]
              exact (c x).grow hgall
          · exact k7
          · intro k p hp
            rw [k3, hfk] at hp
            have := h.fakes k p hp
            have := hgall.length
            omega
          · intro id
            rw [k5, hcg, ← hst1]
            exact h.cgroups id

/-! ## Fork -/

theorem inherit_execs {ids : Ids} {es : List Ev} {st : State} (h : Inv ids es st) (pid ppid q p : Nat)
    (hq : inherit st.execs pid ppid q = some p) : p < st.owned.length := by
  unfold inherit at hq
  cases he : st.execs ppid with
  | none => rw [he] at hq; exact h.execs q p hq
  | some e =>
    rw [he] at hq
    dsimp only at hq
    unfold upd at hq
    split at hq
    · cases hq; exact h.execs ppid _ he
    · exact h.execs q p hq

theorem updateFork_inv {ids : Ids} {es : List Ev} {st : State} (h : Inv ids es st) (pid ppid tid : Nat) :
    Inv ids (.fork pid ppid tid :: es) (updateFork st pid ppid) := by
  have hmapped : ∀ q, mapped (.fork pid ppid tid :: es) q = (mapped es q || (q == pid && mapped es ppid)) := fun _ => rfl
  have hnew : ∀ q x, newest (.fork pid ppid tid :: es) q x =
      if q = pid ∧ mapped es ppid then newest es ppid x else newest es q x := fun _ _ => rfl
  unfold updateFork
  by_cases hpp : pid = ppid
  · rw [if_pos hpp]
    subst hpp
    refine h.skip _ (fun q => ?_) (fun q x => ?_) (fun _ => rfl)
    · rw [hmapped]
      by_cases hq : q = pid
      · subst hq; simp
      · simp [hq]
    · rw [hnew]
      split
      · rename_i hc; rw [hc.1]
      · rfl
  · rw [if_neg hpp]
    cases hm : st.maps ppid with
    | none =>
      have hz := (h.none_ ppid hm).1
      have h' : Inv ids (.fork pid ppid tid :: es) st := by
        refine h.skip _ (fun q => ?_) (fun q x => ?_) (fun _ => rfl)
        · rw [hmapped, hz]; simp
        · rw [hnew, hz]; simp
      refine h'.keep (by simp only [inherit, hm]) (Grow.refl _) ?_ h'.fakes rfl
      intro q p hq
      exact inherit_execs h pid ppid q p hq
    | some im =>
      obtain ⟨a, b, c⟩ := h.some_ ppid im hm
      constructor
      · intro q hq
        simp only [inherit, hm] at hq
        unfold upd at hq
        split at hq
        · cases hq
        · rename_i hne
          obtain ⟨u, v⟩ := h.none_ q hq
          refine ⟨by rw [hmapped, u]; simp [hne], fun x => ?_⟩
          rw [hnew, if_neg (fun hc => hne hc.1)]
          exact v x
      · intro q im' hq
        simp only [inherit, hm] at hq
        unfold upd at hq
        split at hq
        · rename_i heq
          have ei : im = im' := Option.some.inj hq
          subst ei
          subst heq
          refine ⟨by rw [hmapped, a]; simp, b, fun x => ?_⟩
          rw [hnew, if_pos ⟨rfl, a⟩]
          exact c x
        · rename_i hne
          obtain ⟨u, v, w⟩ := h.some_ q im' hq
          refine ⟨by rw [hmapped, u]; simp, v, fun x => ?_⟩
          rw [hnew, if_neg (fun hc => hne hc.1)]
          exact w x
      · intro q p hq
        exact inherit_execs h pid ppid q p hq
      · exact h.fakes
      · exact h.cgroups

/-! ## Samples -/

theorem getOrAddFake_spec {ids : Ids} {es : List Ev} {st : State} (h : Inv ids es st) (comm : Bytes) (bid : BuildId)
    (md5 start : Nat) :
    Inv ids es (getOrAddFake st comm bid md5 start).1 ∧
    (getOrAddFake st comm bid md5 start).2 < (getOrAddFake st comm bid md5 start).1.owned.length := by
  unfold getOrAddFake
  cases hf : st.fakes (comm, bid.value, md5) with
  | some p => exact ⟨h, h.fakes _ p hf⟩
  | none =>
    dsimp only
    refine ⟨h.keep rfl (Grow.append _ _) ?_ ?_ rfl, by simp⟩
    · intro pid p hp
      have := h.execs pid p hp
      simp; omega
    · intro k p hp
      dsimp only at hp
      unfold upd at hp
      split at hp
      · cases hp; simp
      · have := h.fakes k p hp
        simp; omega

theorem mainMapping_spec {ids : Ids} {es : List Ev} {st : State} (h : Inv ids es st) (pid : Nat) (ctx : ACtx) :
    Inv ids es (mainMapping st pid ctx).1 ∧
    ∀ p, (mainMapping st pid ctx).2 = some p → p < (mainMapping st pid ctx).1.owned.length := by
  unfold mainMapping
  split
  · rename_i p hp
    refine ⟨h, ?_⟩
    intro q hq
    cases hq
    exact h.execs pid p hp
  · split
    · split
      · dsimp only
        refine ⟨(getOrAddFake_spec h _ _ _ _).1, ?_⟩
        intro p hp
        cases hp
        exact (getOrAddFake_spec h _ _ _ _).2
      · split
        · exact ⟨h, fun p hp => h.execs _ p hp⟩
        · exact ⟨h, fun p hp => by cases hp⟩
    · exact ⟨h, fun p hp => by cases hp⟩

theorem normChain_spec {ids : Ids} {es : List Ev} {st : State} (h : Inv ids es st) (pid : Nat) (ips : List Nat) :
    ∀ ctx, ∃ ls, normChain st pid ctx ips = some ls ∧ ls.map (·.ip) = ips ∧
      All₂ (fun l f => l.ip = f.1 ∧ Shows ids l.mapping (match f.2 with
        | some c => expected es pid f.1 c | none => none)) ls (frameContexts ctx ips) := by
  induction ips with
  | nil => intro ctx; exact ⟨[], rfl, rfl, All₂.nil⟩
  | cons ip t ih =>
    intro ctx
    unfold normChain frameContexts
    dsimp only
    by_cases hc : contextFromCallchain ip = .unknown
    · rw [if_neg (by simpa using hc), if_pos hc]
      obtain ⟨r, hr, hs⟩ := h.getMapping pid ip ctx
      obtain ⟨ls, h1, h2, h3⟩ := ih ctx
      rw [hr, h1]
      exact ⟨_, rfl, by simp [h2], All₂.cons ⟨rfl, hs⟩ h3⟩
    · rw [if_pos hc, if_neg hc]
      obtain ⟨ls, h1, h2, h3⟩ := ih (contextFromCallchain ip)
      rw [h1]
      exact ⟨_, rfl, by simp [h2], All₂.cons ⟨rfl, trivial⟩ h3⟩

theorem normBranches_spec {ids : Ids} {es : List Ev} {st : State} (h : Inv ids es st) (pid : Nat) (bs : List BranchEv) :
    ∃ ls, normBranches st pid bs = some ls ∧
      All₂ (fun l (b : BranchEv) => l.from_.ip = b.fromIp ∧ l.to.ip = b.toIp ∧
        l.mispredicted = b.mispredicted ∧ l.predicted = b.predicted ∧ l.inTransaction = b.inTransaction ∧
        l.abort = b.abort ∧ l.cycles = b.cycles ∧ l.spec = b.spec ∧
        Shows ids l.from_.mapping (expected es pid b.fromIp .unknown) ∧
        Shows ids l.to.mapping (expected es pid b.toIp .unknown)) ls bs := by
  induction bs with
  | nil => exact ⟨[], rfl, All₂.nil⟩
  | cons b t ih =>
    unfold normBranches
    obtain ⟨r, hr, hs⟩ := h.getMapping pid b.fromIp .unknown
    obtain ⟨r', hr', hs'⟩ := h.getMapping pid b.toIp .unknown
    obtain ⟨ls, h1, h2⟩ := ih
    rw [hr]; dsimp only; rw [hr', h1]
    exact ⟨_, rfl, All₂.cons ⟨rfl, rfl, rfl, rfl, rfl, rfl, rfl, rfl, hs, hs'⟩ h2⟩

theorem speBranch_total {ids : Ids} {es : List Ev} {st : State} (h : Inv ids es st) (pid ip : Nat) (sm : Option MapRef)
    (ctx : ACtx) (spe : Option Spe.Record) : ∃ ls, speBranch st pid ip sm ctx spe = some ls ∧
      ∀ b ∈ ls, ∃ r, spe = some r ∧ r.tgtBrIp.addr ≠ 0 ∧ b.from_ = ⟨ip, sm⟩ ∧ b.to.ip = r.tgtBrIp.addr ∧
        b.mispredicted = r.event.brMisPred ∧ Shows ids b.to.mapping (expected es pid r.tgtBrIp.addr ctx) := by
  unfold speBranch
  cases spe with
  | none => exact ⟨[], rfl, by simp⟩
  | some r =>
    dsimp only
    by_cases hz : r.tgtBrIp.addr ≠ 0
    · rw [if_pos hz]
      obtain ⟨m, hm, hs⟩ := h.getMapping pid r.tgtBrIp.addr ctx
      rw [hm]
      refine ⟨_, rfl, ?_⟩
      intro b hb
      simp only [List.mem_singleton] at hb
      subst hb
      exact ⟨r, rfl, hz, rfl, rfl, rfl, hs⟩
    · rw [if_neg hz]; exact ⟨[], rfl, by simp⟩

theorem handleSample_spec {cfg : Config} {es : List Ev} {st : State} (h : Inv cfg.ids es st) (misc : Option Nat)
    (s : SampleEv) (spe : Option Spe.Record) :
    ∃ st' cbs, handleSample cfg st misc s spe = some (st', cbs) ∧ Inv cfg.ids es st' ∧
      match (if spe.isSome then some 0 else eventIndexFor cfg s.id) with
      | none => cbs = []
      | some idx => ∃ c, cbs = [.sample c] ∧ Reported cfg es misc s spe idx c := by
  unfold handleSample
  generalize (if spe.isSome then some 0 else eventIndexFor cfg s.id) = oi
  cases oi with
  | none => exact ⟨st, [], rfl, h, rfl⟩
  | some idx =>
    dsimp only
    obtain ⟨sm, h1, s1⟩ := h.getMapping (s.pid.getD 0) s.ip (contextFromHeader misc)
    obtain ⟨hi, hp⟩ := mainMapping_spec h (s.pid.getD 0) (contextFromHeader misc)
    obtain ⟨ls, h3, -, s3⟩ := normChain_spec hi (s.pid.getD 0) s.callchain .unknown
    obtain ⟨bs, h4, s4⟩ := normBranches_spec hi (s.pid.getD 0) s.branchStack
    obtain ⟨sb, h5, s5⟩ := speBranch_total hi (s.pid.getD 0) s.ip sm (contextFromHeader misc) spe
    have h2 : ∃ am, addrMapping st (s.pid.getD 0) (contextFromHeader misc) s.addr = some am ∧
        Shows cfg.ids am (s.addr.bind (fun a => expected es (s.pid.getD 0) a (contextFromHeader misc))) := by
      cases s.addr with
      | none => exact ⟨none, rfl, trivial⟩
      | some a => exact h.getMapping _ a _
    obtain ⟨am, h2, s2⟩ := h2
    have hcg : s.cgroup.bind (mainMapping st (s.pid.getD 0) (contextFromHeader misc)).1.cgroups =
        s.cgroup.bind (cgroupPath es) := by
      cases s.cgroup with
      | none => rfl
      | some g => exact hi.cgroups g
    rw [h1]; dsimp only
    rw [h2]; dsimp only
    rw [h3]; dsimp only
    rw [h4]; dsimp only
    rw [h5]; dsimp only
    refine ⟨_, _, rfl, hi, _, rfl, ⟨rfl, rfl, rfl, rfl, rfl, hcg, s1, s2, s3, bs, sb, rfl, s4, ?_⟩⟩
    intro b hb
    obtain ⟨r, g1, g2, g3, g4, g5, g6⟩ := s5 b hb
    exact ⟨r, g1, g2, by rw [g3], by rw [g3], g4, g5, g6⟩

end Verif.Normalizer
