import Verif.Converter.Lemmas

/-! # The counts: what holds in every run -/

namespace Verif.Converter
open Verif.Profile Verif.Builder
open Verif.Normalizer (Bytes Source MapRef Loc BranchPair SampleEv SampleCtx Callback ACtx AttrRec
  contextFromHeader nameOrMd5 upd)

/-! ## New profiles -/

theorem addType_grow {b : Builder} (h : SInv b) (n : Bytes) : Grow b (addType b n) := by
  have h1 := (utf8Id_str h (n ++ ascii "sample")).1
  have h2 := h1.trans (stringId_str h1.inv (ascii "count")).1
  have h3 := h2.trans (utf8Id_str h2.inv (n ++ ascii "event")).1
  have h4 := h3.trans (stringId_str h3.inv (ascii "count")).1
  exact h4.grow.trans (grow_congr h4.inv rfl rfl rfl rfl)

theorem addTypes_grow (ns : List Bytes) : ∀ {b : Builder}, SInv b → Grow b (addTypes b ns) := by
  induction ns with
  | nil => intro b h; exact Grow.refl h
  | cons n t ih =>
    intro b h
    exact (addType_grow h n).trans (ih (addType_grow h n).inv)

theorem newProfile_grow (S : Setup) : Grow new (newProfile S) := addTypes_grow _ SInv.new

theorem addComment_grow {b : Builder} (h : SInv b) (pre : Bytes) (o : Option Bytes) : Grow b (addComment b pre o) := by
  cases o with
  | none => exact Grow.refl h
  | some v =>
    have h1 := (utf8Id_str h (pre ++ v)).1
    exact h1.grow.trans (grow_congr h1.inv rfl rfl rfl rfl)

theorem addComments_grow (S : Setup) {b : Builder} (h : SInv b) : Grow b (addComments S b) :=
  (addComment_grow h _ _).trans (addComment_grow (addComment_grow h _ _).inv _ _)

theorem addMain_grow {maps maps' : List (Nat × Nat)} {b b' : Builder} (h : SInv b) {r : Option MapRef}
    (hm : addMain maps b r = some (maps', b')) : Grow b b' := by
  cases r with
  | none =>
    simp only [addMain, Option.some.injEq, Prod.mk.injEq] at hm
    rw [← hm.2]; exact grow_congr h rfl rfl rfl rfl
  | some r =>
    simp only [addMain] at hm
    split at hm
    · cases hm
    · rename_i hx
      simp only [Option.some.injEq, Prod.mk.injEq] at hm
      rw [← hm.2]; exact addMapping_grow h hx

theorem makeKey_str (S : Setup) (st : State) (c : SampleCtx) {b : Builder} (h : SInv b) :
    Str b (makeKey S st c b).2 := by
  have h1 := (internOpt_str h (comm? S st c.sample)).1
  have h2 := h1.trans (internOpt_str h1.inv (threadType? S c.sample)).1
  have h3 := h2.trans (internOpt_str h2.inv (threadComm? S st c.sample)).1
  have h4 := h3.trans (internOpt_str h3.inv (if S.labels.testBit 7 then c.cgroup else none)).1
  have h5 := h4.trans (internOpt_str h4.inv ((dataSrc? S c.sample).map (fun v => dataSrcString (v / 2 ^ 5 % 2 ^ 14)))).1
  exact h5.trans (internOpt_str h5.inv ((dataSrc? S c.sample).map (fun v => snoopString (v / 2 ^ 19 % 2 ^ 5)))).1

theorem internLabel_str {b : Builder} (h : SInv b) (n : Bytes) (v : LabelVal) : Str b (internLabel b n v).2 := by
  have h1 := (stringId_str h n).1
  cases v with
  | id m => exact h1
  | text s => exact h1.trans (stringId_str h1.inv s).1
  | num m u =>
    cases u with
    | none => exact h1
    | some u => exact h1.trans (stringId_str h1.inv u).1

theorem internLabels_str (ls : List (Bytes × LabelVal)) : ∀ {b : Builder}, SInv b → Str b (internLabels b ls).2 := by
  induction ls with
  | nil => intro b h; exact Str.refl h
  | cons l t ih =>
    intro b h
    have h1 := internLabel_str h l.1 l.2
    exact h1.trans (ih h1.inv)

/-! ## Samples of all builders -/

/-- The samples of a builder. -/
def samplesOf (bs : List Builder) (b : Nat) : List Sample := ((bs[b]?).map (·.profile.sample)).getD []

/-- Sum of a quantity over all samples of all profiles. -/
def total (f : Sample → Int) (bs : List Builder) : Int := (bs.map (fun b => (b.profile.sample.map f).sum)).sum

/-- A pointer to a sample that exists. -/
def SlotOk (bs : List Builder) (s : Slot) : Prop := s.2 < (samplesOf bs s.1).length

/-- The string tables are in order. -/
def Tables (bs : List Builder) : Prop := ∀ b ∈ bs, SInv b ∧ b.error = false

theorem Tables.set {bs : List Builder} (h : Tables bs) {i : Nat} {b : Builder} (hb : SInv b ∧ b.error = false) :
    Tables (bs.set i b) := by
  intro x hx
  rcases List.mem_or_eq_of_mem_set hx with hx | rfl
  · exact h x hx
  · exact hb

theorem Tables.append {bs : List Builder} (h : Tables bs) {b : Builder} (hb : SInv b ∧ b.error = false) :
    Tables (bs ++ [b]) := by
  intro x hx
  rcases List.mem_append.1 hx with hx | hx
  · exact h x hx
  · rw [List.mem_singleton.1 hx]; exact hb

theorem samplesOf_set (bs : List Builder) (i : Nat) (b0 b : Builder) (hb : bs[i]? = some b0) (j : Nat) :
    samplesOf (bs.set i b) j = if i = j then b.profile.sample else samplesOf bs j := by
  unfold samplesOf
  rw [List.getElem?_set]
  have hi := (List.getElem?_eq_some_iff.1 hb).1
  by_cases h : i = j
  · subst h; simp [hi]
  · simp [h]

theorem samplesOf_append (bs : List Builder) (b : Builder) (j : Nat) :
    samplesOf (bs ++ [b]) j = if j = bs.length then b.profile.sample else samplesOf bs j := by
  unfold samplesOf
  by_cases h : j = bs.length
  · subst h; simp
  · rw [if_neg h]
    rcases Nat.lt_or_ge j bs.length with hj | hj
    · rw [List.getElem?_append_left hj]
    · rw [List.getElem?_append_right hj]
      have : j - bs.length ≠ 0 := by omega
      obtain ⟨k, hk⟩ : ∃ k, j - bs.length = k + 1 := ⟨j - bs.length - 1, by omega⟩
      rw [hk]
      simp [List.getElem?_eq_none hj]

theorem sum_set (l : List Int) (i : Nat) (x y : Int) (h : l[i]? = some x) : (l.set i y).sum = l.sum + (y - x) := by
  induction l generalizing i with
  | nil => simp at h
  | cons a t ih =>
    cases i with
    | zero => simp only [List.getElem?_cons_zero, Option.some.injEq] at h; subst h; simp; omega
    | succ i =>
      simp only [List.getElem?_cons_succ] at h
      simp only [List.set_cons_succ, List.sum_cons, ih i h]; omega

theorem total_set (f : Sample → Int) (bs : List Builder) (i : Nat) (b0 b : Builder) (hb : bs[i]? = some b0) :
    total f (bs.set i b) = total f bs + ((b.profile.sample.map f).sum - (b0.profile.sample.map f).sum) := by
  unfold total
  rw [List.map_set]
  exact sum_set _ i _ _ (by simp [hb])

theorem total_append (f : Sample → Int) (bs : List Builder) (b : Builder) :
    total f (bs ++ [b]) = total f bs + (b.profile.sample.map f).sum := by
  simp [total]

theorem bump_some {vs vs' : List Int} {e : Nat} {w : Int} (h : bump vs e w = some vs') :
    ∃ n m, vs[2 * e]? = some n ∧ vs[2 * e + 1]? = some m ∧ vs' = (vs.set (2 * e) (n + 1)).set (2 * e + 1) (m + w) := by
  unfold bump at h
  cases hn : vs[2 * e]? with
  | none => rw [hn] at h; cases h
  | some n =>
    rw [hn] at h
    simp only [Option.bind_some, addInt64] at h
    split at h
    · cases hm : vs[2 * e + 1]? with
      | none => rw [hm] at h; cases h
      | some m =>
        rw [hm] at h
        simp only [Option.bind_some] at h
        split at h
        · exact ⟨n, m, rfl, rfl, (Option.some.inj h).symm⟩
        · cases h
    · cases h

/-- A sample that gets one more hit of event `e`. -/
structure Bumped (S : Setup) (c : SampleCtx) (s s' : Sample) : Prop where
  loc : s'.locationId = s.locationId
  lab : s'.label = s.label
  len : s'.value.length = s.value.length
  cnt : ∃ n, s.value[2 * c.attrIndex]? = some n ∧ s'.value[2 * c.attrIndex]? = some (n + 1)
  wgt : ∃ n, s.value[2 * c.attrIndex + 1]? = some n ∧ s'.value[2 * c.attrIndex + 1]? = some (n + weight S c)
  rest : ∀ j : Nat, j ≠ 2 * c.attrIndex → j ≠ 2 * c.attrIndex + 1 → s'.value[j]? = s.value[j]?

theorem bumpSlot_some {S : Setup} {c : SampleCtx} {bs bs' : List Builder} {slot : Slot}
    (h : bumpSlot S c bs slot = some bs') :
    ∃ b s s', bs[slot.1]? = some b ∧ b.profile.sample[slot.2]? = some s ∧ Bumped S c s s' ∧
      bs' = bs.set slot.1 { b with profile := { b.profile with sample := b.profile.sample.set slot.2 s' } } := by
  unfold bumpSlot at h
  cases hb : bs[slot.1]? with
  | none => rw [hb] at h; cases h
  | some b =>
    rw [hb] at h
    simp only [Option.bind_eq_bind, Option.bind_some] at h
    cases hs : b.profile.sample[slot.2]? with
    | none => rw [hs] at h; cases h
    | some s =>
      rw [hs] at h
      simp only [Option.bind_some] at h
      cases hv : bump s.value c.attrIndex (weight S c) with
      | none => rw [hv] at h; cases h
      | some vs =>
        rw [hv] at h
        obtain ⟨n, m, hn, hm, rfl⟩ := bump_some hv
        have h1 := (List.getElem?_eq_some_iff.1 hn).1
        have h2 := (List.getElem?_eq_some_iff.1 hm).1
        refine ⟨b, s, _, rfl, hs, ⟨?_, ?_, ?_, ⟨n, hn, ?_⟩, ⟨m, hm, ?_⟩, ?_⟩, (Option.some.inj h).symm⟩
        · rfl
        · rfl
        · simp
        · simp [h1]
        · simp [h2]
        · intro j hj hj'
          simp only [List.getElem?_set]
          rw [if_neg (by omega), if_neg (by omega)]

/-! ## Callbacks -/

theorem getOrCreate_some {S : Setup} {st st' : State} {c : SampleCtx} {bi : Nat}
    (h : getOrCreate S st c = some (bi, st')) :
    ((∃ b, (st.pids (S.home (pidOf c))).builder = some bi ∧ st.builders[bi]? = some b ∧ mismatchFatal S b c = some false ∧
      st' = { st with metas := st.metas.modify bi (stamp c) }) ∨
     (∃ maps b, (st.pids (S.home (pidOf c))).builder = none ∧ bi = st.builders.length ∧
      addMain (st.pids (pidOf c)).maps (newProfile S) c.main = some (maps, b) ∧
      st' = { st with
        builders := st.builders ++ [addComments S b]
        metas := st.metas ++ [stamp c { pid := S.home (pidOf c) }]
        pids := upd (upd st.pids (S.home (pidOf c)) { st.pids (S.home (pidOf c)) with builder := some bi }) (pidOf c)
          { upd st.pids (S.home (pidOf c)) { st.pids (S.home (pidOf c)) with builder := some bi } (pidOf c) with maps := maps } })) := by
  unfold getOrCreate at h
  simp only at h
  split at h
  · rename_i bi' hb
    split at h
    · cases h
    · rename_i b hbb
      split at h
      · rename_i hm
        simp only [Option.some.injEq, Prod.mk.injEq] at h
        obtain ⟨rfl, rfl⟩ := h
        exact .inl ⟨b, hb, hbb, hm, rfl⟩
      · cases h
  · rename_i hb
    split at h
    · cases h
    · rename_i maps b hm
      simp only [Option.some.injEq, Prod.mk.injEq] at h
      obtain ⟨rfl, rfl⟩ := h
      exact .inr ⟨maps, b, hb, rfl, hm, rfl⟩

theorem upd_same {α β : Type} [DecidableEq α] (f : α → β) (a : α) (b : β) : upd f a b a = b := by simp [upd]
theorem upd_other {α β : Type} [DecidableEq α] (f : α → β) {a x : α} (b : β) (h : x ≠ a) : upd f a b x = f x := by
  simp [upd, h]

/-- The parts of the process records that `GetOrCreateBuilder` leaves alone. -/
theorem getOrCreate_pids {S : Setup} {st st' : State} {c : SampleCtx} {bi : Nat}
    (h : getOrCreate S st c = some (bi, st')) (P : Nat) :
    (st'.pids P).samples = (st.pids P).samples ∧ (st'.pids P).comms = (st.pids P).comms ∧
    (st'.pids P).locs = (st.pids P).locs ∧ st'.stats = st.stats := by
  rcases getOrCreate_some h with ⟨b, -, -, -, rfl⟩ | ⟨maps, b, -, -, -, rfl⟩
  · exact ⟨rfl, rfl, rfl, rfl⟩
  · have key : ∀ {α : Type} (f : PidInfo → α) (g : Nat → PidInfo) (o : Option Nat) (p q : Nat),
        (∀ i b, f { i with builder := b } = f i) → (∀ i m, f { i with maps := m } = f i) →
        f (upd (upd g p { g p with builder := o }) q
          { upd g p { g p with builder := o } q with maps := maps } P) = f (g P) := by
      intro α f g o p q h1 h2
      have h3 : ∀ x, f (upd g p { g p with builder := o } x) = f (g x) := by
        intro x
        by_cases hx : x = p
        · subst hx; rw [upd_same, h1]
        · rw [upd_other _ _ hx]
      by_cases hx : P = q
      · subst hx; rw [upd_same, h2, h3]
      · rw [upd_other _ _ hx, h3]
    exact ⟨key (·.samples) _ _ _ _ (fun _ _ => rfl) (fun _ _ => rfl),
      key (·.comms) _ _ _ _ (fun _ _ => rfl) (fun _ _ => rfl),
      key (·.locs) _ _ _ _ (fun _ _ => rfl) (fun _ _ => rfl), rfl⟩

/-- What `GetOrCreateBuilder` does to the builders. -/
theorem getOrCreate_builders {S : Setup} {st st' : State} {c : SampleCtx} {bi : Nat}
    (h : getOrCreate S st c = some (bi, st')) (ht : Tables st.builders) :
    Tables st'.builders ∧ (∀ b, samplesOf st'.builders b = samplesOf st.builders b) ∧
    (∀ f, total f st'.builders = total f st.builders) ∧ (∃ b, st'.builders[bi]? = some b) ∧
    (st.metas.length = st.builders.length → st'.metas.length = st'.builders.length) := by
  rcases getOrCreate_some h with ⟨b, -, hb, -, rfl⟩ | ⟨maps, b, -, rfl, hm, rfl⟩
  · exact ⟨ht, fun _ => rfl, fun _ => rfl, ⟨b, hb⟩, fun e => by simpa using e⟩
  · have g1 := newProfile_grow S
    have g2 := g1.trans (addMain_grow g1.inv hm)
    have g3 := g2.trans (addComments_grow S g2.inv)
    have he : (addComments S b).profile.sample = [] := by rw [g3.sample]; rfl
    refine ⟨ht.append ⟨g3.inv, by rw [g3.err]; rfl⟩, ?_, ?_, ⟨addComments S b, by simp⟩, fun e => by simp [e]⟩
    · intro j
      simp only
      rw [samplesOf_append, he]
      split
      · rename_i hj; simp [samplesOf, hj]
      · rfl
    · intro f
      simp only
      rw [total_append, he]; simp

/-- The stages of taking a sample. -/
theorem takeSample_some {S : Setup} {st st' : State} {c : SampleCtx} {slot : Slot}
    (h : takeSample S st c = some (st', slot)) :
    ∃ bi st1 b a, getOrCreate S st c = some (bi, st1) ∧ st1.builders[bi]? = some b ∧
      pushStack S c ⟨[], ⟨(st1.pids (pidOf c)).locs, (st1.pids (pidOf c)).maps, (makeKey S st1 c b).2⟩, st1.stats (pidOf c)⟩ = some a ∧
      addOrUpdate S { st1 with
          builders := st1.builders.set bi a.w.b
          pids := upd st1.pids (pidOf c) { st1.pids (pidOf c) with locs := a.w.locs, maps := a.w.maps }
          stats := upd st1.stats (pidOf c) a.stats } c bi { (makeKey S st1 c b).1 with stack := a.stack } = some (st', slot) := by
  unfold takeSample at h
  simp only at h
  split at h
  · cases h
  · rename_i bi st1 h1
    split at h
    · cases h
    · rename_i b h2
      split at h
      · cases h
      · rename_i a h3
        exact ⟨bi, st1, b, a, h1, h2, h3, h⟩

theorem newSample_sample (S : Setup) (c : SampleCtx) (k : Key) {b : Builder} (h : SInv b) :
    SInv (newSample S c k b) ∧ (newSample S c k b).error = b.error ∧
    Ext b (newSample S c k b) ∧
    (newSample S c k b).profile.sample = b.profile.sample ++
      [{ locationId := k.stack, label := (internLabels b (labelsFor S c k)).1,
         value := List.replicate (2 * S.attrs.length) 0 }] := by
  unfold newSample
  generalize labelsFor S c k = ls
  have h1 := internLabels_str ls h
  refine ⟨sinv_congr h1.inv rfl rfl, h1.err, ⟨fun i s hi => h1.ext.table i s hi⟩, ?_⟩
  show (internLabels b ls).2.profile.sample ++ _ = _
  rw [h1.prof]

/-- What adding a sample does: it goes to a sample already there, or to a new one. -/
theorem addOrUpdate_some {S : Setup} {st st' : State} {c : SampleCtx} {bi : Nat} {k : Key} {slot : Slot}
    (h : addOrUpdate S st c bi k = some (st', slot)) :
    ∃ bs b s s', bs[slot.1]? = some b ∧ b.profile.sample[slot.2]? = some s ∧ Bumped S c s s' ∧
      st'.builders = bs.set slot.1 { b with profile := { b.profile with sample := b.profile.sample.set slot.2 s' } } ∧
      st'.metas = st.metas ∧ st'.stats = st.stats ∧
      ((find (st.pids (pidOf c)).samples k = some slot ∧ bs = st.builders ∧ st'.pids = st.pids) ∨
       (find (st.pids (pidOf c)).samples k = none ∧ ∃ b0, st.builders[bi]? = some b0 ∧
          slot = (bi, b0.profile.sample.length) ∧ bs = st.builders.set bi (newSample S c k b0) ∧
          st'.pids = upd st.pids (pidOf c)
            { st.pids (pidOf c) with samples := (k, slot) :: (st.pids (pidOf c)).samples })) := by
  unfold addOrUpdate at h
  simp only at h
  split at h
  · rename_i sl hf
    split at h
    · cases h
    · rename_i bs hb
      simp only [Option.some.injEq, Prod.mk.injEq] at h
      obtain ⟨rfl, rfl⟩ := h
      obtain ⟨b, s, s', h1, h2, h3, rfl⟩ := bumpSlot_some hb
      exact ⟨st.builders, b, s, s', h1, h2, h3, rfl, rfl, rfl, .inl ⟨hf, rfl, rfl⟩⟩
  · rename_i hf
    split at h
    · cases h
    · rename_i b0 hb0
      split at h
      · cases h
      · rename_i bs hb
        simp only [Option.some.injEq, Prod.mk.injEq] at h
        obtain ⟨rfl, rfl⟩ := h
        obtain ⟨b, s, s', h1, h2, h3, rfl⟩ := bumpSlot_some hb
        refine ⟨st.builders.set bi (newSample S c k b0), b, s, s', h1, h2, h3, ?_, ?_, ?_, .inr ⟨hf, b0, hb0, ?_, ?_, ?_⟩⟩
        all_goals rfl

end Verif.Converter
