import Verif.Converter.Final
import Verif.Converter.Types

/-! # Facts about finished profiles -/

namespace Verif.Converter
open Verif.Profile Verif.Builder
open Verif.Normalizer (Bytes Source MapRef Loc BranchPair SampleEv SampleCtx Callback ACtx AttrRec
  contextFromHeader nameOrMd5 upd)

theorem placed_accepted {S : Setup} {L : Log} (h : ∀ e ∈ L, (e.2.isSome ↔ ∃ c, e.1 = .sample c ∧ Accepted S c)) :
    (placed L).map (·.1) = acceptedSamples S (hist L) := by
  induction L with
  | nil => rfl
  | cons e t ih =>
    have ih := ih (fun x hx => h x (List.mem_cons_of_mem _ hx))
    have he := h e List.mem_cons_self
    obtain ⟨cb, o⟩ := e
    simp only at he
    cases o with
    | none =>
      rw [placed_none, ih]
      have : ∀ c, cb = .sample c → ¬ Accepted S c := fun c e ha => by simpa using he.2 ⟨c, e, ha⟩
      rw [hist_cons]
      unfold acceptedSamples
      rw [List.filterMap_cons_none]
      cases cb with
      | sample c => simp [this c rfl]
      | comm c x => rfl
      | mmap p m => rfl
    | some s =>
      obtain ⟨c, e, ha⟩ := he.1 rfl
      subst e
      rw [placed_some, List.map_cons, ih, hist_cons]
      unfold acceptedSamples
      rw [List.filterMap_cons_some (b := c)]
      simp [ha]

theorem weight_eq {S : Setup} {c : SampleCtx} (h : weightOf S c < 2 ^ 63) : weight S c = weightOf S c := by
  unfold weight
  unfold weightOf at h ⊢
  simp only at h ⊢
  by_cases hp : 0 < c.sample.period
  · rw [if_pos hp] at h ⊢
    rw [if_pos hp]
    exact toInt64_small h
  · rw [if_neg hp] at h ⊢
    rw [if_neg hp]
    cases ha : S.attrs[c.attrIndex]? with
    | none => rfl
    | some a =>
      rw [ha] at h
      simp only [Option.map_some, Option.getD_some] at h ⊢
      by_cases hq : 0 < a.samplePeriod
      · rw [if_pos hq] at h ⊢
        rw [if_pos hq]
        exact toInt64_small h
      · rw [if_neg hq, if_neg hq]; rfl

/-- A profile and the state it comes from. -/
theorem profile_at {S : Setup} {cbs : List Callback} {ps : List ProcessProfile} {L : Log}
    (h : convert S cbs = some (ps, L)) (hs : Sane S cbs) {i : Nat} {p : ProcessProfile} (hp : ps[i]? = some p) :
    ∃ st b m, run S {} [] cbs = some (st, L) ∧ Inv0 S st L ∧ Inv (Known S cbs) S st L ∧ st.builders[i]? = some b ∧
      st.metas[i]? = some m ∧ p.data = b.profile ∧ p.pid = m.pid ∧ p.minNs = m.minNs ∧ p.maxNs = m.maxNs ∧
      p.stats = st.stats m.pid ∧ BOk b ∧ b.profile.location ≠ [] := by
  obtain ⟨st, h1, rfl, h3, h4⟩ := convert_state h
  obtain ⟨b, m, h5, h6, rfl⟩ := profiles_get.1 hp
  have hi := run_known h1 hs
  obtain ⟨k1, k2⟩ := hi.bok i b h5
  exact ⟨st, b, m, h1, h3, hi, h5, h6, finalize_id k1 k2, rfl, rfl, rfl, rfl, k1, k2⟩

/-- The profile of a builder. -/
theorem builder_at {S : Setup} {cbs : List Callback} {ps : List ProcessProfile} {L : Log} {st : State} {b : Builder}
    (h1 : run S {} [] cbs = some (st, L)) (h2 : ps = profiles st) (hs : Sane S cbs) {i : Nat}
    (hb : st.builders[i]? = some b) : ∃ p, ps[i]? = some p ∧ p.data = b.profile := by
  have hi := run_known h1 hs
  have h0 := (run_inv0 cbs (inv0_init S) h1).1
  obtain ⟨k1, k2⟩ := hi.bok i b hb
  have : i < st.metas.length := by rw [h0.len]; exact (List.getElem?_eq_some_iff.1 hb).1
  refine ⟨_, by rw [h2]; exact profiles_get.2 ⟨b, _, hb, List.getElem?_eq_getElem this, rfl⟩, ?_⟩
  exact finalize_id k1 k2

theorem stackAt_final {S : Setup} {cbs : List Callback} {ps : List ProcessProfile} {L : Log} {st : State} {b : Builder}
    (h1 : run S {} [] cbs = some (st, L)) (h2 : ps = profiles st) (hs : Sane S cbs) {s : Slot} {smp : Sample}
    (hb : st.builders[s.1]? = some b) (hm : b.profile.sample[s.2]? = some smp) : stackAt ps s = some smp.locationId := by
  obtain ⟨p, k1, k2⟩ := builder_at h1 h2 hs hb
  unfold stackAt
  rw [k1]
  simp only [Option.bind_some]
  rw [k2, hm]; rfl

/-! ## Times -/

theorem update_pos {m : Meta} {t : Int} (ht : 0 < t) (hm : (m.minNs = 0 ∧ m.maxNs = 0) ∨ (0 < m.minNs ∧ 0 < m.maxNs)) :
    0 < (m.update t).minNs ∧ 0 < (m.update t).maxNs ∧
    (m.update t).minNs ≤ t ∧ (m.minNs = 0 ∨ (m.update t).minNs ≤ m.minNs) ∧
    ((m.update t).minNs = t ∨ (m.minNs ≠ 0 ∧ (m.update t).minNs = m.minNs)) ∧
    t ≤ (m.update t).maxNs ∧ m.maxNs ≤ (m.update t).maxNs ∧
    ((m.update t).maxNs = t ∨ (m.maxNs ≠ 0 ∧ (m.update t).maxNs = m.maxNs)) := by
  unfold Meta.update
  simp only
  by_cases h1 : m.minNs = 0 ∨ t < m.minNs
  · rw [if_pos h1]
    by_cases h2 : m.maxNs = 0 ∨ t > m.maxNs
    · rw [if_pos h2]; omega
    · rw [if_neg h2]; omega
  · rw [if_neg h1]
    by_cases h2 : m.maxNs = 0 ∨ t > m.maxNs
    · rw [if_pos h2]; omega
    · rw [if_neg h2]; omega

theorem metaOf_spec (pid : Nat) (ts : List Int) (hp : ∀ t ∈ ts, 0 < t) :
    (ts = [] → (metaOf pid ts).minNs = 0 ∧ (metaOf pid ts).maxNs = 0) ∧
    (ts ≠ [] → (metaOf pid ts).minNs ∈ ts ∧ (metaOf pid ts).maxNs ∈ ts) ∧
    ∀ t ∈ ts, (metaOf pid ts).minNs ≤ t ∧ t ≤ (metaOf pid ts).maxNs := by
  induction ts with
  | nil => exact ⟨fun _ => ⟨rfl, rfl⟩, fun h => absurd rfl h, fun t h => by cases h⟩
  | cons t r ih =>
    obtain ⟨h1, h2, h3⟩ := ih (fun x hx => hp x (List.mem_cons_of_mem _ hx))
    have e : metaOf pid (t :: r) = (metaOf pid r).update t := rfl
    have hcase : ((metaOf pid r).minNs = 0 ∧ (metaOf pid r).maxNs = 0 ∧ r = []) ∨
        (0 < (metaOf pid r).minNs ∧ 0 < (metaOf pid r).maxNs ∧ r ≠ []) := by
      by_cases hr : r = []
      · exact .inl ⟨(h1 hr).1, (h1 hr).2, hr⟩
      · exact .inr ⟨hp _ (List.mem_cons_of_mem _ (h2 hr).1), hp _ (List.mem_cons_of_mem _ (h2 hr).2), hr⟩
    obtain ⟨u1, u2, u3, u4, u5, u6, u7, u8⟩ := update_pos (m := metaOf pid r) (hp t List.mem_cons_self)
      (hcase.imp (fun x => ⟨x.1, x.2.1⟩) (fun x => ⟨x.1, x.2.1⟩))
    rw [e]
    refine ⟨fun h => (by cases h), fun _ => ⟨?_, ?_⟩, ?_⟩
    · rcases u5 with u5 | ⟨u5, u5'⟩
      · rw [u5]; exact List.mem_cons_self
      · rcases hcase with hc | hc
        · exact absurd hc.1 u5
        · rw [u5']; exact List.mem_cons_of_mem _ (h2 hc.2.2).1
    · rcases u8 with u5 | ⟨u5, u5'⟩
      · rw [u5]; exact List.mem_cons_self
      · rcases hcase with hc | hc
        · exact absurd hc.2.1 u5
        · rw [u5']; exact List.mem_cons_of_mem _ (h2 hc.2.2).2
    · intro x hx
      rcases List.mem_cons.1 hx with rfl | hx
      · exact ⟨u3, u6⟩
      · have := h3 x hx
        rcases hcase with hc | hc
        · rw [hc.2.2] at hx; cases hx
        · omega

theorem timesOf_eq {L : Log} {i : Nat} (hf : ∀ p ∈ placed L, p.1.sample.timeNs.getD 0 < 2 ^ 63) :
    timesOf L i = (timesIn L i).map (fun (t : Nat) => (t : Int)) := by
  unfold timesOf timesIn
  have : ∀ p ∈ (placed L).filter (fun p => decide (p.2.1 = i)), p.1.sample.timeNs.getD 0 < 2 ^ 63 :=
    fun p hp => hf p (List.mem_filter.1 hp).1
  generalize (placed L).filter (fun p => decide (p.2.1 = i)) = l at this
  induction l with
  | nil => rfl
  | cons p t ih =>
    have ih := ih (fun x hx => this x (List.mem_cons_of_mem _ hx))
    have hp := this p List.mem_cons_self
    by_cases h : p.1.sample.timeNs.getD 0 = 0
    · rw [List.filterMap_cons_none (by simp [h]), ih, List.map_cons, List.filter_cons_of_neg (by simpa using h)]
    · rw [List.filterMap_cons_some (b := toInt64 (p.1.sample.timeNs.getD 0)) (by simp [h]), ih, List.map_cons,
        List.filter_cons_of_pos (by simpa using h), List.map_cons, toInt64_small hp]

/-! ## Merging -/

/-- Two samples, the later one first, at the time the later one was added. -/
theorem pair_at {S : Setup} {cbs : List Callback} {ps : List ProcessProfile} {A M B : Log} {c c' : SampleCtx} {s s' : Slot}
    (h : convert S cbs = some (ps, A ++ (.sample c, some s) :: (M ++ (.sample c', some s') :: B))) (hs : Sane S cbs) :
    ∃ st b k smp, Inv (Known S cbs) S st ((.sample c, some s) :: (M ++ (.sample c', some s') :: B)) ∧
      st.builders[s.1]? = some b ∧ b.profile.sample[s.2]? = some smp ∧ smp.locationId = k.stack ∧
      find (st.pids (pidOf c)).samples k = some s ∧ KeyRel b k (akey S (hist (M ++ (.sample c', some s') :: B)) c) ∧
      ∀ (t : Slot) bt st', st.builders[t.1]? = some bt → bt.profile.sample[t.2]? = some st' →
        stackAt ps t = some st'.locationId := by
  obtain ⟨st', h1, h2, -, -⟩ := convert_state h
  obtain ⟨st, i0, hi, hg⟩ := at_entry hs h1
  obtain ⟨k, hk⟩ := hi.kept [] c s _ rfl rfl
  obtain ⟨b, smp, ak, q1, q2, q3, q4, -, q5⟩ := hi.keys _ _ _ hk
  obtain ⟨-, -, q6⟩ := q5 [] c _ rfl
  refine ⟨st, b, k, smp, hi, q1, q2, q3, hk, by rw [q6]; exact q4, ?_⟩
  intro t bt x hb hx
  obtain ⟨b2, g1, g2⟩ := hg _ _ hb
  obtain ⟨x2, g3, g4, -⟩ := g2.samp _ _ hx
  rw [stackAt_final h1 h2 hs g1 g3, g4]

theorem all2_same {α : Type} {f : α → Option Nat} {as : List α} : ∀ {is js : List Nat},
    All₂ (fun a i => f a = some i) as is → All₂ (fun a i => f a = some i) as js → is = js := by
  induction as with
  | nil => intro is js h1 h2; cases h1; cases h2; rfl
  | cons a t ih =>
    intro is js h1 h2
    cases h1 with
    | cons x1 r1 =>
      cases h2 with
      | cons x2 r2 => rw [x1] at x2; cases x2; rw [ih r1 r2]

theorem All₂.map_iff {α β γ : Type} {R : γ → β → Prop} {f : α → γ} {as : List α} {bs : List β} :
    All₂ (fun a b => R (f a) b) as bs ↔ All₂ R (as.map f) bs := by
  refine ⟨All₂.map_left, ?_⟩
  intro h
  induction as generalizing bs with
  | nil => cases h; exact .nil
  | cons a t ih =>
    cases h with
    | cons x r => exact .cons x (ih r)

theorem All₂.with_mem {α β : Type} {R : α → β → Prop} {as : List α} {bs : List β} (h : All₂ R as bs) :
    All₂ (fun a b => a ∈ as ∧ R a b) as bs := by
  induction h with
  | nil => exact .nil
  | cons hr _ ih =>
    exact .cons ⟨List.mem_cons_self, hr⟩ (All₂.imp (fun a b hh => ⟨List.mem_cons_of_mem _ hh.1, hh.2⟩) ih)

/-! ## Statistics -/

theorem sum_sources (l : List Frame) :
    (sources.map (fun s => (l.filter (fun f => decide (srcOf f.2 = s))).length)).sum = l.length := by
  induction l with
  | nil => rfl
  | cons f t ih =>
    simp only [sources, List.map_cons, List.map_nil, List.sum_cons, List.sum_nil, List.length_cons] at ih ⊢
    simp only [List.filter_cons]
    cases srcOf f.2 <;> simp only [decide_true, decide_false, if_true, reduceCtorEq, Bool.false_eq_true, if_false, List.length_cons] <;> omega

theorem sum_add_map {α : Type} (l : List α) (f g : α → Nat) :
    (l.map (fun x => f x + g x)).sum = (l.map f).sum + (l.map g).sum := by
  induction l with
  | nil => rfl
  | cons a t ih => simp only [List.map_cons, List.sum_cons, ih]; omega

theorem sum_zeros {α : Type} (l : List α) : (l.map (fun _ => 0)).sum = 0 := by
  induction l with
  | nil => rfl
  | cons a t ih => rw [List.map_cons, List.sum_cons, ih]

theorem sum_single (n j : Nat) (hj : j < n) (f : Nat → Nat) :
    ((List.range n).map (fun i => if j = i then f i else 0)).sum = f j := by
  induction n with
  | zero => omega
  | succ n ih =>
    rw [List.range_succ, List.map_append, List.sum_append]
    by_cases h : j = n
    · subst h
      have : ((List.range j).map (fun i => if j = i then f i else 0)).sum = 0 := by
        rw [List.map_congr_left (g := fun _ => 0)]
        · exact sum_zeros _
        · intro i hi; rw [if_neg (by have := List.mem_range.1 hi; omega)]
      rw [this]; simp
    · rw [ih (by omega)]; simp [h]

/-- Sum over the members of a list, grouped by place. -/
theorem sum_grouped {α : Type} (l : List α) (pos : α → Nat) (n : Nat) (f : Nat → Nat) (h : ∀ a ∈ l, pos a < n) :
    (l.map (fun a => f (pos a))).sum =
      ((List.range n).map (fun i => (l.filter (fun a => decide (pos a = i))).length * f i)).sum := by
  induction l with
  | nil => simp [sum_zeros]
  | cons a t ih =>
    rw [List.map_cons, List.sum_cons, ih (fun x hx => h x (List.mem_cons_of_mem _ hx)),
      ← sum_single n (pos a) (h a List.mem_cons_self) f, ← sum_add_map]
    congr 1
    apply List.map_congr_left
    intro i _
    by_cases e : pos a = i
    · rw [if_pos e, List.filter_cons_of_pos (by simpa using e), List.length_cons, Nat.add_mul, Nat.one_mul, Nat.add_comm]
    · rw [if_neg e, List.filter_cons_of_neg (by simpa using e)]; omega

end Verif.Converter
