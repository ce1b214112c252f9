import Verif.Parser.Hidden

/-!
# C142: processes do not influence each other

Two recordings with the same events for the kernel, a set of processes and their ancestors; for other
processes anything may happen. The parser makes the same of the events of the former.
-/

namespace Verif.Parser
open Verif.AddressMapper (Req specRun specLookup)
open Verif.HugePages (MMap)

/-! ### Specification -/

/-- The process an event is about. -/
def pidOf (e : Ev) : Option Nat :=
  if e.type = 9 then e.sample.map (·.pid)
  else if isMmap e then some ((e.mmap.getD {}).pid.getD 0)
  else if e.type = 7 then some (e.fork.getD {}).pid
  else if e.type = 3 then some (e.comm.getD {}).pid
  else none

/-- It is about a process in `K`. -/
def Concerns (K : Nat → Prop) (e : Ev) : Prop := ∃ p, pidOf e = some p ∧ K p

/-- The same event, or two that are about processes not in `K`, and not mappings of the kernel. -/
def Alike (K : Nat → Prop) (e e' : Ev) : Prop :=
  e' = e ∨ (¬ Concerns K e ∧ ¬ Concerns K e' ∧ isKernelMmap e = false ∧ isKernelMmap e' = false)

/-- `K` has the kernel, and with a process those that forked it. -/
structure Family (K : Nat → Prop) (evs : List Ev) : Prop where
  kernel : K kernelPid
  fork : ∀ e ∈ evs, e.type = 7 → K (e.fork.getD {}).pid → K (e.fork.getD {}).ppid

/-! ### Histories -/

theorem Alike.kernel {K : Nat → Prop} {e e' : Ev} (h : Alike K e e') : isKernelMmap e' = isKernelMmap e := by
  rcases h with rfl | ⟨_, _, h1, h2⟩
  · rfl
  · rw [h1, h2]

theorem alike_len {K : Nat → Prop} {h h' : List Ev} (ha : All₂ (Alike K) h h') : h'.length = h.length := by
  induction ha with
  | nil => rfl
  | cons _ _ ih => rw [List.length_cons, List.length_cons, ih]

theorem alike_any {K : Nat → Prop} {h h' : List Ev} (ha : All₂ (Alike K) h h') :
    h'.any isKernelMmap = h.any isKernelMmap := by
  induction ha with
  | nil => rfl
  | cons hx _ ih => rw [List.any_cons, List.any_cons, ih, hx.kernel]

theorem alike_get {K : Nat → Prop} {h h' : List Ev} (ha : All₂ (Alike K) h h') {j : Nat} {e : Ev} (hj : h[j]? = some e) :
    ∃ e', h'[j]? = some e' ∧ Alike K e e' := by
  induction ha generalizing j with
  | nil => simp at hj
  | @cons a b _ _ hx _ ih =>
    cases j with
    | zero =>
      simp only [List.getElem?_cons_zero, Option.some.injEq] at hj
      subst hj
      exact ⟨b, rfl, hx⟩
    | succ j =>
      rw [List.getElem?_cons_succ] at hj
      rw [List.getElem?_cons_succ]
      exact ih hj

theorem alike_request {K : Nat → Prop} {h h' : List Ev} (ha : All₂ (Alike K) h h') (O : Opts) (e : Ev) :
    requestAt O h' e = requestAt O h e := by
  unfold requestAt
  rw [alike_len ha, alike_any ha]

theorem inherit_other {T : Nat → Option (List Req)} {p pp x : Nat} (h : x ≠ p) : inherit T p pp x = T x := by
  simp [inherit, h]

/-- An event about others leaves the histories. -/
theorem hist_frame {K : Nat → Prop} {O : Opts} {h : List Ev} {e : Ev} (hn : ¬ Concerns K e) {p : Nat} (hp : K p) :
    hist O (e :: h) p = hist O h p := by
  have hne : ∀ q, pidOf e = some q → p ≠ q := fun q hq he => hn ⟨q, hq, he ▸ hp⟩
  simp only [hist]
  unfold pidOf at hne
  by_cases h9 : e.type = 9
  · simp only [if_pos h9] at hne ⊢
    cases hs : e.sample with
    | none => rfl
    | some s => exact inherit_other (hne s.pid (by rw [hs]; rfl))
  simp only [if_neg h9] at hne ⊢
  by_cases hm : isMmap e = true
  · simp only [if_pos hm] at hne ⊢
    rw [if_neg (hne _ rfl)]
  simp only [if_neg hm] at hne ⊢
  by_cases h7 : e.type = 7
  · simp only [if_pos h7] at hne ⊢
    split
    · rfl
    · exact inherit_other (hne _ rfl)
  simp only [if_neg h7] at hne ⊢
  by_cases h3 : e.type = 3
  · simp only [if_pos h3] at hne ⊢
    exact inherit_other (hne _ rfl)
  simp only [if_neg h3]

theorem inherit_agree {K : Nat → Prop} {T T' : Nat → Option (List Req)} (h : ∀ p, K p → T' p = T p) {p pp : Nat}
    (hp : K p) (hpp : K pp) (hk : K kernelPid) {x : Nat} (hx : K x) : inherit T' p pp x = inherit T p pp x := by
  unfold inherit
  rw [h p hp, h pp hpp, h kernelPid hk, h x hx]

/-- The histories of the processes in `K`. -/
theorem hist_agree {K : Nat → Prop} {O : Opts} {h h' : List Ev} (ha : All₂ (Alike K) h h') (hf : Family K h) :
    ∀ p, K p → hist O h' p = hist O h p := by
  induction ha with
  | nil => intro p _; rfl
  | @cons e e' t t' hx ht ih =>
    have ih := ih ⟨hf.kernel, fun x hx => hf.fork x (by simp [hx])⟩
    intro p hp
    by_cases hc : Concerns K e
    · rcases hx with rfl | ⟨hn, _⟩
      · simp only [hist]
        obtain ⟨q, hq, hK⟩ := hc
        unfold pidOf at hq
        by_cases h9 : e'.type = 9
        · simp only [if_pos h9] at hq ⊢
          cases hs : e'.sample with
          | none => exact ih p hp
          | some s =>
            rw [hs] at hq
            have : s.pid = q := Option.some.inj hq
            exact inherit_agree ih (this ▸ hK) hf.kernel hf.kernel hp
        simp only [if_neg h9] at hq ⊢
        by_cases hm : isMmap e' = true
        · simp only [if_pos hm, Option.some.injEq] at hq ⊢
          rw [alike_request ht, ih p hp, inherit_agree ih (hq ▸ hK) hf.kernel hf.kernel (hq ▸ hK)]
        simp only [if_neg hm] at hq ⊢
        by_cases h7 : e'.type = 7
        · simp only [if_pos h7, Option.some.injEq] at hq ⊢
          split
          · exact ih p hp
          · exact inherit_agree ih (hq ▸ hK) (hf.fork e' (by simp) h7 (hq ▸ hK)) hf.kernel hp
        simp only [if_neg h7] at hq ⊢
        by_cases h3 : e'.type = 3
        · simp only [if_pos h3, Option.some.injEq] at hq ⊢
          exact inherit_agree ih (hq ▸ hK) hf.kernel hf.kernel hp
        simp only [if_neg h3] at hq
        cases hq
      · exact absurd hc hn
    · have hc' : ¬ Concerns K e' := by
        rcases hx with rfl | ⟨_, h2, _⟩
        · exact hc
        · exact h2
      rw [hist_frame hc hp, hist_frame hc' hp]
      exact ih p hp

/-- Their mappings are those of processes in `K`. -/
theorem hist_within {K : Nat → Prop} (O : Opts) : ∀ (h : List Ev), Family K h → ∀ p, K p → ∀ qs, hist O h p = some qs →
    ∀ q ∈ qs, ∃ e, h.reverse[q.id]? = some e ∧ Concerns K e ∧ isMmap e = true
  | [], _, p, _, qs, hq => by cases hq
  | e :: h, hf, p, hp, qs, hq => by
    have ih := hist_within O h ⟨hf.kernel, fun x hx => hf.fork x (by simp [hx])⟩
    have grow : ∀ {j : Nat} {x : Ev}, h.reverse[j]? = some x → (e :: h).reverse[j]? = some x := by
      intro j x hj
      rw [List.reverse_cons, List.getElem?_append_left (List.getElem?_eq_some_iff.1 hj).1]
      exact hj
    have base : ∀ p, K p → ∀ qs, hist O h p = some qs → ∀ q ∈ qs, ∃ x, (e :: h).reverse[q.id]? = some x ∧ Concerns K x ∧ isMmap x = true := by
      intro p hp qs hq q hm
      obtain ⟨x, h1, h2⟩ := ih p hp qs hq q hm
      exact ⟨x, grow h1, h2⟩
    have inh : ∀ a b, K a → K b → ∀ qs, inherit (hist O h) a b a = some qs →
        ∀ q ∈ qs, ∃ x, (e :: h).reverse[q.id]? = some x ∧ Concerns K x ∧ isMmap x = true := by
      intro a b ha hb qs hq
      simp only [inherit, if_true, Option.some.injEq] at hq
      subst hq
      cases h1 : hist O h a with
      | some l => exact base a ha l h1
      | none =>
        cases h2 : hist O h b with
        | some l => exact base b hb l h2
        | none =>
          cases h3 : hist O h kernelPid with
          | some l => exact base _ hf.kernel l h3
          | none => intro q hq; cases hq
    by_cases hc : Concerns K e
    rotate_left
    · rw [hist_frame hc hp] at hq
      exact base p hp qs hq
    have hinh : ∀ a b, K a → K b → ∀ qs, inherit (hist O h) a b p = some qs →
        ∀ q ∈ qs, ∃ x, (e :: h).reverse[q.id]? = some x ∧ Concerns K x ∧ isMmap x = true := by
      intro a b ha hb qs hq
      by_cases hpa : p = a
      · rw [hpa] at hq; exact inh a b ha hb qs hq
      · rw [inherit_other hpa] at hq; exact base p hp qs hq
    have hcc := hc
    obtain ⟨r, hr, hK⟩ := hcc
    unfold pidOf at hr
    simp only [hist] at hq
    by_cases h9 : e.type = 9
    · simp only [if_pos h9] at hq hr
      cases hs : e.sample with
      | none => rw [hs] at hr; cases hr
      | some s =>
        rw [hs] at hr hq
        have : s.pid = r := Option.some.inj hr
        exact hinh _ _ (this ▸ hK) hf.kernel qs hq
    simp only [if_neg h9] at hq hr
    by_cases hm : isMmap e = true
    · simp only [if_pos hm, Option.some.injEq] at hq hr
      by_cases hpa : p = (e.mmap.getD {}).pid.getD 0
      · rw [if_pos hpa, Option.map_eq_some_iff] at hq
        obtain ⟨l, hl, rfl⟩ := hq
        intro q hq
        rcases List.mem_append.1 hq with hq | hq
        · exact inh _ _ (hr ▸ hK) hf.kernel l hl q hq
        · rw [List.mem_singleton.1 hq]
          refine ⟨e, ?_, hc, hm⟩
          show (e :: h).reverse[h.length]? = _
          rw [List.reverse_cons, List.getElem?_append_right (by simp)]
          simp
      · rw [if_neg hpa] at hq
        exact base p hp qs hq
    simp only [if_neg hm] at hq hr
    by_cases h7 : e.type = 7
    · simp only [if_pos h7, Option.some.injEq] at hq hr
      split at hq
      · exact base p hp qs hq
      · exact hinh _ _ (hr ▸ hK) (hf.fork e (by simp) h7 (hr ▸ hK)) qs hq
    simp only [if_neg h7] at hq hr
    by_cases h3 : e.type = 3
    · simp only [if_pos h3, Option.some.injEq] at hq hr
      exact hinh _ _ (hr ▸ hK) hf.kernel qs hq
    simp only [if_neg h3] at hr
    cases hr

/-! ### One event -/

/-- The tables after an event of a sensible recording. -/
theorem step_rel {O : Opts} {S : Nat} {starts : Nat → Nat} {L h rest : List Ev} {st st1 : State} {e x : Ev} {y : Parsed}
    (hp : ∃ k, k ≤ 60 ∧ O.page = 2 ^ k) (hR : Rel O S starts h st) (hL : L = h.reverse ++ rest) (hk : known e = true)
    (hmm : isMmap e = true → (requestAt O h e).wf ∧ (requestAt O h e).size ≤ S ∧
      ((h.filter isMmap).length + 1) * (S + 6 * O.page) < 2 ^ 64)
    (hsm : ∀ s, e.sample = some s → ∀ a ∈ lookups s, a < 2 ^ 64)
    (hst : step O L h.length st e = some (some (st1, x, y))) : ∃ starts1, Rel O S starts1 (e :: h) st1 := by
  by_cases hm : isMmap e = true
  · obtain ⟨h1, h2, h3⟩ := hmm hm
    rcases step_mmap (evs := L) hp hR hm h1 h2 h3 with ⟨-, o1⟩ | ⟨-, starts1, st2, e2, p2, o1, -, o2, -⟩
    · rw [o1] at hst; cases hst
    · rw [o1] at hst; cases hst; exact ⟨_, o2⟩
  · have hm' : isMmap e = false := by simpa using hm
    by_cases hs : e.type = 9 ∧ e.sample ≠ none
    · obtain ⟨ht, hs⟩ := hs
      cases hs' : e.sample with
      | none => exact absurd hs' hs
      | some s =>
        obtain ⟨st2, e2, p2, o1, o2, -⟩ := step_sample hp hR hL ht hs' (hsm s hs')
        rw [o1] at hst; cases hst; exact ⟨_, o2⟩
    · obtain ⟨st2, o1, o2⟩ := step_other (evs := L) hp hR hk hm' (fun h9 => by
        cases hs' : e.sample with
        | none => rfl
        | some s => exact absurd ⟨h9, by simp [hs']⟩ hs)
      rw [o1] at hst; cases hst; exact ⟨_, o2⟩

/-- Known events are not given up on. -/
theorem step_known {O : Opts} {S : Nat} {starts : Nat → Nat} {L h rest : List Ev} {st : State} {e : Ev}
    (hp : ∃ k, k ≤ 60 ∧ O.page = 2 ^ k) (hR : Rel O S starts h st) (hL : L = h.reverse ++ rest) (hk : known e = true)
    (hmm : isMmap e = true → (requestAt O h e).wf ∧ (requestAt O h e).size ≤ S ∧
      ((h.filter isMmap).length + 1) * (S + 6 * O.page) < 2 ^ 64)
    (hsm : ∀ s, e.sample = some s → ∀ a ∈ lookups s, a < 2 ^ 64)
    (hst : step O L h.length st e = some none) : False := by
  by_cases hm : isMmap e = true
  · obtain ⟨h1, h2, h3⟩ := hmm hm
    rcases step_mmap (evs := L) hp hR hm h1 h2 h3 with ⟨-, o1⟩ | ⟨-, starts1, st2, e2, p2, o1, -, o2, -⟩
    · rw [o1] at hst; cases hst
    · rw [o1] at hst; cases hst
  · have hm' : isMmap e = false := by simpa using hm
    by_cases hs : e.type = 9 ∧ e.sample ≠ none
    · obtain ⟨ht, hs⟩ := hs
      cases hs' : e.sample with
      | none => exact absurd hs' hs
      | some s =>
        obtain ⟨st2, e2, p2, o1, o2, -⟩ := step_sample hp hR hL ht hs' (hsm s hs')
        rw [o1] at hst; cases hst
    · obtain ⟨st2, o1, o2⟩ := step_other (evs := L) hp hR hk hm' (fun h9 => by
        cases hs' : e.sample with
        | none => rfl
        | some s => exact absurd ⟨h9, by simp [hs']⟩ hs)
      rw [o1] at hst; cases hst

/-- What matters for the processes in `K`. -/
def Agree (K : Nat → Prop) (st st' : State) : Prop :=
  (∀ p, K p → st'.mappers p = st.mappers p) ∧ ∀ p t, K p → st'.comms (p, t) = st.comms (p, t)

theorem mapperFor_frame {O : Opts} {ms ms1 : Nat → Option Mapper} {p pp : Nat} {m : Mapper}
    (h : mapperFor O ms p pp = some (m, ms1)) : ∀ x, x ≠ p → ms1 x = ms x := by
  unfold mapperFor at h
  intro x hx
  split at h
  · cases h; rfl
  · split at h
    · cases h
    · cases h; simp [upd, hx]

/-- An event about others leaves the tables. -/
theorem step_frame {K : Nat → Prop} {O : Opts} {S : Nat} {starts : Nat → Nat} {L h rest : List Ev} {st st1 : State} {e x : Ev}
    {y : Parsed} (hp : ∃ k, k ≤ 60 ∧ O.page = 2 ^ k) (hR : Rel O S starts h st) (hL : L = h.reverse ++ rest)
    (hsm : ∀ s, e.sample = some s → ∀ a ∈ lookups s, a < 2 ^ 64) (hn : ¬ Concerns K e)
    (hst : step O L h.length st e = some (some (st1, x, y))) : Agree K st st1 := by
  have hne : ∀ q, pidOf e = some q → ∀ p, K p → p ≠ q := fun q hq p hp he => hn ⟨q, hq, he ▸ hp⟩
  unfold pidOf at hne
  by_cases h64 : e.type ≥ 64
  · simp only [step, if_pos h64, Option.some.injEq, Prod.mk.injEq] at hst
    obtain ⟨rfl, _⟩ := hst
    exact ⟨fun _ _ => rfl, fun _ _ _ => rfl⟩
  by_cases h9 : e.type = 9
  · simp only [step, if_neg h64, if_pos h9] at hst
    simp only [if_pos h9] at hne
    cases hs : e.sample with
    | none =>
      simp only [hs, Option.some.injEq, Prod.mk.injEq] at hst
      obtain ⟨rfl, _⟩ := hst
      exact ⟨fun _ _ => rfl, fun _ _ _ => rfl⟩
    | some s =>
      obtain ⟨m, ms, qs, g1, g2, g3, g4, g5, g6⟩ := mapperFor_rel (alignOK hp) hR.maps s.pid kernelPid
      have e1 := mapSample_eq (s := s) (evs := L) (st := { st with stats := { st.stats with samples := st.stats.samples + 1 } })
        hp g1 g2 g4 (hsm s hs) (files_of hR hL g3)
      simp only [hs, e1, Option.map_some, Option.some.injEq, Prod.mk.injEq] at hst
      obtain ⟨rfl, _⟩ := hst
      exact ⟨fun p hK => g6 p (hne s.pid (by rw [hs]; rfl) p hK), fun _ _ _ => rfl⟩
  simp only [if_neg h9] at hne
  by_cases hmt : e.type = 1 ∨ e.type = 10
  · have hm : isMmap e = true := by simpa [isMmap] using hmt
    simp only [if_pos hm] at hne
    simp only [step, if_neg h64, if_neg h9, if_pos hmt] at hst
    rw [Option.map_eq_some_iff] at hst
    obtain ⟨⟨ms2, m2⟩, hmm, hst⟩ := hst
    simp only [Option.some.injEq, Prod.mk.injEq] at hst
    obtain ⟨rfl, _⟩ := hst
    refine ⟨fun p hK => ?_, fun _ _ _ => rfl⟩
    have hpe := hne _ rfl p hK
    show ms2 p = _
    unfold mapMmap at hmm
    cases hg : mapperFor O st.mappers ((e.mmap.getD {}).pid.getD 0) kernelPid with
    | none => simp only [hg] at hmm; cases hmm
    | some r =>
      obtain ⟨mp, ms⟩ := r
      have hfr := mapperFor_frame hg p hpe
      simp only [hg] at hmm
      split at hmm
      · split at hmm
        · split at hmm
          · split at hmm
            · cases hmm
            · cases hmm; simp only [upd, if_neg hpe]; exact hfr
          · cases hmm
        · cases hmm; simp only [upd, if_neg hpe]; exact hfr
      · cases hmm
  have hm : ¬ isMmap e = true := by simpa [isMmap] using hmt
  simp only [if_neg hm] at hne
  by_cases h7 : e.type = 7
  · simp only [if_pos h7] at hne
    have hpe := hne _ rfl
    simp only [step, if_neg h64, if_neg h9, if_neg hmt, if_pos h7] at hst
    rw [Option.map_eq_some_iff] at hst
    obtain ⟨st2, hf, hst⟩ := hst
    simp only [Option.some.injEq, Prod.mk.injEq] at hst
    obtain ⟨rfl, _⟩ := hst
    have hcm : ∀ p t, K p → (if ((e.fork.getD {}).ppid, (e.fork.getD {}).ptid) ≠ ((e.fork.getD {}).pid, (e.fork.getD {}).tid) then
        match st.comms ((e.fork.getD {}).ppid, (e.fork.getD {}).ptid) with
        | some c => upd st.comms ((e.fork.getD {}).pid, (e.fork.getD {}).tid) (some c)
        | none => st.comms
      else st.comms) (p, t) = st.comms (p, t) := by
      intro p t hK
      split
      · split
        · simp only [upd]
          rw [if_neg (by intro he; exact hpe p hK (congrArg Prod.fst he))]
        · rfl
      · rfl
    unfold mapFork at hf
    by_cases hpp : (e.fork.getD {}).ppid = (e.fork.getD {}).pid
    · simp only [if_pos hpp, Option.some.injEq] at hf
      subst hf
      exact ⟨fun _ _ => rfl, hcm⟩
    · simp only [if_neg hpp] at hf
      rw [Option.map_eq_some_iff] at hf
      obtain ⟨⟨m, ms⟩, hg, rfl⟩ := hf
      exact ⟨fun p hK => mapperFor_frame hg p (hpe p hK), hcm⟩
  simp only [if_neg h7] at hne
  by_cases h4 : e.type = 4
  · simp only [step, if_neg h64, if_neg h9, if_neg hmt, if_neg h7, if_pos h4, Option.some.injEq, Prod.mk.injEq] at hst
    obtain ⟨rfl, _⟩ := hst
    exact ⟨fun _ _ => rfl, fun _ _ _ => rfl⟩
  by_cases h3 : e.type = 3
  · simp only [if_pos h3] at hne
    have hpe := hne _ rfl
    simp only [step, if_neg h64, if_neg h9, if_neg hmt, if_neg h7, if_neg h4, if_pos h3] at hst
    rw [Option.map_eq_some_iff] at hst
    obtain ⟨⟨m, ms⟩, hg, hst⟩ := hst
    simp only [Option.some.injEq, Prod.mk.injEq] at hst
    obtain ⟨rfl, _⟩ := hst
    refine ⟨fun p hK => mapperFor_frame hg p (hpe p hK), fun p t hK => ?_⟩
    simp only [upd]
    rw [if_neg (by intro he; exact hpe p hK (congrArg Prod.fst he))]
  by_cases h17 : e.type = 17
  · simp only [step, if_neg h64, if_neg h9, if_neg hmt, if_neg h7, if_neg h4, if_neg h3, if_pos h17,
      Option.some.injEq, Prod.mk.injEq] at hst
    obtain ⟨rfl, _⟩ := hst
    exact ⟨fun _ _ => rfl, fun _ _ _ => rfl⟩
  simp only [step, if_neg h64, if_neg h9, if_neg hmt, if_neg h7, if_neg h4, if_neg h3, if_neg h17] at hst
  split at hst
  · simp only [Option.some.injEq, Prod.mk.injEq] at hst
    obtain ⟨rfl, _⟩ := hst
    exact ⟨fun _ _ => rfl, fun _ _ _ => rfl⟩
  · cases hst

theorem mapperFor_agree {K : Nat → Prop} {O : Opts} {ms ms' ms1 ms1' : Nat → Option Mapper} {p pp : Nat} {m m' : Mapper}
    (ha : ∀ x, K x → ms' x = ms x) (hp : K p) (hpp : K pp) (hk : K kernelPid) (h : mapperFor O ms p pp = some (m, ms1))
    (h' : mapperFor O ms' p pp = some (m', ms1')) : m' = m ∧ ∀ x, K x → ms1' x = ms1 x := by
  unfold mapperFor at h h'
  rw [ha p hp, ha pp hpp, ha kernelPid hk] at h'
  cases hm : ms p with
  | some a =>
    simp only [hm, Option.some.injEq, Prod.mk.injEq] at h h'
    obtain ⟨rfl, rfl⟩ := h
    obtain ⟨rfl, rfl⟩ := h'
    exact ⟨rfl, ha⟩
  | none =>
    simp only [hm] at h h'
    split at h
    · cases h
    · rename_i a hq
      rw [hq] at h'
      simp only [Option.some.injEq, Prod.mk.injEq] at h h'
      obtain ⟨rfl, rfl⟩ := h
      obtain ⟨rfl, rfl⟩ := h'
      refine ⟨rfl, fun x hx => ?_⟩
      simp only [upd]
      split
      · rfl
      · exact ha x hx

theorem mapMmap_agree {K : Nat → Prop} {O : Opts} {ms ms' : Nat → Option Mapper} {i : Nat} {k : Bool} {m : MMap}
    {r r' : (Nat → Option Mapper) × MMap} (ha : ∀ x, K x → ms' x = ms x) (hp : K (m.pid.getD 0)) (hk : K kernelPid)
    (h : mapMmap O ms i k m = some r) (h' : mapMmap O ms' i k m = some r') : r'.2 = r.2 ∧ ∀ x, K x → r'.1 x = r.1 x := by
  unfold mapMmap at h h'
  cases hg : mapperFor O ms (m.pid.getD 0) kernelPid with
  | none => simp only [hg] at h; cases h
  | some z =>
    cases hg' : mapperFor O ms' (m.pid.getD 0) kernelPid with
    | none => simp only [hg'] at h'; cases h'
    | some z' =>
      obtain ⟨mp, ms1⟩ := z
      obtain ⟨mp', ms1'⟩ := z'
      obtain ⟨rfl, hms⟩ := mapperFor_agree ha hp hk hk hg hg'
      simp only [hg] at h
      simp only [hg'] at h'
      have hu : ∀ (v : Mapper) x, K x → upd ms1' (m.pid.getD 0) (some v) x = upd ms1 (m.pid.getD 0) (some v) x := by
        intro v x hx
        simp only [upd]
        split
        · rfl
        · exact hms x hx
      split at h
      · rename_i mp2 hq
        simp only [hq] at h'
        split at h
        · rename_i hr
          rw [if_pos hr] at h'
          split at h
          · rename_i a hq2
            simp only [hq2] at h'
            split at h
            · cases h
            · rename_i hne
              rw [if_neg hne] at h'
              cases h; cases h'
              exact ⟨rfl, hu mp2⟩
          · cases h
        · rename_i hr
          rw [if_neg hr] at h'
          cases h; cases h'
          exact ⟨rfl, hu mp2⟩
      · cases h

/-- The same event about a process in `K`. -/
theorem step_same {K : Nat → Prop} {O : Opts} {S S' : Nat} {starts starts' : Nat → Nat} {L L' h h' rest rest' : List Ev}
    {st st' st1 st1' : State} {e x x' : Ev} {y y' : Parsed} (hp : ∃ k, k ≤ 60 ∧ O.page = 2 ^ k)
    (hR : Rel O S starts h st) (hR' : Rel O S' starts' h' st') (ha : All₂ (Alike K) h h') (hLL : All₂ (Alike K) L L')
    (hf : Family K (e :: h)) (hA : Agree K st st') (hL : L = h.reverse ++ rest) (hL' : L' = h'.reverse ++ rest')
    (hsm : ∀ s, e.sample = some s → ∀ a ∈ lookups s, a < 2 ^ 64) (hc : Concerns K e)
    (hst : step O L h.length st e = some (some (st1, x, y)))
    (hst' : step O L' h'.length st' e = some (some (st1', x', y'))) : x' = x ∧ y' = y ∧ Agree K st1 st1' := by
  have hft : Family K h := ⟨hf.kernel, fun x hx => hf.fork x (by simp [hx])⟩
  obtain ⟨r, hr, hK⟩ := hc
  unfold pidOf at hr
  by_cases h64 : e.type ≥ 64
  · simp only [step, if_pos h64, Option.some.injEq, Prod.mk.injEq] at hst hst'
    obtain ⟨rfl, rfl, rfl⟩ := hst
    obtain ⟨rfl, rfl, rfl⟩ := hst'
    exact ⟨rfl, rfl, hA⟩
  by_cases h9 : e.type = 9
  · simp only [step, if_neg h64, if_pos h9] at hst hst'
    simp only [if_pos h9] at hr
    cases hs : e.sample with
    | none => rw [hs] at hr; cases hr
    | some s =>
      rw [hs] at hr
      have hpid : K s.pid := (Option.some.inj hr : s.pid = r) ▸ hK
      obtain ⟨m, ms, qs, g1, g2, g3, g4, g5, g6⟩ := mapperFor_rel (alignOK hp) hR.maps s.pid kernelPid
      obtain ⟨m', ms', qs', j1, j2, j3, j4, j5, j6⟩ := mapperFor_rel (alignOK hp) hR'.maps s.pid kernelPid
      obtain ⟨rfl, hms⟩ := mapperFor_agree hA.1 hpid hf.kernel hf.kernel g1 j1
      rw [inherit_agree (hist_agree ha hft) hpid hf.kernel hf.kernel hpid, g3] at j3
      obtain rfl := Option.some.inj j3
      have e1 := mapSample_eq (s := s) (evs := L) (st := { st with stats := { st.stats with samples := st.stats.samples + 1 } })
        hp g1 g2 g4 (hsm s hs) (files_of hR hL g3)
      have e2 := mapSample_eq (s := s) (evs := L') (st := { st' with stats := { st'.stats with samples := st'.stats.samples + 1 } })
        hp j1 j2 j4 (hsm s hs) (files_of hR' hL' (by
          rw [inherit_agree (hist_agree ha hft) hpid hf.kernel hf.kernel hpid]; exact g3))
      have hin : ∀ q ∈ qs, ∃ e, h.reverse[q.id]? = some e ∧ Concerns K e ∧ isMmap e = true := by
        simp only [inherit, if_true, Option.some.injEq] at g3
        subst g3
        cases h1 : hist O h s.pid with
        | some l => exact hist_within O h hft _ hpid l h1
        | none =>
          cases h2 : hist O h kernelPid with
          | some l => exact hist_within O h hft _ hf.kernel l h2
          | none => intro q hq; cases hq
      have hloc : locR L' (specLookup (specRun O.page [] qs).2) = locR L (specLookup (specRun O.page [] qs).2) := by
        funext a
        unfold locR
        cases hreg : specLookup (specRun O.page [] qs).2 a with
        | none => rfl
        | some z =>
          obtain ⟨j, off⟩ := z
          obtain ⟨q, hq, rfl⟩ := lookup_id hreg
          obtain ⟨ev, k1, k2, -⟩ := hin q hq
          have k3 : L[q.id]? = some ev := by
            rw [hL, List.getElem?_append_left (List.getElem?_eq_some_iff.1 k1).1]; exact k1
          obtain ⟨ev', k4, k5⟩ := alike_get hLL k3
          rcases k5 with rfl | ⟨k5, -⟩
          · simp only [k3, k4]
          · exact absurd k2 k5
      simp only [hs, e1, Option.map_some, Option.some.injEq, Prod.mk.injEq] at hst
      simp only [hs, e2, Option.map_some, Option.some.injEq, Prod.mk.injEq] at hst'
      obtain ⟨rfl, rfl, rfl⟩ := hst
      obtain ⟨rfl, rfl, rfl⟩ := hst'
      refine ⟨rfl, ?_, hms, hA.2⟩
      rw [hloc, hA.2 s.pid s.tid hpid]
  simp only [if_neg h9] at hr
  by_cases hmt : e.type = 1 ∨ e.type = 10
  · have hm : isMmap e = true := by simpa [isMmap] using hmt
    simp only [if_pos hm, Option.some.injEq] at hr
    simp only [step, if_neg h64, if_neg h9, if_pos hmt, hR.kern] at hst
    simp only [step, if_neg h64, if_neg h9, if_pos hmt, hR'.kern, alike_any ha, alike_len ha] at hst'
    rw [Option.map_eq_some_iff] at hst hst'
    obtain ⟨a, hm1, hst⟩ := hst
    obtain ⟨b, hm2, hst'⟩ := hst'
    obtain ⟨q1, q2⟩ := mapMmap_agree hA.1 (hr ▸ hK) hf.kernel hm1 hm2
    simp only [Option.some.injEq, Prod.mk.injEq] at hst hst'
    obtain ⟨rfl, rfl, rfl⟩ := hst
    obtain ⟨rfl, rfl, rfl⟩ := hst'
    exact ⟨by rw [q1], rfl, q2, hA.2⟩
  have hm : ¬ isMmap e = true := by simpa [isMmap] using hmt
  simp only [if_neg hm] at hr
  by_cases h7 : e.type = 7
  · simp only [if_pos h7, Option.some.injEq] at hr
    have hpid : K (e.fork.getD {}).pid := hr ▸ hK
    have hppid := hf.fork e (by simp) h7 hpid
    simp only [step, if_neg h64, if_neg h9, if_neg hmt, if_pos h7] at hst hst'
    rw [Option.map_eq_some_iff] at hst hst'
    obtain ⟨a, hf1, hst⟩ := hst
    obtain ⟨b, hf2, hst'⟩ := hst'
    simp only [Option.some.injEq, Prod.mk.injEq] at hst hst'
    obtain ⟨rfl, rfl, rfl⟩ := hst
    obtain ⟨rfl, rfl, rfl⟩ := hst'
    refine ⟨rfl, rfl, ?_⟩
    have hcm : ∀ p t, K p → (if ((e.fork.getD {}).ppid, (e.fork.getD {}).ptid) ≠ ((e.fork.getD {}).pid, (e.fork.getD {}).tid) then
        match st'.comms ((e.fork.getD {}).ppid, (e.fork.getD {}).ptid) with
        | some c => upd st'.comms ((e.fork.getD {}).pid, (e.fork.getD {}).tid) (some c)
        | none => st'.comms
      else st'.comms) (p, t) = (if ((e.fork.getD {}).ppid, (e.fork.getD {}).ptid) ≠ ((e.fork.getD {}).pid, (e.fork.getD {}).tid) then
        match st.comms ((e.fork.getD {}).ppid, (e.fork.getD {}).ptid) with
        | some c => upd st.comms ((e.fork.getD {}).pid, (e.fork.getD {}).tid) (some c)
        | none => st.comms
      else st.comms) (p, t) := by
      intro p t hp
      rw [hA.2 _ _ hppid]
      split
      · split
        · simp only [upd]
          split
          · rfl
          · exact hA.2 p t hp
        · exact hA.2 p t hp
      · exact hA.2 p t hp
    unfold mapFork at hf1 hf2
    by_cases hpp : (e.fork.getD {}).ppid = (e.fork.getD {}).pid
    · simp only [if_pos hpp, Option.some.injEq] at hf1 hf2
      subst hf1 hf2
      exact ⟨hA.1, hcm⟩
    · simp only [if_neg hpp] at hf1 hf2
      rw [Option.map_eq_some_iff] at hf1 hf2
      obtain ⟨⟨m, ms⟩, hg, rfl⟩ := hf1
      obtain ⟨⟨m', ms'⟩, hg', rfl⟩ := hf2
      exact ⟨(mapperFor_agree hA.1 hpid hppid hf.kernel hg hg').2, hcm⟩
  simp only [if_neg h7] at hr
  by_cases h3 : e.type = 3
  · simp only [if_pos h3, Option.some.injEq] at hr
    have hpid : K (e.comm.getD {}).pid := hr ▸ hK
    have h4 : ¬ e.type = 4 := by omega
    simp only [step, if_neg h64, if_neg h9, if_neg hmt, if_neg h7, if_neg h4, if_pos h3] at hst hst'
    rw [Option.map_eq_some_iff] at hst hst'
    obtain ⟨⟨m, ms⟩, hg, hst⟩ := hst
    obtain ⟨⟨m', ms'⟩, hg', hst'⟩ := hst'
    simp only [Option.some.injEq, Prod.mk.injEq] at hst hst'
    obtain ⟨rfl, rfl, rfl⟩ := hst
    obtain ⟨rfl, rfl, rfl⟩ := hst'
    refine ⟨rfl, rfl, (mapperFor_agree hA.1 hpid hf.kernel hf.kernel hg hg').2, fun p t hp => ?_⟩
    simp only [upd]
    split
    · rfl
    · exact hA.2 p t hp
  simp only [if_neg h3] at hr
  cases hr

/-! ### All events -/

theorem loop_alone {K : Nat → Prop} {O : Opts} {S S' : Nat} {evs evs' : List Ev} (hS : Sensible O S evs)
    (hS' : Sensible O S' evs') (hf : Family K (processed evs)) (hLL : All₂ (Alike K) (processed evs) (processed evs')) :
    ∀ (l l' h h' : List Ev) (st st' : State) (starts starts' : Nat → Nat) (r r' : Bool × State × List (Ev × Parsed)),
    processed evs = h.reverse ++ l → processed evs' = h'.reverse ++ l' → All₂ (Alike K) h h' → All₂ (Alike K) l l' →
    Rel O S starts h st → Rel O S' starts' h' st' → Agree K st st' →
    loop O (processed evs) h.length st l = some r → loop O (processed evs') h'.length st' l' = some r' →
    ∀ (i : Nat) e, l[i]? = some e → Concerns K e → r'.2.2[i]? = r.2.2[i]? := by
  intro l
  induction l with
  | nil => intro l' h h' st st' s s' r r' _ _ _ _ _ _ _ _ _ i e hi; simp at hi
  | cons e t ih =>
    intro l' h h' st st' starts starts' r r' hL hL' ha hl hR hR' hA hlo hlo' i ei hi hc
    cases hl with
    | @cons _ e' _ t' hx ht =>
    have he : (processed evs)[h.length]? = some e := by
      rw [hL, List.getElem?_append_right (by simp)]; simp
    have he' : (processed evs')[h'.length]? = some e' := by
      rw [hL', List.getElem?_append_right (by simp)]; simp
    have hmem := List.mem_of_getElem? he
    have hmem' := List.mem_of_getElem? he'
    have conds : ∀ {S : Nat} {evs h t : List Ev} {e : Ev}, Sensible O S evs → processed evs = h.reverse ++ e :: t →
        isMmap e = true → (requestAt O h e).wf ∧ (requestAt O h e).size ≤ S ∧
          ((h.filter isMmap).length + 1) * (S + 6 * O.page) < 2 ^ 64 := by
      intro S evs h t e hS hL hm
      have he : (processed evs)[h.length]? = some e := by
        rw [hL, List.getElem?_append_right (by simp)]; simp
      have hbef : before evs h.length = h := by
        unfold before
        rw [hL, List.take_append_of_le_length (by simp), List.take_of_length_le (by simp), List.reverse_reverse]
      have hr := hS.ranges h.length e he hm
      rw [hbef] at hr
      refine ⟨hr.1, hr.2, Nat.lt_of_le_of_lt (Nat.mul_le_mul_right _ ?_) hS.room⟩
      unfold mmapCount
      rw [hL, List.filter_append, List.filter_reverse, List.length_append, List.length_reverse,
        List.filter_cons_of_pos hm, List.length_cons]
      omega
    simp only [loop] at hlo hlo'
    cases hs : step O (processed evs) h.length st e with
    | none => rw [hs] at hlo; cases hlo
    | some z =>
    cases hs' : step O (processed evs') h'.length st' e' with
    | none => rw [hs'] at hlo'; cases hlo'
    | some z' =>
    cases z with
    | none => exact (step_known hS.page hR hL (mem_known hmem) (conds hS hL) (hS.samples e hmem) hs).elim
    | some z =>
    cases z' with
    | none => exact (step_known hS.page hR' hL' (mem_known hmem') (conds hS' hL') (hS'.samples e' hmem') hs').elim
    | some z' =>
    obtain ⟨st1, x, y⟩ := z
    obtain ⟨st1', x', y'⟩ := z'
    simp only [hs, Option.map_eq_some_iff] at hlo
    simp only [hs', Option.map_eq_some_iff] at hlo'
    obtain ⟨r1, hlo, rfl⟩ := hlo
    obtain ⟨r1', hlo', rfl⟩ := hlo'
    obtain ⟨starts1, hR1⟩ := step_rel hS.page hR hL (mem_known hmem) (conds hS hL) (hS.samples e hmem) hs
    obtain ⟨starts1', hR1'⟩ := step_rel hS.page hR' hL' (mem_known hmem') (conds hS' hL') (hS'.samples e' hmem') hs'
    have hfe : Family K (e :: h) := ⟨hf.kernel, fun v hv => hf.fork v (by
      rw [hL]
      rcases List.mem_cons.1 hv with rfl | hv
      · simp
      · simp [hv])⟩
    have hboth : (Concerns K e → x' = x ∧ y' = y) ∧ Agree K st1 st1' := by
      by_cases hce : Concerns K e
      · rcases hx with rfl | ⟨hn, _⟩
        · obtain ⟨k1, k2, k3⟩ := step_same hS.page hR hR' ha hLL hfe hA hL hL' (hS.samples e' hmem) hce hs hs'
          exact ⟨fun _ => ⟨k1, k2⟩, k3⟩
        · exact absurd hce hn
      · have hce' : ¬ Concerns K e' := by
          rcases hx with rfl | ⟨_, h2, _⟩
          · exact hce
          · exact h2
        have f1 := step_frame hS.page hR hL (hS.samples e hmem) hce hs
        have f2 := step_frame hS.page hR' hL' (hS'.samples e' hmem') hce' hs'
        exact ⟨fun h => absurd h hce, fun p hp => by rw [f1.1 p hp, f2.1 p hp, hA.1 p hp],
          fun p t hp => by rw [f1.2 p t hp, f2.2 p t hp, hA.2 p t hp]⟩
    cases i with
    | zero =>
      simp only [List.getElem?_cons_zero, Option.some.injEq] at hi
      subst hi
      obtain ⟨k1, k2⟩ := hboth.1 hc
      simp only [List.getElem?_cons_zero, k1, k2]
    | succ i =>
      rw [List.getElem?_cons_succ] at hi
      simp only [List.getElem?_cons_succ]
      exact ih t' (e :: h) (e' :: h') st1 st1' starts1 starts1' r1 r1' (by rw [hL]; simp) (by rw [hL']; simp)
        (All₂.cons hx ha) ht hR1 hR1' hboth.2 hlo hlo' i ei hi hc

/-! ### C142 -/

/-- C142. Two recordings that may differ in everything about processes that are neither in `K` nor, as all in
`K` have theirs there, parents of those: what is made of the events about the processes in `K`, the mappings and
samples with their new addresses and what is reported about them, is the same. -/
theorem C142_alone (K : Nat → Prop) (O : Opts) (S S' : Nat) (evs evs' : List Ev) (R R' : Result)
    (hd : O.discard = false) (hS : Sensible O S evs) (hS' : Sensible O S' evs')
    (hk : ∀ e ∈ relevant evs, known e = true) (hk' : ∀ e ∈ relevant evs', known e = true)
    (hf : Family K (relevant evs)) (ha : All₂ (Alike K) (relevant evs) (relevant evs'))
    (h : parse O evs = some R) (h' : parse O evs' = some R') :
    ∀ (i : Nat) e, (relevant evs)[i]? = some e → Concerns K e → R'.parsed[i]? = R.parsed[i]? := by
  obtain ⟨st, h1, -, -⟩ := parse_keeps hd h
  obtain ⟨st', h2, -, -⟩ := parse_keeps hd h'
  have hR : ∀ S, Rel O S (fun _ => 0) [] {} := by
    intro S
    refine ⟨fun p => trivial, fun k => ?_, rfl, fun e he => (by cases he), fun j => rfl, rfl⟩
    simp [commAt, upd]
  rw [← all_known hk] at h1 hf ha ⊢
  rw [← all_known hk'] at h2 ha
  exact loop_alone hS hS' hf ha _ _ [] [] {} {} _ _ _ _ rfl rfl All₂.nil ha (hR S) (hR S')
    ⟨fun _ _ => rfl, fun _ _ _ => rfl⟩ h1 h2

/-! A concrete case: the first process of the recording in `Props.lean` and the kernel. The second process, its
child, maps another file elsewhere instead, under another command, and is sampled there. -/

def exFirst (p : Nat) : Prop := p = 1 ∨ p = kernelPid

def exOther : List Ev :=
  [exMm 1 0x10000 0x3000 0 "/a", exMm 1 0x20000 0x5000 0x1000 "/b", { type := 68 },
   { type := 3, comm := some { pid := 1, tid := 1, comm := ascii "one" } },
   { type := 3, comm := some { pid := 2, tid := 2, comm := ascii "two" } },
   exMm 2 0x13000 0x5000 0 "/d", exSm 1 0x20010, exMm 3 0x20000 0x1000 0 "/e", exSm 3 0x15000]

theorem exOther_ok : Sensible exO 0x5000 exOther := by
  refine ⟨⟨12, by omega, rfl⟩, ?_, by decide +kernel, by decide +kernel⟩
  have hlen : (processed exOther).length = 8 := by decide +kernel
  have h : ∀ i : Nat, i < 8 → ∀ e ∈ (processed exOther)[i]?, isMmap e = true →
      ((requestAt exO (before exOther i) e).real < 2 ^ 64 ∧ (requestAt exO (before exOther i) e).size < 2 ^ 64 ∧
        (requestAt exO (before exOther i) e).real + (requestAt exO (before exOther i) e).size ≠ 2 ^ 64) ∧
      (requestAt exO (before exOther i) e).size ≤ 0x5000 := by decide +kernel
  intro i e hi hm
  exact h i (by rw [← hlen]; exact (List.getElem?_eq_some_iff.1 hi).1) e hi hm

theorem exAlike : All₂ (Alike exFirst) (relevant exEvs) (relevant exOther) := by
  have hn : ∀ e e' p p', pidOf e = some p → pidOf e' = some p' → (p ≠ 1 ∧ p ≠ kernelPid) → (p' ≠ 1 ∧ p' ≠ kernelPid) →
      isKernelMmap e = false → isKernelMmap e' = false → Alike exFirst e e' := by
    intro e e' p p' h1 h2 h3 h4 h5 h6
    refine Or.inr ⟨?_, ?_, h5, h6⟩
    · rintro ⟨q, hq, hK⟩
      rw [h1] at hq; cases hq
      rcases hK with hK | hK
      · exact h3.1 hK
      · exact h3.2 hK
    · rintro ⟨q, hq, hK⟩
      rw [h2] at hq; cases hq
      rcases hK with hK | hK
      · exact h4.1 hK
      · exact h4.2 hK
  exact .cons (Or.inl rfl) (.cons (Or.inl rfl) (.cons (Or.inl rfl)
    (.cons (hn _ _ 2 2 (by decide +kernel) (by decide +kernel) (by decide) (by decide) (by decide +kernel) (by decide +kernel))
    (.cons (hn _ _ 2 2 (by decide +kernel) (by decide +kernel) (by decide) (by decide) (by decide +kernel) (by decide +kernel))
    (.cons (Or.inl rfl)
    (.cons (hn _ _ 2 3 (by decide +kernel) (by decide +kernel) (by decide) (by decide) (by decide +kernel) (by decide +kernel))
    (.cons (hn _ _ 2 3 (by decide +kernel) (by decide +kernel) (by decide) (by decide) (by decide +kernel) (by decide +kernel))
    .nil)))))))

theorem exFamily : Family exFirst (relevant exEvs) := by
  refine ⟨Or.inr rfl, ?_⟩
  have h : ∀ e ∈ relevant exEvs, e.type = 7 → (e.fork.getD {}).pid ≠ 1 ∧ (e.fork.getD {}).pid ≠ kernelPid := by decide +kernel
  intro e he h7 hK
  rcases hK with hK | hK
  · exact absurd hK (h e he h7).1
  · exact absurd hK (h e he h7).2

example (R R' : Result) (h : parse exO exEvs = some R) (h' : parse exO exOther = some R') :
    ∀ (i : Nat) e, (relevant exEvs)[i]? = some e → Concerns exFirst e → R'.parsed[i]? = R.parsed[i]? :=
  C142_alone exFirst exO 0x5000 0x5000 exEvs exOther R R' rfl (exOk exO rfl) exOther_ok (by decide +kernel) (by decide +kernel)
    exFamily exAlike h h'

/-- Both are read, the sample of the first process is the sixth event, it is in a file, and the others are not the same. -/
example : (parse exO exEvs).isSome = true ∧ (parse exO exOther).isSome = true ∧
    ((parse exO exOther).bind (fun R => (R.parsed[5]?).map (·.2.here.name))) = some (some (ascii "/b")) ∧
    (parse exO exOther).map (fun R => R.parsed[7]?) ≠ (parse exO exEvs).map (fun R => R.parsed[7]?) := by decide +kernel

/-- Parents do have to be the same: what the child has in memory is told by what its parent had. -/
theorem C142_parent_told : ∃ evs evs' : List Ev, All₂ (Alike (fun p => p = 2 ∨ p = kernelPid)) (relevant evs) (relevant evs') ∧
    (parse exO evs).map (fun R => R.parsed[2]?) ≠ (parse exO evs').map (fun R => R.parsed[2]?) ∧
    (parse exO evs).isSome = true ∧ (parse exO evs').isSome = true ∧ (relevant evs)[2]? = some (exSm 2 0x10010) := by
  refine ⟨[exMm 1 0x10000 0x3000 0 "/a", { type := 7, fork := some { pid := 2, tid := 2, ppid := 1, ptid := 1 } }, exSm 2 0x10010],
    [exMm 1 0x10000 0x3000 0 "/b", { type := 7, fork := some { pid := 2, tid := 2, ppid := 1, ptid := 1 } }, exSm 2 0x10010],
    ?_, by decide +kernel, by decide +kernel, by decide +kernel, by decide +kernel⟩
  refine .cons (Or.inr ⟨?_, ?_, by decide +kernel, by decide +kernel⟩) (.cons (Or.inl rfl) (.cons (Or.inl rfl) .nil))
  · rintro ⟨q, hq, hK⟩
    have h1 : q = 1 := by
      have : pidOf (exMm 1 0x10000 0x3000 0 "/a") = some 1 := by decide +kernel
      rw [this] at hq; exact (Option.some.inj hq).symm
    subst h1
    revert hK; decide
  · rintro ⟨q, hq, hK⟩
    have h1 : q = 1 := by
      have : pidOf (exMm 1 0x10000 0x3000 0 "/b") = some 1 := by decide +kernel
      rw [this] at hq; exact (Option.some.inj hq).symm
    subst h1
    revert hK; decide

/-- Mappings without samples have to be kept: a child's samples decide whether a mapping its parent made is dropped. -/
theorem C142_discard_told : ∃ evs evs' : List Ev, All₂ (Alike exFirst) (relevant evs) (relevant evs') ∧
    Family exFirst (relevant evs) ∧ (parse { exO with discard := true } evs).map (fun R => R.parsed[0]?.map (·.1.type)) = some (some 1) ∧
    (parse { exO with discard := true } evs').map (fun R => R.parsed[0]?.map (·.1.type)) = some (some 7) := by
  refine ⟨[exMm 1 0x10000 0x3000 0 "/a", { type := 7, fork := some { pid := 2, tid := 2, ppid := 1, ptid := 1 } },
      { type := 9, sample := some { ip := 0x10010, pid := 2, tid := 2 } }],
    [exMm 1 0x10000 0x3000 0 "/a", { type := 7, fork := some { pid := 2, tid := 2, ppid := 1, ptid := 1 } },
      { type := 9, sample := some { ip := 0x50010, pid := 2, tid := 2 } }],
    ?_, ⟨Or.inr rfl, ?_⟩, by decide +kernel, by decide +kernel⟩
  · refine .cons (Or.inl rfl) (.cons (Or.inl rfl) (.cons (Or.inr ⟨?_, ?_, by decide +kernel, by decide +kernel⟩) .nil))
    · rintro ⟨q, hq, hK⟩
      have h1 : q = 2 := (Option.some.inj (hq : some 2 = some q)).symm
      subst h1
      revert hK; show ¬ (2 = 1 ∨ 2 = kernelPid); decide
    · rintro ⟨q, hq, hK⟩
      have h1 : q = 2 := (Option.some.inj (hq : some 2 = some q)).symm
      subst h1
      revert hK; show ¬ (2 = 1 ∨ 2 = kernelPid); decide
  · intro e he h7 hK
    have h : ∀ e ∈ relevant [exMm 1 0x10000 0x3000 0 "/a", { type := 7, fork := some { pid := 2, tid := 2, ppid := 1, ptid := 1 } },
      { type := 9, sample := some { ip := 0x10010, pid := 2, tid := 2 } }],
      e.type = 7 → (e.fork.getD {}).pid ≠ 1 ∧ (e.fork.getD {}).pid ≠ kernelPid := by decide +kernel
    rcases hK with hK | hK
    · exact absurd hK (h e he h7).1
    · exact absurd hK (h e he h7).2

end Verif.Parser
