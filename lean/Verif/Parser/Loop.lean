import Verif.Parser.Sample

/-! # Lemmas about the parser: the loop over the events -/

namespace Verif.Parser
open Verif.AddressMapper (Req specRun specLookup specStep Piece)
open Verif.HugePages (MMap)

/-! ## Identifiers -/

theorem step_ids (al : Nat) (ps : List Piece) (q : Req) {p : Piece} (hp : p ∈ (specStep al ps q).2) :
    p.id = q.id ∨ ∃ p' ∈ ps, p'.id = p.id := by
  unfold specStep at hp
  split at hp
  · exact Or.inr ⟨p, hp, rfl⟩
  · split at hp
    · exact Or.inr ⟨p, (List.mem_filter.1 hp).1, rfl⟩
    · rcases List.mem_append.1 hp with hp | hp
      · obtain ⟨p', hp', hu⟩ := List.mem_flatMap.1 hp
        refine Or.inr ⟨p', hp', ?_⟩
        unfold Piece.under at hu
        split at hu
        · rw [List.mem_singleton.1 hu]
        · split at hu
          · rcases List.mem_append.1 hu with hu | hu
            · split at hu
              · rw [List.mem_singleton.1 hu]
              · cases hu
            · split at hu
              · rw [List.mem_singleton.1 hu]
              · cases hu
          · cases hu
      · rw [List.mem_singleton.1 hp]
        exact Or.inl rfl

theorem run_ids (al : Nat) : ∀ (qs : List Req) (ps : List Piece) {p : Piece}, p ∈ (specRun al ps qs).2 →
    (∃ q ∈ qs, q.id = p.id) ∨ ∃ p' ∈ ps, p'.id = p.id
  | [], ps, p, hp => Or.inr ⟨p, hp, rfl⟩
  | q :: qs, ps, p, hp => by
    rcases run_ids al qs (specStep al ps q).2 hp with ⟨r, hr, he⟩ | ⟨p', hp', he⟩
    · exact Or.inl ⟨r, by simp [hr], he⟩
    · rcases step_ids al ps q hp' with h | ⟨p2, h2, h3⟩
      · exact Or.inl ⟨q, by simp, by rw [← he, h]⟩
      · exact Or.inr ⟨p2, h2, by rw [h3, he]⟩

theorem lookup_id {al : Nat} {qs : List Req} {a j off : Nat}
    (h : specLookup (specRun al [] qs).2 a = some (j, off)) : ∃ q ∈ qs, q.id = j := by
  unfold specLookup at h
  rw [Option.map_eq_some_iff] at h
  obtain ⟨p, hp, hv⟩ := h
  rcases run_ids al qs [] (List.mem_of_find?_eq_some hp) with ⟨q, hq, he⟩ | ⟨_, h, _⟩
  · refine ⟨q, hq, ?_⟩
    rw [he]
    exact congrArg Prod.fst hv
  · cases h

/-- Something that holds of every history of a table. -/
theorem inherit_all {P : List Req → Prop} {T : Nat → Option (List Req)} (h0 : P [])
    (h : ∀ p qs, T p = some qs → P qs) (p pp : Nat) : ∀ x qs, inherit T p pp x = some qs → P qs := by
  intro x qs hx
  unfold inherit at hx
  split at hx
  · simp only [Option.some.injEq] at hx
    subst hx
    cases h1 : T p with
    | some l => exact h _ _ h1
    | none =>
      cases h2 : T pp with
      | some l => exact h _ _ h2
      | none =>
        cases h3 : T kernelPid with
        | some l => exact h _ _ h3
        | none => exact h0
  · exact h _ _ hx

theorem hist_cases {O : Opts} {e : Ev} {h : List Ev} {p : Nat} {qs : List Req} (hq : hist O (e :: h) p = some qs) :
    hist O h p = some qs ∨ (∃ a b, inherit (hist O h) a b p = some qs) ∨
    (isMmap e = true ∧ ∃ l, inherit (hist O h) ((e.mmap.getD {}).pid.getD 0) kernelPid ((e.mmap.getD {}).pid.getD 0) = some l ∧
      qs = l ++ [requestAt O h e]) := by
  simp only [hist] at hq
  by_cases h9 : e.type = 9
  · rw [if_pos h9] at hq
    cases hs : e.sample with
    | none => rw [hs] at hq; exact Or.inl hq
    | some s => rw [hs] at hq; exact Or.inr (Or.inl ⟨_, _, hq⟩)
  · rw [if_neg h9] at hq
    by_cases hm : isMmap e = true
    · rw [if_pos hm] at hq
      split at hq
      · rw [Option.map_eq_some_iff] at hq
        obtain ⟨l, hl, rfl⟩ := hq
        exact Or.inr (Or.inr ⟨hm, l, hl, rfl⟩)
      · exact Or.inl hq
    · rw [if_neg hm] at hq
      by_cases h7 : e.type = 7
      · rw [if_pos h7] at hq
        by_cases hp : (e.fork.getD {}).ppid = (e.fork.getD {}).pid
        · rw [if_pos hp] at hq; exact Or.inl hq
        · rw [if_neg hp] at hq; exact Or.inr (Or.inl ⟨_, _, hq⟩)
      · rw [if_neg h7] at hq
        by_cases h3 : e.type = 3
        · rw [if_pos h3] at hq; exact Or.inr (Or.inl ⟨_, _, hq⟩)
        · rw [if_neg h3] at hq; exact Or.inl hq

theorem hist_len (O : Opts) : ∀ (h : List Ev) (p : Nat) (qs : List Req), hist O h p = some qs →
    qs.length ≤ (h.filter isMmap).length
  | [], p, qs, hq => by cases hq
  | e :: h, p, qs, hq => by
    have ih := hist_len O h
    have hle : (h.filter isMmap).length ≤ ((e :: h).filter isMmap).length := by
      rw [List.filter_cons]; split <;> simp
    have inh := fun p pp => inherit_all (P := fun l => l.length ≤ (h.filter isMmap).length) (by simp) ih p pp
    rcases hist_cases hq with hq | ⟨a, b, hq⟩ | ⟨hm, l, hl, rfl⟩
    · exact Nat.le_trans (ih _ _ hq) hle
    · exact Nat.le_trans (inh _ _ _ _ hq) hle
    · have := inh _ _ _ _ hl
      rw [List.filter_cons_of_pos hm]
      simp only [List.length_append, List.length_cons, List.length_nil]
      omega

/-- Identifiers are indices of earlier mapping events. -/
theorem hist_ids (O : Opts) : ∀ (h : List Ev) (p : Nat) (qs : List Req), hist O h p = some qs →
    ∀ q ∈ qs, q.id < h.length ∧ ∃ e, h.reverse[q.id]? = some e ∧ isMmap e = true
  | [], p, qs, hq => by cases hq
  | e :: h, p, qs, hq => by
    have ih := hist_ids O h
    let P : List Req → Prop := fun l => ∀ q ∈ l, q.id < (e :: h).length ∧ ∃ e', (e :: h).reverse[q.id]? = some e' ∧ isMmap e' = true
    have base : ∀ p qs, hist O h p = some qs → P qs := by
      intro p qs hq q hm
      obtain ⟨h1, e', h2, h3⟩ := ih p qs hq q hm
      refine ⟨by rw [List.length_cons]; omega, e', ?_, h3⟩
      rw [List.reverse_cons, List.getElem?_append_left (by rw [List.length_reverse]; exact h1)]
      exact h2
    have inh := fun p pp => inherit_all (P := P) (by intro q hq; cases hq) base p pp
    show P qs
    rcases hist_cases hq with hq | ⟨a, b, hq⟩ | ⟨hm, l, hl, rfl⟩
    · exact base _ _ hq
    · exact inh _ _ _ _ hq
    · have h1 := inh _ _ _ _ hl
      intro q hq
      rcases List.mem_append.1 hq with hq | hq
      · exact h1 q hq
      · rw [List.mem_singleton.1 hq]
        show h.length < (e :: h).length ∧ ∃ e', (e :: h).reverse[h.length]? = some e' ∧ _
        refine ⟨by simp, e, ?_, hm⟩
        rw [List.reverse_cons, List.getElem?_append_right (by simp)]
        simp

/-! ## Counting lookups -/

theorem foldl_hit (reg : Nat → Option (Nat × Nat)) (j : Nat) : ∀ (l : List Nat) (H : Nat → Option Nat),
    l.foldl (hit reg) H j = (H j).map (· + (l.filter (fun a => (reg a).map (·.1) == some j)).length)
  | [], H => by simp
  | a :: l, H => by
    rw [List.foldl_cons, foldl_hit reg j l]
    unfold hit
    cases hr : reg a with
    | none =>
      simp [hr]
    | some v =>
      obtain ⟨k, off⟩ := v
      by_cases hk : j = k
      · subst hk
        simp only [upd, if_true, Option.map_map]
        rw [List.filter_cons_of_pos (by simp [hr])]
        cases H j with
        | none => rfl
        | some n => simp; omega
      · simp only [upd, if_neg hk]
        rw [List.filter_cons_of_neg (by simp [hr, Ne.symm hk])]

/-! ## One event -/

/-- The tables after the events `h`. -/
structure Rel (O : Opts) (S : Nat) (starts : Nat → Nat) (h : List Ev) (st : State) : Prop where
  maps : MRel O S starts st.mappers (hist O h)
  comms : ∀ k, st.comms k = commAt h k
  kern : st.firstKernel = !h.any isKernelMmap
  files : ∀ e ∈ h, isMmap e = true → (e.mmap.getD {}).filename ∈ st.files
  hits : ∀ j, st.hits j = usesAt O h j
  stats : st.stats = statsAt O h

/-- What is reported about a sample after `h`. -/
def reportH (O : Opts) (evs : List Ev) (h : List Ev) (s : Sample) : Parsed :=
  { command := commAt h (s.pid, s.tid)
    here := locR evs (region O h s.pid) s.ip
    data := dataLoc (locR evs (region O h s.pid)) s.addr
    callchain := (s.callchain.filter (fun a => isCode a && decide (a ≠ s.ip))).map (locR evs (region O h s.pid))
    branches := (usable s.branches).map (pbranch (locR evs (region O h s.pid))) }

/-- What becomes of an event after `h`. -/
structure OutOk (O : Opts) (S : Nat) (evs : List Ev) (starts : Nat → Nat) (h : List Ev) (e e' : Ev) (p : Parsed) : Prop where
  sample : e.type = 9 → ∀ s, e.sample = some s → p = reportH O evs h s ∧ ∃ τ,
    e' = { e with sample := some (replace τ s) } ∧ Translates O (region O h s.pid) τ ∧
    (O.remap = true → ∀ A q B, rangesOf O h s.pid = A ++ q :: B → (∀ r ∈ B, Apart r q) → ∀ a, a < 2 ^ 64 →
      q.has a = true → τ a = starts q.id + (a - q.real)) ∧
    (O.remap = true → ∀ a, a < 2 ^ 64 → region O h s.pid a ≠ none → τ a < (h.filter isMmap).length * (S + 6 * O.page))
  mmap : isMmap e = true → p = {} ∧ e' = { e with mmap := some (if O.remap then
    { e.mmap.getD {} with start := starts h.length, len := (requestAt O h e).size, pgoff := (requestAt O h e).off }
    else e.mmap.getD {}) } ∧ (O.remap = true → starts h.length % O.page = (requestAt O h e).real % O.page ∧
      starts h.length + (requestAt O h e).size ≤ ((h.filter isMmap).length + 1) * (S + 6 * O.page))
  other : isMmap e = false → (e.type = 9 → e.sample = none) → e' = e ∧ p = {}

theorem Translates.of {O : Opts} {S : Nat} {starts : Nat → Nat} {m : Mapper} {qs : List Req}
    (hp : ∃ k, k ≤ 60 ∧ O.page = 2 ^ k) (h : MOk O S starts m qs) :
    Translates O (specLookup (specRun O.page [] qs).2) (tr O m) := by
  constructor
  · intro hr a; simp [tr, hr]
  · intro hr a ha hn
    rcases look h (page_ne hp) ha with ⟨x, _, _, _, off, _, h4, _⟩ | ⟨h1, _⟩
    · rw [h4] at hn; cases hn
    · simp [tr, hr, h1, mark_eq]
  · intro hr a b ha hb hna hnb hab
    rcases look h (page_ne hp) ha with ⟨x, hx, x1, x2, off, x3, _⟩ | ⟨_, h2⟩
    · rcases look h (page_ne hp) hb with ⟨y, hy, y1, y2, off', y3, _⟩ | ⟨_, h2⟩
      · simp only [tr, hr, if_true, x3, y3] at hab
        by_cases hxy : x = y
        · subst hxy; omega
        · rcases AddressMapper.pairwise_mem h.inv.chain.sorted hx hy hxy with h | h <;> omega
      · exact absurd h2 hnb
    · exact absurd h2 hna
  · intro hr a ha
    rcases look h (page_ne hp) ha with ⟨x, _, _, _, off, x3, _, x5, _⟩ | ⟨h1, _⟩
    · simp only [tr, hr, if_true, x3]; exact x5
    · obtain ⟨k, hk, hpk⟩ := hp
      simp only [tr, hr, if_true, h1]
      rw [hpk, mark_page hk]

theorem rangesOf_eq {O : Opts} {h : List Ev} {p : Nat} {qs : List Req}
    (hq : inherit (hist O h) p kernelPid p = some qs) : rangesOf O h p = qs := by
  simp [rangesOf, hq]

theorem region_eq {O : Opts} {h : List Ev} {p : Nat} {qs : List Req}
    (hq : inherit (hist O h) p kernelPid p = some qs) :
    region O h p = specLookup (specRun O.page [] qs).2 := by
  funext a
  simp [region, rangesOf_eq hq]

theorem alignOK {O : Opts} (hp : ∃ k, k ≤ 60 ∧ O.page = 2 ^ k) : AddressMapper.AlignOK O.page := by
  obtain ⟨k, hk, hpk⟩ := hp
  exact Or.inr ⟨k, by omega, hpk⟩

theorem files_of {O : Opts} {S : Nat} {starts : Nat → Nat} {h : List Ev} {st : State} {evs rest : List Ev}
    (hR : Rel O S starts h st) (hevs : evs = h.reverse ++ rest) {p pp : Nat} {qs : List Req}
    (hq : inherit (hist O h) p pp p = some qs) :
    Files evs (specLookup (specRun O.page [] qs).2) st.files := by
  intro a j off hl
  obtain ⟨q, hq', rfl⟩ := lookup_id hl
  have := inherit_all (P := fun l => ∀ q ∈ l, q.id < h.length ∧ ∃ e, h.reverse[q.id]? = some e ∧ isMmap e = true)
    (by intro q hq; cases hq) (hist_ids O h) p pp p qs hq q hq'
  obtain ⟨h1, e, h2, h3⟩ := this
  refine ⟨e, ?_, hR.files e ?_ h3⟩
  · rw [hevs, List.getElem?_append_left (by rw [List.length_reverse]; exact h1)]
    exact h2
  · exact List.mem_reverse.1 (List.mem_of_getElem? h2)

/-- A sample. -/
theorem step_sample {O : Opts} {S : Nat} {starts : Nat → Nat} {h : List Ev} {st : State} {evs rest : List Ev} {e : Ev}
    {s : Sample} (hp : ∃ k, k ≤ 60 ∧ O.page = 2 ^ k) (hR : Rel O S starts h st) (hevs : evs = h.reverse ++ rest)
    (ht : e.type = 9) (hs : e.sample = some s) (hl : ∀ a ∈ lookups s, a < 2 ^ 64) :
    ∃ st' e' p, step O evs h.length st e = some (some (st', e', p)) ∧ Rel O S starts (e :: h) st' ∧
      OutOk O S evs starts h e e' p := by
  obtain ⟨m, ms, qs, h1, h2, h3, h4⟩ := mapSample_spec (S := S) (starts := starts) (T := hist O h) (s := s) (evs := evs)
    (st := { st with stats := { st.stats with samples := st.stats.samples + 1 } }) hp hR.maps hl
    (fun qs hq => files_of hR hevs hq)
  have hreg := region_eq h1
  have hnm : isMmap e = false := by simp [isMmap, ht]
  rw [← hreg] at h4
  refine ⟨_, { e with sample := some (replace (tr O m) s) }, _, by simp only [step, ht, hs, h4]; rfl, ?_, ?_⟩
  · constructor
    · simp only [hist, ht, if_true, hs]; exact h3
    · intro k
      simp only [commAt, ht]
      exact hR.comms k
    · simp only [List.any_cons, isKernelMmap, hnm, Bool.false_and, Bool.false_or]
      exact hR.kern
    · intro x hx hm
      rcases List.mem_cons.1 hx with rfl | hx
      · rw [hnm] at hm; cases hm
      · exact hR.files x hx hm
    · intro j
      simp only [usesAt, ht, if_true, hs]
      rw [foldl_hit]
      rw [← hR.hits j]
    · simp only [statsAt, ht, if_true, hs]
      rw [← hR.stats]
  · constructor
    · intro _ s' hs'
      rw [hs] at hs'
      simp only [Option.some.injEq] at hs'
      subst hs'
      refine ⟨?_, tr O m, rfl, ?_, ?_, ?_⟩
      · simp only [reportH, hR.comms]
      · rw [hreg]; exact Translates.of hp h2
      · intro hr A q B hq hB a ha hqa
        rw [rangesOf_eq h1] at hq
        obtain ⟨x, hx, x1, x2, x3, x4⟩ := h2.placed hr A q B hq hB
        simp only [Req.has, decide_eq_true_eq] at hqa
        rcases look h2 (page_ne hp) ha with ⟨y, hy, y1, y2, off, y3, _⟩ | ⟨hn, _⟩
        · have : x = y := by
            by_cases hxy : x = y
            · exact hxy
            · have := h2.inv.disj_mem hx hy hxy
              unfold AddressMapper.RealDisj at this
              omega
          subst this
          simp only [tr, hr, if_true, y3]
          omega
        · exfalso
          rcases AddressMapper.get_spec h2.inv a ha with ⟨_, _, _, _, z, _⟩ | ⟨z, _⟩
          · rw [hn] at z; simp at z
          · exact z x hx ⟨by omega, by omega⟩
      · intro hr a ha hn
        rw [hreg] at hn
        rcases look h2 (page_ne hp) ha with ⟨y, hy, y1, y2, off, y3, _⟩ | ⟨_, hn'⟩
        · simp only [tr, hr, if_true, y3]
          have := h2.below y hy
          have hlen := inherit_all (P := fun l => l.length ≤ (h.filter isMmap).length) (by simp) (hist_len O h) _ _ _ _ h1
          have := Nat.mul_le_mul_right (S + 6 * O.page) hlen
          omega
        · exact absurd hn' hn
    · intro hm; rw [hnm] at hm; cases hm
    · intro _ hx; rw [hx ht] at hs; cases hs

/-- A mapping event. -/
theorem step_mmap {O : Opts} {S : Nat} {starts : Nat → Nat} {h : List Ev} {st : State} {evs : List Ev} {e : Ev}
    (hp : ∃ k, k ≤ 60 ∧ O.page = 2 ^ k) (hR : Rel O S starts h st) (hm : isMmap e = true)
    (hw : (requestAt O h e).wf) (hS : (requestAt O h e).size ≤ S)
    (hroom : ((h.filter isMmap).length + 1) * (S + 6 * O.page) < 2 ^ 64) :
    (accepted O h e = false ∧ step O evs h.length st e = none) ∨
    (accepted O h e = true ∧ ∃ starts' st' e' p, step O evs h.length st e = some (some (st', e', p)) ∧
      (∀ j, j < h.length → starts' j = starts j) ∧ Rel O S starts' (e :: h) st' ∧
      OutOk O S evs starts' h e e' p) := by
  have htype : e.type = 1 ∨ e.type = 10 := by simpa [isMmap] using hm
  have h64 : ¬ e.type ≥ 64 := by omega
  have h9 : ¬ e.type = 9 := by omega
  obtain ⟨m, ms, qs, g1, g2, g3, g4, g5, g6⟩ := mapperFor_rel (alignOK hp) hR.maps ((e.mmap.getD {}).pid.getD 0) kernelPid
  have hlen := inherit_all (P := fun l => l.length ≤ (h.filter isMmap).length) (by simp) (hist_len O h) _ _ _ _ g3
  have hids := inherit_all (P := fun l => ∀ q ∈ l, q.id < h.length ∧ ∃ e, h.reverse[q.id]? = some e ∧ isMmap e = true)
    (by intro q hq; cases hq) (hist_ids O h) _ _ _ qs g3
  have hroom' : (qs.length + 1) * (S + 6 * O.page) < 2 ^ 64 :=
    Nat.lt_of_le_of_lt (Nat.mul_le_mul_right _ (by omega)) hroom
  have hreq : request O h.length (st.firstKernel && decide (e.misc % 8 = 1)) (e.mmap.getD {}) = requestAt O h e := by
    unfold requestAt
    rw [hR.kern]
    simp only [isKernelMmap, hm, Bool.true_and]
    rw [Bool.and_comm]
  obtain ⟨b, s', k1, k2, k3⟩ := map_request g4 (requestAt O h e) hw hS hroom'
  have hacc : accepted O h e = b := by
    rw [k2]
    unfold accepted
    rw [rangesOf_eq g3]
  cases b with
  | false =>
    refine Or.inl ⟨hacc, ?_⟩
    simp only [step, if_neg h64, if_neg h9, if_pos htype, mapMmap, g1, hreq, k1]
    rfl
  | true =>
    refine Or.inr ⟨hacc, ?_⟩
    obtain ⟨x, x1, x2, x3, x4, x5, x6, x7, x8, x9⟩ := k3 rfl
    let starts' : Nat → Nat := fun j => if j = h.length then x.r.mapped else starts j
    have hs1 : ∀ j, j < h.length → starts' j = starts j := fun j hj => by
      show (if j = h.length then _ else _) = _
      rw [if_neg (by omega)]
    have hs2 : starts' h.length = x.r.mapped := by
      show (if h.length = h.length then _ else _) = _
      rw [if_pos rfl]
    have hok := x9 starts' hs2 (fun r hr => hs1 _ (hids r hr).1)
    have hpg := x8 (page_ne hp)
    have hmm : mapMmap O st.mappers h.length (st.firstKernel && decide (e.misc % 8 = 1)) (e.mmap.getD {}) =
        some (upd ms ((e.mmap.getD {}).pid.getD 0) (some s'), if O.remap then
          { e.mmap.getD {} with start := starts' h.length, len := (requestAt O h e).size, pgoff := (requestAt O h e).off }
          else e.mmap.getD {}) := by
      simp only [mapMmap, g1, hreq, k1, x7]
      cases O.remap with
      | false => rfl
      | true =>
        simp only [if_true, hs2]
        rw [if_neg (by simp [hpg])]
    refine ⟨starts', _, _, _, by simp only [step, if_neg h64, if_neg h9, if_pos htype, hmm]; rfl, hs1, ?_, ?_⟩
    · constructor
      · have hrd : MRel O S starts' ms (inherit (hist O h) ((e.mmap.getD {}).pid.getD 0) kernelPid) := by
          refine g5.reads ?_
          intro p l hl q hq
          exact (hs1 _ (inherit_all (P := fun l => ∀ q ∈ l, q.id < h.length ∧ ∃ e, h.reverse[q.id]? = some e ∧ isMmap e = true)
            (by intro q hq; cases hq) (hist_ids O h) _ _ _ l hl q hq).1).symm
        refine hrd.put hok ?_ ?_
        · simp only [hist, if_neg h9, if_pos hm, if_true, g3, Option.map_some]
        · intro y hy
          simp only [hist, if_neg h9, if_pos hm, if_neg hy, inherit]
      · intro k
        have h3 : ¬ e.type = 3 := by omega
        have h7 : ¬ e.type = 7 := by omega
        simp only [commAt, if_neg h3, if_neg h7]
        exact hR.comms k
      · simp only [hR.kern, List.any_cons, isKernelMmap, hm, Bool.true_and]
        cases h.any isKernelMmap <;> cases decide (e.misc % 8 = 1) <;> simp_all
      · intro y hy hym
        show _ ∈ (if _ then _ else _)
        rcases List.mem_cons.1 hy with rfl | hy
        · split
          · assumption
          · simp
        · have := hR.files y hy hym
          split
          · exact this
          · exact List.mem_cons_of_mem _ this
      · intro j
        simp only [usesAt, if_neg h9, hm, true_and, upd, hR.hits j]
      · simp only [statsAt, if_neg h9, if_pos hm, hR.stats]
    · constructor
      · intro h; exact absurd h h9
      · intro _
        refine ⟨rfl, rfl, ?_⟩
        intro _
        rw [hs2]
        refine ⟨hpg, ?_⟩
        have hbel := hok.below x x1
        rw [List.length_append, List.length_singleton] at hbel
        rw [x3] at *
        exact Nat.le_trans hbel (Nat.mul_le_mul_right (S + 6 * O.page) (Nat.succ_le_succ hlen))
      · intro h; rw [hm] at h; cases h

/-- Other events. -/
theorem step_other {O : Opts} {S : Nat} {starts : Nat → Nat} {h : List Ev} {st : State} {evs : List Ev} {e : Ev}
    (hp : ∃ k, k ≤ 60 ∧ O.page = 2 ^ k) (hR : Rel O S starts h st) (hk : known e = true) (hm : isMmap e = false)
    (hs : e.type = 9 → e.sample = none) :
    ∃ st', step O evs h.length st e = some (some (st', e, {})) ∧ Rel O S starts (e :: h) st' := by
  have hk1 : isKernelMmap e = false := by simp [isKernelMmap, hm]
  have hfiles : ∀ x ∈ e :: h, isMmap x = true → (x.mmap.getD {}).filename ∈ st.files := by
    intro x hx hxm
    rcases List.mem_cons.1 hx with rfl | hx
    · rw [hm] at hxm; cases hxm
    · exact hR.files x hx hxm
  have hkern : st.firstKernel = !(e :: h).any isKernelMmap := by
    simp only [List.any_cons, hk1, Bool.false_or]; exact hR.kern
  have hmt : ¬ (e.type = 1 ∨ e.type = 10) := by simpa [isMmap] using hm
  have hmf : ¬ isMmap e = true := by simp [hm]
  have huse : ∀ j, st.hits j = usesAt O (e :: h) j := by
    intro j
    simp only [usesAt]
    by_cases h9 : e.type = 9
    · simp only [if_pos h9, hs h9]; exact hR.hits j
    · rw [if_neg h9, if_neg (by simp [hm])]; exact hR.hits j
  by_cases h9 : e.type = 9
  · refine ⟨_, by simp only [step, h9, hs h9]; rfl, ?_⟩
    refine ⟨?_, ?_, hkern, hfiles, huse, ?_⟩
    · simp only [hist, if_pos h9, hs h9]; exact hR.maps
    · intro k; simp only [commAt, h9]; exact hR.comms k
    · simp only [statsAt, if_pos h9, hs h9, hR.stats]
  by_cases h64 : e.type ≥ 64
  · have h7 : ¬ e.type = 7 := by omega
    have h3 : ¬ e.type = 3 := by omega
    have h4 : ¬ e.type = 4 := by omega
    have h17 : ¬ e.type = 17 := by omega
    refine ⟨st, by simp only [step, if_pos h64], ?_, ?_, hkern, hfiles, huse, ?_⟩
    · simp only [hist, if_neg h9, if_neg hmf, if_neg h7, if_neg h3]; exact hR.maps
    · intro k; simp only [commAt, if_neg h7, if_neg h3]; exact hR.comms k
    · simp only [statsAt, if_neg h9, if_neg hmf, if_neg h7, if_neg h3, if_neg h4, if_neg h17]; exact hR.stats
  by_cases h7 : e.type = 7
  · have h3 : ¬ e.type = 3 := by omega
    have hcomm : ∀ k, (if ((e.fork.getD {}).ppid, (e.fork.getD {}).ptid) ≠ ((e.fork.getD {}).pid, (e.fork.getD {}).tid) then
        match st.comms ((e.fork.getD {}).ppid, (e.fork.getD {}).ptid) with
        | some c => upd st.comms ((e.fork.getD {}).pid, (e.fork.getD {}).tid) (some c)
        | none => st.comms
      else st.comms) k = commAt (e :: h) k := by
      intro k
      simp only [commAt, if_neg h3, if_pos h7]
      rw [← hR.comms, ← hR.comms]
      by_cases hne : ((e.fork.getD {}).ppid, (e.fork.getD {}).ptid) ≠ ((e.fork.getD {}).pid, (e.fork.getD {}).tid)
      · rw [if_pos hne]
        cases hc : st.comms ((e.fork.getD {}).ppid, (e.fork.getD {}).ptid) with
        | none => split <;> rfl
        | some c => rfl
      · rw [if_neg hne]
        have hne' : ((e.fork.getD {}).ppid, (e.fork.getD {}).ptid) = ((e.fork.getD {}).pid, (e.fork.getD {}).tid) :=
          Decidable.not_not.1 hne
        rw [hne']
        split
        · rename_i hk; rw [hk]; cases st.comms ((e.fork.getD {}).pid, (e.fork.getD {}).tid) <;> rfl
        · rfl
    by_cases hpp : (e.fork.getD {}).ppid = (e.fork.getD {}).pid
    · refine ⟨_, by simp only [step, if_neg h64, if_neg h9, if_neg hmt, if_pos h7, mapFork, if_pos hpp]; rfl, ?_⟩
      refine ⟨?_, hcomm, hkern, hfiles, huse, ?_⟩
      · simp only [hist, if_neg h9, if_neg hmf, if_pos h7, if_pos hpp]; exact hR.maps
      · simp only [statsAt, if_neg h9, if_neg hmf, if_pos h7, hR.stats]
    · obtain ⟨m, ms, qs, g1, _, _, _, g5, _⟩ := mapperFor_rel (alignOK hp) hR.maps (e.fork.getD {}).pid (e.fork.getD {}).ppid
      refine ⟨_, by simp only [step, if_neg h64, if_neg h9, if_neg hmt, if_pos h7, mapFork, if_neg hpp, g1]; rfl, ?_⟩
      refine ⟨?_, hcomm, hkern, hfiles, huse, ?_⟩
      · simp only [hist, if_neg h9, if_neg hmf, if_pos h7, if_neg hpp]; exact g5
      · simp only [statsAt, if_neg h9, if_neg hmf, if_pos h7, hR.stats]
  by_cases h4 : e.type = 4
  · have h3 : ¬ e.type = 3 := by omega
    refine ⟨_, by simp only [step, if_neg h64, if_neg h9, if_neg hmt, if_neg h7, if_pos h4]; rfl, ?_⟩
    refine ⟨?_, ?_, hkern, hfiles, huse, ?_⟩
    · simp only [hist, if_neg h9, if_neg hmf, if_neg h7, if_neg h3]; exact hR.maps
    · intro k; simp only [commAt, if_neg h7, if_neg h3]; exact hR.comms k
    · simp only [statsAt, if_neg h9, if_neg hmf, if_neg h7, if_pos h4, hR.stats]
  by_cases h3 : e.type = 3
  · obtain ⟨m, ms, qs, g1, _, _, _, g5, _⟩ := mapperFor_rel (alignOK hp) hR.maps (e.comm.getD {}).pid kernelPid
    refine ⟨_, by simp only [step, if_neg h64, if_neg h9, if_neg hmt, if_neg h7, if_neg h4, if_pos h3, g1]; rfl, ?_⟩
    refine ⟨?_, ?_, hkern, hfiles, huse, ?_⟩
    · simp only [hist, if_neg h9, if_neg hmf, if_neg h7, if_pos h3]; exact g5
    · intro k
      simp only [commAt, if_pos h3, upd]
      rw [hR.comms]
    · simp only [statsAt, if_neg h9, if_neg hmf, if_neg h7, if_neg h4, if_pos h3, hR.stats]
  by_cases h17 : e.type = 17
  · refine ⟨_, by simp only [step, if_neg h64, if_neg h9, if_neg hmt, if_neg h7, if_neg h4, if_neg h3, if_pos h17]; rfl, ?_⟩
    refine ⟨?_, ?_, hkern, hfiles, huse, ?_⟩
    · simp only [hist, if_neg h9, if_neg hmf, if_neg h7, if_neg h3]; exact hR.maps
    · intro k; simp only [commAt, if_neg h7, if_neg h3]; exact hR.comms k
    · simp only [statsAt, if_neg h9, if_neg hmf, if_neg h7, if_neg h4, if_neg h3, if_pos h17, hR.stats]
  have hig : e.type ∈ ignored := by
    simp [known] at hk
    simp [ignored]
    omega
  refine ⟨st, by simp only [step, if_neg h64, if_neg h9, if_neg hmt, if_neg h7, if_neg h4, if_neg h3, if_neg h17, if_pos hig],
    ?_, ?_, hkern, hfiles, huse, ?_⟩
  · simp only [hist, if_neg h9, if_neg hmf, if_neg h7, if_neg h3]; exact hR.maps
  · intro k; simp only [commAt, if_neg h7, if_neg h3]; exact hR.comms k
  · simp only [statsAt, if_neg h9, if_neg hmf, if_neg h7, if_neg h4, if_neg h3, if_neg h17]; exact hR.stats

/-- Events of unknown types. -/
theorem step_unknown {O : Opts} {evs : List Ev} {e : Ev} {i : Nat} {st : State} (hk : known e = false) :
    step O evs i st e = some none := by
  simp [known] at hk
  have h1 : ¬ e.type ≥ 64 := by omega
  have h2 : ¬ e.type ∈ ignored := by simp [ignored]; omega
  simp only [step, if_neg h1, if_neg h2]
  rw [if_neg (by omega), if_neg (by omega), if_neg (by omega), if_neg (by omega), if_neg (by omega), if_neg (by omega)]

/-! ## The loop -/

theorem OutOk.reads {O : Opts} {S : Nat} {evs : List Ev} {f g : Nat → Nat} {h : List Ev} {e e' : Ev} {p : Parsed}
    (hfg : ∀ j, j < (e :: h).length → g j = f j) (ho : OutOk O S evs f h e e' p) : OutOk O S evs g h e e' p := by
  constructor
  · intro ht s hs
    obtain ⟨h1, τ, h2, h3, h4, h5⟩ := ho.sample ht s hs
    refine ⟨h1, τ, h2, h3, ?_, h5⟩
    intro hr A q B hq hB a ha hqa
    rw [h4 hr A q B hq hB a ha hqa, hfg]
    have := inherit_all (P := fun l => ∀ q ∈ l, q.id < h.length ∧ ∃ e, h.reverse[q.id]? = some e ∧ isMmap e = true)
      (by intro q hq; cases hq) (hist_ids O h) s.pid kernelPid s.pid (rangesOf O h s.pid)
      (by unfold rangesOf; simp [inherit]) q (by rw [hq]; simp)
    rw [List.length_cons]; omega
  · intro hm
    obtain ⟨h1, h2, h3⟩ := ho.mmap hm
    rw [hfg h.length (by simp)]
    exact ⟨h1, h2, h3⟩
  · exact ho.other

theorem loop_spec {O : Opts} {S : Nat} (hp : ∃ k, k ≤ 60 ∧ O.page = 2 ^ k) {evs : List Ev} :
    ∀ (l : List Ev) (h : List Ev) (st : State) (starts : Nat → Nat), evs = h.reverse ++ l → Rel O S starts h st →
    (∀ i e, (l.takeWhile known)[i]? = some e → isMmap e = true →
      (requestAt O (((l.takeWhile known).take i).reverse ++ h) e).wf ∧
      (requestAt O (((l.takeWhile known).take i).reverse ++ h) e).size ≤ S) →
    (((l.takeWhile known).filter isMmap).length + (h.filter isMmap).length) * (S + 6 * O.page) < 2 ^ 64 →
    (∀ e ∈ l.takeWhile known, ∀ s, e.sample = some s → ∀ a ∈ lookups s, a < 2 ^ 64) →
    (loop O evs h.length st l = none ∧ ∃ i e, (l.takeWhile known)[i]? = some e ∧ isMmap e = true ∧
      accepted O (((l.takeWhile known).take i).reverse ++ h) e = false) ∨
    (∃ st' out starts', loop O evs h.length st l =
        some (l.all known, st', out ++ (l.dropWhile known).map (fun e => (e, {}))) ∧
      Rel O S starts' ((l.takeWhile known).reverse ++ h) st' ∧ (∀ j, j < h.length → starts' j = starts j) ∧
      All₂ (fun e (x : Ev × Parsed) => x.1.type = e.type) (l.takeWhile known) out ∧
      ∀ i e x, (l.takeWhile known)[i]? = some e → out[i]? = some x →
        OutOk O S evs starts' (((l.takeWhile known).take i).reverse ++ h) e x.1 x.2 ∧
        (isMmap e = true → accepted O (((l.takeWhile known).take i).reverse ++ h) e = true))
  | [], h, st, starts, hevs, hR, _, _, _ => by
    right
    exact ⟨st, [], starts, rfl, by simpa using hR, fun _ _ => rfl, .nil, fun i e x hi => by simp at hi⟩
  | e :: t, h, st, starts, hevs, hR, hw, hroom, hl => by
    by_cases hk : known e = true
    rotate_left
    · right
      have hk' : known e = false := by simpa using hk
      refine ⟨st, [], starts, ?_, ?_, fun _ _ => rfl, ?_, ?_⟩
      · simp only [loop, step_unknown hk', List.all_cons, hk', Bool.false_and]
        rw [List.dropWhile_cons_of_neg (by simp [hk'])]
        rfl
      · rw [List.takeWhile_cons_of_neg (by simp [hk'])]; exact hR
      · rw [List.takeWhile_cons_of_neg (by simp [hk'])]; exact .nil
      · intro i e x hi
        rw [List.takeWhile_cons_of_neg (by simp [hk'])] at hi; simp at hi
    rw [List.takeWhile_cons_of_pos hk] at hw hroom hl ⊢
    have key : (isMmap e = true ∧ accepted O h e = false ∧ step O evs h.length st e = none) ∨
        ((isMmap e = true → accepted O h e = true) ∧ ∃ starts' st' e' p,
          step O evs h.length st e = some (some (st', e', p)) ∧
          (∀ j, j < h.length → starts' j = starts j) ∧ Rel O S starts' (e :: h) st' ∧ OutOk O S evs starts' h e e' p) := by
      by_cases hm : isMmap e = true
      · have := hw 0 e rfl hm
        rcases step_mmap (evs := evs) hp hR hm (by simpa using this.1) (by simpa using this.2) (by
          refine Nat.lt_of_le_of_lt (Nat.mul_le_mul_right _ ?_) hroom
          rw [List.filter_cons_of_pos hm, List.length_cons]; omega) with ⟨h1, h2⟩ | ⟨h1, h2⟩
        · exact Or.inl ⟨hm, h1, h2⟩
        · exact Or.inr ⟨fun _ => h1, h2⟩
      · refine Or.inr ⟨fun h => absurd h hm, ?_⟩
        have hm' : isMmap e = false := by simpa using hm
        by_cases hs : e.type = 9 ∧ e.sample ≠ none
        · obtain ⟨ht, hs⟩ := hs
          cases hsm : e.sample with
          | none => exact absurd hsm hs
          | some s =>
            obtain ⟨st', e', p, h1, h2, h3⟩ := step_sample hp hR hevs ht hsm (hl e (by simp) s hsm)
            exact ⟨starts, st', e', p, h1, fun _ _ => rfl, h2, h3⟩
        · have hs' : e.type = 9 → e.sample = none := fun h9 => by
            cases hsm : e.sample with
            | none => rfl
            | some s => exact absurd ⟨h9, by simp [hsm]⟩ hs
          obtain ⟨st', h1, h2⟩ := step_other (evs := evs) hp hR hk hm' hs'
          refine ⟨starts, st', e, {}, h1, fun _ _ => rfl, h2, ?_⟩
          constructor
          · intro h9 s h10; rw [hs' h9] at h10; cases h10
          · intro h; exact absurd h hm
          · intro _ _; exact ⟨rfl, rfl⟩
    rcases key with ⟨hm, h1, h2⟩ | ⟨hacc, starts1, st1, e1, p1, h1, h2, h3, h4⟩
    · refine Or.inl ⟨by simp only [loop, h2], 0, e, rfl, hm, by simpa using h1⟩
    · have happ : ∀ i, ((e :: t.takeWhile known).take (i + 1)).reverse ++ h = ((t.takeWhile known).take i).reverse ++ e :: h := by
        intro i; simp
      rcases loop_spec (evs := evs) hp t (e :: h) st1 starts1 (by rw [hevs]; simp) h3 (by
          intro i x hi hm
          have := hw (i + 1) x (by simpa using hi) hm
          rw [happ] at this; exact this) (by
          refine Nat.lt_of_le_of_lt (Nat.mul_le_mul_right _ ?_) hroom
          rw [List.filter_cons, List.filter_cons]; split <;> simp <;> omega)
          (fun x hx => hl x (by simp [hx])) with ⟨g1, i, x, g2, g3, g4⟩ | ⟨st', out, starts', g1, g2, g3, g4, g5⟩
      · refine Or.inl ⟨?_, i + 1, x, by simpa using g2, g3, by rw [happ]; exact g4⟩
        simp only [loop, h1]
        rw [List.length_cons] at g1
        rw [g1]; rfl
      · refine Or.inr ⟨st', (e1, p1) :: out, starts', ?_, ?_, ?_, ?_, ?_⟩
        · simp only [loop, h1]
          rw [List.length_cons] at g1
          rw [g1, List.dropWhile_cons_of_pos hk]
          simp [hk]
        · simpa using g2
        · intro j hj
          rw [g3 j (by rw [List.length_cons]; omega), h2 j hj]
        · refine .cons ?_ g4
          show e1.type = e.type
          by_cases hm : isMmap e = true
          · rw [(h4.mmap hm).2.1]
          · by_cases hs : e.type = 9 → e.sample = none
            · rw [(h4.other (by simpa using hm) hs).1]
            · cases hsm : e.sample with
              | none => exact absurd (fun _ => hsm) hs
              | some s =>
                have h9 : e.type = 9 := Decidable.byContradiction fun h => hs fun h' => absurd h' h
                obtain ⟨_, τ, h, _⟩ := h4.sample h9 s hsm
                rw [h]
        · intro i x y hi hy
          cases i with
          | zero =>
            simp only [List.getElem?_cons_zero, Option.some.injEq] at hi hy
            subst hi; subst hy
            exact ⟨by simpa using h4.reads g3, by simpa using hacc⟩
          | succ i =>
            rw [happ]
            exact g5 i x y (by simpa using hi) (by simpa using hy)

end Verif.Parser
