import Verif.Parser.Again

/-! # Properties of the parser: remapped recordings -/

namespace Verif.Parser
open Verif.AddressMapper (Req specRun specLookup specStep Piece)
open Verif.HugePages (MMap)

/-! ## C88: the made-up addresses -/

/-- C88. With remapping, one replacement of addresses is applied to all addresses of a sample: different addresses in
mappings become different addresses, their places in a page stay; context markers, null entries of branch
stacks and absent data addresses stay as they are. -/
theorem sample_translated {O : Opts} {S : Nat} {evs : List Ev} {R : Result} (hS : Sensible O S evs) (hd : O.discard = false)
    (hr : O.remap = true) (h : parse O evs = some R) {i : Nat} {e : Ev} {s : Sample} (hi : (processed evs)[i]? = some e)
    (ht : e.type = 9) (hs : e.sample = some s) :
    ∃ τ, (R.parsed[i]?).map (·.1) = some { e with sample := some (replace τ s) } ∧
      (∀ a b, a < 2 ^ 64 → b < 2 ^ 64 → region O (before evs i) s.pid a ≠ none → region O (before evs i) s.pid b ≠ none →
        τ a = τ b → a = b) ∧
      (∀ a, a < 2 ^ 64 → τ a % O.page = a % O.page) ∧
      ∀ a, a < 2 ^ 64 → region O (before evs i) s.pid a ≠ none → τ a < mmapCount evs * (S + 6 * O.page) := by
  obtain ⟨out, starts, -, -, -, -, -, h1⟩ := parse_out hS hd h
  obtain ⟨x, h2, -, h3⟩ := h1 i e hi
  obtain ⟨-, τ, h4, h5, -, h6⟩ := h3.sample ht s hs
  exact ⟨τ, by rw [h2, ← h4]; rfl, h5.inj hr, h5.page hr, h6 hr⟩

/-- The offset of a mapping lies in it: the mapping of the kernel starts there. -/
def startsAtOffset (m : MMap) : Prop := m.start < m.pgoff ∧ m.pgoff < (m.start + m.len) % 2 ^ 64

instance (m : MMap) : Decidable (startsAtOffset m) := by unfold startsAtOffset; infer_instance

/-- C88. With remapping, a mapping event keeps its size, file, offset, process and place in a page; only the first of
the kernel is shown without its offset, and from there if it lies in the mapping. -/
theorem mapping_moved {O : Opts} {S : Nat} {evs : List Ev} {R : Result} (hS : Sensible O S evs) (hd : O.discard = false)
    (hr : O.remap = true) (h : parse O evs = some R) {i : Nat} {e : Ev} {m : MMap} (hi : (processed evs)[i]? = some e)
    (hm : isMmap e = true) (hmm : e.mmap = some m) :
    ∃ start, (isKernelMmap e = false ∨ (before evs i).any isKernelMmap = true → start % O.page = m.start % O.page ∧
        (R.parsed[i]?).map (·.1) = some { e with mmap := some { m with start := start } }) ∧
      (isKernelMmap e = true ∧ (before evs i).any isKernelMmap = false → ∃ len,
        (R.parsed[i]?).map (·.1) = some { e with mmap := some { m with start := start, len := len, pgoff := 0 } } ∧
        (startsAtOffset m → len = (m.start + m.len) % 2 ^ 64 - m.pgoff ∧ start % O.page = m.pgoff % O.page) ∧
        (¬ startsAtOffset m → len = m.len ∧ start % O.page = m.start % O.page)) := by
  obtain ⟨out, starts, -, -, -, -, -, h1⟩ := parse_out hS hd h
  obtain ⟨x, h2, -, h3⟩ := h1 i e hi
  obtain ⟨-, h5, h6, -⟩ := h3.mmap hm
  rw [h2]
  simp only [Option.map_some, hr, if_true, hmm, Option.getD_some] at h5 h6 ⊢
  refine ⟨starts i, ?_, ?_⟩
  · intro hk
    have hkf : (isKernelMmap e && !(before evs i).any isKernelMmap) = false := by
      rcases hk with hk | hk <;> simp [hk]
    have hq : requestAt O (before evs i) e = { real := m.start, size := m.len, id := (before evs i).length, off := m.pgoff, allowUnaligned := O.allowJit && contains (ascii "jitted-") m.filename } := by
      simp only [requestAt, request, hmm, Option.getD_some, hkf, Bool.false_and, Bool.false_eq_true, if_false]
    rw [hq] at h5 h6
    refine ⟨(h6 trivial).1, ?_⟩
    rw [h5]
  · rintro ⟨hk1, hk2⟩
    have hkt : (isKernelMmap e && !(before evs i).any isKernelMmap) = true := by rw [hk1, hk2]; rfl
    have hoff : (requestAt O (before evs i) e).off = 0 := by
      simp only [requestAt, request, hkt, if_true]
    refine ⟨(requestAt O (before evs i) e).size, by rw [h5, hoff], ?_, ?_⟩
    · intro hs
      have hs' : (decide (m.pgoff > m.start) && decide (m.pgoff < HugePages.add64 m.start m.len)) = true := by
        simp only [Bool.and_eq_true, decide_eq_true_eq]
        exact hs
      have h7 := (h6 trivial).1
      simp only [requestAt, request, hkt, hmm, Option.getD_some, Bool.true_and, hs', if_true] at h7 ⊢
      refine ⟨?_, h7⟩
      have h8 := hs.2
      simp only [HugePages.sub64, HugePages.add64]
      rw [Nat.add_comm m.len]
      omega
    · intro hs
      have hs' : (decide (m.pgoff > m.start) && decide (m.pgoff < HugePages.add64 m.start m.len)) = false := by
        rw [Bool.eq_false_iff]
        simp only [ne_eq, Bool.and_eq_true, decide_eq_true_eq]
        exact hs
      have h7 := (h6 trivial).1
      simp only [requestAt, request, hkt, hmm, Option.getD_some, Bool.true_and, hs', Bool.false_eq_true, if_false] at h7 ⊢
      exact ⟨trivial, h7⟩

/-- A kernel with its start address randomised, as in the comment at `perf_parser.cc:704-709`. -/
def exKernel : Ev := { type := 1, misc := 1, mmap := some { pid := some kernelPid, start := 0x3bc00000, len := 0xffffffff843fffff, pgoff := 0xffffffffbcc00198, filename := ascii "[kernel.kallsyms]_text" } }

/-- In the example /a of process 1 moves to 0, /b and /c behind it; the kernel, if it comes first, to the place in
its page. -/
example : (parse exO exEvs).map (fun R => R.parsed.filterMap (fun x => x.1.mmap.map (fun m => (m.start, m.len, m.pgoff)))) =
      some [(0, 0x3000, 0), (0x3000, 0x5000, 0x1000), (0x3000, 0x5000, 0)] ∧
    (parse exO [exKernel]).map (fun R => R.parsed.filterMap (fun x => x.1.mmap.map (fun m => (m.start, m.len, m.pgoff)))) =
      some [(0x198, 0x33ffe67, 0)] := by
  refine ⟨?_, ?_⟩ <;> decide +kernel

/-! ## C89: a remapped recording means the same -/

/-- In no process does a mapping overlap another one of its own or of those it started with. -/
def NoOverlap (O : Opts) (evs : List Ev) : Prop :=
  ∀ p qs, hist O (processed evs).reverse p = some qs → qs.Pairwise Apart

theorem same_of {O : Opts} {S : Nat} {evs : List Ev} {starts : Nat → Nat} {i : Nat} {e e' : Ev} {p : Parsed} (hr : O.remap = true)
    (hi : (processed evs)[i]? = some e) (ht : e'.type = e.type) (h : Becomes O S evs starts i e e' p) :
    Same starts O (before evs i) e e' := by
  have hle : i ≤ (processed evs).length := Nat.le_of_lt (List.getElem?_eq_some_iff.1 hi).1
  by_cases hm : isMmap e = true
  · have h9 : ¬ e.type = 9 := by intro h; simp [isMmap, h] at hm
    obtain ⟨-, h1, -⟩ := h.mmap hm
    rw [h1]
    refine ⟨rfl, rfl, rfl, rfl, fun h => absurd h h9, fun _ => ?_⟩
    simp only [hr, if_true]
    exact ⟨_, rfl, rfl, rfl, by rw [before_len hle], rfl, rfl⟩
  · by_cases hs : e.type = 9 → e.sample = none
    · rw [(h.other (by simpa using hm) hs).1]
      exact ⟨rfl, rfl, rfl, rfl, fun _ => rfl, fun h => absurd h hm⟩
    · cases hsm : e.sample with
      | none => exact absurd (fun _ => hsm) hs
      | some s =>
        have h9 : e.type = 9 := Decidable.byContradiction fun h => hs fun h' => absurd h' h
        obtain ⟨-, τ, h1, -⟩ := h.sample h9 s hsm
        rw [h1]
        exact ⟨rfl, rfl, rfl, rfl, fun _ => by rw [hsm]; rfl, fun h => absurd h hm⟩

theorem processed_again {O : Opts} {S : Nat} {evs : List Ev} {R : Result} (hS : Sensible O S evs) (hd : O.discard = false)
    (h : parse O evs = some R) : processed R.events = (R.parsed.map (·.1)).take (processed evs).length := by
  have h1 := parsed_types hS hd h
  have h2 := (events_kept hS hd h).2.1
  unfold processed
  rw [← h2]
  generalize R.parsed.map (·.1) = l' at h1
  generalize relevant evs = l at h1
  clear h2
  induction l generalizing l' with
  | nil => simp at h1; subst h1; rfl
  | cons a l ih =>
    cases l' with
    | nil => simp at h1
    | cons b l' =>
      simp only [List.map_cons, List.cons.injEq] at h1
      have hk : known b = known a := by unfold known; rw [h1.1]
      by_cases hp : known a = true
      · rw [List.takeWhile_cons_of_pos hp, List.takeWhile_cons_of_pos (by rw [hk]; exact hp), ih l' h1.2]
        rfl
      · rw [List.takeWhile_cons_of_neg hp, List.takeWhile_cons_of_neg (by rw [hk]; exact hp)]
        rfl

/-- What is known about the remapped events. -/
theorem again {O : Opts} {S : Nat} {evs : List Ev} {R : Result} (hS : Sensible O S evs) (hd : O.discard = false)
    (hr : O.remap = true) (h : parse O evs = some R) (ho : NoOverlap O evs) :
    ∃ starts, (processed R.events).length = (processed evs).length ∧
      (∀ i e, (processed evs)[i]? = some e → ∃ x, R.parsed[i]? = some x ∧ (processed R.events)[i]? = some x.1 ∧
        Same starts O (before evs i) e x.1 ∧ Becomes O S evs starts i e x.1 x.2) ∧
      ∀ i, i ≤ (processed evs).length →
        (∀ p, rangesOf { O with remap := false } (before R.events i) p = (rangesOf O (before evs i) p).map (mv starts) ∧
          (rangesOf O (before evs i) p).Pairwise Apart ∧ ((rangesOf O (before evs i) p).map (mv starts)).Pairwise Apart ∧
          ∀ q ∈ rangesOf O (before evs i) p, 0 < q.size ∧ starts q.id + q.size ≤ mmapCount evs * (S + 6 * O.page)) ∧
        (before R.events i).any isKernelMmap = (before evs i).any isKernelMmap ∧
        ∀ k, commAt (before R.events i) k = commAt (before evs i) k := by
  obtain ⟨st, g1, g2, g3⟩ := parse_keeps hd h
  rcases parse_loop hS with ⟨k1, -⟩ | ⟨st', out, starts, k1, k2, k3, k4⟩
  · rw [g1] at k1; cases k1
  rw [g1] at k1
  simp only [Option.some.injEq, Prod.mk.injEq] at k1
  obtain ⟨-, rfl, e3⟩ := k1
  have hpa := processed_again hS hd h
  have hlen : (processed R.events).length = (processed evs).length := by
    rw [hpa, List.length_take, List.length_map, e3, List.length_append, k3]
    omega
  have hev : ∀ i e, (processed evs)[i]? = some e → ∃ x, R.parsed[i]? = some x ∧ (processed R.events)[i]? = some x.1 ∧
      Same starts O (before evs i) e x.1 ∧ Becomes O S evs starts i e x.1 x.2 := by
    intro i e hi
    have hlt : i < (processed evs).length := (List.getElem?_eq_some_iff.1 hi).1
    obtain ⟨x, h1, h2, h3⟩ := k4 i e hi
    have hx : R.parsed[i]? = some x := by
      rw [e3, List.getElem?_append_left ((List.getElem?_eq_some_iff.1 h1).1)]
      exact h1
    refine ⟨x, hx, ?_, same_of hr hi h2 h3, h3⟩
    rw [hpa, List.getElem?_take_of_lt hlt, List.getElem?_map, hx]
    rfl
  refine ⟨starts, hlen, hev, ?_⟩
  intro i hi
  obtain ⟨m1, m2, m3⟩ := hist_moved (O := O) (starts := starts) hlen (by
    intro i e hi
    obtain ⟨x, -, h2, h3, -⟩ := hev i e hi
    exact ⟨x.1, h2, h3⟩) i hi
  refine ⟨?_, m2, m3⟩
  have hfin : ∀ p qs, hist O (before evs i) p = some qs → qs.Pairwise Apart ∧ (qs.map (mv starts)).Pairwise Apart ∧
      ∀ q ∈ qs, 0 < q.size ∧ starts q.id + q.size ≤ mmapCount evs * (S + 6 * O.page) := by
    intro p qs hq
    obtain ⟨m, hm⟩ := hist_prefix O ((processed evs).length - i) i (by omega) hq
    have ha := ho p _ hm
    obtain ⟨ms, hmo⟩ : ∃ ms, MOk O S starts ms (qs ++ m) := by
      have := k2.maps p
      rw [hm] at this
      cases hms : st.mappers p with
      | none => rw [hms] at this; exact this.elim
      | some s => rw [hms] at this; exact ⟨s, this⟩
    obtain ⟨hb, hc⟩ := moved_apart hmo hr ha
    rw [List.map_append] at hb
    refine ⟨(List.pairwise_append.1 ha).1, (List.pairwise_append.1 hb).1, fun q hq => ?_⟩
    have h1 := hc q (List.mem_append_left _ hq)
    refine ⟨h1.1, Nat.le_trans h1.2 (Nat.mul_le_mul_right _ ?_)⟩
    have h2 := hist_len O _ _ _ hm
    rw [List.filter_reverse, List.length_reverse] at h2
    exact h2
  intro p
  refine ⟨?_, ?_⟩
  · unfold rangesOf
    rw [inherit_map (List.map (mv starts)) rfl (T := hist O (before evs i)) (T' := hist { O with remap := false } (before R.events i)) m1]
    cases inherit (hist O (before evs i)) p kernelPid p <;> rfl
  · exact inherit_all (P := fun qs => qs.Pairwise Apart ∧ (qs.map (mv starts)).Pairwise Apart ∧
        ∀ q ∈ qs, 0 < q.size ∧ starts q.id + q.size ≤ mmapCount evs * (S + 6 * O.page))
      ⟨List.Pairwise.nil, List.Pairwise.nil, by intro q hq; cases hq⟩
      hfin p kernelPid p _ (by simp [rangesOf, inherit])

theorem run_all_apart (al : Nat) {qs : List Req} (hw : ∀ q ∈ qs, 0 < q.size ∧ q.real + q.size ≤ 2 ^ 64) (hp : qs.Pairwise Apart) :
    specRun al [] qs = (qs.map (fun _ => true), qs.map Req.piece) := by
  have := run_apart al qs [] hw hp (by intro p hp; cases hp)
  simpa using this

theorem ranges_snoc (O : Opts) (h : List Ev) {e : Ev} (hm : isMmap e = true) :
    rangesOf O (e :: h) ((e.mmap.getD {}).pid.getD 0) = rangesOf O h ((e.mmap.getD {}).pid.getD 0) ++ [requestAt O h e] := by
  have h9 : ¬ e.type = 9 := by intro h; simp [isMmap, h] at hm
  have : hist O (e :: h) ((e.mmap.getD {}).pid.getD 0) =
      (inherit (hist O h) ((e.mmap.getD {}).pid.getD 0) kernelPid ((e.mmap.getD {}).pid.getD 0)).map (· ++ [requestAt O h e]) := by
    simp only [hist, if_neg h9, if_pos hm, if_true]
  unfold rangesOf
  have hs : ∃ l, inherit (hist O h) ((e.mmap.getD {}).pid.getD 0) kernelPid ((e.mmap.getD {}).pid.getD 0) = some l := by
    unfold inherit; simp
  obtain ⟨l, hl⟩ := hs
  rw [hl] at this ⊢
  rw [inherit_keep this]
  rfl

theorem mmapCount_again {es es' : List Ev} (h : es'.map (·.type) = es.map (·.type)) :
    (es'.filter isMmap).length = (es.filter isMmap).length := by
  induction es generalizing es' with
  | nil => simp at h; rw [h]
  | cons e es ih =>
    cases es' with
    | nil => simp at h
    | cons e' es' =>
      simp only [List.map_cons, List.cons.injEq] at h
      have hm : isMmap e' = isMmap e := by unfold isMmap; rw [h.1]
      rw [List.filter_cons, List.filter_cons, hm]
      split
      · simp [ih h.2]
      · exact ih h.2

theorem mem_front {bs : List Branch} {b : Branch} : b ∈ front bs → b ∈ bs ∧ b.null = false := by
  unfold front
  induction bs with
  | nil => intro h; cases h
  | cons x t ih =>
    intro h
    by_cases hx : x.null = true
    · rw [List.takeWhile_cons_of_neg (by simp [hx])] at h; cases h
    · rw [List.takeWhile_cons_of_pos (by simp [hx])] at h
      rcases List.mem_cons.1 h with rfl | h
      · exact ⟨by simp, by simpa using hx⟩
      · exact ⟨by simp [(ih h).1], (ih h).2⟩

theorem front_mem {bs : List Branch} (hn : NullsLast bs = true) {b : Branch} (hb : b ∈ bs) (h0 : b.null = false) : b ∈ front bs := by
  unfold NullsLast at hn
  unfold front
  induction bs with
  | nil => cases hb
  | cons x t ih =>
    by_cases hx : x.null = true
    · rw [List.dropWhile_cons_of_neg (by simp [hx]), List.all_eq_true] at hn
      rw [hn b hb] at h0; cases h0
    · rw [List.dropWhile_cons_of_pos (by simp [hx])] at hn
      rw [List.takeWhile_cons_of_pos (by simp [hx])]
      rcases List.mem_cons.1 hb with rfl | hb
      · simp
      · simp [ih hn hb]

/-- The addresses looked up in a sample with its addresses replaced. -/
theorem lookups_replace {τ : Nat → Nat} {s : Sample} (ht : ∀ a, a < 2 ^ 64 → τ a < 2 ^ 64) (hs : ∀ a ∈ lookups s, a < 2 ^ 64) :
    ∀ a ∈ lookups (replace τ s), a < 2 ^ 64 := by
  intro a ha
  have hip : s.ip < 2 ^ 64 := hs _ (by simp [lookups])
  simp only [lookups, List.mem_cons, List.mem_append, List.mem_flatMap] at ha
  rcases ha with ha | (ha | ha) | ⟨b, hb, ha⟩
  · rw [ha]; exact ht _ hip
  · simp only [replace] at ha
    cases hx : s.addr with
    | none => rw [hx] at ha; simp at ha
    | some d =>
      rw [hx] at ha
      by_cases hd : d = 0
      · simp [hd] at ha; omega
      · have hd' : d < 2 ^ 64 := hs d (by simp [lookups, hx, hd])
        simp only [Option.map_some, if_neg hd] at ha
        have : a = τ d := by
          rw [Option.mem_toList, Option.filter_eq_some_iff] at ha
          have := ha.1
          simpa using this.symm
        rw [this]; exact ht _ hd'
  · obtain ⟨ha, hc⟩ := List.mem_filter.1 ha
    simp only [Bool.and_eq_true] at hc
    have := hc.1
    simp only [isCode, decide_eq_true_eq] at this
    omega
  · unfold usable at hb
    split at hb
    · obtain ⟨h1, h2⟩ := mem_front hb
      simp only [replace, List.mem_map] at h1
      obtain ⟨c, hc, rfl⟩ := h1
      split at h2
      · rename_i hcond
        simp only [Bool.and_eq_true, Bool.not_eq_true'] at hcond
        have hu : c ∈ usable s.branches := by
          unfold usable; rw [if_pos hcond.1]; exact front_mem hcond.1 hc hcond.2
        have h3 : c.src < 2 ^ 64 ∧ c.dst < 2 ^ 64 := by
          refine ⟨hs _ ?_, hs _ ?_⟩ <;>
          · simp only [lookups, List.mem_cons, List.mem_append, List.mem_flatMap]
            exact Or.inr (Or.inr ⟨c, hu, by simp⟩)
        have hcond' : (NullsLast s.branches && !c.null) = true := by simp [hcond]
        rw [if_pos hcond'] at ha
        simp only [List.mem_cons, List.not_mem_nil, or_false] at ha
        rcases ha with rfl | rfl
        · exact ht _ h3.1
        · exact ht _ h3.2
      · rename_i hnl hcond
        exfalso
        have hcn : c.null = false := h2
        have hnn : NullsLast s.branches = false := by
          cases hN : NullsLast s.branches with
          | false => rfl
          | true => exact absurd (by simp [hN, hcn]) hcond
        have hsame : (replace τ s).branches = s.branches := by
          simp [replace, hnn]
        rw [hsame, hnn] at hnl
        cases hnl
    · cases hb

theorem name_again {O : Opts} {starts : Nat → Nat} {S : Nat} {evs : List Ev} {R : Result}
    (hev : ∀ i e, (processed evs)[i]? = some e → ∃ x, R.parsed[i]? = some x ∧ (processed R.events)[i]? = some x.1 ∧
        Same starts O (before evs i) e x.1 ∧ Becomes O S evs starts i e x.1 x.2) {j : Nat} {e : Ev}
    (hj : (processed evs)[j]? = some e) (hm : isMmap e = true) : nameAt R.events j = nameAt evs j := by
  obtain ⟨x, -, h2, h3, -⟩ := hev j e hj
  obtain ⟨m, h4, -, h5, -⟩ := h3.mmap hm
  unfold nameAt
  rw [h2, hj]
  simp only [Option.bind_some, h4, Option.getD_some, h5]

/-- Parsing the remapped events: they are sensible, and addresses are where they were. -/
theorem again_located {O : Opts} {S : Nat} {evs : List Ev} {R : Result} (hS : Sensible O S evs) (hd : O.discard = false)
    (hr : O.remap = true) (hroom : mmapCount evs * (S + 6 * O.page) ≤ 2 ^ 63) (h : parse O evs = some R) (ho : NoOverlap O evs) :
    ∃ R', parse { O with remap := false } R.events = some R' ∧ Sensible { O with remap := false } S R.events ∧
      ∀ i e s, (processed evs)[i]? = some e → e.type = 9 → e.sample = some s → ∃ τ,
        (processed R.events)[i]? = some { e with sample := some (replace τ s) } ∧
        (R.parsed[i]?).map (·.1) = some { e with sample := some (replace τ s) } ∧
        (∀ k, commAt (before R.events i) k = commAt (before evs i) k) ∧
        (∀ a, a < 2 ^ 64 → locate { O with remap := false } R.events i s.pid (τ a) = locate O evs i s.pid a) ∧
        Translates O (region O (before evs i) s.pid) τ ∧
        (∀ a, a < 2 ^ 64 → region O (before evs i) s.pid a ≠ none → τ a < 2 ^ 63) := by
  obtain ⟨starts, hlen, hev, hal⟩ := again hS hd hr h ho
  have hB := hroom
  -- events of the second parse
  have hev' : ∀ i e', (processed R.events)[i]? = some e' → ∃ e x, (processed evs)[i]? = some e ∧ R.parsed[i]? = some x ∧
      x.1 = e' ∧ Same starts O (before evs i) e e' ∧ Becomes O S evs starts i e e' x.2 := by
    intro i e' hi
    have hlt : i < (processed evs).length := by rw [← hlen]; exact (List.getElem?_eq_some_iff.1 hi).1
    have he : (processed evs)[i]? = some (processed evs)[i] := List.getElem?_eq_getElem hlt
    obtain ⟨x, h1, h2, h3, h4⟩ := hev i _ he
    rw [hi] at h2
    simp only [Option.some.injEq] at h2
    subst h2
    exact ⟨_, x, he, h1, rfl, h3, h4⟩
  have hreq : ∀ i e e', (processed evs)[i]? = some e → Same starts O (before evs i) e e' → isMmap e = true →
      requestAt { O with remap := false } (before R.events i) e' = mv starts (requestAt O (before evs i) e) ∧
      (requestAt O (before evs i) e).id = i := by
    intro i e e' hi hs hm
    have hlt : i < (processed evs).length := (List.getElem?_eq_some_iff.1 hi).1
    have hl : (before R.events i).length = (before evs i).length := by
      rw [before_len (by omega), before_len (by omega)]
    exact ⟨request_moved hs hm hl (hal i (by omega)).2.1, before_len (by omega)⟩
  have hcount : mmapCount R.events = mmapCount evs := by
    refine mmapCount_again ?_
    apply List.ext_getElem?
    intro i
    rw [List.getElem?_map, List.getElem?_map]
    cases hi : (processed evs)[i]? with
    | none =>
      have : (processed R.events)[i]? = none := by
        rw [List.getElem?_eq_none_iff] at hi ⊢; omega
      rw [this]
    | some e =>
      obtain ⟨x, -, h2, h3, -⟩ := hev i e hi
      rw [h2]
      simp [h3.type]
  have htau : ∀ i e s, (processed evs)[i]? = some e → e.type = 9 → e.sample = some s → ∀ τ, Translates O (region O (before evs i) s.pid) τ →
      (∀ a, a < 2 ^ 64 → region O (before evs i) s.pid a ≠ none → τ a < mmapCount evs * (S + 6 * O.page)) →
      ∀ a, a < 2 ^ 64 → τ a < 2 ^ 64 := by
    intro i e s hi h9 hs τ h1 h2 a ha
    cases hg : region O (before evs i) s.pid a with
    | none => rw [h1.unmapped hr a ha hg]; omega
    | some v => have := h2 a ha (by simp [hg]); omega
  have hS' : Sensible { O with remap := false } S R.events := by
    refine ⟨hS.page, ?_, ?_, ?_⟩
    · intro i e' hi hm
      obtain ⟨e, x, he, -, -, h3, h4⟩ := hev' i e' hi
      have hme : isMmap e = true := by rw [← h3.isMmap]; exact hm
      obtain ⟨h5, h6⟩ := hreq i e e' he h3 hme
      obtain ⟨-, -, h7, -⟩ := h4.mmap hme
      have h8 := (h7 hr).2
      have h9 := (hS.ranges i e he hme).2
      rw [h5]
      simp only [mv, Req.wf, h6]
      omega
    · rw [hcount]; exact hS.room
    · intro e' he' s' hs' a ha
      obtain ⟨i, hi⟩ := List.getElem?_of_mem he'
      obtain ⟨e, x, he, -, -, h3, h4⟩ := hev' i e' hi
      by_cases hm : isMmap e = true
      · obtain ⟨-, h5, -⟩ := h4.mmap hm
        rw [h5] at hs'
        exact hS.samples e (List.mem_of_getElem? he) s' hs' a ha
      · by_cases hs : e.type = 9 → e.sample = none
        · rw [(h4.other (by simpa using hm) hs).1] at hs'
          exact hS.samples e (List.mem_of_getElem? he) s' hs' a ha
        · cases hsm : e.sample with
          | none => exact absurd (fun _ => hsm) hs
          | some s =>
            have h9 : e.type = 9 := Decidable.byContradiction fun h => hs fun h' => absurd h' h
            obtain ⟨-, τ, k1, k2, -, k4⟩ := h4.sample h9 s hsm
            rw [k1] at hs'
            simp only [Option.some.injEq] at hs'
            subst hs'
            exact lookups_replace (htau i e s he h9 hsm τ k2 (k4 hr)) (hS.samples e (List.mem_of_getElem? he) s hsm) a ha
  have hw : ∀ i, i ≤ (processed evs).length → ∀ p, ∀ q ∈ (rangesOf O (before evs i) p).map (mv starts),
      0 < q.size ∧ q.real + q.size ≤ 2 ^ 63 := by
    intro i hi p q hq
    obtain ⟨r, hr', rfl⟩ := List.mem_map.1 hq
    have := ((hal i hi).1 p).2.2.2 r hr'
    simp only [mv]
    omega
  have hw' : ∀ i, i ≤ (processed evs).length → ∀ p, ∀ q ∈ rangesOf O (before evs i) p, 0 < q.size ∧ q.real + q.size ≤ 2 ^ 64 := by
    intro i hi p
    exact good_sizes (ranges_good hS hd h hi p)
  have hsome : parse { O with remap := false } R.events ≠ none := by
    intro hnone
    obtain ⟨i, e', hi, hm, hacc⟩ := (fails_iff_refused (O := { O with remap := false }) hS' hd).1 hnone
    obtain ⟨e, x, he, -, -, h3, h4⟩ := hev' i e' hi
    have hme : isMmap e = true := by rw [← h3.isMmap]; exact hm
    have hlt : i < (processed evs).length := (List.getElem?_eq_some_iff.1 he).1
    have h5 := ((hal (i + 1) (by omega)).1 ((e'.mmap.getD {}).pid.getD 0))
    have h6 := run_all_apart O.page (fun q hq => by have := hw (i + 1) (by omega) _ q hq; omega) h5.2.2.1
    rw [← h5.1, before_succ hi, ranges_snoc _ _ hm, specRun_snoc] at h6
    unfold accepted at hacc
    have h7 := congrArg Prod.fst h6
    simp only at h7
    have h8 : false ∈ (specRun O.page [] (rangesOf { O with remap := false } (before R.events i) ((e'.mmap.getD {}).pid.getD 0))).1 ++
        [(specStep O.page (specRun O.page [] (rangesOf { O with remap := false } (before R.events i) ((e'.mmap.getD {}).pid.getD 0))).2
          (requestAt { O with remap := false } (before R.events i) e')).1] := by
      exact List.mem_append_right _ (List.mem_singleton.2 hacc.symm)
    rw [h7] at h8
    simp at h8
  obtain ⟨R', hR'⟩ := Option.ne_none_iff_exists'.1 hsome
  refine ⟨R', hR', hS', ?_⟩
  intro i e s hi h9 hs
  have hlt : i < (processed evs).length := (List.getElem?_eq_some_iff.1 hi).1
  obtain ⟨x, h1, h2, h3, h4⟩ := hev i e hi
  obtain ⟨-, τ, k1, k2, k3, k4⟩ := h4.sample h9 s hs
  refine ⟨τ, by rw [h2, k1], by rw [h1, ← k1]; rfl, (hal i (by omega)).2.2, ?_, k2, ?_⟩
  · intro a ha
    obtain ⟨p1, p2, p3, p4⟩ := (hal i (by omega)).1 s.pid
    have e1 : region O (before evs i) s.pid a = specLookup ((rangesOf O (before evs i) s.pid).map Req.piece) a := by
      unfold region
      rw [run_all_apart O.page (hw' i (by omega) s.pid) p2]
    have e2 : ∀ b, region { O with remap := false } (before R.events i) s.pid b =
        specLookup (((rangesOf O (before evs i) s.pid).map (mv starts)).map Req.piece) b := by
      intro b
      unfold region
      rw [p1, run_all_apart O.page (fun q hq => by have := hw i (by omega) s.pid q hq; omega) p3]
    have key : region { O with remap := false } (before R.events i) s.pid (τ a) = region O (before evs i) s.pid a := by
      cases hf : (rangesOf O (before evs i) s.pid).find? (fun q => q.has a) with
      | none =>
        have hn : ∀ q ∈ rangesOf O (before evs i) s.pid, q.has a = false := by
          intro q hq
          have := List.find?_eq_none.1 hf q hq
          simpa using this
        have e3 : region O (before evs i) s.pid a = none := by rw [e1]; exact lookup_none hn
        rw [e3, e2]
        refine lookup_none ?_
        intro q hq
        have h5 := hw i (by omega) s.pid q hq
        rw [k2.unmapped hr a ha e3]
        simp only [Req.has, decide_eq_false_iff_not]
        omega
      | some q =>
        have hq : q ∈ rangesOf O (before evs i) s.pid := List.mem_of_find?_eq_some hf
        have hqa : q.has a = true := by have := List.find?_some hf; exact this
        obtain ⟨A, B, hAB⟩ := List.append_of_mem hq
        have h5 := k3 hr A q B hAB (by
          intro r hr'
          rw [hAB] at p2
          exact apart_symm ((List.pairwise_cons.1 (List.pairwise_append.1 p2).2.1).1 r hr')) a ha hqa
        have hmem : mv starts q ∈ (rangesOf O (before evs i) s.pid).map (mv starts) := List.mem_map_of_mem hq
        simp only [Req.has, decide_eq_true_eq] at hqa
        have hqb : (mv starts q).has (τ a) = true := by
          unfold Req.has
          rw [decide_eq_true_eq]
          show starts q.id ≤ τ a ∧ τ a < starts q.id + q.size
          omega
        rw [e1, e2, lookup_apart p3 hmem hqb, lookup_apart p2 hq (by simpa [Req.has] using hqa)]
        simp only [Piece.value, Req.piece, mv]
        rw [h5]
        simp
    unfold locate
    rw [key]
    cases hg : region O (before evs i) s.pid a with
    | none => rfl
    | some v =>
      obtain ⟨j, off⟩ := v
      simp only
      unfold region at hg
      obtain ⟨q, hq, rfl⟩ := lookup_id hg
      have h5 := inherit_all (P := fun l => ∀ q ∈ l, q.id < (before evs i).length ∧ ∃ e, (before evs i).reverse[q.id]? = some e ∧ isMmap e = true)
        (by intro q hq; cases hq) (hist_ids O (before evs i)) s.pid kernelPid s.pid (rangesOf O (before evs i) s.pid)
        (by unfold rangesOf; simp [inherit]) q hq
      obtain ⟨h6, e', h7, h8⟩ := h5
      rw [before_len (by omega)] at h6
      unfold before at h7
      rw [List.reverse_reverse, List.getElem?_take_of_lt h6] at h7
      rw [name_again hev h7 h8]
  · intro a ha hn
    have := k4 hr a ha hn
    omega

theorem replace_branches (τ : Nat → Nat) (s : Sample) :
    (∀ (k : Nat) (b b' : Branch), s.branches[k]? = some b → (replace τ s).branches[k]? = some b' → b'.null = b.null) →
    usable (replace τ s).branches = (usable s.branches).map (fun b => { b with src := τ b.src, dst := τ b.dst }) := by
  intro h
  by_cases hn : NullsLast s.branches = true
  · let f : Branch → Branch := fun b => if !b.null then { b with src := τ b.src, dst := τ b.dst } else b
    have hb : (replace τ s).branches = s.branches.map f := by simp only [replace, hn, Bool.true_and, f]
    have hnull : ∀ b ∈ s.branches, (f b).null = b.null := by
      intro b hm
      obtain ⟨k, hk⟩ := List.getElem?_of_mem hm
      exact h k b (f b) hk (by rw [hb, List.getElem?_map, hk]; rfl)
    have hnn : NullsLast (s.branches.map f) = true ∧ front (s.branches.map f) =
        (front s.branches).map (fun b => { b with src := τ b.src, dst := τ b.dst }) := by
      clear hb h
      generalize s.branches = l at hn hnull
      unfold NullsLast at hn ⊢
      unfold front
      induction l with
      | nil => exact ⟨rfl, rfl⟩
      | cons x t ih =>
        have hx := hnull x (by simp)
        have ht : ∀ b ∈ t, (f b).null = b.null := fun b hb => hnull b (by simp [hb])
        rw [List.map_cons]
        by_cases h0 : x.null = true
        · rw [List.dropWhile_cons_of_neg (by simp [h0]), List.all_eq_true] at hn
          rw [List.dropWhile_cons_of_neg (by simp [hx, h0]), List.takeWhile_cons_of_neg (by simp [hx, h0]),
            List.takeWhile_cons_of_neg (by simp [h0]), List.all_eq_true]
          refine ⟨?_, rfl⟩
          intro b hb
          rw [← List.map_cons] at hb
          obtain ⟨c, hc, rfl⟩ := List.mem_map.1 hb
          rw [hnull c hc]
          exact hn c hc
        · rw [List.dropWhile_cons_of_pos (by simp [h0])] at hn
          obtain ⟨i1, i2⟩ := ih hn ht
          rw [List.dropWhile_cons_of_pos (by simp [hx, h0]), List.takeWhile_cons_of_pos (by simp [hx, h0]),
            List.takeWhile_cons_of_pos (by simp [h0]), i2, List.map_cons]
          refine ⟨i1, ?_⟩
          simp [f, h0]
    unfold usable
    rw [hb, if_pos hnn.1, if_pos hn, hnn.2]
  · have hb : (replace τ s).branches = s.branches := by simp [replace, hn]
    unfold usable
    rw [hb, if_neg hn]
    rfl

theorem replace_chain {O : Opts} {reg : Nat → Option (Nat × Nat)} {τ : Nat → Nat} (s : Sample) (hr : O.remap = true)
    (ht : Translates O reg τ) (hlow : ∀ a, a < 2 ^ 64 → reg a ≠ none → τ a < 2 ^ 63) (hip : s.ip < 2 ^ 64) (hmap : reg s.ip ≠ none) :
    (replace τ s).callchain.filter (fun a => isCode a && decide (a ≠ (replace τ s).ip)) =
      (s.callchain.filter (fun a => isCode a && decide (a ≠ s.ip))).map τ := by
  simp only [replace]
  induction s.callchain with
  | nil => rfl
  | cons a t ih =>
    rw [List.map_cons]
    by_cases hc : isCode a = true
    · have ha : a < 2 ^ 64 := by simp only [isCode, decide_eq_true_eq] at hc; omega
      have hc' : isCode (τ a) = true := by
        simp only [isCode, decide_eq_true_eq]
        cases hg : reg a with
        | none => rw [ht.unmapped hr a ha hg]; omega
        | some v => have := hlow a ha (by simp [hg]); omega
      have heq : τ a = τ s.ip ↔ a = s.ip := by
        constructor
        · intro h
          cases hg : reg a with
          | none =>
            exfalso
            have h1 := ht.unmapped hr a ha hg
            have h2 := hlow s.ip hip hmap
            omega
          | some v => exact ht.inj hr a s.ip ha hip (by simp [hg]) hmap h
        · rintro rfl; rfl
      rw [if_pos hc, List.filter_cons, List.filter_cons, hc, hc']
      simp only [Bool.true_and, heq, ne_eq]
      split
      · rw [List.map_cons, ih]
      · exact ih
    · rw [if_neg hc, List.filter_cons, List.filter_cons]
      simp only [Bool.not_eq_true] at hc
      simp only [hc, Bool.false_and, Bool.false_eq_true, if_false]
      exact ih

/-- C89. If no mappings of a process overlap and all fit into half of the address space, parsing the remapped recording
again succeeds and reports for every sample the same thread name and the same file and offset of its
address; also of its data address, unless that became 0, of its call chain, if the sample is in a
mapping, and of its branches, unless one of them became null. -/
theorem remap_keeps_meaning_partial {O : Opts} {S : Nat} {evs : List Ev} {R : Result} (hS : Sensible O S evs)
    (hd : O.discard = false) (hr : O.remap = true) (hroom : mmapCount evs * (S + 6 * O.page) ≤ 2 ^ 63)
    (h : parse O evs = some R) (ho : NoOverlap O evs) :
    ∃ R', parse { O with remap := false } R.events = some R' ∧
      ∀ (i : Nat) (e : Ev) (s : Sample), (processed evs)[i]? = some e → e.type = 9 → e.sample = some s →
      ∃ (e₁ : Ev) (p₁ : Parsed) (s₁ : Sample) (e₂ : Ev) (p₂ : Parsed),
        R.parsed[i]? = some (e₁, p₁) ∧ e₁.sample = some s₁ ∧ R'.parsed[i]? = some (e₂, p₂) ∧
        p₂.command = p₁.command ∧ p₂.here = p₁.here ∧
        (s₁.addr ≠ some 0 ∨ s.addr = some 0 → p₂.data = p₁.data) ∧
        (p₁.here.name ≠ none → p₂.callchain = p₁.callchain) ∧
        ((∀ (k : Nat) (b b₁ : Branch), s.branches[k]? = some b → s₁.branches[k]? = some b₁ → b₁.null = b.null) →
          p₂.branches = p₁.branches) := by
  obtain ⟨R', h1, h2, h3⟩ := again_located hS hd hr hroom h ho
  refine ⟨R', h1, ?_⟩
  intro i e s hi h9 hs
  obtain ⟨τ, k1, k2, k3, k4, k5, k6⟩ := h3 i e s hi h9 hs
  have g1 := samples_reported hS hd h hi h9 hs
  have g2 := samples_reported (O := { O with remap := false }) h2 hd h1 k1 h9 rfl
  have hlk := hS.samples e (List.mem_of_getElem? hi) s hs
  have hip : s.ip < 2 ^ 64 := hlk _ (by simp [lookups])
  obtain ⟨⟨e₁, p₁⟩, x1, x2⟩ := Option.map_eq_some_iff.1 g1
  obtain ⟨⟨e₂, p₂⟩, y1, y2⟩ := Option.map_eq_some_iff.1 g2
  simp only at x2 y2
  rw [x1] at k2
  simp only [Option.map_some, Option.some.injEq] at k2
  refine ⟨e₁, p₁, replace τ s, e₂, p₂, x1, by rw [k2], y1, ?_, ?_, ?_, ?_, ?_⟩
  · rw [x2, y2]; exact k3 _
  · rw [x2, y2]; exact k4 _ hip
  · intro hz
    rw [x2, y2]
    show dataLoc (locate { O with remap := false } R.events i s.pid) (replace τ s).addr = dataLoc (locate O evs i s.pid) s.addr
    simp only [replace] at hz ⊢
    cases hx : s.addr with
    | none => rfl
    | some d =>
      rw [hx] at hz
      by_cases hd0 : d = 0
      · simp [hd0, dataLoc]
      · have hd' : d < 2 ^ 64 := hlk d (by simp [lookups, hx, hd0])
        simp only [Option.map_some, if_neg hd0, Option.some.injEq, hd0, or_false, ne_eq] at hz
        simp only [Option.map_some, if_neg hd0, dataLoc]
        rw [if_neg (by simpa [hd0] using hz)]
        exact k4 d hd'
  · intro hm
    rw [x2] at hm
    have hmap : region O (before evs i) s.pid s.ip ≠ none := by
      intro hg
      apply hm
      show (locate O evs i s.pid s.ip).name = none
      unfold locate
      rw [hg]
    rw [x2, y2]
    show ((replace τ s).callchain.filter (fun a => isCode a && decide (a ≠ (replace τ s).ip))).map
      (locate { O with remap := false } R.events i s.pid) =
      (s.callchain.filter (fun a => isCode a && decide (a ≠ s.ip))).map (locate O evs i s.pid)
    rw [replace_chain s hr k5 k6 hip hmap, List.map_map]
    apply List.map_congr_left
    intro a ha
    have hc := (List.mem_filter.1 ha).2
    simp only [Bool.and_eq_true, isCode, decide_eq_true_eq] at hc
    exact k4 a (by omega)
  · intro hb
    rw [x2, y2]
    simp only [report]
    rw [replace_branches τ s hb, List.map_map]
    apply List.map_congr_left
    intro b hbm
    have h3 : b.src < 2 ^ 64 ∧ b.dst < 2 ^ 64 := by
      refine ⟨hlk _ ?_, hlk _ ?_⟩ <;>
      · simp only [lookups, List.mem_cons, List.mem_append, List.mem_flatMap]
        exact Or.inr (Or.inr ⟨b, hbm, by simp⟩)
    simp only [Function.comp]
    rw [show (replace τ s).pid = s.pid from rfl, k4 _ h3.1, k4 _ h3.2]

/-- Two files, a forked process with one more. -/
def exEvs2 : List Ev :=
  [exMm 1 0x10000 0x3000 0 "/a", exMm 1 0x20000 0x5000 0x1000 "/b", { type := 68 },
   { type := 3, comm := some { pid := 1, tid := 1, comm := ascii "one" } },
   { type := 7, fork := some { pid := 2, tid := 2, ppid := 1, ptid := 1 } },
   exMm 2 0x30000 0x5000 0 "/c", exSm 1 0x20010, exSm 2 0x30010, exSm 2 0x15000]

theorem ex2_hist (p : Nat) (qs : List Req) (h : hist exO (processed exEvs2).reverse p = some qs) : p = 1 ∨ p = 2 := by
  have h1 : (processed exEvs2).reverse = [exSm 2 0x15000, exSm 2 0x30010, exSm 1 0x20010, exMm 2 0x30000 0x5000 0 "/c",
      { type := 7, fork := some { pid := 2, tid := 2, ppid := 1, ptid := 1 } },
      { type := 3, comm := some { pid := 1, tid := 1, comm := ascii "one" } },
      exMm 1 0x20000 0x5000 0x1000 "/b", exMm 1 0x10000 0x3000 0 "/a"] := by decide +kernel
  rw [h1] at h
  by_cases hp1 : p = 1
  · exact Or.inl hp1
  by_cases hp2 : p = 2
  · exact Or.inr hp2
  exfalso
  simp [hist, exSm, exMm, exSample, isMmap, inherit, hp1, hp2] at h

theorem ex2_apart : NoOverlap exO exEvs2 := by
  have hd : ∀ (l : List Req), l.all (fun q => l.all (fun r => q.id == r.id || decide (q.real + q.size ≤ r.real ∨ r.real + r.size ≤ q.real))) = true →
      l.Pairwise (fun q r => q.id ≠ r.id) → l.Pairwise Apart := by
    intro l h1 h2
    refine List.Pairwise.imp_of_mem ?_ h2
    intro q r hq hr hne
    rw [List.all_eq_true] at h1
    have := h1 q hq
    rw [List.all_eq_true] at this
    have := this r hr
    simp only [Bool.or_eq_true, beq_iff_eq, decide_eq_true_eq] at this
    exact this.resolve_left hne
  intro p qs h
  have hids : ∀ p' ∈ [1, 2], ((hist exO (processed exEvs2).reverse p').getD []).all (fun q =>
        ((hist exO (processed exEvs2).reverse p').getD []).all (fun r => q.id == r.id ||
          decide (q.real + q.size ≤ r.real ∨ r.real + r.size ≤ q.real))) = true ∧
      (((hist exO (processed exEvs2).reverse p').getD []).map (·.id)).Pairwise (fun a b => a ≠ b) := by
    decide +kernel
  have hm : p ∈ [1, 2] := by rcases ex2_hist p qs h with rfl | rfl <;> simp
  have := hids p hm
  rw [h] at this
  simp only [Option.getD_some] at this
  exact hd qs this.1 (List.pairwise_map.1 this.2)

theorem ex2_ok : Sensible exO 0x5000 exEvs2 := by
  refine ⟨⟨12, by omega, rfl⟩, ?_, ?_, ?_⟩
  · have h : ∀ i : Nat, i < 8 → ∀ e, (processed exEvs2)[i]? = some e → isMmap e = true →
        (requestAt exO (before exEvs2 i) e).real < 2 ^ 63 ∧ (requestAt exO (before exEvs2 i) e).size ≤ 0x5000 := by
      decide +kernel
    intro i e hi hm
    have hlen : (processed exEvs2).length = 8 := by decide +kernel
    have hlt : i < 8 := by rw [← hlen]; exact (List.getElem?_eq_some_iff.1 hi).1
    obtain ⟨h1, h2⟩ := h i hlt e hi hm
    unfold Req.wf
    omega
  · decide +kernel
  · decide +kernel

/-- The hypotheses of `remap_keeps_meaning_partial` are met by the example, and addresses do change in it. -/
example : Sensible exO 0x5000 exEvs2 ∧ NoOverlap exO exEvs2 ∧ mmapCount exEvs2 * (0x5000 + 6 * exO.page) ≤ 2 ^ 63 ∧
    (parse exO exEvs2).map (fun R => R.parsed.filterMap (fun x => x.1.sample.map (fun s => (s.ip, x.2.here)))) =
      some [(0x3010, { name := some (ascii "/b"), offset := 0x1010 }), (0x8010, { name := some (ascii "/c"), offset := 0x10 }),
        (0x8000000000015000, {})] ∧
    ((parse exO exEvs2).bind (fun R => parse {} R.events)).map (fun R => R.parsed.filterMap (fun x => x.1.sample.map (fun s => (s.ip, x.2.here)))) =
      some [(0x3010, { name := some (ascii "/b"), offset := 0x1010 }), (0x8010, { name := some (ascii "/c"), offset := 0x10 }),
        (0x8000000000015000, {})] := by
  refine ⟨ex2_ok, ex2_apart, ?_, ?_, ?_⟩ <;> decide +kernel

/-- What is reported about the places of samples, first by remapping, then by parsing the remapped events. -/
def twice (evs : List Ev) : Option (List At × List At) :=
  (parse exO evs).bind (fun R => (parse {} R.events).map (fun R' =>
    (R.parsed.filterMap (fun x => x.1.sample.map (fun _ => x.2.here)), R'.parsed.filterMap (fun x => x.1.sample.map (fun _ => x.2.here)))))

/-- C89. If mappings overlap, a remapped recording may say something else: here a mapping event placed after the first
two were partly replaced gets the made-up addresses of one that is still in use, and a sample in /b is
found in /a. -/
theorem remap_overlap_violated :
    twice [exMm 1 0x10000 0x3000 0 "/a", exMm 1 0x20000 0x5000 0 "/b", exMm 1 0x10000 0x4000 0 "/d", exMm 1 0x22000 0x1000 0 "/c",
        { type := 9, sample := some { ip := 0x20010, pid := 1 } }] =
      some ([{ name := some (ascii "/b"), offset := 16 }], [{ name := some (ascii "/a"), offset := 16 }]) := by
  decide +kernel

/-- C89. The first mapping is moved to address 0, so a data address at its start becomes "no address", and a branch from
its start to its start becomes a null entry. -/
theorem remap_zero_violated :
    ((parse exO [exMm 1 0x10000 0x3000 0 "/a", { type := 9, sample := some { ip := 0x10008, pid := 1, addr := some 0x10000, branches := [{ src := 0x10000, dst := 0x10000 }] } }]).bind
      (fun R => (parse {} R.events).map (fun R' => (R.parsed.map (fun x => (x.2.data.name, x.2.branches.length)), R'.parsed.map (fun x => (x.2.data.name, x.2.branches.length)))))) =
      some ([(none, 0), (some (ascii "/a"), 1)], [(none, 0), (none, 0)]) := by
  decide +kernel

/-! ## The words of the specification, said outright -/

/-- C81. The addresses of a process of which nothing is known are looked up among the mappings given to the process
0xffffffff, those of the kernel. -/
theorem kernel_shared (O : Opts) (h : List Ev) (p : Nat) (hp : hist O h p = none) :
    rangesOf O h p = (hist O h 0xffffffff).getD [] := by
  have hk : kernelPid = 0xffffffff := rfl
  unfold rangesOf inherit
  rw [if_pos rfl, hp, hk]
  cases hist O h 0xffffffff <;> rfl

/-- C32. An entry of a branch stack is null if both of its addresses are 0. -/
theorem null_iff (b : Branch) : b.null = true ↔ b.src = 0 ∧ b.dst = 0 := by
  unfold Branch.null; simp

/-- C81. A mapping event asks for the range it names, at the offset it names; only the names of files with `jitted-`
in them may cut pages, and only with that option. -/
theorem request_plain (O : Opts) (h : List Ev) (e : Ev) (m : MMap) (hm : e.mmap = some m)
    (hk : (isKernelMmap e = true ∧ h.any isKernelMmap = false) → False) :
    (requestAt O h e).real = m.start ∧ (requestAt O h e).size = m.len ∧ (requestAt O h e).id = h.length ∧
      (requestAt O h e).off = m.pgoff ∧
      (requestAt O h e).allowUnaligned = (O.allowJit && contains (ascii "jitted-") m.filename) := by
  have : (isKernelMmap e && !h.any isKernelMmap) = false := by
    cases h1 : isKernelMmap e <;> cases h2 : h.any isKernelMmap <;> simp_all
  unfold requestAt
  rw [this, hm]
  exact ⟨rfl, rfl, rfl, rfl, rfl⟩

/-- A sample of an unknown process in a mapping of the kernel. -/
example : hist exO [exKernel] 7 = none ∧ (rangesOf exO [exKernel] 7).length = 1 := by decide +kernel

end Verif.Parser
