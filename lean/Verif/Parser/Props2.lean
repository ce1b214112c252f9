import Verif.Parser.Props

/-! # Properties of the parser: events, discarding, counters, aborts -/

namespace Verif.Parser
open Verif.AddressMapper (Req specRun specLookup specStep Piece newest)
open Verif.HugePages (MMap)

/-! ## The events of the reader -/

theorem putBack_types : ∀ (evs out : List Ev), out.map (·.type) = (relevant evs).map (·.type) →
    (putBack evs out).map (·.type) = evs.map (·.type) ∧ relevant (putBack evs out) = out ∧
    (putBack evs out).filter (fun e => e.type = 68) = evs.filter (fun e => e.type = 68)
  | [], out, h => by
    have : out = [] := by simpa [relevant] using h
    subst this
    exact ⟨rfl, rfl, rfl⟩
  | e :: t, out, h => by
    by_cases h68 : e.type = 68
    · have hrel : relevant (e :: t) = relevant t := by
        unfold relevant; rw [List.filter_cons_of_neg (by simp [h68])]
      rw [hrel] at h
      obtain ⟨h1, h2, h3⟩ := putBack_types t out h
      simp only [putBack, if_pos h68]
      refine ⟨by simp [h1], ?_, ?_⟩
      · have : relevant (e :: putBack t out) = relevant (putBack t out) := by
          unfold relevant; rw [List.filter_cons_of_neg (by simp [h68])]
        rw [this, h2]
      · rw [List.filter_cons_of_pos (by simp [h68]), List.filter_cons_of_pos (by simp [h68]), h3]
    · have hrel : relevant (e :: t) = e :: relevant t := by
        unfold relevant; rw [List.filter_cons_of_pos (by simp [h68])]
      rw [hrel] at h
      cases out with
      | nil => simp at h
      | cons x o =>
        simp only [List.map_cons, List.cons.injEq] at h
        obtain ⟨h1, h2, h3⟩ := putBack_types t o h.2
        have hx : ¬ x.type = 68 := by rw [h.1]; exact h68
        simp only [putBack, if_neg h68]
        refine ⟨by simp [h1, h.1], ?_, ?_⟩
        · have : relevant (x :: putBack t o) = x :: relevant (putBack t o) := by
            unfold relevant; rw [List.filter_cons_of_pos (by simp [hx])]
          rw [this, h2]
        · rw [List.filter_cons_of_neg (by simp [hx]), List.filter_cons_of_neg (by simp [h68]), h3]

theorem parsed_types {O : Opts} {S : Nat} {evs : List Ev} {R : Result} (hS : Sensible O S evs) (hd : O.discard = false)
    (h : parse O evs = some R) : (R.parsed.map (·.1)).map (·.type) = (relevant evs).map (·.type) := by
  obtain ⟨out, starts, h0, -, -, hlen, -, h1⟩ := parse_out hS hd h
  apply List.ext_getElem?
  intro i
  simp only [List.getElem?_map]
  by_cases hlt : i < (processed evs).length
  · have hi : (processed evs)[i]? = some (processed evs)[i] := List.getElem?_eq_getElem hlt
    obtain ⟨x, h2, h3, -⟩ := h1 i _ hi
    rw [h2]
    have : (relevant evs)[i]? = some (processed evs)[i] := by rw [← hi]; exact (takeWhile_get hlt).symm
    rw [this]
    simp [h3]
  · rw [h0, List.getElem?_append_right (by omega), List.getElem?_map, List.getElem?_drop, hlen]
    rw [show (processed evs).length + (i - (processed evs).length) = i by omega]
    cases (relevant evs)[i]? <;> rfl

/-- C82. Without discarding, no event is added, lost or moved: the types of the events of the recording stay what
they were, one by one, and the parsed events are the events but for the ends of rounds, which are left
alone. -/
theorem events_kept {O : Opts} {S : Nat} {evs : List Ev} {R : Result} (hS : Sensible O S evs) (hd : O.discard = false)
    (h : parse O evs = some R) : R.events.map (·.type) = evs.map (·.type) ∧ R.parsed.map (·.1) = relevant R.events ∧
    R.events.filter (fun e => e.type = 68) = evs.filter (fun e => e.type = 68) := by
  obtain ⟨out, starts, -, -, -, -, h5, -⟩ := parse_out hS hd h
  obtain ⟨h1, h2, h3⟩ := putBack_types evs _ (parsed_types hS hd h)
  rw [h5]
  exact ⟨h1, h2.symm, h3⟩

theorem putBack_self : ∀ (evs : List Ev), putBack evs (relevant evs) = evs
  | [] => rfl
  | e :: t => by
    by_cases h68 : e.type = 68
    · have hrel : relevant (e :: t) = relevant t := by
        unfold relevant; rw [List.filter_cons_of_neg (by simp [h68])]
      rw [hrel]
      simp only [putBack, if_pos h68, putBack_self t]
    · have hrel : relevant (e :: t) = e :: relevant t := by
        unfold relevant; rw [List.filter_cons_of_pos (by simp [h68])]
      rw [hrel]
      simp only [putBack, if_neg h68, putBack_self t]

theorem replace_id (s : Sample) {τ : Nat → Nat} (h : ∀ a, τ a = a) : replace τ s = s := by
  have h1 : s.addr.map (fun a => if a = 0 then 0 else τ a) = s.addr := by
    cases s.addr with
    | none => rfl
    | some a => simp only [Option.map_some, h]; split <;> simp [*]
  have h2 : s.callchain.map (fun a => if isCode a then τ a else a) = s.callchain := by
    simp only [h, ite_self, List.map_id']
  have h3 : s.branches.map (fun b => if NullsLast s.branches && !b.null then { b with src := τ b.src, dst := τ b.dst } else b) =
      s.branches := by
    simp only [h, ite_self, List.map_id']
  unfold replace
  rw [h1, h2, h3, h]

/-- C83. Without remapping and discarding, parsing leaves every event as it was. -/
theorem unchanged_without_remap {O : Opts} {S : Nat} {evs : List Ev} {R : Result} (hS : Sensible O S evs)
    (hd : O.discard = false) (hr : O.remap = false) (hm : ∀ e ∈ processed evs, isMmap e = true → e.mmap ≠ none)
    (h : parse O evs = some R) : R.events = evs := by
  obtain ⟨out, starts, h0, -, -, hlen, h5, h1⟩ := parse_out hS hd h
  have hp : R.parsed.map (·.1) = relevant evs := by
    apply List.ext_getElem?
    intro i
    simp only [List.getElem?_map]
    by_cases hlt : i < (processed evs).length
    · have hi : (processed evs)[i]? = some (processed evs)[i] := List.getElem?_eq_getElem hlt
      obtain ⟨x, h2, -, h3⟩ := h1 i _ hi
      have hrel : (relevant evs)[i]? = some (processed evs)[i] := by rw [← hi]; exact (takeWhile_get hlt).symm
      rw [h2, hrel]
      simp only [Option.map_some, Option.some.injEq]
      by_cases hmm : isMmap (processed evs)[i] = true
      · rw [(h3.mmap hmm).2.1]
        have := hm _ (List.getElem_mem hlt) hmm
        cases hmv : (processed evs)[i].mmap with
        | none => exact absurd hmv this
        | some m =>
          simp only [hr, Bool.false_eq_true, if_false, Option.getD_some]
          generalize (processed evs)[i] = e at hmv ⊢
          cases e
          simp only at hmv
          simp [hmv]
      · by_cases hs : (processed evs)[i].type = 9 → (processed evs)[i].sample = none
        · exact (h3.other (by simpa using hmm) hs).1
        · cases hsm : (processed evs)[i].sample with
          | none => exact absurd (fun _ => hsm) hs
          | some s =>
            have h9 : (processed evs)[i].type = 9 := Decidable.byContradiction fun h => hs fun h' => absurd h' h
            obtain ⟨-, τ, k1, k2, -⟩ := h3.sample h9 s hsm
            rw [k1, replace_id s (k2.off hr)]
            generalize (processed evs)[i] = e at hsm ⊢
            cases e
            simp only at hsm
            simp [hsm]
    · rw [h0, List.getElem?_append_right (by omega), List.getElem?_map, List.getElem?_drop, hlen]
      rw [show (processed evs).length + (i - (processed evs).length) = i by omega]
      cases (relevant evs)[i]? <;> rfl
  rw [h5, hp, putBack_self]

example : (∀ e ∈ processed exEvs, isMmap e = true → e.mmap ≠ none) ∧ Sensible {} 0x5000 exEvs ∧
    (parse {} exEvs).map (·.events) = some exEvs ∧ (parse exO exEvs).map (·.events) ≠ some exEvs := by
  refine ⟨?_, exOk _ rfl, ?_, ?_⟩ <;> decide +kernel

/-! ## C84: discarding -/

theorem uses_isSome (O : Opts) : ∀ (h : List Ev) (j : Nat), (usesAt O h j).isSome = (h.reverse[j]?).any isMmap
  | [], j => by simp [usesAt]
  | e :: h, j => by
    have ih := uses_isSome O h j
    have key : (e :: h).reverse[j]? = if j < h.length then h.reverse[j]? else if j = h.length then some e else none := by
      rw [List.reverse_cons]
      by_cases h1 : j < h.length
      · rw [if_pos h1, List.getElem?_append_left (by simpa using h1)]
      · rw [if_neg h1, List.getElem?_append_right (by simp; omega), List.length_reverse]
        by_cases h2 : j = h.length
        · simp [h2]
        · rw [if_neg h2, List.getElem?_eq_none (by simp; omega)]
    have hout : ¬ j < h.length → h.reverse[j]? = none := fun h1 => List.getElem?_eq_none (by simpa using h1)
    rw [key]
    simp only [usesAt]
    by_cases h9 : e.type = 9
    · have hm : isMmap e = false := by simp [isMmap, h9]
      have h0 : (usesAt O h j).isSome = (if j < h.length then h.reverse[j]? else if j = h.length then some e else none).any isMmap := by
        rw [ih]
        by_cases h1 : j < h.length
        · rw [if_pos h1]
        · rw [if_neg h1, hout h1]
          split <;> simp [hm]
      rw [if_pos h9, ← h0]
      cases e.sample <;> simp
    · rw [if_neg h9]
      by_cases h2 : isMmap e = true ∧ j = h.length
      · rw [if_pos h2, if_neg (by omega), if_pos h2.2]
        simp [h2.1]
      · rw [if_neg h2, ih]
        by_cases h1 : j < h.length
        · rw [if_pos h1]
        · rw [if_neg h1, hout h1]
          split
          · rename_i h3
            have : isMmap e = false := by
              cases hm : isMmap e with
              | false => rfl
              | true => exact absurd ⟨hm, h3⟩ h2
            simp [this]
          · rfl

theorem dropUnused_spec (hits : Nat → Option Nat) : ∀ (out : List (Ev × Parsed)) (i : Nat),
    (∀ j x, out[j]? = some x → x.1.mmap.isSome = (hits (i + j)).isSome) →
    dropUnused hits i out = some (((out.zipIdx i).filter (fun y => hits y.2 ≠ some 0)).map (·.1))
  | [], i, _ => rfl
  | x :: t, i, h => by
    have ih := dropUnused_spec hits t (i + 1) (by
      intro j y hy
      have := h (j + 1) y (by simpa using hy)
      rw [show i + 1 + j = i + (j + 1) by omega]; exact this)
    have h0 := h 0 x rfl
    simp only [Nat.add_zero] at h0
    rw [List.zipIdx_cons]
    simp only [dropUnused, unused, ih]
    cases hh : hits i with
    | none =>
      rw [hh] at h0
      simp only [Option.isSome_none] at h0
      rw [List.filter_cons_of_pos (by simp [hh])]
      simp [h0]
    | some n =>
      rw [hh] at h0
      simp only [Option.isSome_some] at h0
      cases n with
      | zero =>
        rw [List.filter_cons_of_neg (by simp [hh])]
        simp [h0]
      | succ n =>
        rw [List.filter_cons_of_pos (by simp [hh])]
        simp [h0]

/-- How many addresses of samples lie in the mapping event with a given index. -/
def uses (O : Opts) (evs : List Ev) (i : Nat) : Option Nat := usesAt O (processed evs).reverse i

theorem Sensible.discard {O : Opts} {S : Nat} {evs : List Ev} (h : Sensible O S evs) (b : Bool) :
    Sensible { O with discard := b } S evs := ⟨h.page, h.ranges, h.room, h.samples⟩

/-- C84. Discarding drops exactly the mapping events that no looked-up address of a sample lies in, and the ends of
rounds; the other events and what is reported about them are the same as without discarding. -/
theorem discard_drops_unused {O : Opts} {S : Nat} {evs : List Ev} {R : Result} (hS : Sensible O S evs) (hd : O.discard = false)
    (h : parse O evs = some R) (hk : ∀ e ∈ relevant evs, known e = true)
    (hw : ∀ e ∈ relevant evs, e.mmap ≠ none → isMmap e = true) :
    ∃ R', parse { O with discard := true } evs = some R' ∧ R'.events = R'.parsed.map (·.1) ∧ R'.stats = R.stats ∧
      R'.parsed = (R.parsed.zipIdx.filter (fun y => uses O evs y.2 ≠ some 0)).map (·.1) := by
  obtain ⟨st, h1, h2, h3⟩ := parse_keeps hd h
  rcases parse_loop hS with ⟨g1, -⟩ | ⟨st', out, starts, g1, g2, g3, g4⟩
  · rw [h1] at g1; cases g1
  rw [h1] at g1
  simp only [Option.some.injEq, Prod.mk.injEq] at g1
  obtain ⟨e1, rfl, e3⟩ := g1
  have hpr : processed evs = relevant evs := by
    unfold processed
    generalize relevant evs = l at hk ⊢
    induction l with
    | nil => rfl
    | cons a l ih =>
      rw [List.takeWhile_cons_of_pos (hk a (by simp)), ih (fun e he => hk e (by simp [he]))]
  have hout : R.parsed = out := by rw [e3, hpr]; simp
  have hmm : ∀ j x, R.parsed[j]? = some x → x.1.mmap.isSome = (st.hits (0 + j)).isSome := by
    intro j x hx
    rw [Nat.zero_add, g2.hits, uses_isSome, List.reverse_reverse]
    have hlt : j < (processed evs).length := by
      rw [← g3, ← hout]; exact (List.getElem?_eq_some_iff.1 hx).1
    have hj : (processed evs)[j]? = some (processed evs)[j] := List.getElem?_eq_getElem hlt
    obtain ⟨y, k1, -, k2⟩ := g4 j _ hj
    rw [hout, k1] at hx
    simp only [Option.some.injEq] at hx
    subst hx
    rw [hj]
    show _ = isMmap (processed evs)[j]
    by_cases hm : isMmap (processed evs)[j] = true
    · rw [(k2.mmap hm).2.1, hm]; rfl
    · have hnone : (processed evs)[j].mmap = none := by
        cases hmv : (processed evs)[j].mmap with
        | none => rfl
        | some m => exact absurd (hw _ (by rw [← hpr]; exact List.getElem_mem hlt) (by simp [hmv])) hm
      have : y.1.mmap = (processed evs)[j].mmap := by
        by_cases hs : (processed evs)[j].type = 9 → (processed evs)[j].sample = none
        · rw [(k2.other (by simpa using hm) hs).1]
        · cases hsm : (processed evs)[j].sample with
          | none => exact absurd (fun _ => hsm) hs
          | some s =>
            have h9 : (processed evs)[j].type = 9 := Decidable.byContradiction fun h => hs fun h' => absurd h' h
            obtain ⟨-, τ, k1, -⟩ := k2.sample h9 s hsm
            rw [k1]
      rw [this, hnone]
      simpa using hm
  have hdrop := dropUnused_spec st.hits R.parsed 0 hmm
  have hl : loop { O with discard := true } (relevant evs) 0 {} (relevant evs) = some (R.complete, st, R.parsed) := by
    rw [loop_discard]; exact h1
  let kept := (R.parsed.zipIdx.filter (fun y => st.hits y.2 ≠ some 0)).map (·.1)
  let R' : Result := ⟨kept.map (·.1), kept, st.stats, R.complete⟩
  refine ⟨R', ?_, ?_, ?_, ?_⟩
  · have hl' : loop { O with discard := true } (evs.filter (·.type ≠ 68)) 0 {} (evs.filter (·.type ≠ 68)) =
        some (R.complete, st, R.parsed) := hl
    simp only [parse, hl', if_true, hdrop]
    rfl
  · rfl
  · exact h2.symm
  · show (R.parsed.zipIdx.filter (fun y => st.hits y.2 ≠ some 0)).map (·.1) = _
    rw [show st.hits = usesAt O (processed evs).reverse from funext g2.hits]
    rfl

/-- In the example the mapping events of /a, /b and /c are used; one more is not. -/
example : (parse { exO with discard := true } (exMm 1 0x50000 0x1000 0 "/unused" :: exEvs)).map
      (fun R => R.events.map (fun e => ((e.mmap.getD {}).filename))) =
    some [ascii "/a", ascii "/b", [], [], ascii "/c", [], [], []] ∧
    (∀ e ∈ relevant (exMm 1 0x50000 0x1000 0 "/unused" :: exEvs), known e = true) ∧
    (∀ e ∈ relevant (exMm 1 0x50000 0x1000 0 "/unused" :: exEvs), e.mmap ≠ none → isMmap e = true) := by
  refine ⟨?_, ?_, ?_⟩ <;> decide +kernel

/-! ## C85: counters -/

/-- C85. The counters are the numbers of events of each kind, of samples all of whose code addresses are in mappings,
of samples with a data address, and of those whose data address is in a mapping. -/
theorem counters {O : Opts} {S : Nat} {evs : List Ev} {R : Result} (hS : Sensible O S evs) (hd : O.discard = false)
    (h : parse O evs = some R) :
    R.stats.samples = (processed evs).countP (fun e => e.type = 9) ∧
    R.stats.mmaps = (processed evs).countP isMmap ∧
    R.stats.forks = (processed evs).countP (fun e => e.type = 7) ∧
    R.stats.comms = (processed evs).countP (fun e => e.type = 3) ∧
    R.stats.exits = (processed evs).countP (fun e => e.type = 4) ∧
    R.stats.ksymbols = (processed evs).countP (fun e => e.type = 17) ∧
    R.stats = statsAt O (processed evs).reverse ∧ R.stats.mapped ≤ R.stats.samples ∧
    R.stats.dataMapped ≤ R.stats.dataSamples ∧ R.stats.dataSamples ≤ R.stats.samples := by
  obtain ⟨out, starts, -, -, h3, -, -, -⟩ := parse_out hS hd h
  have key : ∀ l : List Ev,
      (statsAt O l).samples = l.countP (fun e => e.type = 9) ∧ (statsAt O l).mmaps = l.countP isMmap ∧
      (statsAt O l).forks = l.countP (fun e => e.type = 7) ∧ (statsAt O l).comms = l.countP (fun e => e.type = 3) ∧
      (statsAt O l).exits = l.countP (fun e => e.type = 4) ∧ (statsAt O l).ksymbols = l.countP (fun e => e.type = 17) ∧
      (statsAt O l).mapped ≤ (statsAt O l).samples ∧ (statsAt O l).dataMapped ≤ (statsAt O l).dataSamples ∧
      (statsAt O l).dataSamples ≤ (statsAt O l).samples := by
    intro l
    induction l with
    | nil => simp [statsAt]
    | cons e t ih =>
      obtain ⟨i1, i2, i3, i4, i5, i6, i7, i8, i9⟩ := ih
      simp only [statsAt]
      by_cases h9 : e.type = 9
      · have hm : isMmap e = false := by simp [isMmap, h9]
        cases hs : e.sample with
        | none =>
          simp only [h9, if_true, List.countP_cons, hm]
          simp
          omega
        | some s =>
          simp only [h9, if_true, List.countP_cons, hm, sampleStats]
          have hd : (s.addr.filter (· ≠ 0)).toList.length ≤ 1 := by cases s.addr.filter (· ≠ 0) <;> simp
          have hf := List.length_filter_le (fun a => (region O t s.pid a).isSome) (s.addr.filter (· ≠ 0)).toList
          have hc : (if allMapped (region O t s.pid) s then 1 else 0) ≤ 1 := by split <;> omega
          simp only [decide_true, if_true, show ¬ (9 : Nat) = 7 by omega, show ¬ (9 : Nat) = 3 by omega,
            show ¬ (9 : Nat) = 4 by omega, show ¬ (9 : Nat) = 17 by omega, decide_false, Bool.false_eq_true, if_false]
          omega
      · by_cases hm : isMmap e = true
        · have : e.type = 1 ∨ e.type = 10 := by simpa [isMmap] using hm
          have h7 : ¬ e.type = 7 := by omega
          have h3 : ¬ e.type = 3 := by omega
          have h4 : ¬ e.type = 4 := by omega
          have h17 : ¬ e.type = 17 := by omega
          simp only [if_neg h9, if_pos hm, List.countP_cons, h9, hm, h7, h3, h4, h17, decide_false, Bool.false_eq_true, if_false, if_true]
          omega
        · have hm' : isMmap e = false := by simpa using hm
          simp only [if_neg h9, hm', Bool.false_eq_true, if_false, List.countP_cons, h9, decide_false]
          by_cases h7 : e.type = 7
          · have h3 : ¬ e.type = 3 := by omega
            have h4 : ¬ e.type = 4 := by omega
            have h17 : ¬ e.type = 17 := by omega
            simp only [if_pos h7, h7, decide_true, if_true]
            simp
            omega
          · by_cases h4 : e.type = 4
            · simp only [h4]
              simp
              omega
            · by_cases h3 : e.type = 3
              · simp only [h3]
                simp
                omega
              · by_cases h17 : e.type = 17
                · simp only [h17]
                  simp
                  omega
                · simp only [h7, h4, h3, h17, decide_false, Bool.false_eq_true, if_false]
                  omega
  obtain ⟨k1, k2, k3, k4, k5, k6, k7, k8, k9⟩ := key (processed evs).reverse
  rw [h3]
  simp only [List.countP_reverse] at k1 k2 k3 k4 k5 k6
  exact ⟨k1, k2, k3, k4, k5, k6, rfl, k7, k8, k9⟩

example : (parse exO exEvs).map (·.stats) = some { samples := 3, mmaps := 3, comms := 1, forks := 1, dataSamples := 3, dataMapped := 3 } ∧
    (parse {} [exMm 1 0x10000 0x3000 0 "/a", { type := 9, sample := some { ip := 0x10000, pid := 1 } }]).map (·.stats.mapped) = some 1 := by
  decide +kernel

/-! ## C86: aborts -/

/-- C86. Parsing fails exactly if some mapping event before the first event of unknown type is refused, because it has
no size, goes over the end of memory, or cuts another mapping of its process inside a page. -/
theorem fails_iff_refused {O : Opts} {S : Nat} {evs : List Ev} (hS : Sensible O S evs) (hd : O.discard = false) :
    parse O evs = none ↔ ∃ i e, (processed evs)[i]? = some e ∧ isMmap e = true ∧ accepted O (before evs i) e = false := by
  constructor
  · intro h
    rcases parse_loop hS with ⟨-, i, e, h1, h2, h3⟩ | ⟨st, out, starts, g1, -⟩
    · exact ⟨i, e, h1, h2, h3⟩
    · exfalso
      unfold parse at h
      simp only [hd, Bool.false_eq_true, if_false] at h
      change (match loop O (relevant evs) 0 {} (relevant evs) with | none => none | some (complete, st, out) => _) = _ at h
      rw [g1] at h
      cases h
  · rintro ⟨i, e, h1, h2, h3⟩
    cases h : parse O evs with
    | none => rfl
    | some R =>
      have := all_accepted hS hd h h1 h2
      rw [h3] at this; cases this

/-- What refusal means: the answer of the specification of the address mapper, spelt out. -/
theorem refused_iff (O : Opts) (h : List Ev) (e : Ev) : accepted O h e = false ↔
    (requestAt O h e).size = 0 ∨ 2 ^ 64 < (requestAt O h e).real + (requestAt O h e).size ∨
    ∃ p ∈ (specRun O.page [] (rangesOf O h ((e.mmap.getD {}).pid.getD 0))).2,
      p.encloses (requestAt O h e) = true ∧ p.cutsPage O.page (requestAt O h e) = true := by
  unfold accepted specStep
  split
  · rename_i h1
    simp only [true_iff]
    rcases h1 with h1 | h1
    · exact Or.inl h1
    · exact Or.inr (Or.inl h1)
  · rename_i h1
    have h2 := not_or.1 h1
    split
    · rename_i h3
      rw [List.any_eq_true] at h3
      obtain ⟨p, hp, h4⟩ := h3
      simp only [Bool.and_eq_true] at h4
      simp only [true_iff]
      exact Or.inr (Or.inr ⟨p, hp, h4⟩)
    · rename_i h3
      simp only [Bool.true_eq_false, false_iff, not_or]
      refine ⟨h2.1, h2.2, ?_⟩
      rintro ⟨p, hp, h4⟩
      exact h3 (by rw [List.any_eq_true]; exact ⟨p, hp, by simp [h4]⟩)

/-- C86. A mapping event of size 0, or one that cuts another mapping inside a page, makes the whole conversion abort
(unless it is a JIT mapping and those are allowed). -/
theorem abort_violated :
    (parse {} [exMm 1 0x10000 0 0 "/a"]).isNone = true ∧
    (parse {} [exMm 1 0x10000 0x3000 0 "/a", exMm 1 0x10800 0x100 0 "/b"]).isNone = true ∧
    (parse { allowJit := true } [exMm 1 0x10000 0x3000 0 "/a", exMm 1 0x10800 0x100 0 "/tmp/jitted-1.so"]).isSome = true ∧
    Sensible {} 0x5000 [exMm 1 0x10000 0x3000 0 "/a", exMm 1 0x10800 0x100 0 "/b"] := by
  refine ⟨by decide +kernel, by decide +kernel, by decide +kernel, ⟨12, by omega, rfl⟩, ?_, by decide +kernel, ?_⟩
  · intro i e hi hm
    match i with
    | 0 => simp [processed, relevant, exMm, known] at hi; subst hi; unfold Req.wf; decide +kernel
    | 1 => simp [processed, relevant, exMm, known] at hi; subst hi; unfold Req.wf; decide +kernel
    | n + 2 => simp [processed, relevant, exMm, known] at hi
  · intro e he s hs
    simp [processed, relevant, exMm, known] at he
    rcases he with rfl | rfl <;> cases hs

/-! ## C87: events of unknown types -/

/-- C87. From the first event of a type the parser does not know on, nothing is looked at: the events stay as they
were and nothing is reported about them. That some were not looked at is noted. -/
theorem unknown_stops {O : Opts} {S : Nat} {evs : List Ev} {R : Result} (hS : Sensible O S evs) (hd : O.discard = false)
    (h : parse O evs = some R) : (R.complete = true ↔ ∀ e ∈ relevant evs, known e = true) ∧
    ∀ i e, (relevant evs)[i]? = some e → (processed evs).length ≤ i → R.parsed[i]? = some (e, {}) := by
  obtain ⟨out, starts, h0, h1, -, hlen, -, -⟩ := parse_out hS hd h
  constructor
  · rw [h1, List.all_eq_true]
  · intro i e hi hle
    rw [h0, List.getElem?_append_right (by omega), List.getElem?_map, List.getElem?_drop, hlen]
    rw [show (processed evs).length + (i - (processed evs).length) = i by omega, hi]
    rfl

/-- C87. So with remapping, the addresses of samples after an event of a type such as `PERF_RECORD_TEXT_POKE` are not
replaced, although parsing succeeds; and with discarding, a later mapping event makes the program read
an uninitialised counter. -/
theorem unknown_leaks_violated :
    (parse exO [exMm 1 0x10000 0x3000 0 "/a", { type := 20 }, exSm 1 0x10010]).map (fun R => R.events.filterMap (fun e => e.sample.map (·.ip))) =
      some [0x10010] ∧
    (parse exO [exMm 1 0x10000 0x3000 0 "/a", exSm 1 0x10010]).map (fun R => R.events.filterMap (fun e => e.sample.map (·.ip))) =
      some [0x10] ∧
    (parse { discard := true } [{ type := 20 }, exMm 1 0x10000 0x3000 0 "/a"]).isNone = true := by
  refine ⟨?_, ?_, ?_⟩ <;> decide +kernel

end Verif.Parser
