import Verif.AddressMapper.Run

/-!
# Properties C03–C06, C51, C52 of `AddressMapper`

Every theorem speaks about `runFrom`, a list of `MapWithID` calls on a freshly constructed mapper, and about
the two lookup functions.
-/

namespace Verif.AddressMapper

/-- A fresh mapper with the given page alignment. -/
abbrev fresh (align : Nat) : State := ⟨align, [], [], 0⟩

/-- The constructor accepts `0` and powers of two, and only those. -/
theorem new_ok {align : Nat} (h : AlignOK align) : new align = some (fresh align) := by
  unfold new
  rw [if_pos]
  rcases h with h | ⟨k, _, hk⟩
  · exact Or.inl h
  · right
    rw [hk, Nat.and_two_pow_sub_one_eq_mod, Nat.mod_self]

/-- **C03**, no undefined behaviour and injectivity: two different real addresses never get the same
remapped address, whatever the history of requests (including refused ones). -/
theorem C03_injective (align S : Nat) (qs : List Req) (ha : AlignOK align) (hw : ∀ q ∈ qs, q.wf)
    (hroom : RoomFor align S qs) :
    ∃ bs s, runFrom (fresh align) qs = some (bs, s) ∧
      ∀ a b m, a < 2 ^ 64 → b < 2 ^ 64 → getMappedAddress s a = some (some m) →
        getMappedAddress s b = some (some m) → a = b := by
  obtain ⟨bs, s, r1, r2, _⟩ := run_new align S qs ha hw hroom
  refine ⟨bs, s, r1, ?_⟩
  intro a b m ha hb h1 h2
  rcases get_spec r2 a ha with ⟨x, hx, x1, x2, _, x3, _⟩ | ⟨_, _, x3⟩
  · rcases get_spec r2 b hb with ⟨y, hy, y1, y2, _, y3, _⟩ | ⟨_, _, y3⟩
    · rw [x3] at h1
      rw [y3] at h2
      injection h1 with h1; injection h1 with h1
      injection h2 with h2; injection h2 with h2
      by_cases hxy : x = y
      · subst hxy; omega
      · rcases pairwise_mem r2.chain.sorted hx hy hxy with h | h <;> omega
    · rw [y3] at h2; simp at h2
  · rw [x3] at h1; simp at h1

/-- **C03**, distances: inside one surviving piece of a request, remapped addresses keep their distance. -/
theorem C03_distance (align S : Nat) (qs : List Req) (ha : AlignOK align) (hw : ∀ q ∈ qs, q.wf)
    (hroom : Roomy align S qs) :
    ∃ bs s, runFrom (fresh align) qs = some (bs, s) ∧
      ∀ p ∈ (specRun align [] qs).2, ∀ a b, p.has a = true → p.has b = true → a ≤ b → b < 2 ^ 64 →
        ∃ m, getMappedAddress s a = some (some m) ∧ getMappedAddress s b = some (some (m + (b - a))) := by
  obtain ⟨bs, s, r1, r2, _, _, r5⟩ := run_new align S qs ha hw (Or.inr hroom)
  refine ⟨bs, s, r1, ?_⟩
  obtain ⟨_, hc⟩ := r5 (Or.inl hroom)
  intro p hp a b h1 h2 hab hb
  unfold Piece.has at h1 h2
  simp only [decide_eq_true_eq] at h1 h2
  obtain ⟨z, hz, e1, e2, _⟩ := hc.piece hp
  have same : ∀ c x, x ∈ s.list → x.r.real ≤ c → c < x.r.real + x.r.size → z.r.real ≤ c →
      c < z.r.real + z.r.size → x = z := by
    intro c x hx c1 c2 c3 c4
    by_cases hxz : x = z
    · exact hxz
    · have := r2.disj_mem hx hz hxz
      unfold RealDisj at this
      omega
  rcases get_spec r2 a (by simp only [W]; omega) with ⟨x, hx, x1, x2, _, x3, _⟩ | ⟨x1, _⟩
  · rcases get_spec r2 b (by simp only [W]; omega) with ⟨y, hy, y1, y2, _, y3, _⟩ | ⟨y1, _⟩
    · rw [same a x hx x1 x2 (by omega) (by omega)] at x3 x1
      rw [same b y hy y1 y2 (by omega) (by omega)] at y3 y1
      refine ⟨_, x3, ?_⟩
      rw [y3]
      congr 2
      omega
    · exact absurd ⟨by omega, by omega⟩ (y1 z hz)
  · exact absurd ⟨by omega, by omega⟩ (x1 z hz)

/-- **C04**, refinement: as long as the remapped space is not exhausted, the answers of all requests and all
later lookups are those of the piece specification. -/
theorem C04_refines_pieces (align S : Nat) (qs : List Req) (ha : AlignOK align) (hw : ∀ q ∈ qs, q.wf)
    (hroom : Roomy align S qs) :
    ∃ s, runFrom (fresh align) qs = some ((specRun align [] qs).1, s) ∧
      ∀ a, a < 2 ^ 64 → (getMappedAddressIDAndOffset s a).map (·.map (·.2)) =
        some (specLookup (specRun align [] qs).2 a) := by
  obtain ⟨bs, s, r1, r2, _, _, r5⟩ := run_new align S qs ha hw (Or.inr hroom)
  obtain ⟨h1, h2⟩ := r5 (Or.inl hroom)
  refine ⟨s, by rw [r1, h1], ?_⟩
  intro a ha
  exact corr_lookup r2 h2 a ha

/-- **C04**, without page alignment no room is needed: if all requests succeeded, lookups are those of the
specification. -/
theorem C04_refines_pieces_unaligned (qs : List Req) (hw : ∀ q ∈ qs, q.wf) :
    ∃ bs s, runFrom (fresh 0) qs = some (bs, s) ∧ ((∀ b ∈ bs, b = true) →
      ∀ a, a < 2 ^ 64 → (getMappedAddressIDAndOffset s a).map (·.map (·.2)) =
        some (specLookup (specRun 0 [] qs).2 a)) := by
  obtain ⟨bs, s, r1, r2, _, _, r5⟩ := run_new 0 0 qs (Or.inl rfl) hw (Or.inl rfl)
  refine ⟨bs, s, r1, ?_⟩
  intro hb a ha
  exact corr_lookup r2 (r5 (Or.inr hb)).2 a ha

/-- **C04**, newest wins: every address that translates reports the id and offset of the most recent accepted
request whose range contains it. -/
theorem C04_newest_wins (align S : Nat) (qs : List Req) (ha : AlignOK align) (hw : ∀ q ∈ qs, q.wf)
    (hroom : Roomy align S qs) :
    ∃ bs s, runFrom (fresh align) qs = some (bs, s) ∧
      ∀ a m v, a < 2 ^ 64 → getMappedAddressIDAndOffset s a = some (some (m, v)) →
        newest (qs.zip bs) a = some v := by
  obtain ⟨s, h1, h2⟩ := C04_refines_pieces align S qs ha hw hroom
  refine ⟨_, s, h1, ?_⟩
  intro a m v ha hg
  have h3 := h2 a ha
  rw [hg] at h3
  simp only [Option.map_some, Option.some.injEq] at h3
  have hl := h3.symm
  unfold specLookup at hl
  rw [Option.map_eq_some_iff] at hl
  obtain ⟨p, hp, hv⟩ := hl
  have hn := run_newest align qs [] [] (by simp) p (List.mem_of_find?_eq_some hp) a
    (by simpa using List.find?_some hp)
  rw [List.nil_append] at hn
  rw [hn, hv]

/-- **C04**, the newest request itself always translates: an address of the last request, if it was accepted,
is found. -/
theorem C04_last_request_found (align S : Nat) (qs : List Req) (q : Req) (ha : AlignOK align)
    (hw : ∀ r ∈ qs ++ [q], r.wf) (hroom : Roomy align S (qs ++ [q])) :
    ∃ bs b s, runFrom (fresh align) (qs ++ [q]) = some (bs ++ [b], s) ∧
      (b = true → ∀ a, q.has a = true → a < 2 ^ 64 →
        ∃ m, getMappedAddressIDAndOffset s a = some (some (m, q.piece.value a))) := by
  have hsnoc : ∀ (qs : List Req) ps, specRun align ps (qs ++ [q]) =
      ((specRun align ps qs).1 ++ [(specStep align (specRun align ps qs).2 q).1],
        (specStep align (specRun align ps qs).2 q).2) := by
    intro qs
    induction qs with
    | nil => intro ps; simp [specRun]
    | cons r qs ih => intro ps; simp [specRun, ih]
  obtain ⟨s, h1, h2⟩ := C04_refines_pieces align S (qs ++ [q]) ha hw hroom
  refine ⟨_, _, s, by rw [h1, hsnoc], ?_⟩
  intro hb a hq hlt
  obtain ⟨bs', s', g1, g2⟩ := C04_newest_wins align S (qs ++ [q]) ha hw hroom
  rw [h1] at g1
  have hbs : bs' = (specRun align [] (qs ++ [q])).1 := by injection g1 with g1; injection g1 with g1 _; exact g1.symm
  have hss : s = s' := by injection g1 with g1; injection g1
  have h3 := h2 a hlt
  have hmem : q.piece ∈ (specRun align [] (qs ++ [q])).2 := by
    rw [hsnoc]
    simp only
    unfold specStep at hb ⊢
    split
    · rename_i hh; rw [if_pos hh] at hb; cases hb
    · rename_i hh
      rw [if_neg hh] at hb
      split
      · rename_i hh2; rw [if_pos hh2] at hb; cases hb
      · simp
  have hne : ∃ v, specLookup (specRun align [] (qs ++ [q])).2 a = some v := by
    unfold specLookup
    cases hf : (specRun align [] (qs ++ [q])).2.find? (fun p => p.has a) with
    | none =>
      exfalso
      rw [List.find?_eq_none] at hf
      exact hf _ hmem hq
    | some p => exact ⟨_, rfl⟩
  obtain ⟨v, hv⟩ := hne
  rw [hv] at h3
  cases hgm : getMappedAddressIDAndOffset s a with
  | none => rw [hgm] at h3; simp at h3
  | some o =>
    cases o with
    | none => rw [hgm] at h3; simp at h3
    | some mv =>
      obtain ⟨m, w⟩ := mv
      rw [hss] at hgm
      have hn := g2 a m w hlt hgm
      rw [hbs] at hn
      have hn2 : newest ((qs ++ [q]).zip (specRun align [] (qs ++ [q])).1) a = some (q.piece.value a) := by
        rw [hsnoc]
        simp only
        rw [List.zip_append (by
          have : ∀ (qs : List Req) ps, (specRun align ps qs).1.length = qs.length := by
            intro qs
            induction qs with
            | nil => intro ps; rfl
            | cons r qs ih => intro ps; simp [specRun, ih]
          rw [this])]
        simp only [List.zip_cons_cons, List.zip_nil_left]
        rw [newest_snoc, hb, hq]
        simp
      rw [hn] at hn2
      injection hn2 with hn2
      exact ⟨m, by rw [← hn2]⟩

/-- **C04**: the stronger claim that an address keeps translating as long as *some* accepted request contains
it is false: a request that overlaps an older one only partly makes all of the older one disappear.  Here
`[0,100)` and then `[50,150)`: address 10 is no longer mapped. -/
theorem C04_partial_overlap_drops_violated :
    ∃ (qs : List Req) (s : State) (bs : List Bool) (a : Nat),
      (∀ q ∈ qs, q.wf) ∧ runFrom (fresh 0) qs = some (bs, s) ∧ (∀ b ∈ bs, b = true) ∧
      newest (qs.zip bs) a ≠ none ∧ getMappedAddressIDAndOffset s a = some none := by
  refine ⟨[⟨0, 100, 1, 0, true⟩, ⟨50, 100, 2, 0, true⟩],
    ⟨0, [⟨1, ⟨50, 0, 100, 2, 0, 18446744073709551515⟩⟩], [(50, 1)], 2⟩, [true, true], 10, ?_⟩
  refine ⟨?_, by decide +kernel, by simp, by decide +kernel, by decide +kernel⟩
  intro q hq
  simp only [List.mem_cons, List.not_mem_nil, or_false] at hq
  rcases hq with rfl | rfl <;> unfold Req.wf <;> simp

/-- **C05**: with a non-zero page alignment remapping keeps the offset in the page, after any history. -/
theorem C05_page_offset (align S : Nat) (qs : List Req) (ha : AlignOK align) (h0 : align ≠ 0)
    (hw : ∀ q ∈ qs, q.wf) (hroom : Roomy align S qs) :
    ∃ bs s, runFrom (fresh align) qs = some (bs, s) ∧
      ∀ a m, a < 2 ^ 64 → getMappedAddress s a = some (some m) → m % align = a % align := by
  obtain ⟨bs, s, r1, r2, r3, _⟩ := run_new align S qs ha hw (Or.inr hroom)
  refine ⟨bs, s, r1, ?_⟩
  intro a m ha h1
  rcases get_spec r2 a ha with ⟨x, hx, x1, x2, _, x3, _⟩ | ⟨_, _, x3⟩
  · rw [x3] at h1
    injection h1 with h1; injection h1 with h1
    have hp := r2.page (by rw [r3]; exact h0) x hx
    rw [r3] at hp
    rw [← h1, Nat.add_mod, hp, ← Nat.add_mod]
    congr 1
    omega
  · rw [x3] at h1; simp at h1

/-- **C06** (what holds): a request refused for its size or for overflowing the address space leaves the
mapper exactly as it was, in any state whatsoever. Missing: the other refusals, see `C06_violated`. -/
theorem C06_early_refusal_partial (s : State) (q : Req) (hw : q.wf)
    (h : q.size = 0 ∨ 2 ^ 64 < q.real + q.size) : mapWithID s q = some (false, s) :=
  map_refused hw h

/-- **C06** (what holds): any refused request only loses addresses of the one range that properly contains
it; every other address translates as before. -/
theorem C06_refusal_is_local_partial (align S : Nat) (qs : List Req) (q : Req) (ha : AlignOK align)
    (hw : ∀ r ∈ qs ++ [q], r.wf) (hroom : Roomy align S (qs ++ [q])) :
    ∃ bs s b s', runFrom (fresh align) qs = some (bs, s) ∧ mapWithID s q = some (b, s') ∧
      (b = false → ∀ a, a < 2 ^ 64 →
        (∀ p ∈ (specRun align [] qs).2, p.encloses q = true → p.has a = false) →
        getMappedAddressIDAndOffset s' a = getMappedAddressIDAndOffset s a) := by
  have hlen : (qs ++ [q]).length = qs.length + 1 := by simp
  have hr1 : Roomy align S qs := by
    refine ⟨fun r hr => hroom.1 r (by simp [hr]), ?_⟩
    have := hroom.2
    rw [hlen, Nat.add_mul] at this
    omega
  obtain ⟨bs, s, r1, r2, r3, _, r5⟩ := run_new align S qs ha (fun r hr => hw r (by simp [hr])) (Or.inr hr1)
  obtain ⟨_, hc⟩ := r5 (Or.inl hr1)
  -- the state is below the bound needed for one more request
  have hz : ∀ n, Below ([] : List Node) n := by intro n x hx; simp at hx
  have hz' : ∀ n, Small ([] : List Node) n := by intro n x hx; simp at hx
  have hbound : ∃ bs' s'', runFrom (fresh align) qs = some (bs', s'') ∧
      Below s''.list (qs.length * (S + 6 * align)) ∧ Small s''.list S := by
    have gen : ∀ (l : List Req) (s0 : State) (h : Nat), Inv s0 → (∀ r ∈ l, r.wf) → (∀ r ∈ l, r.size ≤ S) →
        Below s0.list h → Small s0.list S → h + l.length * (S + 6 * s0.align) < W →
        ∃ bs' s'', runFrom s0 l = some (bs', s'') ∧ Below s''.list (h + l.length * (S + 6 * s0.align)) ∧
          Small s''.list S := by
      intro l
      induction l with
      | nil => intro s0 h _ _ _ hb hs _; exact ⟨[], s0, rfl, by simpa using hb, hs⟩
      | cons r l ih =>
        intro s0 h hi hw hS hb hs hroom
        have hl : (r :: l).length * (S + 6 * s0.align) = l.length * (S + 6 * s0.align) + (S + 6 * s0.align) := by
          rw [List.length_cons, Nat.add_mul, Nat.one_mul]
        rw [hl] at hroom ⊢
        obtain ⟨b, s1, g1, g2, g3, g4, g5, _⟩ := step_corr hi r (hw r (List.mem_cons_self ..)) h S
          (hS r (List.mem_cons_self ..)) hb hs (by right; omega)
          (ps := s0.list.map (fun x => ⟨x.r.real, x.r.size, x.r.id, x.r.off⟩)) (by
            intro t
            constructor
            · rintro ⟨x, hx, rfl⟩
              exact ⟨_, List.mem_map_of_mem hx, rfl⟩
            · rintro ⟨p, hp, rfl⟩
              obtain ⟨x, hx, rfl⟩ := List.mem_map.1 hp
              exact ⟨x, hx, rfl⟩)
        obtain ⟨bs', s'', k1, k2, k3⟩ := ih s1 (h + 6 * s0.align + S) g2
          (fun r hr => hw r (List.mem_cons_of_mem _ hr)) (fun r hr => hS r (List.mem_cons_of_mem _ hr)) g4 g5
          (by rw [g3]; omega)
        refine ⟨b :: bs', s'', ?_, ?_, k3⟩
        · unfold runFrom; rw [g1]; simp only; rw [k1]
        · rw [g3] at k2
          exact k2.mono (by omega)
    have := gen qs (fresh align) 0 (inv_new ha) (fun r hr => hw r (by simp [hr])) hr1.1 (hz 0) (hz' S)
      (by have := hr1.2; simp only [W]; omega)
    simpa using this
  obtain ⟨bs', s'', k1, k2, k3⟩ := hbound
  rw [r1] at k1
  injection k1 with k1
  injection k1 with _ k1
  subst k1
  by_cases hrf : q.size = 0 ∨ 2 ^ 64 < q.real + q.size
  · exact ⟨bs, s, false, s, r1, map_refused (hw q (by simp)) hrf, fun _ _ _ _ => rfl⟩
  obtain ⟨hsz, hend⟩ := wf_end (hw q (by simp)) hrf
  have hrm : qs.length * (S + 6 * align) + 6 * align + S < W := by
    have := hroom.2
    rw [hlen, Nat.add_mul] at this
    simp only [W]; omega
  obtain ⟨b, s', m1, m2⟩ := mapWithID_spec r2 q _ S hsz hend (hroom.1 q (by simp)) k2 k3 (by rw [r3]; right; exact hrm)
  refine ⟨bs, s, b, s', r1, m1, ?_⟩
  intro hb a hlt hout
  rcases m2.why hb with ⟨h0, h1⟩ | ⟨x, h1, h2, h3⟩
  · exfalso; omega
  · have hxout : ¬ (x.r.real ≤ a ∧ a < x.r.real + x.r.size) := by
      obtain ⟨p, hp, e1, e2, _⟩ := hc.node h1.1
      have := hout p hp (by
        rw [encloses_iff]
        obtain ⟨_, c1, c2, c3⟩ := h1
        omega)
      unfold Piece.has at this
      simp only [decide_eq_false_iff_not] at this
      omega
    rcases get_spec r2 a hlt with ⟨y, hy, y1, y2, y3, _⟩ | ⟨y1, y2, _⟩
    · rw [y3]
      have hyx : y.nid ≠ x.nid := by
        intro e
        rw [r2.nid_inj hy h1.1 e] at y1 y2
        exact hxout ⟨y1, y2⟩
      obtain ⟨z, hz, he⟩ := h3.symm.mem (List.mem_filter.2 ⟨hy, by simpa using hyx⟩)
      have he := core_eq_iff.1 he
      rcases get_spec m2.inv a hlt with ⟨w, hw', w1, w2, w3, _⟩ | ⟨w1, _⟩
      · have : w = z := by
          by_cases hwz : w = z
          · exact hwz
          · have := m2.inv.disj_mem hw' hz hwz
            unfold RealDisj at this
            omega
        rw [w3, this, ← he.2.1, ← he.2.2.1, ← he.2.2.2.2.1, ← he.2.2.2.2.2]
      · exact absurd ⟨by omega, by omega⟩ (w1 z hz)
    · rw [y2]
      rcases get_spec m2.inv a hlt with ⟨w, hw', w1, w2, w3, _⟩ | ⟨_, w2, _⟩
      · exfalso
        obtain ⟨v, hv, he⟩ := h3.mem hw'
        have he := core_eq_iff.1 he
        exact y1 v (List.mem_filter.1 hv).1 ⟨by omega, by omega⟩
      · exact w2

/-- **C06** is false in general: a request that would cut a page is refused, but the range it lies in has
already been removed. Page size 4096, `[0x1000, 0x4000)` is mapped, then `[0x1800, 0x1900)` is refused, and
address `0x3000` no longer translates. -/
theorem C06_violated :
    ∃ (q0 q : Req) (s s' : State) (a m : Nat),
      q0.wf ∧ q.wf ∧ runFrom (fresh 4096) [q0] = some ([true], s) ∧ mapWithID s q = some (false, s') ∧
      getMappedAddress s a = some (some m) ∧ getMappedAddress s' a = some none := by
  refine ⟨⟨0x1000, 0x3000, 1, 0, false⟩, ⟨0x1800, 0x100, 2, 0, false⟩,
    ⟨4096, [⟨0, ⟨0x1000, 0, 0x3000, 1, 0, 18446744073709539327⟩⟩], [(0x1000, 0)], 1⟩,
    ⟨4096, [], [], 1⟩, 0x3000, 0x2000, ?_⟩
  refine ⟨by unfold Req.wf; simp, by unfold Req.wf; simp, by decide +kernel, by decide +kernel,
    by decide +kernel, by decide +kernel⟩

/-- **C03** fails when the remapped space is exhausted: with 4096-byte pages, two large disjoint ranges are
both accepted, and their translations collide (the end of the second one wraps around). -/
theorem C03_exhausted_violated :
    ∃ (qs : List Req) (s : State) (bs : List Bool) (a b m : Nat),
      (∀ q ∈ qs, q.wf) ∧ runFrom (fresh 4096) qs = some (bs, s) ∧ a ≠ b ∧
      getMappedAddress s a = some (some m) ∧ getMappedAddress s b = some (some m) := by
  refine ⟨[⟨0, 2 ^ 63 + 1, 1, 0, false⟩, ⟨2 ^ 63 + 1, 2 ^ 63 - 2, 2, 0, false⟩],
    ((runFrom (fresh 4096) [⟨0, 2 ^ 63 + 1, 1, 0, false⟩,
      ⟨2 ^ 63 + 1, 2 ^ 63 - 2, 2, 0, false⟩]).getD ([], fresh 0)).2, [true, true],
    0, 2 ^ 64 - 0x1000, 0, ?_⟩
  refine ⟨?_, by decide +kernel, by decide, by decide +kernel, by decide +kernel⟩
  intro q hq
  simp only [List.mem_cons, List.not_mem_nil, or_false] at hq
  rcases hq with rfl | rfl <;> unfold Req.wf <;> simp

/-- The restriction to ranges that do not end exactly at `2^64` is needed: with two ranges in place, mapping
the last page of the address space runs an iterator past the end (undefined behaviour). -/
theorem C03_top_of_memory_violated :
    ∃ (qs : List Req) (q : Req) (s : State) (bs : List Bool),
      (∀ q ∈ qs, q.wf) ∧ q.real < 2 ^ 64 ∧ q.size < 2 ^ 64 ∧ q.real + q.size = 2 ^ 64 ∧
      runFrom (fresh 0) qs = some (bs, s) ∧ (∀ b ∈ bs, b = true) ∧ mapWithID s q = none := by
  refine ⟨[⟨0x1000, 0x1000, 1, 0, true⟩, ⟨2 ^ 64 - 0x3000, 0x1000, 2, 0, true⟩],
    ⟨2 ^ 64 - 0x1000, 0x1000, 3, 0, true⟩,
    ((runFrom (fresh 0) [⟨0x1000, 0x1000, 1, 0, true⟩,
      ⟨2 ^ 64 - 0x3000, 0x1000, 2, 0, true⟩]).getD ([], fresh 0)).2, [true, true], ?_⟩
  refine ⟨?_, by decide, by decide, by decide, by decide +kernel, by simp, by decide +kernel⟩
  intro q hq
  simp only [List.mem_cons, List.not_mem_nil, or_false] at hq
  rcases hq with rfl | rfl <;> unfold Req.wf <;> simp

/-- **C51**, stability: whatever a request does and answers, an address whose range does not meet the request
keeps its translation (remapped address, id and offset). -/
theorem C51_untouched_ranges_stay (align S : Nat) (qs : List Req) (q : Req) (ha : AlignOK align)
    (hw : ∀ r ∈ qs ++ [q], r.wf) (hroom : RoomFor align S (qs ++ [q])) :
    ∃ bs s b s', runFrom (fresh align) qs = some (bs, s) ∧ mapWithID s q = some (b, s') ∧
      ∀ r, ∀ a, a < 2 ^ 64 → rangeContaining s a = some (some r) →
        (r.real + r.size ≤ q.real ∨ q.real + q.size ≤ r.real) →
        getMappedAddressIDAndOffset s' a = getMappedAddressIDAndOffset s a := by
  obtain ⟨bs, s2, h1⟩ : ∃ bs s2, runFrom (fresh align) (qs ++ [q]) = some (bs, s2) := by
    obtain ⟨bs, s, r1, _⟩ := run_new align S (qs ++ [q]) ha hw hroom
    exact ⟨bs, s, r1⟩
  -- bounds for the intermediate state
  have gen : ∀ (S : Nat) (l : List Req) (s0 : State) (h : Nat), Inv s0 → (∀ r ∈ l ++ [q], r.wf) →
      (∀ r ∈ l ++ [q], r.size ≤ S) →
      Below s0.list h → Small s0.list S → (s0.align = 0 ∨ h + (l.length + 1) * (S + 6 * s0.align) < W) →
      ∃ bs s b s', runFrom s0 l = some (bs, s) ∧ mapWithID s q = some (b, s') ∧ Inv s ∧ Inv s' ∧
        ∀ x ∈ s.list, (x.r.real + x.r.size ≤ q.real ∨ q.real + q.size ≤ x.r.real) →
          ∃ z ∈ s'.list, x.core = z.core := by
    intro S l
    induction l with
    | nil =>
      intro s0 h hi hw hS hb hs hroom
      by_cases hrf : q.size = 0 ∨ 2 ^ 64 < q.real + q.size
      · exact ⟨[], s0, false, s0, rfl, map_refused (hw q (by simp)) hrf, hi, hi, fun x hx _ => ⟨x, hx, rfl⟩⟩
      · obtain ⟨hsz, hend⟩ := wf_end (hw q (by simp)) hrf
        obtain ⟨b, s', m1, m2⟩ := mapWithID_spec hi q h S hsz hend (hS q (by simp)) hb hs (by
          rcases hroom with h0 | h0
          · exact Or.inl h0
          · right; simp at h0; omega)
        exact ⟨[], s0, b, s', rfl, m1, hi, m2.inv, m2.keep⟩
    | cons r l ih =>
      intro s0 h hi hw hS hb hs hroom
      have hl : ((r :: l).length + 1) * (S + 6 * s0.align) =
          (l.length + 1) * (S + 6 * s0.align) + (S + 6 * s0.align) := by
        rw [List.length_cons, Nat.add_mul (l.length + 1), Nat.one_mul]
      rw [hl] at hroom
      obtain ⟨b, s1, g1, g2, g3, g4, g5, _⟩ := step_corr hi r (hw r (by simp)) h S
        (hS r (by simp)) hb hs (by
          rcases hroom with h0 | h0
          · exact Or.inl h0
          · right; omega)
        (ps := s0.list.map (fun x => ⟨x.r.real, x.r.size, x.r.id, x.r.off⟩)) (by
          intro t
          constructor
          · rintro ⟨x, hx, rfl⟩
            exact ⟨_, List.mem_map_of_mem hx, rfl⟩
          · rintro ⟨p, hp, rfl⟩
            obtain ⟨x, hx, rfl⟩ := List.mem_map.1 hp
            exact ⟨x, hx, rfl⟩)
      obtain ⟨bs, s, b', s', k1, k2, k3, k4, k5⟩ := ih s1 (h + 6 * s0.align + S) g2
        (fun r hr => hw r (by simp at hr ⊢; exact Or.inr hr))
        (fun r hr => hS r (by simp at hr ⊢; exact Or.inr hr)) g4 g5 (by
          rw [g3]
          rcases hroom with h0 | h0
          · exact Or.inl h0
          · right; omega)
      refine ⟨b :: bs, s, b', s', ?_, k2, k3, k4, k5⟩
      unfold runFrom; rw [g1]; simp only; rw [k1]
  have hz : ∀ n, Below ([] : List Node) n := by intro n x hx; simp at hx
  have hz' : ∀ n, Small ([] : List Node) n := by intro n x hx; simp at hx
  obtain ⟨bs, s, b, s', k1, k2, k3, k4, k5⟩ : ∃ bs s b s', runFrom (fresh align) qs = some (bs, s) ∧
      mapWithID s q = some (b, s') ∧ Inv s ∧ Inv s' ∧
      ∀ x ∈ s.list, (x.r.real + x.r.size ≤ q.real ∨ q.real + q.size ≤ x.r.real) →
        ∃ z ∈ s'.list, x.core = z.core := by
    rcases hroom with h0 | h0
    · exact gen W qs (fresh align) 0 (inv_new ha) hw
        (fun r hr => by have := (hw r hr).2.1; simp only [W]; omega) (hz 0) (hz' W) (Or.inl h0)
    · refine gen S qs (fresh align) 0 (inv_new ha) hw h0.1 (hz 0) (hz' S) (Or.inr ?_)
      have := h0.2
      simp only [List.length_append, List.length_cons, List.length_nil, Nat.zero_add] at this
      simp only [W]; omega
  refine ⟨bs, s, b, s', k1, k2, ?_⟩
  intro r a hlt hr hd
  rcases get_spec k3 a hlt with ⟨y, hy, y1, y2, y3, _⟩ | ⟨y1, y2, _⟩
  · have hyr : y.r = r := by
      rcases rangeContaining_spec k3 a with ⟨x, hx, x1, x2, x3⟩ | ⟨_, x3⟩
      · rw [hr] at x3
        injection x3 with x3; injection x3 with x3
        rw [x3]
        by_cases hxy : x = y
        · rw [hxy]
        · have := k3.disj_mem hx hy hxy
          unfold RealDisj at this
          omega
      · rw [hr] at x3; simp at x3
    rw [← hyr] at hd
    obtain ⟨z, hz, he⟩ := k5 y hy hd
    have he := core_eq_iff.1 he
    rw [y3]
    rcases get_spec k4 a hlt with ⟨w, hw', w1, w2, w3, _⟩ | ⟨w1, _⟩
    · have : w = z := by
        by_cases hwz : w = z
        · exact hwz
        · have := k4.disj_mem hw' hz hwz
          unfold RealDisj at this
          omega
      rw [w3, this, ← he.2.1, ← he.2.2.1, ← he.2.2.2.2.1, ← he.2.2.2.2.2]
    · exact absurd ⟨by omega, by omega⟩ (w1 z hz)
  · exfalso
    unfold getMappedAddressIDAndOffset at y2
    rw [hr] at y2
    simp at y2

/-- **C52**, copying: a copy of a mapper answers every lookup like the original. -/
theorem C52_copy (align S : Nat) (qs : List Req) (ha : AlignOK align) (hw : ∀ q ∈ qs, q.wf)
    (hroom : RoomFor align S qs) :
    ∃ bs s, runFrom (fresh align) qs = some (bs, s) ∧ ∀ a, a < 2 ^ 64 →
      getMappedAddressIDAndOffset (copy s) a = getMappedAddressIDAndOffset s a ∧
      getMappedAddress (copy s) a = getMappedAddress s a := by
  obtain ⟨bs, s, r1, r2, _⟩ := run_new align S qs ha hw hroom
  refine ⟨bs, s, r1, ?_⟩
  intro a hlt
  have hic := inv_copy r2
  rcases get_spec r2 a hlt with ⟨x, hx, x1, x2, x3, x4, _⟩ | ⟨x1, x2, x3⟩
  · rcases get_spec hic a hlt with ⟨y, hy, y1, y2, y3, y4, _⟩ | ⟨y1, _⟩
    · have : x = y := by
        by_cases hxy : x = y
        · exact hxy
        · have := r2.disj_mem hx hy hxy
          unfold RealDisj at this
          omega
      subst this
      exact ⟨by rw [x3, y3], by rw [x4, y4]⟩
    · exact absurd ⟨x1, x2⟩ (y1 x hx)
  · rcases get_spec hic a hlt with ⟨y, hy, y1, y2, _⟩ | ⟨_, y2, y3⟩
    · exact absurd ⟨y1, y2⟩ (x1 y hy)
    · exact ⟨by rw [x2, y2], by rw [x3, y3]⟩

/-! ### The hypotheses are met by real histories -/

/-- A history with a split, an overlap, a refused and an overwriting request, with 4096-byte pages. -/
def exampleHistory : List Req :=
  [⟨0x10000, 0x8000, 1, 0, false⟩, ⟨0x12000, 0x1000, 2, 0x500, false⟩, ⟨0x30010, 0x2000, 3, 0, true⟩,
   ⟨0x31000, 0x3000, 4, 7, true⟩, ⟨0, 0, 5, 0, true⟩, ⟨0x14100, 0x20, 6, 0, true⟩,
   ⟨0x16800, 0x10, 7, 0, false⟩]

example : AlignOK 4096 ∧ (∀ q ∈ exampleHistory, q.wf) ∧ Roomy 4096 0x8000 exampleHistory ∧
    (specRun 4096 [] exampleHistory).1 = [true, true, true, true, false, true, false] ∧
    specLookup (specRun 4096 [] exampleHistory).2 0x13001 = some (1, 0x3001) ∧
    specLookup (specRun 4096 [] exampleHistory).2 0x14110 = some (6, 0x10) ∧
    specLookup (specRun 4096 [] exampleHistory).2 0x30010 = none := by
  refine ⟨Or.inr ⟨12, by decide, by decide⟩, ?_, ?_, by decide +kernel, by decide +kernel,
    by decide +kernel, by decide +kernel⟩
  · unfold exampleHistory Req.wf; decide
  · unfold exampleHistory Roomy; decide

example : (runFrom (fresh 4096) exampleHistory).isSome = true := by decide +kernel

end Verif.AddressMapper
