import Verif.AddressMapper.Main

namespace Verif.AddressMapper

theorem inv_new {align : Nat} (h : AlignOK align) : Inv ⟨align, [], [], 0⟩ := by
  constructor
  · exact h
  · simp
  · simp
  · simp
  · simp
  · simp
  · trivial
  · simp
  · simp

/-- Refusals before anything is touched. -/
theorem map_refused {s : State} {q : Req} (hw : q.wf) (h : q.size = 0 ∨ 2 ^ 64 < q.real + q.size) :
    mapWithID s q = some (false, s) := by
  unfold mapWithID mapInternalWith
  by_cases h0 : q.size = 0
  · rw [if_pos h0]
  · rw [if_neg h0]
    have hov : overflows q.real q.size = true := by
      unfold overflows sub64 u64
      obtain ⟨h1, h2, h3⟩ := hw
      simp only [W, MAX]
      rw [Bool.and_eq_true]
      simp only [decide_eq_true_eq, Bool.not_eq_true', decide_eq_false_iff_not]
      constructor <;> omega
    simp only [hov, Bool.not_true, Bool.and_false, Bool.false_eq_true, if_false, if_true]

theorem wf_end {q : Req} (hw : q.wf) (h : ¬ (q.size = 0 ∨ 2 ^ 64 < q.real + q.size)) :
    0 < q.size ∧ q.real + q.size < W := by
  obtain ⟨h1, h2, h3⟩ := hw
  simp only [W]; omega

/-- The pieces of the model state. -/
def Corr (s : State) (ps : List Piece) : Prop :=
  ∀ t, HasT s.list t ↔ ∃ p ∈ ps, t = (p.lo, p.len, p.id, p.off)

theorem Corr.node {s : State} {ps : List Piece} (h : Corr s ps) {x : Node} (hx : x ∈ s.list) :
    ∃ p ∈ ps, x.r.real = p.lo ∧ x.r.size = p.len ∧ x.r.id = p.id ∧ x.r.off = p.off := by
  obtain ⟨p, hp, he⟩ := (h _).1 ⟨x, hx, rfl⟩
  unfold tup at he
  simp only [Prod.mk.injEq] at he
  exact ⟨p, hp, he⟩

theorem Corr.piece {s : State} {ps : List Piece} (h : Corr s ps) {p : Piece} (hp : p ∈ ps) :
    ∃ x ∈ s.list, x.r.real = p.lo ∧ x.r.size = p.len ∧ x.r.id = p.id ∧ x.r.off = p.off := by
  obtain ⟨x, hx, he⟩ := (h _).2 ⟨p, hp, rfl⟩
  unfold tup at he
  simp only [Prod.mk.injEq] at he
  exact ⟨x, hx, he⟩

theorem encloses_iff (p : Piece) (q : Req) : p.encloses q = true ↔
    p.lo ≤ q.real ∧ q.real + q.size ≤ p.lo + p.len ∧ q.size < p.len := by
  unfold Piece.encloses; simp

theorem cutsPage_iff (a : Nat) (p : Piece) (q : Req) : p.cutsPage a q = true ↔
    q.allowUnaligned = false ∧ a ≠ 0 ∧ ((p.lo ≠ q.real ∧ q.real % a ≠ 0) ∨
     (p.lo + p.len ≠ q.real + q.size ∧ (q.real + q.size) % a ≠ 0)) := by
  unfold Piece.cutsPage
  simp [and_assoc]

theorem mem_under (p p' : Piece) (q : Req) : p' ∈ p.under q ↔
    ((p.lo + p.len ≤ q.real ∨ q.real + q.size ≤ p.lo) ∧ p' = p) ∨
    (¬ (p.lo + p.len ≤ q.real ∨ q.real + q.size ≤ p.lo) ∧ p.encloses q = true ∧
      ((p.lo < q.real ∧ p' = ⟨p.lo, q.real - p.lo, p.id, p.off⟩) ∨
       (q.real + q.size < p.lo + p.len ∧ p' =
        ⟨q.real + q.size, p.lo + p.len - (q.real + q.size), p.id,
          (p.off + (q.real + q.size - p.lo)) % 2 ^ 64⟩))) := by
  unfold Piece.under
  by_cases h1 : p.lo + p.len ≤ q.real ∨ q.real + q.size ≤ p.lo
  · rw [if_pos h1]; simp [h1]
  · rw [if_neg h1]
    by_cases h2 : p.encloses q = true
    · rw [if_pos h2, List.mem_append]
      simp only [h1, h2, false_and, not_false_eq_true, true_and, false_or]
      apply or_congr
      · by_cases hl : p.lo < q.real <;> simp [hl]
      · by_cases hl : q.real + q.size < p.lo + p.len <;> simp [hl]
    · rw [if_neg h2]; simp [h1, h2]

theorem W_eq : W = 2 ^ 64 := rfl

/-- One request of a run: safety, and agreement with the specification unless the space is exhausted. -/
theorem step_corr {s : State} (hi : Inv s) (q : Req) (hw : q.wf) (h S : Nat)
    (hS : q.size ≤ S) (hb : Below s.list h) (hs : Small s.list S)
    (hroom : s.align = 0 ∨ h + 6 * s.align + S < W) {ps : List Piece} (hc : Corr s ps) :
    ∃ b s', mapWithID s q = some (b, s') ∧ Inv s' ∧ s'.align = s.align ∧
      Below s'.list (h + 6 * s.align + S) ∧ Small s'.list S ∧
      ((h + 6 * s.align + S < W ∨ b = true) → b = (specStep s.align ps q).1 ∧ Corr s' (specStep s.align ps q).2) := by
  unfold specStep
  by_cases hr : q.size = 0 ∨ 2 ^ 64 < q.real + q.size
  · rw [if_pos hr]
    exact ⟨false, s, map_refused hw hr, hi, rfl, hb.mono (by omega), hs, fun _ => ⟨rfl, hc⟩⟩
  · rw [if_neg hr]
    obtain ⟨hsz, hend⟩ := wf_end hw hr
    obtain ⟨b, s', hm, he⟩ := mapWithID_spec hi q h S hsz hend hS hb hs hroom
    refine ⟨b, s', hm, he.inv, he.align, he.below, he.small, ?_⟩
    intro hrm
    have hcut : (ps.any (fun p => p.encloses q && p.cutsPage s.align q)) = true ↔
        ∃ x, Split s q x ∧ CutsPage s q x := by
      rw [List.any_eq_true]
      constructor
      · rintro ⟨p, hp, hpq⟩
        obtain ⟨x, hx, e1, e2, _, _⟩ := hc.piece hp
        rw [Bool.and_eq_true, encloses_iff, cutsPage_iff] at hpq
        refine ⟨x, ⟨hx, by omega, by omega, by omega⟩, hpq.2.1, hpq.2.2.1, ?_⟩
        rw [e1, e2]; exact hpq.2.2.2
      · rintro ⟨x, ⟨hx, h1⟩, h2⟩
        obtain ⟨p, hp, e1, e2, _, _⟩ := hc.node hx
        refine ⟨p, hp, ?_⟩
        rw [Bool.and_eq_true, encloses_iff, cutsPage_iff, ← e1, ← e2]
        exact ⟨h1, h2⟩
    cases b with
    | true =>
      have hno : ¬ (ps.any (fun p => p.encloses q && p.cutsPage s.align q)) = true := by
        rw [hcut]
        rintro ⟨x, h1, h2⟩
        exact he.cut rfl x h1 h2
      rw [if_neg hno]
      refine ⟨rfl, ?_⟩
      intro t
      rw [he.pieces rfl t]
      simp only [List.mem_append, List.mem_flatMap, List.mem_singleton]
      constructor
      · rintro (ht | ⟨y, hy, hd, ht⟩ | ⟨x, hx, ht⟩)
        · exact ⟨q.piece, Or.inr rfl, ht⟩
        · obtain ⟨p, hp, e1, e2, e3, e4⟩ := hc.node hy
          refine ⟨p, Or.inl ⟨p, hp, ?_⟩, ?_⟩
          · rw [mem_under]; left; exact ⟨by omega, rfl⟩
          · rw [← ht]; unfold tup; rw [e1, e2, e3, e4]
        · obtain ⟨hxl, h1, h2, h3⟩ := hx
          obtain ⟨p, hp, e1, e2, e3, e4⟩ := hc.node hxl
          have henc : p.encloses q = true := by rw [encloses_iff]; omega
          rcases ht with ⟨hlt, ht⟩ | ⟨hlt, ht⟩
          · refine ⟨⟨p.lo, q.real - p.lo, p.id, p.off⟩, Or.inl ⟨p, hp, ?_⟩, ?_⟩
            · rw [mem_under]; right; exact ⟨by omega, henc, Or.inl ⟨by omega, rfl⟩⟩
            · rw [ht]; simp only [e1, e3, e4]
          · refine ⟨⟨q.real + q.size, p.lo + p.len - (q.real + q.size), p.id,
              (p.off + (q.real + q.size - p.lo)) % 2 ^ 64⟩, Or.inl ⟨p, hp, ?_⟩, ?_⟩
            · rw [mem_under]; right; exact ⟨by omega, henc, Or.inr ⟨by omega, rfl⟩⟩
            · rw [ht, W_eq]; simp only [e1, e2, e3, e4]
      · rintro ⟨p', (⟨p, hp, hu⟩ | hp'), ht⟩
        · obtain ⟨x, hx, e1, e2, e3, e4⟩ := hc.piece hp
          rcases (mem_under p p' q).1 hu with ⟨hd, rfl⟩ | ⟨_, henc, hcase⟩
          · right; left
            refine ⟨x, hx, by omega, ?_⟩
            rw [ht]; unfold tup; rw [e1, e2, e3, e4]
          · right; right
            rw [encloses_iff] at henc
            refine ⟨x, ⟨hx, by omega, by omega, by omega⟩, ?_⟩
            rcases hcase with ⟨hlt, rfl⟩ | ⟨hlt, rfl⟩
            · left; refine ⟨by omega, ?_⟩
              rw [ht]; simp only [e1, e3, e4]
            · right; refine ⟨by omega, ?_⟩
              rw [ht, W_eq]; simp only [e1, e2, e3, e4]
        · left; rw [ht, hp']; rfl
    | false =>
      have hrm : h + 6 * s.align + S < W := by
        rcases hrm with h1 | h1
        · exact h1
        · cases h1
      rcases he.why rfl with ⟨h0, h1⟩ | ⟨x, h1, h2, h3⟩
      · exfalso; omega
      · rw [if_pos (hcut.2 ⟨x, h1, h2⟩)]
        refine ⟨rfl, ?_⟩
        intro t
        rw [h3.hasT_iff]
        constructor
        · rintro ⟨y, hy, rfl⟩
          have hy' := List.mem_filter.1 hy
          have hne : y.nid ≠ x.nid := by simpa using hy'.2
          obtain ⟨p, hp, e1, e2, e3, e4⟩ := hc.node hy'.1
          refine ⟨p, List.mem_filter.2 ⟨hp, ?_⟩, ?_⟩
          · have : ¬ p.encloses q = true := by
              rw [encloses_iff]
              intro henc
              have hd := hi.disj_mem hy'.1 h1.1 (fun e => hne (by rw [e]))
              obtain ⟨_, c1, c2, c3⟩ := h1
              unfold RealDisj at hd
              omega
            simpa using this
          · unfold tup; rw [e1, e2, e3, e4]
        · rintro ⟨p, hp, rfl⟩
          have hp' := List.mem_filter.1 hp
          obtain ⟨y, hy, e1, e2, e3, e4⟩ := hc.piece hp'.1
          refine ⟨y, List.mem_filter.2 ⟨hy, ?_⟩, by unfold tup; rw [e1, e2, e3, e4]⟩
          have : y.nid ≠ x.nid := by
            intro e
            have := hi.nid_inj hy h1.1 e
            subst this
            obtain ⟨_, c1, c2, c3⟩ := h1
            have henc : p.encloses q = true := by rw [encloses_iff]; omega
            rw [henc] at hp'
            simp at hp'
          simpa using this

/-- A whole run. -/
theorem run_corr (qs : List Req) {s : State} (hi : Inv s) (h S : Nat) (hw : ∀ q ∈ qs, q.wf)
    (hS : ∀ q ∈ qs, q.size ≤ S) (hb : Below s.list h) (hs : Small s.list S)
    (hroom : s.align = 0 ∨ h + qs.length * (S + 6 * s.align) < W) {ps : List Piece} (hc : Corr s ps) :
    ∃ bs s', runFrom s qs = some (bs, s') ∧ Inv s' ∧ s'.align = s.align ∧ bs.length = qs.length ∧
      ((h + qs.length * (S + 6 * s.align) < W ∨ ∀ b ∈ bs, b = true) →
        bs = (specRun s.align ps qs).1 ∧ Corr s' (specRun s.align ps qs).2) := by
  induction qs generalizing s h ps with
  | nil => exact ⟨[], s, rfl, hi, rfl, rfl, fun _ => ⟨rfl, hc⟩⟩
  | cons q qs ih =>
    have hlen : (q :: qs).length * (S + 6 * s.align) = qs.length * (S + 6 * s.align) + (S + 6 * s.align) := by
      rw [List.length_cons, Nat.add_mul, Nat.one_mul]
    rw [hlen] at hroom
    obtain ⟨b, s1, g1, g2, g3, g4, g5, g6⟩ := step_corr hi q (hw q (List.mem_cons_self ..)) h S
      (hS q (List.mem_cons_self ..)) hb hs (by
        rcases hroom with h0 | h0
        · exact Or.inl h0
        · right; omega) hc
    have main : ∀ ps1, Corr s1 ps1 → ∃ bs s', runFrom s1 qs = some (bs, s') ∧ Inv s' ∧
        s'.align = s.align ∧ bs.length = qs.length ∧
        ((h + (qs.length * (S + 6 * s.align) + (S + 6 * s.align)) < W ∨ ∀ b ∈ bs, b = true) →
          bs = (specRun s.align ps1 qs).1 ∧ Corr s' (specRun s.align ps1 qs).2) := by
      intro ps1 hc1
      obtain ⟨bs, s', r1, r2, r3, r4, r5⟩ := ih g2 (h + 6 * s.align + S)
        (fun q hq => hw q (List.mem_cons_of_mem _ hq)) (fun q hq => hS q (List.mem_cons_of_mem _ hq)) g4 g5 (by
          rw [g3]
          rcases hroom with h0 | h0
          · exact Or.inl h0
          · right; omega) hc1
      refine ⟨bs, s', r1, r2, by rw [r3, g3], r4, ?_⟩
      intro hh
      rw [g3] at r5
      apply r5
      rcases hh with hh | hh
      · left; omega
      · right; exact hh
    by_cases hok : h + 6 * s.align + S < W ∨ b = true
    · obtain ⟨e1, e2⟩ := g6 hok
      obtain ⟨bs, s', r1, r2, r3, r4, r5⟩ := main _ e2
      refine ⟨b :: bs, s', ?_, r2, r3, by simp [r4], ?_⟩
      · unfold runFrom; rw [g1]; simp only; rw [r1]
      · intro hh
        have := r5 (by
          rcases hh with hh | hh
          · rw [hlen] at hh; left; exact hh
          · right; intro b hb; exact hh b (List.mem_cons_of_mem _ hb))
        unfold specRun
        simp only
        exact ⟨by rw [e1, this.1], this.2⟩
    · -- no agreement is claimed
      obtain ⟨bs, s', r1, r2, r3, r4, _⟩ := main (s1.list.map (fun x => ⟨x.r.real, x.r.size, x.r.id, x.r.off⟩)) (by
        intro t
        constructor
        · rintro ⟨x, hx, rfl⟩
          exact ⟨_, List.mem_map_of_mem hx, rfl⟩
        · rintro ⟨p, hp, rfl⟩
          obtain ⟨x, hx, rfl⟩ := List.mem_map.1 hp
          exact ⟨x, hx, rfl⟩)
      refine ⟨b :: bs, s', ?_, r2, r3, by simp [r4], ?_⟩
      · unfold runFrom; rw [g1]; simp only; rw [r1]
      · intro hh
        exfalso
        apply hok
        rcases hh with hh | hh
        · rw [hlen] at hh; left; omega
        · right; exact hh b (List.mem_cons_self ..)

theorem corr_nil (align : Nat) : Corr ⟨align, [], [], 0⟩ [] := by
  intro t
  constructor
  · rintro ⟨x, hx, _⟩; simp at hx
  · rintro ⟨x, hx, _⟩; simp at hx

/-- Starting from an empty mapper. -/
theorem run_new (align S : Nat) (qs : List Req) (ha : AlignOK align) (hw : ∀ q ∈ qs, q.wf)
    (hroom : RoomFor align S qs) :
    ∃ bs s, runFrom ⟨align, [], [], 0⟩ qs = some (bs, s) ∧ Inv s ∧ s.align = align ∧
      bs.length = qs.length ∧
      ((Roomy align S qs ∨ ∀ b ∈ bs, b = true) →
        bs = (specRun align [] qs).1 ∧ Corr s (specRun align [] qs).2) := by
  have hz : ∀ n, Below ([] : List Node) n := by intro n x hx; simp at hx
  have hz' : ∀ n, Small ([] : List Node) n := by intro n x hx; simp at hx
  by_cases hr : Roomy align S qs
  · obtain ⟨bs, s, r1, r2, r3, r4, r5⟩ := run_corr qs (inv_new ha) 0 S hw hr.1 (hz 0) (hz' S)
      (by right; have := hr.2; simp only [W]; omega) (corr_nil align)
    refine ⟨bs, s, r1, r2, r3, r4, fun _ => r5 ?_⟩
    left; have := hr.2; simp only [W]; omega
  · have h0 : align = 0 := by
      rcases hroom with h | h
      · exact h
      · exact absurd h hr
    obtain ⟨bs, s, r1, r2, r3, r4, r5⟩ := run_corr qs (inv_new ha) 0 W hw
      (fun q hq => by have := (hw q hq).2.1; simp only [W]; omega) (hz 0) (hz' W) (Or.inl h0) (corr_nil align)
    refine ⟨bs, s, r1, r2, r3, r4, ?_⟩
    rintro (h | h)
    · exact absurd h hr
    · exact r5 (Or.inr h)

/-! ### Lookups -/

theorem get_spec {s : State} (hi : Inv s) (a : Nat) (ha : a < W) :
    (∃ x ∈ s.list, x.r.real ≤ a ∧ a < x.r.real + x.r.size ∧
      getMappedAddressIDAndOffset s a = some (some (a - x.r.real + x.r.mapped, val x.r.real x.r.id x.r.off a)) ∧
      getMappedAddress s a = some (some (a - x.r.real + x.r.mapped)) ∧
      a - x.r.real + x.r.mapped < MAX) ∨
    ((∀ x ∈ s.list, ¬ (x.r.real ≤ a ∧ a < x.r.real + x.r.size)) ∧
      getMappedAddressIDAndOffset s a = some none ∧ getMappedAddress s a = some none) := by
  unfold getMappedAddressIDAndOffset getMappedAddress
  rcases rangeContaining_spec hi a with ⟨x, hx, h1, h2, h3⟩ | ⟨h1, h2⟩
  · left
    have hm := hi.chain.mem_le hx
    refine ⟨x, hx, h1, h2, ?_, ?_, by omega⟩
    · rw [h3]
      simp only [Option.map_some, Option.some.injEq, Prod.mk.injEq]
      rw [sub64_of_le ha h1]
      refine ⟨u64_of_lt (by simp only [W, MAX] at *; omega), ?_⟩
      rfl
    · rw [h3]
      simp only [Option.map_some, Option.some.injEq]
      unfold u64 sub64
      simp only [W, MAX] at *
      have := (hi.ok x hx).2
      omega
  · right
    refine ⟨h1, ?_, ?_⟩ <;> rw [h2] <;> rfl

theorem corr_lookup {s : State} (hi : Inv s) {ps : List Piece} (hc : Corr s ps) (a : Nat) (ha : a < W) :
    (getMappedAddressIDAndOffset s a).map (·.map (·.2)) = some (specLookup ps a) := by
  unfold specLookup
  rcases get_spec hi a ha with ⟨x, hx, h1, h2, h3, _, _⟩ | ⟨h1, h2, _⟩
  · rw [h3]
    simp only [Option.map_some]
    congr 1
    obtain ⟨p, hp, e1, e2, e3, e4⟩ := hc.node hx
    cases hf : ps.find? (fun p => p.has a) with
    | none =>
      exfalso
      rw [List.find?_eq_none] at hf
      apply hf p hp
      unfold Piece.has
      simp; omega
    | some p' =>
      have hp' := List.mem_of_find?_eq_some hf
      have hh := List.find?_some hf
      obtain ⟨y, hy, f1, f2, f3, f4⟩ := hc.piece hp'
      unfold Piece.has at hh
      simp at hh
      have : Cov s.list a (val y.r.real y.r.id y.r.off a) := ⟨y, hy, by omega, by omega, rfl⟩
      have h4 : Cov s.list a (val x.r.real x.r.id x.r.off a) := ⟨x, hx, h1, h2, rfl⟩
      rw [hi.cov_fun h4 this]
      simp only [Option.map_some, Option.some.injEq]
      unfold val Piece.value
      rw [f1, f3, f4]
  · rw [h2]
    simp only [Option.map_some, Option.map_none]
    have : ps.find? (fun p => p.has a) = none := by
      rw [List.find?_eq_none]
      intro p hp
      obtain ⟨x, hx, e1, e2, _⟩ := hc.piece hp
      have := h1 x hx
      unfold Piece.has
      simp; omega
    rw [this]; rfl

/-! ### The specification itself: the newest request wins -/

theorem newest_snoc (h : List (Req × Bool)) (q : Req) (b : Bool) (a : Nat) :
    newest (h ++ [(q, b)]) a = if b && q.has a then some (q.piece.value a) else newest h a := by
  unfold newest
  rw [List.reverse_append, List.reverse_singleton, List.singleton_append, List.find?_cons]
  split <;> simp_all

theorem step_newest (align : Nat) (ps : List Piece) (q : Req) (h : List (Req × Bool))
    (hp : ∀ p ∈ ps, ∀ a, p.has a = true → newest h a = some (p.value a)) :
    ∀ p ∈ (specStep align ps q).2, ∀ a, p.has a = true →
      newest (h ++ [(q, (specStep align ps q).1)]) a = some (p.value a) := by
  intro p hm a ha
  rw [newest_snoc]
  unfold specStep at hm ⊢
  split at hm
  · rename_i h1
    rw [if_pos h1]
    simpa using hp p hm a ha
  · rename_i h1
    rw [if_neg h1]
    split at hm
    · rename_i h2
      rw [if_pos h2]
      simpa using hp p (List.mem_filter.1 hm).1 a ha
    · rename_i h2
      rw [if_neg h2]
      simp only [List.mem_append, List.mem_flatMap, List.mem_singleton] at hm
      rcases hm with ⟨p0, hp0, hu⟩ | rfl
      · have h0 := fun hh => hp p0 hp0 a hh
        unfold Piece.has at ha h0
        simp only [decide_eq_true_eq] at ha h0
        rcases (mem_under p0 p q).1 hu with ⟨hd, rfl⟩ | ⟨hd, henc, hcase⟩
        · have : (true && q.has a) = false := by
            unfold Req.has
            simp; omega
          rw [this]
          exact h0 ha
        · rw [encloses_iff] at henc
          rcases hcase with ⟨hlt, rfl⟩ | ⟨hlt, rfl⟩
          · simp only at ha
            have : (true && q.has a) = false := by
              unfold Req.has
              simp; omega
            rw [this]
            exact h0 (by omega)
          · simp only at ha
            have : (true && q.has a) = false := by
              unfold Req.has
              simp; omega
            rw [this]
            simp only [Bool.false_eq_true, if_false]
            rw [h0 (by omega)]
            unfold Piece.value
            simp only [Option.some.injEq, Prod.mk.injEq, true_and]
            omega
      · have : q.has a = true := ha
        simp [this]

theorem run_newest (align : Nat) (qs : List Req) (ps : List Piece) (h : List (Req × Bool))
    (hp : ∀ p ∈ ps, ∀ a, p.has a = true → newest h a = some (p.value a)) :
    ∀ p ∈ (specRun align ps qs).2, ∀ a, p.has a = true →
      newest (h ++ qs.zip (specRun align ps qs).1) a = some (p.value a) := by
  induction qs generalizing ps h with
  | nil => simpa [specRun] using hp
  | cons q qs ih =>
    have := ih (specStep align ps q).2 (h ++ [(q, (specStep align ps q).1)]) (step_newest align ps q h hp)
    unfold specRun
    simp only [List.zip_cons_cons]
    simpa using this

/-! ### Copying -/

theorem mem_indexAssign {m : List (Nat × Nat)} (k n : Nat)
    (hk : ∀ e ∈ m, e.1 ≠ k) (e : Nat × Nat) :
    e ∈ indexAssign m k n ↔ e = (k, n) ∨ e ∈ m := by
  induction m with
  | nil => simp [indexAssign]
  | cons a t ih =>
    have ha := hk a (List.mem_cons_self ..)
    have ih := ih (fun x hx => hk x (List.mem_cons_of_mem _ hx))
    unfold indexAssign
    split
    · simp only [List.mem_cons, ih]
      constructor
      · rintro (h | h | h) <;> simp [h]
      · rintro (h | h | h) <;> simp [h]
    · rw [if_pos (by omega)]
      simp [List.mem_cons]

theorem indexAssign_sorted {m : List (Nat × Nat)} (k n : Nat) (hk : ∀ e ∈ m, e.1 ≠ k)
    (h : m.Pairwise (fun a b => a.1 < b.1)) : (indexAssign m k n).Pairwise (fun a b => a.1 < b.1) := by
  induction m with
  | nil => simp [indexAssign]
  | cons a t ih =>
    have ha := hk a (List.mem_cons_self ..)
    have hk' := (fun x hx => hk x (List.mem_cons_of_mem _ hx))
    have hp := List.pairwise_cons.1 h
    have ih := ih hk' hp.2
    unfold indexAssign
    split
    · refine List.pairwise_cons.2 ⟨?_, ih⟩
      intro x hx
      rcases (mem_indexAssign k n hk' x).1 hx with rfl | hx
      · simpa using by assumption
      · exact hp.1 x hx
    · rw [if_pos (by omega)]
      refine List.pairwise_cons.2 ⟨?_, h⟩
      intro x hx
      rcases List.mem_cons.1 hx with rfl | hx
      · simp; omega
      · have := hp.1 x hx
        simp; omega

theorem foldl_assign (l : List Node) (m : List (Nat × Nat))
    (hl : l.Pairwise (fun a b => a.r.real ≠ b.r.real)) (hm : m.Pairwise (fun a b => a.1 < b.1))
    (hd : ∀ x ∈ l, ∀ e ∈ m, e.1 ≠ x.r.real) :
    (l.foldl (fun m x => indexAssign m x.r.real x.nid) m).Pairwise (fun a b => a.1 < b.1) ∧
      ∀ k n, (k, n) ∈ l.foldl (fun m x => indexAssign m x.r.real x.nid) m ↔
        (k, n) ∈ m ∨ ∃ x ∈ l, x.nid = n ∧ x.r.real = k := by
  induction l generalizing m with
  | nil => simp [hm]
  | cons x t ih =>
    have hp := List.pairwise_cons.1 hl
    have hx := hd x (List.mem_cons_self ..)
    obtain ⟨h1, h2⟩ := ih (indexAssign m x.r.real x.nid) hp.2 (indexAssign_sorted _ _ hx hm) (by
      intro y hy e he
      rcases (mem_indexAssign _ _ hx e).1 he with rfl | he
      · exact hp.1 y hy
      · exact hd y (List.mem_cons_of_mem _ hy) e he)
    refine ⟨h1, ?_⟩
    intro k n
    rw [List.foldl_cons, h2, mem_indexAssign _ _ hx]
    simp only [List.mem_cons, exists_eq_or_imp, Prod.mk.injEq]
    constructor
    · rintro ((h | h) | h)
      · right; left; exact ⟨h.2.symm, h.1.symm⟩
      · exact Or.inl h
      · right; right; exact h
    · rintro (h | h | h)
      · exact Or.inl (Or.inr h)
      · exact Or.inl (Or.inl ⟨h.2.symm, h.1.symm⟩)
      · exact Or.inr h

theorem inv_copy {s : State} (h : Inv s) : Inv (copy s) := by
  have hr : s.list.Pairwise (fun a b => a.r.real ≠ b.r.real) := by
    refine List.Pairwise.imp_of_mem ?_ h.disj
    intro a b ha hb hd he
    have := h.ok a ha
    have := h.ok b hb
    unfold RealDisj at hd
    omega
  obtain ⟨h1, h2⟩ := foldl_assign s.list [] hr (by simp) (by simp)
  constructor
  · exact h.al
  · exact h.nids
  · exact h.fresh
  · exact h1
  · intro k n
    have := h2 k n
    simpa [copy] using this
  · exact h.ok
  · exact h.chain
  · exact h.disj
  · exact h.page

end Verif.AddressMapper
