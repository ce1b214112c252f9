import Verif.AddressMapper.Props

/-!
# C140: the made-up addresses do not tell where things are in memory

Two histories of requests that differ only in *where* the requested ranges are: a rearrangement `φ` of the
addresses moves every requested range as a whole, keeps different addresses different and keeps places within
pages.  The answers of the mapper, and the made-up address, identifier and offset it gives for every requested
address, are then the same for both.
-/

namespace Verif.AddressMapper

/-! ### Specification -/

/-- Some request asks for the address. -/
def Used (qs : List Req) (a : Nat) : Prop := ∃ q ∈ qs, q.has a = true

/-- The request, with its range somewhere else. -/
def Req.movedBy (φ : Nat → Nat) (q : Req) : Req := { q with real := φ q.real }

/-- `φ` moves the ranges of the requests about in memory. -/
structure Rearranges (align : Nat) (φ : Nat → Nat) (qs : List Req) : Prop where
  /-- every requested range moves as a whole -/
  whole : ∀ q ∈ qs, ∀ d, d < q.size → φ (q.real + d) = φ q.real + d
  /-- different requested addresses stay different -/
  apart : ∀ a b, Used qs a → Used qs b → φ a = φ b → a = b
  /-- ranges keep their place within a page -/
  page : align ≠ 0 → ∀ q ∈ qs, φ q.real % align = q.real % align
  /-- a range that ends past the last address still does, and no other -/
  past : ∀ q ∈ qs, 2 ^ 64 < q.real + q.size ↔ 2 ^ 64 < φ q.real + q.size

/-! ### Moving nodes -/

/-- The node, elsewhere in memory. -/
def mv (φ : Nat → Nat) (x : Node) : Node := { x with r := { x.r with real := φ x.r.real } }

/-- The range of addresses is among the moved ones, and moves as a whole. -/
def Block (U : Nat → Prop) (φ : Nat → Nat) (real size : Nat) : Prop :=
  ∀ d, d < size → U (real + d) ∧ φ (real + d) = φ real + d

theorem Block.part {U : Nat → Prop} {φ : Nat → Nat} {real size : Nat} (h : Block U φ real size) {e n : Nat}
    (hn : 0 < n) (he : e + n ≤ size) : Block U φ (real + e) n ∧ φ (real + e) = φ real + e := by
  have h0 := (h e (by omega)).2
  refine ⟨fun d hd => ?_, h0⟩
  have := h (e + d) (by omega)
  rw [show real + e + d = real + (e + d) by omega]
  exact ⟨this.1, by rw [this.2, h0]; omega⟩

/-- Ranges are apart exactly if they are so elsewhere. -/
theorem Block.disj {U : Nat → Prop} {φ : Nat → Nat} (hinj : ∀ a b, U a → U b → φ a = φ b → a = b)
    {r1 n1 r2 n2 : Nat} (h1 : Block U φ r1 n1) (h2 : Block U φ r2 n2) (p1 : 0 < n1) (p2 : 0 < n2) :
    (r1 + n1 ≤ r2 ∨ r2 + n2 ≤ r1) ↔ (φ r1 + n1 ≤ φ r2 ∨ φ r2 + n2 ≤ φ r1) := by
  constructor
  · intro hd
    by_cases hlt : φ r1 + n1 ≤ φ r2 ∨ φ r2 + n2 ≤ φ r1
    · exact hlt
    · exfalso
      by_cases hc : φ r1 ≤ φ r2
      · have e1 := h1 (φ r2 - φ r1) (by omega)
        have e2 := h2 0 p2
        have := hinj _ _ e1.1 e2.1 (by rw [e1.2, e2.2]; omega)
        omega
      · have e1 := h2 (φ r1 - φ r2) (by omega)
        have e2 := h1 0 p1
        have := hinj _ _ e1.1 e2.1 (by rw [e1.2, e2.2]; omega)
        omega
  · intro hd
    by_cases hlt : r1 + n1 ≤ r2 ∨ r2 + n2 ≤ r1
    · exact hlt
    · exfalso
      by_cases hc : r1 ≤ r2
      · have e1 := (h1 (r2 - r1) (by omega)).2
        rw [show r1 + (r2 - r1) = r2 by omega] at e1
        omega
      · have e1 := (h2 (r1 - r2) (by omega)).2
        rw [show r2 + (r1 - r2) = r1 by omega] at e1
        omega

/-- The two mappers hold the same things at different places. -/
structure Sim (U : Nat → Prop) (φ : Nat → Nat) (s s' : State) : Prop where
  align : s'.align = s.align
  next : s'.next = s.next
  list : s'.list = s.list.map (mv φ)
  block : ∀ x ∈ s.list, Block U φ x.r.real x.r.size

/-- What is asked of the rearrangement. -/
structure Fair (U : Nat → Prop) (φ : Nat → Nat) (align : Nat) : Prop where
  inj : ∀ a b, U a → U b → φ a = φ b → a = b
  page : align ≠ 0 → ∀ a, U a → φ a % align = a % align

theorem Sim.mem {U : Nat → Prop} {φ : Nat → Nat} {s s' : State} (h : Sim U φ s s') {x : Node}
    (hx : x ∈ s.list) : mv φ x ∈ s'.list := by
  rw [h.list]; exact List.mem_map_of_mem hx

theorem Sim.of_mem {U : Nat → Prop} {φ : Nat → Nat} {s s' : State} (h : Sim U φ s s') {y : Node}
    (hy : y ∈ s'.list) : ∃ x ∈ s.list, mv φ x = y := by
  rw [h.list] at hy; exact List.mem_map.1 hy

theorem Sim.below {U : Nat → Prop} {φ : Nat → Nat} {s s' : State} (h : Sim U φ s s') {n : Nat}
    (hb : Below s.list n) : Below s'.list n := by
  intro y hy
  obtain ⟨x, hx, rfl⟩ := h.of_mem hy
  exact hb x hx

theorem Sim.small {U : Nat → Prop} {φ : Nat → Nat} {s s' : State} (h : Sim U φ s s') {n : Nat}
    (hb : Small s.list n) : Small s'.list n := by
  intro y hy
  obtain ⟨x, hx, rfl⟩ := h.of_mem hy
  exact hb x hx

/-! ### Unmapping -/

theorem removeNode_mv (φ : Nat → Nat) (n : Nat) (l : List Node) :
    removeNode n (l.map (mv φ)) = (removeNode n l).map (mv φ) := by
  induction l with
  | nil => rfl
  | cons a t ih =>
    cases t with
    | nil =>
      simp only [List.map_cons, List.map_nil, removeNode]
      by_cases h : a.nid = n
      · simp [mv, h]
      · simp [mv, h]
    | cons b u =>
      simp only [List.map_cons, removeNode] at ih ⊢
      by_cases h : a.nid = n
      · simp [mv, h]
      · by_cases h2 : b.nid = n
        · simp [mv, h, h2]
        · rw [if_neg (by simpa [mv] using h), if_neg (by simpa [mv] using h2), if_neg h, if_neg h2, ih]
          rfl

theorem unmap_mv {φ : Nat → Nat} {s s' t t' : State} {n : Nat} (hl : s'.list = s.list.map (mv φ))
    (h : unmap s n = some t) (h' : unmap s' n = some t') : t'.list = t.list.map (mv φ) := by
  unfold unmap at h h'
  cases e : s.node n with
  | none => rw [e] at h; cases h
  | some r =>
    cases e' : s'.node n with
    | none => rw [e'] at h'; cases h'
    | some r' =>
      rw [e] at h; rw [e'] at h'
      cases h; cases h'
      simp only
      rw [hl, removeNode_mv]

theorem unmapAll_mv {φ : Nat → Nat} {s s' t t' : State} {ns : List Nat} (hl : s'.list = s.list.map (mv φ))
    (h : unmapAll s ns = some t) (h' : unmapAll s' ns = some t') : t'.list = t.list.map (mv φ) := by
  induction ns generalizing s s' with
  | nil => cases h; cases h'; exact hl
  | cons n ns ih =>
    unfold unmapAll at h h'
    cases e : unmap s n with
    | none => rw [e] at h; cases h
    | some u =>
      cases e' : unmap s' n with
      | none => rw [e'] at h'; cases h'
      | some u' =>
        rw [e] at h; rw [e'] at h'
        exact ih (unmap_mv hl e e') h h'

/-! ### Placing -/

theorem tryAfter_mv {φ : Nat → Nat} {align : Nat} {e rng : Range}
    (hp : align ≠ 0 → alignedOffset align (φ rng.real) = alignedOffset align rng.real) :
    tryAfter align { e with real := φ e.real } { rng with real := φ rng.real } = tryAfter align e rng := by
  unfold tryAfter
  by_cases h : align = 0
  · simp [h]
  · simp only [hp h]

theorem addAfter_mv {φ : Nat → Nat} {align nid : Nat} {rng : Range} {e : Node}
    (hp : align ≠ 0 → alignedOffset align (φ rng.real) = alignedOffset align rng.real) :
    addAfter align nid { rng with real := φ rng.real } (mv φ e) =
      (addAfter align nid rng e).map (List.map (mv φ)) := by
  unfold addAfter
  have := tryAfter_mv (e := e.r) hp
  simp only [mv] at this ⊢
  rw [this]
  cases tryAfter align e.r rng with
  | none => rfl
  | some v => rfl

theorem firstFit_mv {φ : Nat → Nat} {align nid : Nat} {rng : Range} (l : List Node)
    (hp : align ≠ 0 → alignedOffset align (φ rng.real) = alignedOffset align rng.real) :
    firstFit align nid { rng with real := φ rng.real } (l.map (mv φ)) =
      (firstFit align nid rng l).map (List.map (mv φ)) := by
  induction l with
  | nil => rfl
  | cons e t ih =>
    simp only [List.map_cons, firstFit]
    rw [addAfter_mv hp, ih]
    cases addAfter align nid rng e with
    | some v => simp
    | none => cases firstFit align nid rng t <;> simp

theorem lastFit_mv {φ : Nat → Nat} {align nid : Nat} {rng : Range} (l : List Node)
    (hp : align ≠ 0 → alignedOffset align (φ rng.real) = alignedOffset align rng.real) :
    lastFit align nid { rng with real := φ rng.real } (l.map (mv φ)) =
      (lastFit align nid rng l).map (List.map (mv φ)) := by
  induction l with
  | nil => rfl
  | cons e t ih =>
    cases t with
    | nil => simp only [List.map_cons, List.map_nil, lastFit]; exact addAfter_mv hp
    | cons b u =>
      simp only [List.map_cons, lastFit] at ih ⊢
      rw [ih]
      cases lastFit align nid rng (b :: u) <;> simp

theorem place_mv {φ : Nat → Nat} {s s' : State} {rng : Range} (ha : s'.align = s.align)
    (hn : s'.next = s.next) (hl : s'.list = s.list.map (mv φ))
    (hp : s.align ≠ 0 → alignedOffset s.align (φ rng.real) = alignedOffset s.align rng.real) :
    (place s' { rng with real := φ rng.real }).1 = (place s rng).1 ∧
      (place s' { rng with real := φ rng.real }).2.align = (place s rng).2.align ∧
      (place s' { rng with real := φ rng.real }).2.next = (place s rng).2.next ∧
      (place s' { rng with real := φ rng.real }).2.list = (place s rng).2.list.map (mv φ) := by
  have hpo : (if s.align ≠ 0 then alignedOffset s.align (φ rng.real) else 0) =
      if s.align ≠ 0 then alignedOffset s.align rng.real else 0 := by
    by_cases h : s.align = 0
    · rw [if_neg (by omega), if_neg (by omega)]
    · rw [if_pos h, if_pos h, hp h]
  unfold place
  simp only
  rw [ha, hn, hpo]
  cases hs : s.list with
  | nil => rw [hl, hs]; exact ⟨rfl, rfl, rfl, rfl⟩
  | cons first t =>
    rw [hl, hs, List.map_cons]
    simp only
    have hff := firstFit_mv (align := s.align) (nid := s.next) (first :: t) hp
    have hlf := lastFit_mv (align := s.align) (nid := s.next) (first :: t) hp
    rw [List.map_cons] at hff hlf
    have hm : (mv φ first).r.mapped = first.r.mapped := rfl
    rw [hm]
    by_cases hc : first.r.mapped ≥ u64 (rng.size + if s.align ≠ 0 then alignedOffset s.align rng.real else 0)
    · rw [if_pos hc, if_pos hc]; exact ⟨rfl, rfl, rfl, rfl⟩
    · rw [if_neg hc, if_neg hc, hff, hlf]
      simp only [List.length_cons, List.length_map]
      by_cases hlen : t.length + 1 ≥ 10000
      · rw [if_pos hlen, if_pos hlen]
        cases lastFit s.align s.next rng (first :: t) with
        | none => exact ⟨rfl, ha, hn, by simp [hl, hs]⟩
        | some v => exact ⟨rfl, rfl, rfl, rfl⟩
      · rw [if_neg hlen, if_neg hlen]
        cases firstFit s.align s.next rng (first :: t) with
        | none => exact ⟨rfl, ha, hn, by simp [hl, hs]⟩
        | some v => exact ⟨rfl, rfl, rfl, rfl⟩

/-- Offsets within a page, moved. -/
theorem Fair.offset {U : Nat → Prop} {φ : Nat → Nat} {s : State} (hf : Fair U φ s.align) (hi : Inv s)
    {a : Nat} (ha : U a) : s.align ≠ 0 → alignedOffset s.align (φ a) = alignedOffset s.align a := by
  intro h
  rw [alignedOffset_al hi h, alignedOffset_al hi h, hf.page h a ha]

/-- Placing a range, at both places. -/
theorem place_both {U : Nat → Prop} {φ : Nat → Nat} {s s' : State} (hf : Fair U φ s.align) (hs : Sim U φ s s')
    (hi : Inv s) (hi' : Inv s') (rng : Range) (h : Nat) (hsz : 0 < rng.size) (hend : rng.real + rng.size < W)
    (hend' : φ rng.real + rng.size < W) (hblk : Block U φ rng.real rng.size)
    (hd : ∀ x ∈ s.list, x.r.real + x.r.size ≤ rng.real ∨ rng.real + rng.size ≤ x.r.real)
    (hb : Below s.list h) (hroom : Room s.align h rng.size) :
    ∃ b t t', place s rng = (b, t) ∧ place s' { rng with real := φ rng.real } = (b, t') ∧ Sim U φ t t' ∧
      Inv t ∧ Inv t' ∧ t.align = s.align ∧ Below t.list (h + 2 * s.align + rng.size) ∧
      (∀ y ∈ t.list, (∃ z ∈ s.list, y.r.real = z.r.real ∧ y.r.size = z.r.size) ∨
        (y.r.real = rng.real ∧ y.r.size = rng.size)) := by
  have hu : U rng.real := by simpa using (hblk 0 hsz).1
  obtain ⟨m1, m2, m3, m4⟩ := place_mv (rng := rng) hs.align hs.next hs.list (hf.offset hi hu)
  have hd' : ∀ x ∈ s'.list, x.r.real + x.r.size ≤ φ rng.real ∨ φ rng.real + rng.size ≤ x.r.real := by
    intro y hy
    obtain ⟨x, hx, rfl⟩ := hs.of_mem hy
    exact (Block.disj hf.inj (hs.block x hx) hblk (hi.ok x hx).1 hsz).1 (hd x hx)
  refine ⟨(place s rng).1, (place s rng).2, (place s' { rng with real := φ rng.real }).2, rfl, ?_, ?_⟩
  · rw [← m1]
  have hspec := place_spec hi rng h hsz hend hd hb hroom
  have hspec' := place_spec hi' { rng with real := φ rng.real } h hsz hend' hd' (hs.below hb) (by
    rw [hs.align]; exact hroom)
  rcases hspec with ⟨_, ⟨m, p1⟩, p2⟩ | ⟨_, _, p1⟩
  · have hblk' : ∀ x ∈ (place s rng).2.list, Block U φ x.r.real x.r.size := by
      intro x hx
      rcases p1.mem hx with ⟨z, hz, e1, e2⟩ | ⟨e1, e2⟩
      · rw [e1, e2]; exact hs.block z hz
      · rw [e1, e2]; exact hblk
    refine ⟨⟨m2, m3, m4, hblk'⟩, p1.inv, ?_, p1.align, p2, fun y hy => p1.mem hy⟩
    rcases hspec' with ⟨_, ⟨m', p1'⟩, _⟩ | ⟨_, _, p1'⟩
    · exact p1'.inv
    · rw [p1']; exact hi'
  · have hblk' : ∀ x ∈ (place s rng).2.list, Block U φ x.r.real x.r.size := by
      rw [p1]; exact hs.block
    refine ⟨⟨m2, m3, m4, hblk'⟩, by rw [p1]; exact hi, ?_, by rw [p1], ?_, ?_⟩
    · rcases hspec' with ⟨_, ⟨m', p1'⟩, _⟩ | ⟨_, _, p1'⟩
      · exact p1'.inv
      · rw [p1']; exact hi'
    · rw [p1]; exact hb.mono (by omega)
    · rw [p1]; intro y hy; exact Or.inl ⟨y, hy, rfl, rfl⟩

/-- A nested request over free addresses is a placement. -/
theorem mapNested_eq {s : State} (hi : Inv s) (real size id off : Nat)
    (hsz : 0 < size) (hend : real + size < W)
    (hd : ∀ x ∈ s.list, x.r.real + x.r.size ≤ real ∨ real + size ≤ x.r.real) :
    mapNested s real size id off = some (place s ⟨real, 0, size, id, off, 0⟩) := by
  obtain ⟨es, hes, hsub, _⟩ := visited_spec hi real size hsz hend
  have hder : ∀ e ∈ es, ∃ r, s.node e.2 = some r := by
    intro e he
    obtain ⟨x, hx, hn, _⟩ := hi.of_index (hsub.subset he)
    exact ⟨x.r, by rw [← hn]; exact hi.node_eq hx⟩
  have hhits : hits s ⟨real, 0, size, id, off, 0⟩ es = [] := by
    unfold hits
    rw [List.map_eq_nil_iff, List.filter_eq_nil_iff]
    intro e he
    obtain ⟨x, hx, hn, _⟩ := hi.of_index (hsub.subset he)
    rw [← hn, hi.node_eq hx]
    have hok := hi.ok x hx
    have := hd x hx
    simp only
    rw [intersects_iff hok.1 hok.2 hsz hend]
    simp only
    omega
  unfold mapNested mapInternalWith
  simp only [hes, overflows_false hsz hend]
  rw [if_neg (by omega)]
  simp only [Bool.false_and, Bool.false_eq_true, if_false]
  rw [scan_noRemove _ _ hder, hhits]
  simp [unmapAll]

/-- A nested request, at both places. -/
theorem nested_both {U : Nat → Prop} {φ : Nat → Nat} {s s' : State} (hf : Fair U φ s.align) (hs : Sim U φ s s')
    (hi : Inv s) (hi' : Inv s') (real size id off h : Nat) (hsz : 0 < size) (hend : real + size < W)
    (hend' : φ real + size < W) (hblk : Block U φ real size)
    (hd : ∀ x ∈ s.list, x.r.real + x.r.size ≤ real ∨ real + size ≤ x.r.real)
    (hb : Below s.list h) (hroom : Room s.align h size) :
    ∃ b t t', mapNested s real size id off = some (b, t) ∧ mapNested s' (φ real) size id off = some (b, t') ∧
      Sim U φ t t' ∧ Inv t ∧ Inv t' ∧ t.align = s.align ∧ Below t.list (h + 2 * s.align + size) ∧
      (∀ y ∈ t.list, (∃ z ∈ s.list, y.r.real = z.r.real ∧ y.r.size = z.r.size) ∨
        (y.r.real = real ∧ y.r.size = size)) := by
  have hd' : ∀ x ∈ s'.list, x.r.real + x.r.size ≤ φ real ∨ φ real + size ≤ x.r.real := by
    intro y hy
    obtain ⟨x, hx, rfl⟩ := hs.of_mem hy
    exact (Block.disj hf.inj (hs.block x hx) hblk (hi.ok x hx).1 hsz).1 (hd x hx)
  obtain ⟨b, t, t', p1, p2, p3⟩ := place_both hf hs hi hi' ⟨real, 0, size, id, off, 0⟩ h hsz hend hend' hblk hd
    hb hroom
  refine ⟨b, t, t', ?_, ?_, p3⟩
  · rw [mapNested_eq hi real size id off hsz hend hd, p1]
  · rw [mapNested_eq hi' (φ real) size id off hsz hend' hd']
    exact congrArg some p2

/-! ### One request -/

/-- What a request that cuts no range does: it takes off what it meets, in the order of addresses, and is placed. -/
theorem plain_key {s : State} (hi : Inv s) (q : Req) (hsz : 0 < q.size) (hend : q.real + q.size < W)
    (hno : ∀ x, ¬ Split s q x) :
    ∃ ns s1, mapWithID s q = some (place s1 ⟨q.real, 0, q.size, q.id, q.off, 0⟩) ∧
      unmapAll s ns = some s1 ∧ Inv s1 ∧ s1.align = s.align ∧ s1.next = s.next ∧
      CoreEq s1.list (s.list.filter (fun y => ! ns.contains y.nid)) ∧ ns.Nodup ∧
      (∀ n, n ∈ ns ↔ ∃ x ∈ s.list, x.nid = n ∧ x.r.real < q.real + q.size ∧ q.real < x.r.real + x.r.size) ∧
      ns.Pairwise (fun n m => ∀ x ∈ s.list, ∀ y ∈ s.list, x.nid = n → y.nid = m → x.r.real < y.r.real) := by
  let rng : Range := ⟨q.real, 0, q.size, q.id, q.off, 0⟩
  obtain ⟨es, hes, hsub, hvis⟩ := visited_spec hi q.real q.size hsz hend
  have hder : ∀ e ∈ es, ∃ r, s.node e.2 = some r ∧ ¬ (r.covers rng = true ∧ rng.size < r.size) := by
    intro e he
    obtain ⟨x, hx, hn, _⟩ := hi.of_index (hsub.subset he)
    refine ⟨x.r, by rw [← hn]; exact hi.node_eq hx, ?_⟩
    have hok := hi.ok x hx
    rw [covers_iff hok.1 hok.2 hsz hend]
    intro hc
    exact hno x ⟨hx, hc.1.1, hc.1.2, hc.2⟩
  have hscan := scan_remove_none rng es hder []
  rw [List.nil_append] at hscan
  have hmem : ∀ n, n ∈ hits s rng es ↔
      ∃ x ∈ s.list, x.nid = n ∧ x.r.real < q.real + q.size ∧ q.real < x.r.real + x.r.size := by
    intro n
    unfold hits
    simp only [List.mem_map, List.mem_filter]
    constructor
    · rintro ⟨e, ⟨he, hp⟩, rfl⟩
      obtain ⟨x, hx, hn, _⟩ := hi.of_index (hsub.subset he)
      rw [← hn, hi.node_eq hx] at hp
      have hok := hi.ok x hx
      simp only at hp
      rw [intersects_iff hok.1 hok.2 hsz hend] at hp
      exact ⟨x, hx, hn, hp.1, hp.2⟩
    · rintro ⟨x, hx, rfl, h1, h2⟩
      refine ⟨(x.r.real, x.nid), ⟨hvis x hx h1 h2, ?_⟩, rfl⟩
      have hok := hi.ok x hx
      simp only [hi.node_eq hx]
      rw [intersects_iff hok.1 hok.2 hsz hend]
      exact ⟨h1, h2⟩
  have hsorted : (hits s rng es).Pairwise
      (fun n m => ∀ x ∈ s.list, ∀ y ∈ s.list, x.nid = n → y.nid = m → x.r.real < y.r.real) := by
    have hidx : s.index.Pairwise (fun a b => ∀ x ∈ s.list, ∀ y ∈ s.list, x.nid = a.2 → y.nid = b.2 →
        x.r.real < y.r.real) := by
      refine List.Pairwise.imp_of_mem ?_ hi.sorted
      intro a b ha hb hlt x hx y hy hxa hyb
      obtain ⟨x', hx', hxn, hxr⟩ := hi.of_index ha
      obtain ⟨y', hy', hyn, hyr⟩ := hi.of_index hb
      rw [hi.nid_inj hx hx' (by omega), hi.nid_inj hy hy' (by omega)]
      omega
    unfold hits
    rw [List.pairwise_map]
    exact (hidx.sublist hsub).sublist List.filter_sublist
  have hnodup : (hits s rng es).Nodup := by
    refine List.Pairwise.imp_of_mem ?_ hsorted
    intro a b ha hb hlt he
    obtain ⟨x, hx, hxn, _⟩ := (hmem a).1 ha
    have := hlt x hx x hx hxn (by omega)
    omega
  obtain ⟨s1, u1, u2, u3, u4, u5⟩ := unmapAll_spec hi (hits s rng es) hnodup (by
    intro n hn
    obtain ⟨x, hx, hxn, _⟩ := (hmem n).1 hn
    exact ⟨x, hx, hxn⟩)
  refine ⟨hits s rng es, s1, ?_, u1, u2, u3, u4, u5, hnodup, hmem, hsorted⟩
  unfold mapWithID mapInternalWith
  simp only [hes, overflows_false hsz hend]
  rw [if_neg (by omega)]
  simp only [Bool.not_true, Bool.and_false, Bool.false_eq_true, if_false]
  have hscan' : scan s ⟨q.real, 0, q.size, q.id, q.off, 0⟩ true es none [] =
    some (some (none, hits s rng es)) := hscan
  simp only [hscan', u1]

/-- Lists without repetitions, with the same members in compatible orders, are the same. -/
theorem eq_of_orders {R R' : Nat → Nat → Prop} {l l' : List Nat} (h : l.Pairwise R) (h' : l'.Pairwise R')
    (hn : l.Nodup) (hn' : l'.Nodup) (hm : ∀ n, n ∈ l ↔ n ∈ l')
    (hno : ∀ n ∈ l, ∀ m ∈ l, R n m → R' m n → False) : l = l' := by
  induction l generalizing l' with
  | nil =>
    cases l' with
    | nil => rfl
    | cons b t => exact absurd ((hm b).2 (by simp)) (by simp)
  | cons a t ih =>
    cases l' with
    | nil => exact absurd ((hm a).1 (by simp)) (by simp)
    | cons b t' =>
      have hp := List.pairwise_cons.1 h
      have hp' := List.pairwise_cons.1 h'
      have hd := List.nodup_cons.1 hn
      have hd' := List.nodup_cons.1 hn'
      have hab : a = b := by
        by_cases he : a = b
        · exact he
        · exfalso
          have ha : a ∈ t' := by
            rcases List.mem_cons.1 ((hm a).1 (by simp)) with e | e
            · exact absurd e he
            · exact e
          have hb : b ∈ t := by
            rcases List.mem_cons.1 ((hm b).2 (by simp)) with e | e
            · exact absurd e.symm he
            · exact e
          exact hno a (by simp) b (by simp [hb]) (hp.1 b hb) (hp'.1 a ha)
      subst hab
      congr 1
      refine ih hp.2 hp'.2 hd.2 hd'.2 ?_ (fun n hn m hm' => hno n (by simp [hn]) m (by simp [hm']))
      intro n
      have := hm n
      simp only [List.mem_cons] at this
      constructor
      · intro hnt
        rcases this.1 (Or.inr hnt) with e | e
        · exact absurd (e ▸ hnt) hd.1
        · exact e
      · intro hnt
        rcases this.2 (Or.inr hnt) with e | e
        · exact absurd (e ▸ hnt) hd'.1
        · exact e

/-- What a request inside a larger range does. -/
theorem split_key {s : State} (hi : Inv s) (q : Req) (hsz : 0 < q.size) (hend : q.real + q.size < W)
    (x : Node) (hx : Split s q x) {gb ga : Nat} (hgb : q.real - x.r.real = gb)
    (hga : (x.r.real + x.r.size) - (q.real + q.size) = ga) :
    ∃ s2, unmap s x.nid = some s2 ∧ Inv s2 ∧ s2.align = s.align ∧ s2.next = s.next ∧
      CoreEq s2.list (s.list.filter (fun y => y.nid ≠ x.nid)) ∧
      (∀ y ∈ s2.list, y.r.real + y.r.size ≤ x.r.real ∨ x.r.real + x.r.size ≤ y.r.real) ∧
      mapWithID s q =
      (if (! q.allowUnaligned && decide (s.align ≠ 0) &&
            ((decide (gb ≠ 0) && decide (alignedOffset s.align q.real ≠ 0)) ||
             (decide (ga ≠ 0) && decide (alignedOffset s.align (q.real + q.size) ≠ 0)))) = true then
          some (false, s2)
        else
          match (if gb ≠ 0 then mapNested s2 x.r.real gb x.r.id x.r.off
                 else some (true, s2)) with
          | none => none
          | some (false, s3) => some (false, s3)
          | some (true, s3) =>
          match mapNested s3 q.real q.size q.id q.off with
          | none => none
          | some (false, s4) => some (false, s4)
          | some (true, s4) =>
            if ga ≠ 0 then
              mapNested s4 (q.real + q.size) ga x.r.id
                (u64 (u64 (x.r.off + gb) + q.size))
            else some (true, s4)) := by
  obtain ⟨hxl, hx1, hx2, hx3⟩ := hx
  have hxok := hi.ok x hxl
  let rng : Range := ⟨q.real, 0, q.size, q.id, q.off, 0⟩
  obtain ⟨es, hes, hsub, hvis⟩ := visited_spec hi q.real q.size hsz hend
  have hxe := hvis x hxl (by omega) (by omega)
  -- every other range is disjoint from `x`, hence from the request
  have hother : ∀ y ∈ s.list, y.nid ≠ x.nid →
      y.r.real + y.r.size ≤ x.r.real ∨ x.r.real + x.r.size ≤ y.r.real := by
    intro y hy hne
    have : y ≠ x := fun he => hne (by rw [he])
    exact hi.disj_mem hy hxl this
  have hskip : ∀ es' : List (Nat × Nat), (∀ e ∈ es', e ∈ s.index ∧ e.2 ≠ x.nid) →
      ∀ e ∈ es', ∃ r, s.node e.2 = some r ∧ r.intersects rng = false := by
    intro es' hes' e he
    obtain ⟨hin, hne⟩ := hes' e he
    obtain ⟨y, hy, hn, _⟩ := hi.of_index hin
    refine ⟨y.r, by rw [← hn]; exact hi.node_eq hy, ?_⟩
    have hok := hi.ok y hy
    have := hother y hy (by rw [hn]; exact hne)
    rw [← Bool.not_eq_true, intersects_iff hok.1 hok.2 hsz hend]
    simp only [rng]; omega
  have hidx : s.index.Pairwise (fun a b => a.2 ≠ b.2) := by
    refine List.Pairwise.imp_of_mem ?_ hi.sorted
    intro a b ha hb hlt he
    obtain ⟨x, hx, hxn, hxr⟩ := hi.of_index ha
    obtain ⟨y, hy, hyn, hyr⟩ := hi.of_index hb
    have := hi.nid_inj hx hy (by omega)
    rw [this] at hxr
    omega
  have hscan : scan s rng true es none [] = some (some (some x.nid, [])) := by
    obtain ⟨pre, post, hpp⟩ := List.append_of_mem hxe
    have hpw := hidx.sublist hsub
    rw [hpp] at hpw
    have hpw' := List.pairwise_append.1 hpw
    rw [hpp, scan_skip]
    · unfold scan
      rw [hi.node_eq hxl]
      have hint : x.r.intersects rng = true := by
        rw [intersects_iff hxok.1 hxok.2 hsz hend]; simp only [rng]; omega
      have hcov : x.r.covers rng = true := by
        rw [covers_iff hxok.1 hxok.2 hsz hend]; simp only [rng]; omega
      have hlt : rng.size < x.r.size := hx3
      simp only [hint, hcov, hlt, Bool.not_true, Bool.false_eq_true, if_false, Option.isNone_none,
        Bool.and_self, decide_true, if_true]
      have := scan_skip (s := s) rng true post (hskip post (by
        intro e he
        refine ⟨hsub.subset (by rw [hpp]; simp [he]), ?_⟩
        have := (List.pairwise_cons.1 hpw'.2.1).1 e he
        simpa using this.symm)) (some x.nid) [] []
      rw [List.append_nil] at this
      rw [this]
      rfl
    · apply hskip
      intro e he
      refine ⟨hsub.subset (by rw [hpp]; simp [he]), ?_⟩
      have := hpw'.2.2 e he (x.r.real, x.nid) (by simp)
      simpa using this
  obtain ⟨s2, u1, u2, u3, u4, u5⟩ := unmap_spec hi hxl
  have hd2 : ∀ y ∈ s2.list, y.r.real + y.r.size ≤ x.r.real ∨ x.r.real + x.r.size ≤ y.r.real := by
    intro y hy
    obtain ⟨z, hz, he⟩ := u5.mem hy
    have he := core_eq_iff.1 he
    have hz' := List.mem_filter.1 hz
    have := hother z hz'.1 (by simpa using hz'.2)
    omega
  have egb : sub64 q.real x.r.real = gb := by rw [sub64_of_le (by omega) hx1, hgb]
  have ega : sub64 (u64 (x.r.real + x.r.size)) (u64 (q.real + q.size)) = ga := by
    rw [u64_of_lt hxok.2, u64_of_lt hend, sub64_of_le hxok.2 hx2, hga]
  have hxnode : s.node x.nid = some x.r := hi.node_eq hxl
  refine ⟨s2, u1, u2, u3, u4, u5, hd2, ?_⟩
  unfold mapWithID mapInternalWith
  simp only [hes, overflows_false hsz hend]
  rw [if_neg (by omega)]
  simp only [Bool.not_true, Bool.and_false, Bool.false_eq_true, if_false]
  have hscan' : scan s ⟨q.real, 0, q.size, q.id, q.off, 0⟩ true es none [] =
    some (some (some x.nid, [])) := hscan
  rw [u64_of_lt hend] at ega
  simp only [hscan', unmapAll, hxnode, u1, egb, ega, u64_of_lt hend]
  rfl

/-- What holds of both mappers between requests. -/
structure Both (U : Nat → Prop) (φ : Nat → Nat) (S h : Nat) (s s' : State) : Prop where
  sim : Sim U φ s s'
  inv : Inv s
  inv' : Inv s'
  below : Below s.list h
  small : Small s.list S

/-- A request that cuts no range, at both places. -/
theorem plain_both {U : Nat → Prop} {φ : Nat → Nat} {s s' : State} {S h : Nat} (hf : Fair U φ s.align)
    (hb : Both U φ S h s s') (q : Req) (hsz : 0 < q.size) (hend : q.real + q.size < W)
    (hend' : φ q.real + q.size < W) (hS : q.size ≤ S) (hblk : Block U φ q.real q.size)
    (hroom : s.align = 0 ∨ h + 6 * s.align + S < W) (hno : ∀ x, ¬ Split s q x)
    (hno' : ∀ x, ¬ Split s' (q.movedBy φ) x) :
    ∃ b t t', mapWithID s q = some (b, t) ∧ mapWithID s' (q.movedBy φ) = some (b, t') ∧
      t.align = s.align ∧ Both U φ S (h + 6 * s.align + S) t t' := by
  have hi := hb.inv
  obtain ⟨ns, s1, k1, k2, k3, k4, k5, k6, k7, k8, k9⟩ := plain_key hi q hsz hend hno
  obtain ⟨ns', s1', l1, l2, l3, l4, l5, l6, l7, l8, l9⟩ := plain_key hb.inv' (q.movedBy φ) hsz hend' hno'
  have hmeet : ∀ x ∈ s.list, (x.r.real < q.real + q.size ∧ q.real < x.r.real + x.r.size) ↔
      (φ x.r.real < φ q.real + q.size ∧ φ q.real < φ x.r.real + x.r.size) := by
    intro x hx
    have := Block.disj hf.inj (hb.sim.block x hx) hblk (hi.ok x hx).1 hsz
    omega
  have hns : ns = ns' := by
    refine eq_of_orders k9 l9 k7 l7 ?_ ?_
    · intro n
      rw [k8, l8]
      constructor
      · rintro ⟨x, hx, hn, hm⟩
        exact ⟨mv φ x, hb.sim.mem hx, hn, (hmeet x hx).1 hm⟩
      · rintro ⟨y, hy, hn, hm⟩
        obtain ⟨x, hx, rfl⟩ := hb.sim.of_mem hy
        exact ⟨x, hx, hn, (hmeet x hx).2 hm⟩
    · intro n hn m hm h1 h2
      obtain ⟨x, hx, hxn, hxm⟩ := (k8 n).1 hn
      obtain ⟨y, hy, hyn, hym⟩ := (k8 m).1 hm
      have hlt := h1 x hx y hy hxn hyn
      have hlt' : φ y.r.real < φ x.r.real := h2 _ (hb.sim.mem hy) _ (hb.sim.mem hx) hyn hxn
      have hne : x ≠ y := by intro he; rw [he] at hlt; omega
      have hdj := hi.disj_mem hx hy hne
      unfold RealDisj at hdj
      have hyok := hi.ok y hy
      -- the second starts inside the request
      have e1 := (hblk (y.r.real - q.real) (by omega)).2
      rw [show q.real + (y.r.real - q.real) = y.r.real by omega] at e1
      -- a shared address of the first and the request
      by_cases hc : q.real ≤ x.r.real
      · have e2 := (hblk (x.r.real - q.real) (by omega)).2
        rw [show q.real + (x.r.real - q.real) = x.r.real by omega] at e2
        omega
      · have e2 := (hb.sim.block x hx (q.real - x.r.real) (by omega)).2
        rw [show x.r.real + (q.real - x.r.real) = q.real by omega] at e2
        omega
  subst hns
  have hlist := unmapAll_mv hb.sim.list k2 l2
  have hfil : ∀ y ∈ s1.list, ∃ x ∈ s.list, y.core = x.core ∧ x.nid ∉ ns := by
    intro y hy
    obtain ⟨x, hx, he⟩ := k6.mem hy
    have hx' := List.mem_filter.1 hx
    exact ⟨x, hx'.1, he, by simpa using hx'.2⟩
  have hsim : Sim U φ s1 s1' := by
    refine ⟨by rw [k4, l4, hb.sim.align], by rw [k5, l5, hb.sim.next], hlist, ?_⟩
    intro y hy
    obtain ⟨x, hx, he, _⟩ := hfil y hy
    have he := core_eq_iff.1 he
    rw [he.2.1, he.2.2.2.1]
    exact hb.sim.block x hx
  have hd : ∀ y ∈ s1.list, y.r.real + y.r.size ≤ q.real ∨ q.real + q.size ≤ y.r.real := by
    intro y hy
    obtain ⟨x, hx, he, hn⟩ := hfil y hy
    have he := core_eq_iff.1 he
    rw [k8] at hn
    have : ¬ (x.r.real < q.real + q.size ∧ q.real < x.r.real + x.r.size) := fun hm => hn ⟨x, hx, rfl, hm⟩
    omega
  have hb1 : Below s1.list h := k6.symm.below (hb.below.filter _)
  have hs1 : Small s1.list S := k6.symm.small (hb.small.filter _)
  obtain ⟨b, t, t', p1, p2, p3, p4, p5, p6, p7, p8⟩ := place_both (by rw [k4]; exact hf) hsim k3 l3
    ⟨q.real, 0, q.size, q.id, q.off, 0⟩ h hsz hend hend' hblk hd hb1 (by
      unfold Room
      rw [k4]
      rcases hroom with h0 | h0
      · exact Or.inl h0
      · right; simp only; omega)
  refine ⟨b, t, t', by rw [k1, p1], by rw [l1]; exact congrArg some p2, by rw [p6, k4], p3, p4, p5, ?_, ?_⟩
  · exact p7.mono (by rw [k4]; simp only; omega)
  · intro y hy
    rcases p8 y hy with ⟨z, hz, _, e⟩ | ⟨_, e⟩
    · rw [e]; exact hs1 z hz
    · rw [e]; exact hS

/-- A request inside a larger range, at both places. -/
theorem split_both {U : Nat → Prop} {φ : Nat → Nat} {s s' : State} {S h : Nat} (hf : Fair U φ s.align)
    (hb : Both U φ S h s s') (q : Req) (hsz : 0 < q.size) (hend : q.real + q.size < W)
    (hend' : φ q.real + q.size < W) (hS : q.size ≤ S) (hblk : Block U φ q.real q.size)
    (hroom : s.align = 0 ∨ h + 6 * s.align + S < W) (x : Node) (hx : Split s q x)
    (hx' : Split s' (q.movedBy φ) (mv φ x)) :
    ∃ b t t', mapWithID s q = some (b, t) ∧ mapWithID s' (q.movedBy φ) = some (b, t') ∧
      t.align = s.align ∧ Both U φ S (h + 6 * s.align + S) t t' := by
  have hi := hb.inv
  obtain ⟨hxl, hx1, hx2, hx3⟩ := id hx
  have hxblk := hb.sim.block x hxl
  have hxS := hb.small x hxl
  have hxok := hi.ok x hxl
  have hxok' := hb.inv'.ok _ (hb.sim.mem hxl)
  have hxend' : φ x.r.real + x.r.size < W := hxok'.2
  generalize hgb : q.real - x.r.real = gb
  generalize hga : (x.r.real + x.r.size) - (q.real + q.size) = ga
  have eq1 := (hxblk gb (by omega)).2
  rw [show x.r.real + gb = q.real by omega] at eq1
  obtain ⟨s2, k1, k2, k3, k4, k5, k6, k7⟩ := split_key hi q hsz hend x hx hgb hga
  obtain ⟨s2', l1, l2, l3, l4, l5, l6, l7⟩ := split_key hb.inv' (q.movedBy φ) hsz hend' (mv φ x) hx'
    (gb := gb) (ga := ga) (by simp only [Req.movedBy, mv]; omega) (by simp only [Req.movedBy, mv]; omega)
  have hlist := unmap_mv hb.sim.list k1 l1
  have hback : ∀ y ∈ s2.list, ∃ z ∈ s.list, y.core = z.core := by
    intro y hy
    obtain ⟨z, hz, he⟩ := k5.mem hy
    exact ⟨z, (List.mem_filter.1 hz).1, he⟩
  have hsim : Sim U φ s2 s2' := by
    refine ⟨by rw [k3, l3, hb.sim.align], by rw [k4, l4, hb.sim.next], hlist, ?_⟩
    intro y hy
    obtain ⟨z, hz, he⟩ := hback y hy
    have he := core_eq_iff.1 he
    rw [he.2.1, he.2.2.2.1]
    exact hb.sim.block z hz
  have hb2 : Below s2.list h := k5.symm.below (hb.below.filter _)
  have hs2 : Small s2.list S := k5.symm.small (hb.small.filter _)
  have room_of : ∀ (g h' : Nat), h' + 2 * s.align + g ≤ h + 6 * s.align + S → Room s.align h' g := by
    intro g h' hle
    unfold Room
    rcases hroom with h0 | h0
    · left; exact h0
    · right; omega
  -- the page test
  have hqu : U q.real := by simpa using (hblk 0 hsz).1
  have hcut : (! (q.movedBy φ).allowUnaligned && decide (s'.align ≠ 0) &&
        ((decide (gb ≠ 0) && decide (alignedOffset s'.align (q.movedBy φ).real ≠ 0)) ||
         (decide (ga ≠ 0) &&
          decide (alignedOffset s'.align ((q.movedBy φ).real + (q.movedBy φ).size) ≠ 0)))) =
      (! q.allowUnaligned && decide (s.align ≠ 0) &&
        ((decide (gb ≠ 0) && decide (alignedOffset s.align q.real ≠ 0)) ||
         (decide (ga ≠ 0) && decide (alignedOffset s.align (q.real + q.size) ≠ 0)))) := by
    rw [hb.sim.align]
    by_cases h0 : s.align = 0
    · simp [h0]
    · have e1 : alignedOffset s.align (φ q.real) = alignedOffset s.align q.real := hf.offset hi hqu h0
      have e2 : alignedOffset s.align (φ q.real + q.size) = alignedOffset s.align (q.real + q.size) := by
        rw [alignedOffset_al hi h0, alignedOffset_al hi h0, Nat.add_mod, hf.page h0 _ hqu, ← Nat.add_mod]
      simp only [Req.movedBy, e1, e2]
  rw [hcut] at l7
  rw [k7, l7]
  generalize (! q.allowUnaligned && decide (s.align ≠ 0) &&
        ((decide (gb ≠ 0) && decide (alignedOffset s.align q.real ≠ 0)) ||
         (decide (ga ≠ 0) && decide (alignedOffset s.align (q.real + q.size) ≠ 0)))) = c
  have hf2 : Fair U φ s2.align := by rw [k3]; exact hf
  by_cases hc : c = true
  · rw [if_pos hc, if_pos hc]
    exact ⟨false, s2, s2', rfl, rfl, k3, hsim, k2, l2, hb2.mono (by omega), hs2⟩
  rw [if_neg hc, if_neg hc]
  -- first piece
  have step1 : ∃ b t t', (if gb ≠ 0 then mapNested s2 x.r.real gb x.r.id x.r.off else some (true, s2)) =
        some (b, t) ∧
      (if gb ≠ 0 then mapNested s2' (mv φ x).r.real gb (mv φ x).r.id (mv φ x).r.off else some (true, s2')) =
        some (b, t') ∧
      Sim U φ t t' ∧ Inv t ∧ Inv t' ∧ t.align = s.align ∧ Below t.list (h + 2 * s.align + gb) ∧
      (∀ y ∈ t.list, (∃ z ∈ s2.list, y.r.real = z.r.real ∧ y.r.size = z.r.size) ∨
        (y.r.real = x.r.real ∧ y.r.size = gb)) := by
    by_cases hg : gb = 0
    · rw [if_neg (by omega), if_neg (by omega)]
      exact ⟨true, s2, s2', rfl, rfl, hsim, k2, l2, k3, hb2.mono (by omega),
        fun y hy => Or.inl ⟨y, hy, rfl, rfl⟩⟩
    · rw [if_pos (by omega), if_pos (by omega)]
      have hpart := (hxblk.part (e := 0) (n := gb) (by omega) (by omega)).1
      obtain ⟨b, t, t', g1, g2, g3, g4, g5, g6, g7, g8⟩ := nested_both hf2 hsim k2 l2 x.r.real gb x.r.id x.r.off h
        (by omega) (by omega) (by omega) (by simpa using hpart) (by
          intro y hy; have := k6 y hy; omega) hb2 (by rw [k3]; exact room_of gb h (by omega))
      exact ⟨b, t, t', g1, g2, g3, g4, g5, by rw [g6, k3], by rw [k3] at g7; exact g7, g8⟩
  obtain ⟨b1, s3, s3', e3, e3', sim3, i3, i3', a3, b3, m3⟩ := step1
  rw [e3, e3']
  have sm3 : Small s3.list S := by
    intro y hy
    rcases m3 y hy with ⟨z, hz, _, e⟩ | ⟨_, e⟩
    · rw [e]; exact hs2 z hz
    · omega
  cases b1 with
  | false => exact ⟨false, s3, s3', rfl, rfl, a3, sim3, i3, i3', b3.mono (by omega), sm3⟩
  | true =>
    simp only
    -- second piece
    obtain ⟨b2, s4, s4', e4, e4', sim4, i4, i4', a4, b4, m4⟩ := nested_both (by rw [a3]; exact hf) sim3 i3 i3'
      q.real q.size q.id q.off (h + 2 * s.align + gb) hsz hend hend' hblk (by
        intro y hy
        rcases m3 y hy with ⟨z, hz, e1, e2⟩ | ⟨e1, e2⟩
        · have := k6 z hz; omega
        · omega) b3 (by rw [a3]; exact room_of _ _ (by omega))
    rw [a3] at a4 b4
    have e4'' : mapNested s3' (q.movedBy φ).real (q.movedBy φ).size (q.movedBy φ).id (q.movedBy φ).off =
        some (b2, s4') := e4'
    rw [e4, e4'']
    have sm4 : Small s4.list S := by
      intro y hy
      rcases m4 y hy with ⟨z, hz, _, e⟩ | ⟨_, e⟩
      · rw [e]; exact sm3 z hz
      · omega
    cases b2 with
    | false => exact ⟨false, s4, s4', rfl, rfl, a4, sim4, i4, i4', b4.mono (by omega), sm4⟩
    | true =>
      simp only
      by_cases hg : ga = 0
      · rw [if_neg (by omega), if_neg (by omega)]
        exact ⟨true, s4, s4', rfl, rfl, a4, sim4, i4, i4', b4.mono (by omega), sm4⟩
      · rw [if_pos (by omega), if_pos (by omega)]
        have hpart := hxblk.part (e := gb + q.size) (n := ga) (by omega) (by omega)
        rw [show x.r.real + (gb + q.size) = q.real + q.size by omega] at hpart
        obtain ⟨b, t, t', g1, g2, g3, g4, g5, g6, g7, g8⟩ := nested_both (by rw [a4]; exact hf) sim4 i4 i4'
          (q.real + q.size) ga x.r.id (u64 (u64 (x.r.off + gb) + q.size))
          (h + 2 * s.align + gb + 2 * s.align + q.size) (by omega) (by omega) (by omega) hpart.1 (by
            intro y hy
            rcases m4 y hy with ⟨w, hw, e1, e2⟩ | ⟨e1, e2⟩
            · rcases m3 w hw with ⟨z, hz, e3, e4⟩ | ⟨e3, e4⟩
              · have := k6 z hz; omega
              · omega
            · omega) b4 (by rw [a4]; exact room_of _ _ (by omega))
        rw [hpart.2, show φ x.r.real + (gb + q.size) = (q.movedBy φ).real + (q.movedBy φ).size by
          simp only [Req.movedBy]; omega] at g2
        refine ⟨b, t, t', g1, g2, by rw [g6, a4], g3, g4, g5, ?_, ?_⟩
        · exact g7.mono (by rw [a4]; omega)
        · intro y hy
          rcases g8 y hy with ⟨z, hz, _, e⟩ | ⟨_, e⟩
          · rw [e]; exact sm4 z hz
          · omega

/-- A request, at both places. -/
theorem step_both {U : Nat → Prop} {φ : Nat → Nat} {s s' : State} {S h : Nat} (hf : Fair U φ s.align)
    (hb : Both U φ S h s s') (q : Req) (hw : q.wf) (hw' : (q.movedBy φ).wf) (hS : q.size ≤ S)
    (hblk : Block U φ q.real q.size) (hpast : 2 ^ 64 < q.real + q.size ↔ 2 ^ 64 < φ q.real + q.size)
    (hroom : s.align = 0 ∨ h + 6 * s.align + S < W) :
    ∃ b t t', mapWithID s q = some (b, t) ∧ mapWithID s' (q.movedBy φ) = some (b, t') ∧
      t.align = s.align ∧ Both U φ S (h + 6 * s.align + S) t t' := by
  by_cases hr : q.size = 0 ∨ 2 ^ 64 < q.real + q.size
  · refine ⟨false, s, s', map_refused hw hr, map_refused hw' ?_, rfl, hb.sim, hb.inv, hb.inv',
      hb.below.mono (by omega), hb.small⟩
    rcases hr with h0 | h0
    · exact Or.inl h0
    · exact Or.inr (hpast.1 h0)
  have he := wf_end hw hr
  have he' := wf_end hw' (by
    intro hc
    rcases hc with h0 | h0
    · exact hr (Or.inl h0)
    · exact hr (Or.inr (hpast.2 h0)))
  by_cases hx : ∃ x, Split s q x
  · obtain ⟨x, hx⟩ := hx
    refine split_both hf hb q he.1 he.2 he'.2 hS hblk hroom x hx ?_
    obtain ⟨hxl, hx1, hx2, hx3⟩ := hx
    have e := (hb.sim.block x hxl (q.real - x.r.real) (by omega)).2
    rw [show x.r.real + (q.real - x.r.real) = q.real by omega] at e
    exact ⟨hb.sim.mem hxl, by simp only [mv, Req.movedBy]; omega, by simp only [mv, Req.movedBy]; omega, hx3⟩
  · refine plain_both hf hb q he.1 he.2 he'.2 hS hblk hroom (fun x hx' => hx ⟨x, hx'⟩) ?_
    rintro y ⟨hy, h1, h2, h3⟩
    obtain ⟨x, hxl, rfl⟩ := hb.sim.of_mem hy
    simp only [mv, Req.movedBy] at h1 h2 h3
    have hsz := he.1
    have e := hb.sim.block x hxl (φ q.real - φ x.r.real) (by omega)
    have e0 : U q.real := by simpa using (hblk 0 hsz).1
    have := hf.inj _ _ e.1 e0 (by rw [e.2]; omega)
    exact hx ⟨x, hxl, by omega, by omega, h3⟩

/-- A history, at both places. -/
theorem run_both {U : Nat → Prop} {φ : Nat → Nat} {S : Nat} (qs : List Req) {s s' : State} {h : Nat}
    (hf : Fair U φ s.align) (hb : Both U φ S h s s') (hw : ∀ q ∈ qs, q.wf)
    (hw' : ∀ q ∈ qs, (q.movedBy φ).wf) (hS : ∀ q ∈ qs, q.size ≤ S)
    (hblk : ∀ q ∈ qs, Block U φ q.real q.size)
    (hpast : ∀ q ∈ qs, 2 ^ 64 < q.real + q.size ↔ 2 ^ 64 < φ q.real + q.size)
    (hroom : s.align = 0 ∨ h + qs.length * (S + 6 * s.align) < W) :
    ∃ bs t t', runFrom s qs = some (bs, t) ∧ runFrom s' (qs.map (Req.movedBy φ)) = some (bs, t') ∧
      Sim U φ t t' ∧ Inv t ∧ Inv t' := by
  induction qs generalizing s s' h with
  | nil => exact ⟨[], s, s', rfl, rfl, hb.sim, hb.inv, hb.inv'⟩
  | cons q qs ih =>
    have hlen : (q :: qs).length * (S + 6 * s.align) = qs.length * (S + 6 * s.align) + (S + 6 * s.align) := by
      rw [List.length_cons, Nat.succ_mul]
    rw [hlen] at hroom
    obtain ⟨b, t, t', e1, e2, e3, e4⟩ := step_both hf hb q (hw q (by simp)) (hw' q (by simp)) (hS q (by simp))
      (hblk q (by simp)) (hpast q (by simp)) (by
        rcases hroom with h0 | h0
        · exact Or.inl h0
        · right; omega)
    obtain ⟨bs, u, u', g1, g2, g3⟩ := ih (by rw [e3]; exact hf) e4 (fun x hx => hw x (by simp [hx]))
      (fun x hx => hw' x (by simp [hx])) (fun x hx => hS x (by simp [hx])) (fun x hx => hblk x (by simp [hx]))
      (fun x hx => hpast x (by simp [hx])) (by
        rw [e3]
        rcases hroom with h0 | h0
        · exact Or.inl h0
        · right; omega)
    refine ⟨b :: bs, u, u', ?_, ?_, g3⟩
    · simp only [runFrom, e1, g1]
    · simp only [List.map_cons, runFrom, e2, g2]

/-- Lookups, at both places. -/
theorem lookup_both {U : Nat → Prop} {φ : Nat → Nat} {s s' : State} (hf : Fair U φ s.align) (hs : Sim U φ s s')
    (hi : Inv s) (hi' : Inv s') {a : Nat} (ha : U a) :
    getMappedAddress s' (φ a) = getMappedAddress s a ∧
      getMappedAddressIDAndOffset s' (φ a) = getMappedAddressIDAndOffset s a := by
  have hin : ∀ x ∈ s.list, (φ x.r.real ≤ φ a ∧ φ a < φ x.r.real + x.r.size) →
      x.r.real ≤ a ∧ a < x.r.real + x.r.size ∧ φ a = φ x.r.real + (a - x.r.real) := by
    intro x hx hc
    have e := hs.block x hx (φ a - φ x.r.real) (by omega)
    have := hf.inj _ _ e.1 ha (by rw [e.2]; omega)
    omega
  unfold getMappedAddress getMappedAddressIDAndOffset
  rcases rangeContaining_spec hi' (φ a) with ⟨y, hy, y1, y2, y3⟩ | ⟨y1, y2⟩
  · obtain ⟨x, hx, rfl⟩ := hs.of_mem hy
    obtain ⟨x1, x2, x3⟩ := hin x hx ⟨y1, y2⟩
    have hok := hi.ok x hx
    have hok' : φ x.r.real + x.r.size < W := (hi'.ok _ hy).2
    have hsame : rangeContaining s a = some (some x.r) := by
      rcases rangeContaining_spec hi a with ⟨z, hz, z1, z2, z3⟩ | ⟨z1, _⟩
      · have : z = x := by
          by_cases hzx : z = x
          · exact hzx
          · have := hi.disj_mem hz hx hzx
            unfold RealDisj at this
            omega
        rw [z3, this]
      · exact absurd ⟨x1, x2⟩ (z1 x hx)
    rw [y3, hsame]
    have e1 : sub64 (φ a) (φ x.r.real) = sub64 a x.r.real := by
      rw [sub64_of_le (by omega) (by omega), sub64_of_le (by omega) (by omega)]; omega
    have e2 : sub64 (u64 (x.r.mapped + φ a)) (φ x.r.real) = sub64 (u64 (x.r.mapped + a)) x.r.real := by
      unfold sub64 u64
      simp only [W] at *
      omega
    simp only [Option.map_some, mv, e1, e2, and_self]
  · have hsame : rangeContaining s a = some none := by
      rcases rangeContaining_spec hi a with ⟨z, hz, z1, z2, z3⟩ | ⟨_, z2⟩
      · exfalso
        have e := (hs.block z hz (a - z.r.real) (by omega)).2
        rw [show z.r.real + (a - z.r.real) = a by omega] at e
        exact y1 _ (hs.mem hz) ⟨by simp only [mv]; omega, by simp only [mv]; omega⟩
      · exact z2
    rw [y2, hsame]
    exact ⟨rfl, rfl⟩

/-! ### The property -/

/-- **C140**: moving the requested ranges about in memory changes neither the answers to the requests nor what
the mapper makes of any requested address: made-up address, identifier and offset. -/
theorem C140_hidden (align S : Nat) (φ : Nat → Nat) (qs : List Req) (ha : AlignOK align)
    (hw : ∀ q ∈ qs, q.wf) (hw' : ∀ q ∈ qs, (q.movedBy φ).wf) (hroom : RoomFor align S qs)
    (hφ : Rearranges align φ qs) :
    ∃ bs s s', runFrom (fresh align) qs = some (bs, s) ∧
      runFrom (fresh align) (qs.map (Req.movedBy φ)) = some (bs, s') ∧
      ∀ a, Used qs a → getMappedAddress s' (φ a) = getMappedAddress s a ∧
        getMappedAddressIDAndOffset s' (φ a) = getMappedAddressIDAndOffset s a := by
  have hblk : ∀ q ∈ qs, Block (Used qs) φ q.real q.size := by
    intro q hq d hd
    refine ⟨⟨q, hq, ?_⟩, hφ.whole q hq d hd⟩
    rw [has_iff]; omega
  have hf : Fair (Used qs) φ align := by
    refine ⟨hφ.apart, ?_⟩
    rintro h0 a ⟨q, hq, hh⟩
    rw [has_iff] at hh
    have e := hφ.whole q hq (a - q.real) (by omega)
    rw [show q.real + (a - q.real) = a by omega] at e
    rw [e, Nat.add_mod, hφ.page h0 q hq, ← Nat.add_mod]
    congr 1; omega
  have hsz : ∃ S', (∀ q ∈ qs, q.size ≤ S') ∧ (align = 0 ∨ 0 + qs.length * (S' + 6 * align) < W) := by
    rcases hroom with h0 | h0
    · exact ⟨W, fun q hq => by have := (hw q hq).2.1; simp only [W]; omega, Or.inl h0⟩
    · exact ⟨S, h0.1, Or.inr (by have := h0.2; simp only [W]; omega)⟩
  obtain ⟨S', h1, h2⟩ := hsz
  have hb : Both (Used qs) φ S' 0 (fresh align) (fresh align) :=
    ⟨⟨rfl, rfl, rfl, by simp⟩, inv_new ha, inv_new ha, by intro x hx; simp at hx, by intro x hx; simp at hx⟩
  obtain ⟨bs, s, s', r1, r2, r3, r4, r5⟩ := run_both qs hf hb hw hw' h1 hblk hφ.past h2
  refine ⟨bs, s, s', r1, r2, fun a hu => ?_⟩
  have hal : s.align = align := by
    obtain ⟨_, s0, q1, _, q3, _⟩ := run_new align S qs ha hw hroom
    rw [r1] at q1
    cases q1
    exact q3
  exact lookup_both (by rw [hal]; exact hf) r3 r4 r5 hu

/-- Three ranges, the second cutting the first in three, are moved: the first two together up and the third down. -/
example : ∃ bs s s',
    runFrom (fresh 0x1000) [⟨0x10000, 0x3000, 1, 0, false⟩, ⟨0x11000, 0x1000, 2, 0x40, false⟩,
      ⟨0x7f0000010, 0x800, 3, 0, false⟩] = some (bs, s) ∧
    runFrom (fresh 0x1000) [⟨0x550000010000, 0x3000, 1, 0, false⟩, ⟨0x550000011000, 0x1000, 2, 0x40, false⟩,
      ⟨0x8010, 0x800, 3, 0, false⟩] = some (bs, s') ∧
    getMappedAddress s 0x12345 = some (some 0x2345) ∧ getMappedAddress s' 0x550000012345 = some (some 0x2345) := by
  let φ : Nat → Nat := fun a => if a < 0x20000 then a + 0x550000000000 else a - 0x7f0000000 + 0x8000
  have h := C140_hidden 0x1000 0x3000 φ [⟨0x10000, 0x3000, 1, 0, false⟩, ⟨0x11000, 0x1000, 2, 0x40, false⟩,
    ⟨0x7f0000010, 0x800, 3, 0, false⟩] (Or.inr ⟨12, by decide, by decide⟩)
    (by simp [Req.wf]) (by simp [Req.wf, Req.movedBy, φ])
    (Or.inr ⟨by simp, by simp⟩) (by
      constructor
      · intro q hq d hd
        simp only [List.mem_cons, List.not_mem_nil, or_false] at hq
        rcases hq with rfl | rfl | rfl <;> simp only [φ] at hd ⊢ <;> split <;> split <;> omega
      · rintro a b ⟨q, hq, ha⟩ ⟨q', hq', hb⟩ he
        rw [has_iff] at ha hb
        simp only [List.mem_cons, List.not_mem_nil, or_false] at hq hq'
        simp only [φ] at he
        rcases hq with rfl | rfl | rfl <;> rcases hq' with rfl | rfl | rfl <;> simp only at ha hb <;>
          (split at he <;> split at he <;> omega)
      · intro _ q hq
        simp only [List.mem_cons, List.not_mem_nil, or_false] at hq
        rcases hq with rfl | rfl | rfl <;> simp [φ]
      · intro q hq
        simp only [List.mem_cons, List.not_mem_nil, or_false] at hq
        rcases hq with rfl | rfl | rfl <;> simp [φ])
  obtain ⟨bs, s, s', h1, h2, h3⟩ := h
  have e : getMappedAddress s 0x12345 = some (some 0x2345) := by
    have : (runFrom (fresh 0x1000) [⟨0x10000, 0x3000, 1, 0, false⟩, ⟨0x11000, 0x1000, 2, 0x40, false⟩,
      ⟨0x7f0000010, 0x800, 3, 0, false⟩]).map (fun r => getMappedAddress r.2 0x12345) =
        some (some (some 0x2345)) := by decide +kernel
    rw [h1] at this
    exact Option.some.inj this
  have h4 := (h3 0x12345 ⟨⟨0x10000, 0x3000, 1, 0, false⟩, by simp, by decide⟩).1
  exact ⟨bs, s, s', h1, h2, e, by rw [← e, ← h4]; rfl⟩

/-! ### Ranges that do not meet: anywhere -/

/-- A request, and where its range is instead. -/
def Req.movedTo (p : Req × Nat) : Req := { p.1 with real := p.2 }

/-- The addresses of each range, where they are instead. -/
def moveTo : List (Req × Nat) → Nat → Nat
  | [], a => a
  | p :: t, a => if p.1.has a then p.2 + (a - p.1.real) else moveTo t a

theorem moveTo_mem {ps : List (Req × Nat)}
    (hd : ps.Pairwise (fun p p' => p.1.real + p.1.size ≤ p'.1.real ∨ p'.1.real + p'.1.size ≤ p.1.real))
    {p : Req × Nat} (hp : p ∈ ps) {d : Nat} (h : d < p.1.size) : moveTo ps (p.1.real + d) = p.2 + d := by
  induction ps with
  | nil => simp at hp
  | cons p0 t ih =>
    have hc := List.pairwise_cons.1 hd
    unfold moveTo
    rcases List.mem_cons.1 hp with rfl | hp
    · rw [if_pos (by rw [has_iff]; omega)]; omega
    · have := hc.1 p hp
      rw [if_neg (by rw [has_iff]; omega)]
      exact ih hc.2 hp

/-- **C140**, for ranges that do not meet: they can be anywhere, in any order, as long as their places within
pages are the same. -/
theorem C140_anywhere (align S : Nat) (ps : List (Req × Nat)) (ha : AlignOK align)
    (hsz : ∀ p ∈ ps, 0 < p.1.size)
    (hend : ∀ p ∈ ps, p.1.real + p.1.size < 2 ^ 64 ∧ p.2 + p.1.size < 2 ^ 64)
    (hroom : RoomFor align S (ps.map (·.1)))
    (hapart : ps.Pairwise (fun p p' => p.1.real + p.1.size ≤ p'.1.real ∨ p'.1.real + p'.1.size ≤ p.1.real))
    (hapart' : ps.Pairwise (fun p p' => p.2 + p.1.size ≤ p'.2 ∨ p'.2 + p'.1.size ≤ p.2))
    (hpage : align ≠ 0 → ∀ p ∈ ps, p.2 % align = p.1.real % align) :
    ∃ bs s s', runFrom (fresh align) (ps.map (·.1)) = some (bs, s) ∧
      runFrom (fresh align) (ps.map Req.movedTo) = some (bs, s') ∧
      ∀ p ∈ ps, ∀ d, d < p.1.size →
        getMappedAddress s' (p.2 + d) = getMappedAddress s (p.1.real + d) ∧
        getMappedAddressIDAndOffset s' (p.2 + d) = getMappedAddressIDAndOffset s (p.1.real + d) := by
  have hm : ∀ p ∈ ps, ∀ d, d < p.1.size → moveTo ps (p.1.real + d) = p.2 + d :=
    fun p hp d hd => moveTo_mem hapart hp hd
  have hm0 : ∀ p ∈ ps, moveTo ps p.1.real = p.2 := by
    intro p hp
    have := hm p hp 0 (hsz p hp)
    simpa using this
  have hmap : (ps.map (·.1)).map (Req.movedBy (moveTo ps)) = ps.map Req.movedTo := by
    rw [List.map_map]
    apply List.map_congr_left
    intro p hp
    simp only [Function.comp, Req.movedBy, Req.movedTo, hm0 p hp]
  have h := C140_hidden align S (moveTo ps) (ps.map (·.1)) ha (by
      intro q hq
      obtain ⟨p, hp, rfl⟩ := List.mem_map.1 hq
      have := hend p hp
      exact ⟨by omega, by omega, by omega⟩) (by
      intro q hq
      obtain ⟨p, hp, rfl⟩ := List.mem_map.1 hq
      have := hend p hp
      have := hm0 p hp
      exact ⟨by simp only [Req.movedBy]; omega, by simp only [Req.movedBy]; omega,
        by simp only [Req.movedBy]; omega⟩) hroom (by
      constructor
      · intro q hq d hd
        obtain ⟨p, hp, rfl⟩ := List.mem_map.1 hq
        rw [hm p hp d hd, hm0 p hp]
      · rintro a b ⟨q, hq, h1⟩ ⟨q', hq', h2⟩ he
        obtain ⟨p, hp, rfl⟩ := List.mem_map.1 hq
        obtain ⟨p', hp', rfl⟩ := List.mem_map.1 hq'
        rw [has_iff] at h1 h2
        have e1 := hm p hp (a - p.1.real) (by omega)
        have e2 := hm p' hp' (b - p'.1.real) (by omega)
        rw [show p.1.real + (a - p.1.real) = a by omega] at e1
        rw [show p'.1.real + (b - p'.1.real) = b by omega] at e2
        rw [e1, e2] at he
        by_cases hpp : p = p'
        · subst hpp; omega
        · rcases pairwise_mem hapart' hp hp' hpp with h | h <;> omega
      · intro h0 q hq
        obtain ⟨p, hp, rfl⟩ := List.mem_map.1 hq
        rw [hm0 p hp]; exact hpage h0 p hp
      · intro q hq
        obtain ⟨p, hp, rfl⟩ := List.mem_map.1 hq
        rw [hm0 p hp]
        have := hend p hp
        omega)
  obtain ⟨bs, s, s', h1, h2, h3⟩ := h
  rw [hmap] at h2
  refine ⟨bs, s, s', h1, h2, fun p hp d hd => ?_⟩
  have := h3 (p.1.real + d) ⟨p.1, List.mem_map_of_mem hp, by rw [has_iff]; omega⟩
  rw [hm p hp d hd] at this
  exact this

/-- A program and its library change places. -/
example := C140_anywhere 0x1000 0x3000
  [(⟨0x10000, 0x3000, 1, 0, false⟩, 0x7f0000000), (⟨0x7f0000010, 0x800, 2, 0, false⟩, 0x10010)]
  (Or.inr ⟨12, by decide, by decide⟩) (by simp) (by simp) (Or.inr ⟨by simp, by simp⟩) (by simp) (by simp)
  (by simp)

/-- Not so for the place within a page: it can be told from the made-up address. -/
theorem C140_page_told :
    ∃ q q' : Req, q' = { q with real := q.real + 0x10 } ∧ q.wf ∧ q'.wf ∧
      ∃ s s', runFrom (fresh 0x1000) [q] = some ([true], s) ∧ runFrom (fresh 0x1000) [q'] = some ([true], s') ∧
        getMappedAddress s q.real = some (some 0) ∧ getMappedAddress s' q'.real = some (some 0x10) :=
  ⟨⟨0x10000, 0x800, 1, 0, false⟩, ⟨0x10010, 0x800, 1, 0, false⟩, rfl, by simp [Req.wf], by simp [Req.wf],
    _, _, rfl, rfl, by decide +kernel, by decide +kernel⟩

/-- Nor for the order of requests for the same addresses: a range asked for later hides an earlier one, so how
ranges meet can be told. -/
theorem C140_meeting_told :
    ∃ q q1 q2 : Req, q2 = { q1 with real := q1.real + 0x1000 } ∧ q.wf ∧ q1.wf ∧ q2.wf ∧
      ∃ s s', runFrom (fresh 0x1000) [q, q1] = some ([true, true], s) ∧
        runFrom (fresh 0x1000) [q, q2] = some ([true, true], s') ∧
        getMappedAddress s q1.real = some (some 0) ∧ getMappedAddress s' q2.real = some (some 0x1000) :=
  ⟨⟨0x10000, 0x1000, 1, 0, false⟩, ⟨0x10000, 0x1000, 2, 0, false⟩, ⟨0x11000, 0x1000, 2, 0, false⟩, rfl,
    by simp [Req.wf], by simp [Req.wf], by simp [Req.wf], _, _, rfl, rfl, by decide +kernel, by decide +kernel⟩

end Verif.AddressMapper
