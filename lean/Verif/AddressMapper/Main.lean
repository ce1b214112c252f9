import Verif.AddressMapper.Lemmas

namespace Verif.AddressMapper

/-- Some range of the list contains `a` and reports `v` for it. -/
def Cov (l : List Node) (a : Nat) (v : Nat × Nat) : Prop :=
  ∃ x ∈ l, x.r.real ≤ a ∧ a < x.r.real + x.r.size ∧ v = (x.r.id, (a - x.r.real + x.r.off) % W)

/-- All ranges are at most `S` bytes long. -/
def Small (l : List Node) (S : Nat) : Prop := ∀ x ∈ l, x.r.size ≤ S

theorem CoreEq.cov_imp {l l' : List Node} (h : CoreEq l l') {a : Nat} {v : Nat × Nat}
    (hc : Cov l a v) : Cov l' a v := by
  obtain ⟨x, hx, h1, h2, h3⟩ := hc
  obtain ⟨y, hy, he⟩ := h.mem hx
  have he := core_eq_iff.1 he
  refine ⟨y, hy, by omega, by omega, ?_⟩
  rw [h3, he.2.1, he.2.2.2.2.1, he.2.2.2.2.2]

theorem CoreEq.cov_iff {l l' : List Node} (h : CoreEq l l') (a : Nat) (v : Nat × Nat) :
    Cov l a v ↔ Cov l' a v := ⟨h.cov_imp, h.symm.cov_imp⟩

theorem CoreEq.below {l l' : List Node} (h : CoreEq l l') {n : Nat} (hb : Below l n) : Below l' n := by
  intro x hx
  obtain ⟨y, hy, he⟩ := h.symm.mem hx
  have he := core_eq_iff.1 he
  have := hb y hy
  omega

theorem CoreEq.small {l l' : List Node} (h : CoreEq l l') {n : Nat} (hb : Small l n) : Small l' n := by
  intro x hx
  obtain ⟨y, hy, he⟩ := h.symm.mem hx
  have he := core_eq_iff.1 he
  have := hb y hy
  omega

/-- A range without its place. -/
def tup (x : Node) : Nat × Nat × Nat × Nat := (x.r.real, x.r.size, x.r.id, x.r.off)

/-- The list has a range with these parameters. -/
def HasT (l : List Node) (t : Nat × Nat × Nat × Nat) : Prop := ∃ x ∈ l, tup x = t

theorem tup_core {x y : Node} (h : x.core = y.core) : tup x = tup y := by
  have := core_eq_iff.1 h
  unfold tup
  rw [this.2.1, this.2.2.2.1, this.2.2.2.2.1, this.2.2.2.2.2]

theorem CoreEq.hasT_iff {l l' : List Node} (h : CoreEq l l') (t : Nat × Nat × Nat × Nat) :
    HasT l t ↔ HasT l' t := by
  constructor
  · rintro ⟨x, hx, rfl⟩
    obtain ⟨y, hy, he⟩ := h.mem hx
    exact ⟨y, hy, (tup_core he).symm⟩
  · rintro ⟨x, hx, rfl⟩
    obtain ⟨y, hy, he⟩ := h.symm.mem hx
    exact ⟨y, hy, (tup_core he).symm⟩

theorem Below.filter {l : List Node} {n : Nat} (hb : Below l n) (p : Node → Bool) :
    Below (l.filter p) n := fun x hx => hb x (List.mem_filter.1 hx).1

theorem Small.filter {l : List Node} {n : Nat} (hb : Small l n) (p : Node → Bool) :
    Small (l.filter p) n := fun x hx => hb x (List.mem_filter.1 hx).1

theorem Below.mono {l : List Node} {n m : Nat} (hb : Below l n) (h : n ≤ m) : Below l m :=
  fun x hx => Nat.le_trans (hb x hx) h

/-- The reported value of a range. -/
def val (real id off a : Nat) : Nat × Nat := (id, (a - real + off) % W)

theorem Placed.coreEq {s s' : State} {rng : Range} {m : Nat} (h : Placed s s' rng m) :
    ∃ l1 l2, s.list = l1 ++ l2 ∧
      CoreEq s'.list (l1 ++ (⟨s.next, { rng with mapped := m, after := 0 }⟩ : Node) :: l2) := by
  obtain ⟨l1, l2, h1, h2⟩ := h.core
  refine ⟨l1, l2, h1, ?_⟩
  unfold CoreEq
  rw [h2]; simp [Node.core]

theorem Placed.cov {s s' : State} {rng : Range} {m : Nat} (h : Placed s s' rng m) (a : Nat)
    (v : Nat × Nat) : Cov s'.list a v ↔
      Cov s.list a v ∨ (rng.real ≤ a ∧ a < rng.real + rng.size ∧ v = val rng.real rng.id rng.off a) := by
  obtain ⟨l1, l2, h1, h2⟩ := h.coreEq
  rw [h2.cov_iff, h1]
  unfold Cov val
  constructor
  · rintro ⟨x, hx, h3⟩
    rcases List.mem_append.1 hx with hx | hx
    · exact Or.inl ⟨x, List.mem_append_left _ hx, h3⟩
    · rcases List.mem_cons.1 hx with rfl | hx
      · exact Or.inr h3
      · exact Or.inl ⟨x, List.mem_append_right _ hx, h3⟩
  · rintro (⟨x, hx, h3⟩ | h3)
    · refine ⟨x, ?_, h3⟩
      rcases List.mem_append.1 hx with hx | hx
      · exact List.mem_append_left _ hx
      · exact List.mem_append_right _ (List.mem_cons_of_mem _ hx)
    · exact ⟨_, List.mem_append_right _ (List.mem_cons_self ..), h3⟩

theorem Placed.hasT {s s' : State} {rng : Range} {m : Nat} (h : Placed s s' rng m)
    (t : Nat × Nat × Nat × Nat) :
    HasT s'.list t ↔ HasT s.list t ∨ t = (rng.real, rng.size, rng.id, rng.off) := by
  obtain ⟨l1, l2, h1, h2⟩ := h.coreEq
  rw [h2.hasT_iff, h1]
  unfold HasT
  constructor
  · rintro ⟨x, hx, h3⟩
    rcases List.mem_append.1 hx with hx | hx
    · exact Or.inl ⟨x, List.mem_append_left _ hx, h3⟩
    · rcases List.mem_cons.1 hx with rfl | hx
      · exact Or.inr h3.symm
      · exact Or.inl ⟨x, List.mem_append_right _ hx, h3⟩
  · rintro (⟨x, hx, h3⟩ | h3)
    · refine ⟨x, ?_, h3⟩
      rcases List.mem_append.1 hx with hx | hx
      · exact List.mem_append_left _ hx
      · exact List.mem_append_right _ (List.mem_cons_of_mem _ hx)
    · exact ⟨_, List.mem_append_right _ (List.mem_cons_self ..), h3.symm⟩

theorem Placed.keep {s s' : State} {rng : Range} {m : Nat} (h : Placed s s' rng m) {x : Node}
    (hx : x ∈ s.list) : ∃ z ∈ s'.list, x.core = z.core := by
  obtain ⟨l1, l2, h1, h2⟩ := h.coreEq
  apply h2.symm.mem
  rw [h1] at hx
  rcases List.mem_append.1 hx with hx | hx
  · exact List.mem_append_left _ hx
  · exact List.mem_append_right _ (List.mem_cons_of_mem _ hx)

/-- The members after placing. -/
theorem Placed.mem {s s' : State} {rng : Range} {m : Nat} (h : Placed s s' rng m) {x : Node}
    (hx : x ∈ s'.list) : (∃ y ∈ s.list, x.r.real = y.r.real ∧ x.r.size = y.r.size) ∨
      (x.r.real = rng.real ∧ x.r.size = rng.size) := by
  obtain ⟨l1, l2, h1, h2⟩ := h.coreEq
  obtain ⟨y, hy, he⟩ := h2.mem hx
  have he := core_eq_iff.1 he
  rw [h1]
  rcases List.mem_append.1 hy with hy | hy
  · exact Or.inl ⟨y, List.mem_append_left _ hy, by omega, by omega⟩
  · rcases List.mem_cons.1 hy with rfl | hy
    · exact Or.inr ⟨by simp only at he; omega, by simp only at he; omega⟩
    · exact Or.inl ⟨y, List.mem_append_right _ hy, by omega, by omega⟩

theorem overflows_false {real size : Nat} (h1 : 0 < size) (h2 : real + size < W) :
    overflows real size = false := by
  unfold overflows
  rw [u64_of_lt h2]
  simp; omega

/-- A nested request over free addresses places the range. -/
theorem mapNested_spec {s : State} (hi : Inv s) (real size id off h : Nat)
    (hsz : 0 < size) (hend : real + size < W)
    (hd : ∀ x ∈ s.list, x.r.real + x.r.size ≤ real ∨ real + size ≤ x.r.real)
    (hb : Below s.list h) (hroom : Room s.align h size) :
    (∃ s' m, mapNested s real size id off = some (true, s') ∧
        Placed s s' ⟨real, 0, size, id, off, 0⟩ m ∧ Below s'.list (h + 2 * s.align + size)) ∨
      (s.align = 0 ∧ ¬ (h + size < W) ∧ mapNested s real size id off = some (false, s)) := by
  obtain ⟨es, hes, hsub, _⟩ := visited_spec hi real size hsz hend
  have hder : ∀ e ∈ es, ∃ r, s.node e.2 = some r := by
    intro e he
    obtain ⟨x, hx, hn, _⟩ := hi.of_index (hsub.subset he)
    exact ⟨x.r, by rw [← hn]; exact hi.node_eq hx⟩
  have hhits : hits s ⟨real, 0, size, id, off, 0⟩ es = [] := by
    unfold hits
    rw [List.map_eq_nil_iff, List.filter_eq_nil_iff]
    intro e he
    obtain ⟨x, hx, hn, _⟩ := hi.of_index (hsub.subset he)
    rw [← hn, hi.node_eq hx]
    have hok := hi.ok x hx
    have := hd x hx
    simp only
    rw [intersects_iff hok.1 hok.2 hsz hend]
    simp only
    omega
  have key : mapNested s real size id off = some (place s ⟨real, 0, size, id, off, 0⟩) := by
    unfold mapNested mapInternalWith
    simp only [hes, overflows_false hsz hend]
    rw [if_neg (by omega)]
    simp only [Bool.false_and, Bool.false_eq_true, if_false]
    rw [scan_noRemove _ _ hder, hhits]
    simp [unmapAll]
  rw [key]
  rcases place_spec hi ⟨real, 0, size, id, off, 0⟩ h hsz hend hd hb hroom with ⟨h1, ⟨m, h2⟩, h3⟩ | ⟨h1, h4, h2⟩
  · left
    refine ⟨(place s ⟨real, 0, size, id, off, 0⟩).2, m, ?_, h2, h3⟩
    rw [← h1]
  · right
    exact ⟨h1, h4, by rw [h2]⟩

theorem has_iff (q : Req) (a : Nat) : q.has a = true ↔ q.real ≤ a ∧ a < q.real + q.size := by
  unfold Req.has; simp

/-- A strictly larger existing range contains the request. -/
def Split (s : State) (q : Req) (x : Node) : Prop :=
  x ∈ s.list ∧ x.r.real ≤ q.real ∧ q.real + q.size ≤ x.r.real + x.r.size ∧ q.size < x.r.size

/-- The request would cut a page. -/
def CutsPage (s : State) (q : Req) (x : Node) : Prop :=
  q.allowUnaligned = false ∧ s.align ≠ 0 ∧
    ((x.r.real ≠ q.real ∧ q.real % s.align ≠ 0) ∨
     (x.r.real + x.r.size ≠ q.real + q.size ∧ (q.real + q.size) % s.align ≠ 0))

/-- The range of `x` does not meet the request, or properly contains it. -/
def Kept (q : Req) (x : Node) : Prop :=
  x.r.real + x.r.size ≤ q.real ∨ q.real + q.size ≤ x.r.real ∨
    (x.r.real ≤ q.real ∧ q.real + q.size ≤ x.r.real + x.r.size ∧ q.size < x.r.size)

/-- Coverage by a range that is kept (whole or cut). -/
def CovK (q : Req) (l : List Node) (a : Nat) (v : Nat × Nat) : Prop :=
  ∃ x ∈ l, Kept q x ∧ x.r.real ≤ a ∧ a < x.r.real + x.r.size ∧ v = val x.r.real x.r.id x.r.off a

/-- Everything one request does. -/
structure Effect (s : State) (q : Req) (h S : Nat) (b : Bool) (s' : State) : Prop where
  inv : Inv s'
  align : s'.align = s.align
  below : Below s'.list (h + 6 * s.align + S)
  small : Small s'.list S
  /-- success: the new range hides everything below it and nothing else changes -/
  good : b = true → ∀ a v, Cov s'.list a v ↔
    if q.has a then v = val q.real q.id q.off a else CovK q s.list a v
  /-- failure: nothing appears out of thin air -/
  bad : b = false → ∀ a v, Cov s'.list a v → Cov s.list a v ∨ (q.has a ∧ v = val q.real q.id q.off a)
  /-- ranges that do not meet the request stay, and stay in place, in any case -/
  keep : ∀ x ∈ s.list, (x.r.real + x.r.size ≤ q.real ∨ q.real + q.size ≤ x.r.real) →
    ∃ z ∈ s'.list, x.core = z.core
  /-- failure is either exhaustion or a cut page; a cut page drops the old range -/
  why : b = false → (s.align = 0 ∧ ¬ (h + S < W)) ∨ ∃ x, Split s q x ∧ CutsPage s q x ∧
    CoreEq s'.list (s.list.filter (fun y => y.nid ≠ x.nid))
  /-- the resulting ranges, exactly -/
  pieces : b = true → ∀ t, HasT s'.list t ↔ t = (q.real, q.size, q.id, q.off) ∨
    (∃ y ∈ s.list, (y.r.real + y.r.size ≤ q.real ∨ q.real + q.size ≤ y.r.real) ∧ tup y = t) ∨
    ∃ x, Split s q x ∧ ((x.r.real < q.real ∧ t = (x.r.real, q.real - x.r.real, x.r.id, x.r.off)) ∨
      (q.real + q.size < x.r.real + x.r.size ∧
        t = (q.real + q.size, x.r.real + x.r.size - (q.real + q.size), x.r.id,
          (x.r.off + (q.real + q.size - x.r.real)) % W)))
  /-- a cut page is always refused -/
  cut : b = true → ∀ x, Split s q x → ¬ CutsPage s q x

theorem alignedOffset_al {s : State} (hi : Inv s) (h : s.align ≠ 0) (a : Nat) :
    alignedOffset s.align a = a % s.align := by
  rcases hi.al with h0 | ⟨k, _, hk⟩
  · exact absurd h0 h
  · rw [hk]; exact alignedOffset_eq a

theorem bool_prod_cases (p : Bool × State) : p = (true, p.2) ∨ p = (false, p.2) := by
  obtain ⟨b, s⟩ := p
  cases b <;> simp

/-- Case 1: no existing range strictly contains the request. -/
theorem map_plain {s : State} (hi : Inv s) (q : Req) (h S : Nat)
    (hsz : 0 < q.size) (hend : q.real + q.size < W) (hS : q.size ≤ S)
    (hb : Below s.list h) (hs : Small s.list S) (hroom : s.align = 0 ∨ h + 6 * s.align + S < W)
    (hno : ∀ x, ¬ Split s q x) :
    ∃ b s', mapWithID s q = some (b, s') ∧ Effect s q h S b s' := by
  let rng : Range := ⟨q.real, 0, q.size, q.id, q.off, 0⟩
  obtain ⟨es, hes, hsub, hvis⟩ := visited_spec hi q.real q.size hsz hend
  have hder : ∀ e ∈ es, ∃ r, s.node e.2 = some r ∧ ¬ (r.covers rng = true ∧ rng.size < r.size) := by
    intro e he
    obtain ⟨x, hx, hn, _⟩ := hi.of_index (hsub.subset he)
    refine ⟨x.r, by rw [← hn]; exact hi.node_eq hx, ?_⟩
    have hok := hi.ok x hx
    rw [covers_iff hok.1 hok.2 hsz hend]
    intro hc
    exact hno x ⟨hx, hc.1.1, hc.1.2, hc.2⟩
  have hscan := scan_remove_none rng es hder []
  rw [List.nil_append] at hscan
  -- the ids to delete are exactly the intersecting nodes
  have hmem : ∀ n, n ∈ hits s rng es ↔
      ∃ x ∈ s.list, x.nid = n ∧ x.r.real < q.real + q.size ∧ q.real < x.r.real + x.r.size := by
    intro n
    unfold hits
    simp only [List.mem_map, List.mem_filter]
    constructor
    · rintro ⟨e, ⟨he, hp⟩, rfl⟩
      obtain ⟨x, hx, hn, _⟩ := hi.of_index (hsub.subset he)
      rw [← hn, hi.node_eq hx] at hp
      have hok := hi.ok x hx
      simp only at hp
      rw [intersects_iff hok.1 hok.2 hsz hend] at hp
      exact ⟨x, hx, hn, hp.1, hp.2⟩
    · rintro ⟨x, hx, rfl, h1, h2⟩
      refine ⟨(x.r.real, x.nid), ⟨hvis x hx h1 h2, ?_⟩, rfl⟩
      have hok := hi.ok x hx
      simp only [hi.node_eq hx]
      rw [intersects_iff hok.1 hok.2 hsz hend]
      exact ⟨h1, h2⟩
  have hnodup : (hits s rng es).Nodup := by
    have hidx : s.index.Pairwise (fun a b => a.2 ≠ b.2) := by
      refine List.Pairwise.imp_of_mem ?_ hi.sorted
      intro a b ha hb hlt he
      obtain ⟨x, hx, hxn, hxr⟩ := hi.of_index ha
      obtain ⟨y, hy, hyn, hyr⟩ := hi.of_index hb
      have := hi.nid_inj hx hy (by omega)
      rw [this] at hxr
      omega
    unfold hits
    unfold List.Nodup
    rw [List.pairwise_map]
    exact (hidx.sublist hsub).sublist List.filter_sublist
  obtain ⟨s1, u1, u2, u3, u4, u5⟩ := unmapAll_spec hi (hits s rng es) hnodup (by
    intro n hn
    obtain ⟨x, hx, hxn, _⟩ := (hmem n).1 hn
    exact ⟨x, hx, hxn⟩)
  have key : mapWithID s q = some (place s1 rng) := by
    unfold mapWithID mapInternalWith
    simp only [hes, overflows_false hsz hend]
    rw [if_neg (by omega)]
    simp only [Bool.not_true, Bool.and_false, Bool.false_eq_true, if_false]
    have hscan' : scan s ⟨q.real, 0, q.size, q.id, q.off, 0⟩ true es none [] =
      some (some (none, hits s rng es)) := hscan
    simp only [hscan', u1]; rfl
  -- who is left
  have hfil : ∀ x ∈ s.list, (! (hits s rng es).contains x.nid) = true ↔
      (x.r.real + x.r.size ≤ q.real ∨ q.real + q.size ≤ x.r.real) := by
    intro x hx
    have : x.nid ∈ hits s rng es ↔ x.r.real < q.real + q.size ∧ q.real < x.r.real + x.r.size := by
      rw [hmem]
      constructor
      · rintro ⟨y, hy, hn, h1⟩
        rw [hi.nid_inj hy hx hn] at h1
        exact h1
      · intro h1; exact ⟨x, hx, rfl, h1⟩
    rw [Bool.not_eq_true', ← Bool.not_eq_true, List.contains_iff_mem, this]
    omega
  have hd : ∀ x ∈ s1.list, x.r.real + x.r.size ≤ rng.real ∨ rng.real + rng.size ≤ x.r.real := by
    intro x hx
    obtain ⟨y, hy, he⟩ := u5.mem hx
    have he := core_eq_iff.1 he
    have hy' := List.mem_filter.1 hy
    have := (hfil y hy'.1).1 hy'.2
    simp only [rng]; omega
  have hb1 : Below s1.list h := u5.symm.below (hb.filter _)
  have hs1 : Small s1.list S := u5.symm.small (hs.filter _)
  have hroom1 : Room s1.align h rng.size := by
    unfold Room
    rcases hroom with h0 | h0
    · left; omega
    · right; simp only [rng]; omega
  have hkeep : ∀ x ∈ s.list, (x.r.real + x.r.size ≤ q.real ∨ q.real + q.size ≤ x.r.real) →
      ∀ a, x.r.real ≤ a → a < x.r.real + x.r.size → Cov s1.list a (val x.r.real x.r.id x.r.off a) := by
    intro x hx hdj a h1 h2
    apply u5.symm.cov_imp
    exact ⟨x, List.mem_filter.2 ⟨hx, (hfil x hx).2 hdj⟩, h1, h2, rfl⟩
  have hkeepc : ∀ x ∈ s.list, (x.r.real + x.r.size ≤ q.real ∨ q.real + q.size ≤ x.r.real) →
      ∃ z ∈ s1.list, x.core = z.core := by
    intro x hx hdj
    exact u5.symm.mem (List.mem_filter.2 ⟨hx, (hfil x hx).2 hdj⟩)
  have hsubcov : ∀ a v, Cov s1.list a v → Cov s.list a v ∧ ¬ (q.has a = true) := by
    intro a v hc
    have := u5.cov_imp hc
    obtain ⟨x, hx, h1, h2, h3⟩ := this
    have hx' := List.mem_filter.1 hx
    refine ⟨⟨x, hx'.1, h1, h2, h3⟩, ?_⟩
    rw [has_iff]
    have := (hfil x hx'.1).1 hx'.2
    omega
  rcases place_spec u2 rng h hsz hend hd hb1 hroom1 with ⟨p1, ⟨m, p2⟩, p3⟩ | ⟨p1, p4, p2⟩
  · refine ⟨true, (place s1 rng).2, by rw [key, ← p1], ?_⟩
    constructor
    · exact p2.inv
    · rw [p2.align, u3]
    · exact p3.mono (by simp only [rng]; omega)
    · intro x hx
      rcases p2.mem hx with ⟨y, hy, _, he⟩ | ⟨_, he⟩
      · have := hs1 y hy; omega
      · simp only [rng] at he; omega
    · intro _ a v
      rw [p2.cov]
      by_cases hq : q.has a = true
      · rw [if_pos hq]
        have hq' := (has_iff q a).1 hq
        constructor
        · rintro (hc | hc)
          · exact absurd hq (hsubcov a v hc).2
          · exact hc.2.2
        · intro hv
          exact Or.inr ⟨hq'.1, hq'.2, hv⟩
      · rw [if_neg hq]
        constructor
        · rintro (hc | hc)
          · obtain ⟨x, hx, h1, h2, h3⟩ := u5.cov_imp hc
            have hx' := List.mem_filter.1 hx
            have := (hfil x hx'.1).1 hx'.2
            refine ⟨x, hx'.1, ?_, h1, h2, h3⟩
            unfold Kept; omega
          · exact absurd ((has_iff q a).2 ⟨hc.1, hc.2.1⟩) hq
        · rintro ⟨x, hx, hk, h1, h2, h3⟩
          left
          rw [h3]
          refine hkeep x hx ?_ a h1 h2
          rcases hk with hk | hk | hk
          · exact Or.inl hk
          · exact Or.inr hk
          · exact absurd ⟨hx, hk⟩ (hno x)
    · intro hf; cases hf
    · intro x hx hdj
      obtain ⟨z, hz, e1⟩ := hkeepc x hx hdj
      obtain ⟨w, hw, e2⟩ := p2.keep hz
      exact ⟨w, hw, e1.trans e2⟩
    · intro hf; cases hf
    · intro _ t
      rw [p2.hasT, u5.hasT_iff]
      simp only [rng]
      constructor
      · rintro (⟨y, hy, ht⟩ | ht)
        · have hy' := List.mem_filter.1 hy
          exact Or.inr (Or.inl ⟨y, hy'.1, (hfil y hy'.1).1 hy'.2, ht⟩)
        · exact Or.inl ht
      · rintro (ht | ⟨y, hy, hdj, ht⟩ | ⟨y, hy, _⟩)
        · exact Or.inr ht
        · exact Or.inl ⟨y, List.mem_filter.2 ⟨hy, (hfil y hy).2 hdj⟩, ht⟩
        · exact absurd hy (hno y)
    · intro _ x hx; exact absurd hx (hno x)
  · refine ⟨false, s1, by rw [key, p2], ?_⟩
    constructor
    · exact u2
    · exact u3
    · exact hb1.mono (by omega)
    · exact hs1
    · intro hf; cases hf
    · intro _ a v hc
      exact Or.inl (hsubcov a v hc).1
    · exact hkeepc
    · intro _; left; exact ⟨by omega, by simp only [rng] at p4; omega⟩
    · intro hf; cases hf
    · intro hf; cases hf

/-- Case 2: a strictly larger range contains the request and is cut. -/
theorem map_split {s : State} (hi : Inv s) (q : Req) (h S : Nat)
    (hsz : 0 < q.size) (hend : q.real + q.size < W)
    (hb : Below s.list h) (hs : Small s.list S) (hroom : s.align = 0 ∨ h + 6 * s.align + S < W)
    (x : Node) (hx : Split s q x) :
    ∃ b s', mapWithID s q = some (b, s') ∧ Effect s q h S b s' := by
  obtain ⟨hxl, hx1, hx2, hx3⟩ := hx
  have hxS := hs x hxl
  have hxok := hi.ok x hxl
  let rng : Range := ⟨q.real, 0, q.size, q.id, q.off, 0⟩
  obtain ⟨es, hes, hsub, hvis⟩ := visited_spec hi q.real q.size hsz hend
  have hxe := hvis x hxl (by omega) (by omega)
  -- every other range is disjoint from `x`, hence from the request
  have hother : ∀ y ∈ s.list, y.nid ≠ x.nid →
      y.r.real + y.r.size ≤ x.r.real ∨ x.r.real + x.r.size ≤ y.r.real := by
    intro y hy hne
    have : y ≠ x := fun he => hne (by rw [he])
    exact hi.disj_mem hy hxl this
  have hskip : ∀ es' : List (Nat × Nat), (∀ e ∈ es', e ∈ s.index ∧ e.2 ≠ x.nid) →
      ∀ e ∈ es', ∃ r, s.node e.2 = some r ∧ r.intersects rng = false := by
    intro es' hes' e he
    obtain ⟨hin, hne⟩ := hes' e he
    obtain ⟨y, hy, hn, _⟩ := hi.of_index hin
    refine ⟨y.r, by rw [← hn]; exact hi.node_eq hy, ?_⟩
    have hok := hi.ok y hy
    have := hother y hy (by rw [hn]; exact hne)
    rw [← Bool.not_eq_true, intersects_iff hok.1 hok.2 hsz hend]
    simp only [rng]; omega
  have hidx : s.index.Pairwise (fun a b => a.2 ≠ b.2) := by
    refine List.Pairwise.imp_of_mem ?_ hi.sorted
    intro a b ha hb hlt he
    obtain ⟨x, hx, hxn, hxr⟩ := hi.of_index ha
    obtain ⟨y, hy, hyn, hyr⟩ := hi.of_index hb
    have := hi.nid_inj hx hy (by omega)
    rw [this] at hxr
    omega
  have hscan : scan s rng true es none [] = some (some (some x.nid, [])) := by
    obtain ⟨pre, post, hpp⟩ := List.append_of_mem hxe
    have hpw := hidx.sublist hsub
    rw [hpp] at hpw
    have hpw' := List.pairwise_append.1 hpw
    rw [hpp, scan_skip]
    · unfold scan
      rw [hi.node_eq hxl]
      have hint : x.r.intersects rng = true := by
        rw [intersects_iff hxok.1 hxok.2 hsz hend]; simp only [rng]; omega
      have hcov : x.r.covers rng = true := by
        rw [covers_iff hxok.1 hxok.2 hsz hend]; simp only [rng]; omega
      have hlt : rng.size < x.r.size := hx3
      simp only [hint, hcov, hlt, Bool.not_true, Bool.false_eq_true, if_false, Option.isNone_none,
        Bool.and_self, decide_true, if_true]
      have := scan_skip (s := s) rng true post (hskip post (by
        intro e he
        refine ⟨hsub.subset (by rw [hpp]; simp [he]), ?_⟩
        have := (List.pairwise_cons.1 hpw'.2.1).1 e he
        simpa using this.symm)) (some x.nid) [] []
      rw [List.append_nil] at this
      rw [this]
      rfl
    · apply hskip
      intro e he
      refine ⟨hsub.subset (by rw [hpp]; simp [he]), ?_⟩
      have := hpw'.2.2 e he (x.r.real, x.nid) (by simp)
      simpa using this
  obtain ⟨s2, u1, u2, u3, _, u5⟩ := unmap_spec hi hxl
  have hb2 : Below s2.list h := u5.symm.below (hb.filter _)
  have hs2 : Small s2.list S := u5.symm.small (hs.filter _)
  have hd2 : ∀ y ∈ s2.list, y.r.real + y.r.size ≤ x.r.real ∨ x.r.real + x.r.size ≤ y.r.real := by
    intro y hy
    obtain ⟨z, hz, he⟩ := u5.mem hy
    have he := core_eq_iff.1 he
    have hz' := List.mem_filter.1 hz
    have := hother z hz'.1 (by simpa using hz'.2)
    omega
  have hcov2 : ∀ a v, Cov s2.list a v ↔
      ∃ y ∈ s.list, y.nid ≠ x.nid ∧ y.r.real ≤ a ∧ a < y.r.real + y.r.size ∧
        v = val y.r.real y.r.id y.r.off a := by
    intro a v
    rw [u5.cov_iff]
    constructor
    · rintro ⟨y, hy, h1⟩
      have hy' := List.mem_filter.1 hy
      exact ⟨y, hy'.1, by simpa using hy'.2, h1⟩
    · rintro ⟨y, hy, hne, h1⟩
      exact ⟨y, List.mem_filter.2 ⟨hy, by simpa using hne⟩, h1⟩
  have hkeep2 : ∀ y ∈ s.list, (y.r.real + y.r.size ≤ q.real ∨ q.real + q.size ≤ y.r.real) →
      ∃ z ∈ s2.list, y.core = z.core := by
    intro y hy hdj
    refine u5.symm.mem (List.mem_filter.2 ⟨hy, ?_⟩)
    have : y.nid ≠ x.nid := by
      intro he
      rw [hi.nid_inj hy hxl he] at hdj
      omega
    simpa using this
  have hsub2 : ∀ a v, Cov s2.list a v → Cov s.list a v := by
    intro a v hc
    obtain ⟨y, hy, _, h1⟩ := (hcov2 a v).1 hc
    exact ⟨y, hy, h1⟩
  have hT2 : ∀ t, HasT s2.list t ↔ ∃ y ∈ s.list, y.nid ≠ x.nid ∧ tup y = t := by
    intro t
    rw [u5.hasT_iff]
    constructor
    · rintro ⟨y, hy, ht⟩
      have hy' := List.mem_filter.1 hy
      exact ⟨y, hy'.1, by simpa using hy'.2, ht⟩
    · rintro ⟨y, hy, hne, ht⟩
      exact ⟨y, List.mem_filter.2 ⟨hy, by simpa using hne⟩, ht⟩
  have huniq : ∀ y, Split s q y → y = x := by
    intro y hy
    by_cases he : y.nid = x.nid
    · exact hi.nid_inj hy.1 hxl he
    · have := hother y hy.1 he
      obtain ⟨_, c1, c2, c3⟩ := hy
      omega
  generalize hgb : q.real - x.r.real = gb
  generalize hga : (x.r.real + x.r.size) - (q.real + q.size) = ga
  have egb : sub64 q.real x.r.real = gb := by rw [sub64_of_le (by omega) hx1, hgb]
  have ega : sub64 (u64 (x.r.real + x.r.size)) (u64 (q.real + q.size)) = ga := by
    rw [u64_of_lt hxok.2, u64_of_lt hend, sub64_of_le hxok.2 hx2, hga]
  have hxnode : s.node x.nid = some x.r := hi.node_eq hxl
  -- reduce the program
  have key : mapWithID s q =
      (if (! q.allowUnaligned && decide (s.align ≠ 0) &&
            ((decide (gb ≠ 0) && decide (alignedOffset s.align q.real ≠ 0)) ||
             (decide (ga ≠ 0) && decide (alignedOffset s.align (q.real + q.size) ≠ 0)))) = true then
          some (false, s2)
        else
          match (if gb ≠ 0 then mapNested s2 x.r.real gb x.r.id x.r.off
                 else some (true, s2)) with
          | none => none
          | some (false, s3) => some (false, s3)
          | some (true, s3) =>
          match mapNested s3 q.real q.size q.id q.off with
          | none => none
          | some (false, s4) => some (false, s4)
          | some (true, s4) =>
            if ga ≠ 0 then
              mapNested s4 (q.real + q.size) ga x.r.id
                (u64 (u64 (x.r.off + gb) + q.size))
            else some (true, s4)) := by
    unfold mapWithID mapInternalWith
    simp only [hes, overflows_false hsz hend]
    rw [if_neg (by omega)]
    simp only [Bool.not_true, Bool.and_false, Bool.false_eq_true, if_false]
    have hscan' : scan s ⟨q.real, 0, q.size, q.id, q.off, 0⟩ true es none [] =
      some (some (some x.nid, [])) := hscan
    rw [u64_of_lt hend] at ega
    simp only [hscan', unmapAll, hxnode, u1, egb, ega, u64_of_lt hend]
    rfl
  rw [key]
  split
  · -- the cut page
    rename_i hcut
    refine ⟨false, s2, rfl, ?_⟩
    constructor
    · exact u2
    · exact u3
    · exact hb2.mono (by omega)
    · exact hs2
    · intro hf; cases hf
    · intro _ a v hc; exact Or.inl (hsub2 a v hc)
    · exact hkeep2
    · intro _
      right
      refine ⟨x, ⟨hxl, hx1, hx2, hx3⟩, ?_⟩
      simp only [Bool.and_eq_true, Bool.or_eq_true, decide_eq_true_eq, Bool.not_eq_true'] at hcut
      obtain ⟨⟨c1, c2⟩, c3⟩ := hcut
      rw [alignedOffset_al hi c2, alignedOffset_al hi c2] at c3
      refine ⟨⟨c1, c2, ?_⟩, u5⟩
      rcases c3 with c3 | c3
      · left; exact ⟨by omega, c3.2⟩
      · right; exact ⟨by omega, c3.2⟩
    · intro hf; cases hf
    · intro hf; cases hf
  · -- first piece
    rename_i hcut
    have hnocut : ∀ y, Split s q y → ¬ CutsPage s q y := by
      intro y hy hc
      rw [huniq y hy] at hc
      apply hcut
      obtain ⟨c1, c2, c3⟩ := hc
      simp only [Bool.and_eq_true, Bool.or_eq_true, decide_eq_true_eq, Bool.not_eq_true']
      rw [alignedOffset_al hi c2, alignedOffset_al hi c2]
      refine ⟨⟨c1, c2⟩, ?_⟩
      rcases c3 with c3 | c3
      · left; exact ⟨by omega, c3.2⟩
      · right; exact ⟨by omega, c3.2⟩
    have room_of : ∀ (g h' : Nat), h' + 2 * s.align + g ≤ h + 6 * s.align + S → Room s.align h' g := by
      intro g h' hle
      unfold Room
      rcases hroom with h0 | h0
      · left; exact h0
      · right; omega
    have step1 : (∃ s3, (if gb ≠ 0 then mapNested s2 x.r.real gb x.r.id x.r.off
          else some (true, s2)) = some (true, s3) ∧ Inv s3 ∧ s3.align = s.align ∧
          Below s3.list (h + 2 * s.align + gb) ∧
          (∀ y ∈ s3.list, (∃ z ∈ s2.list, y.r.real = z.r.real ∧ y.r.size = z.r.size) ∨
            (y.r.real = x.r.real ∧ y.r.size = gb)) ∧
          (∀ a v, Cov s3.list a v ↔ Cov s2.list a v ∨
            (x.r.real ≤ a ∧ a < q.real ∧ v = val x.r.real x.r.id x.r.off a)) ∧
          (∀ y ∈ s2.list, ∃ z ∈ s3.list, y.core = z.core) ∧
          (∀ t, HasT s3.list t ↔ HasT s2.list t ∨
            (x.r.real < q.real ∧ t = (x.r.real, q.real - x.r.real, x.r.id, x.r.off)))) ∨
        ((s.align = 0 ∧ ¬ (h + S < W)) ∧ (if gb ≠ 0 then mapNested s2 x.r.real gb x.r.id x.r.off
          else some (true, s2)) = some (false, s2)) := by
      by_cases hg : gb = 0
      · left
        refine ⟨s2, by rw [if_neg (by omega)], u2, u3, hb2.mono (by omega), ?_, ?_, fun y hy => ⟨y, hy, rfl⟩, ?_⟩
        · intro y hy; exact Or.inl ⟨y, hy, rfl, rfl⟩
        · intro a v
          constructor
          · intro hc; exact Or.inl hc
          · rintro (hc | hc)
            · exact hc
            · omega
        · intro t
          constructor
          · intro hc; exact Or.inl hc
          · rintro (hc | hc)
            · exact hc
            · omega
      · rw [if_pos (by omega)]
        rcases mapNested_spec u2 x.r.real gb x.r.id x.r.off h (by omega) (by omega) (by
            intro y hy; have := hd2 y hy; omega) hb2 (by
            rw [u3]; exact room_of gb h (by omega)) with ⟨s3, m, g1, g2, g3⟩ | ⟨g1, g4, g2⟩
        · left
          refine ⟨s3, g1, g2.inv, by rw [g2.align, u3], by rw [u3] at g3; exact g3, ?_, ?_, fun y hy => g2.keep hy, ?_⟩
          · intro y hy
            exact g2.mem hy
          · intro a v
            rw [g2.cov]
            simp only
            constructor
            · rintro (hc | hc)
              · exact Or.inl hc
              · exact Or.inr ⟨hc.1, by omega, hc.2.2⟩
            · rintro (hc | hc)
              · exact Or.inl hc
              · exact Or.inr ⟨hc.1, by omega, hc.2.2⟩
          · intro t
            rw [g2.hasT]
            simp only [← hgb]
            constructor
            · rintro (hc | hc)
              · exact Or.inl hc
              · exact Or.inr ⟨by omega, hc⟩
            · rintro (hc | hc)
              · exact Or.inl hc
              · exact Or.inr hc.2
        · right; exact ⟨⟨by omega, by omega⟩, g2⟩
    rcases step1 with ⟨s3, e3, i3, a3, b3, m3, c3, k3', t3⟩ | ⟨al0, e3⟩
    · rw [e3]
      simp only
      -- second piece: the request itself
      rcases mapNested_spec i3 q.real q.size q.id q.off (h + 2 * s.align + gb) hsz hend (by
          intro y hy
          rcases m3 y hy with ⟨z, hz, e1, e2⟩ | ⟨e1, e2⟩
          · have := hd2 z hz; omega
          · omega) b3 (by
          rw [a3]; exact room_of _ _ (by omega)) with ⟨s4, m, g1, g2, g3⟩ | ⟨g1, g4, g2⟩
      · rw [g1]
        simp only
        rw [a3] at g3
        have m4 : ∀ y ∈ s4.list, (∃ z ∈ s2.list, y.r.real = z.r.real ∧ y.r.size = z.r.size) ∨
            (y.r.real = x.r.real ∧ y.r.size = gb) ∨ (y.r.real = q.real ∧ y.r.size = q.size) := by
          intro y hy
          rcases g2.mem hy with ⟨z, hz, e1, e2⟩ | he
          · rcases m3 z hz with ⟨w, hw, e3, e4⟩ | ⟨e3, e4⟩
            · exact Or.inl ⟨w, hw, by omega, by omega⟩
            · right; left; exact ⟨by omega, by omega⟩
          · right; right; exact he
        have a4 : s4.align = s.align := by rw [g2.align, a3]
        -- third piece
        have step3 : (∃ s5, (if ga ≠ 0 then
              mapNested s4 (q.real + q.size) ga x.r.id (u64 (u64 (x.r.off + gb) + q.size))
              else some (true, s4)) = some (true, s5) ∧ Inv s5 ∧ s5.align = s.align ∧
              Below s5.list (h + 6 * s.align + S) ∧ Small s5.list S ∧
              (∀ a v, Cov s5.list a v ↔ Cov s4.list a v ∨
                (q.real + q.size ≤ a ∧ a < x.r.real + x.r.size ∧ v = val x.r.real x.r.id x.r.off a)) ∧
              (∀ y ∈ s4.list, ∃ z ∈ s5.list, y.core = z.core) ∧
              (∀ t, HasT s5.list t ↔ HasT s4.list t ∨ (q.real + q.size < x.r.real + x.r.size ∧
                t = (q.real + q.size, x.r.real + x.r.size - (q.real + q.size), x.r.id,
                  (x.r.off + (q.real + q.size - x.r.real)) % W)))) ∨
            ((s.align = 0 ∧ ¬ (h + S < W)) ∧ (if ga ≠ 0 then
              mapNested s4 (q.real + q.size) ga x.r.id (u64 (u64 (x.r.off + gb) + q.size))
              else some (true, s4)) = some (false, s4)) := by
          by_cases hg : ga = 0
          · left
            refine ⟨s4, by rw [if_neg (by omega)], g2.inv, a4, g3.mono (by omega), ?_, ?_, fun y hy => ⟨y, hy, rfl⟩, ?_⟩
            · intro y hy
              rcases m4 y hy with ⟨z, hz, _, e2⟩ | ⟨_, e2⟩ | ⟨_, e2⟩
              · have := hs2 z hz; omega
              · omega
              · omega
            · intro a v
              constructor
              · intro hc; exact Or.inl hc
              · rintro (hc | hc)
                · exact hc
                · omega
            · intro t
              constructor
              · intro hc; exact Or.inl hc
              · rintro (hc | hc)
                · exact hc
                · omega
          · rw [if_pos (by omega)]
            rcases mapNested_spec g2.inv (q.real + q.size) ga x.r.id (u64 (u64 (x.r.off + gb) + q.size))
                (h + 2 * s.align + gb + 2 * s.align + q.size) (by omega) (by omega) (by
                intro y hy
                rcases m4 y hy with ⟨z, hz, e1, e2⟩ | ⟨e1, e2⟩ | ⟨e1, e2⟩
                · have := hd2 z hz; omega
                · omega
                · omega) g3 (by
                rw [a4]; exact room_of _ _ (by omega)) with ⟨s5, m', k1, k2, k3⟩ | ⟨k1, k4, k2⟩
            · left
              refine ⟨s5, k1, k2.inv, by rw [k2.align, a4], k3.mono (by rw [a4]; omega), ?_, ?_, fun y hy => k2.keep hy, ?_⟩
              · intro y hy
                rcases k2.mem hy with ⟨z, hz, _, e2⟩ | ⟨_, e2⟩
                · rcases m4 z hz with ⟨w, hw, _, e3⟩ | ⟨_, e3⟩ | ⟨_, e3⟩
                  · have := hs2 w hw; omega
                  · omega
                  · omega
                · simp only at e2; omega
              · intro a v
                rw [k2.cov]
                simp only
                have hval : q.real + q.size ≤ a →
                    val (q.real + q.size) x.r.id (u64 (u64 (x.r.off + gb) + q.size)) a =
                      val x.r.real x.r.id x.r.off a := by
                  intro hle
                  unfold val u64
                  congr 1
                  simp only [W] at *
                  omega
                constructor
                · rintro (hc | hc)
                  · exact Or.inl hc
                  · exact Or.inr ⟨hc.1, by omega, by rw [hc.2.2, hval hc.1]⟩
                · rintro (hc | hc)
                  · exact Or.inl hc
                  · exact Or.inr ⟨hc.1, by omega, by rw [hc.2.2, hval hc.1]⟩
              · intro t
                rw [k2.hasT]
                have e1 : u64 (u64 (x.r.off + gb) + q.size) =
                    (x.r.off + (q.real + q.size - x.r.real)) % W := by
                  unfold u64
                  simp only [W] at *
                  omega
                simp only [e1, ← hga]
                constructor
                · rintro (hc | hc)
                  · exact Or.inl hc
                  · exact Or.inr ⟨by omega, hc⟩
                · rintro (hc | hc)
                  · exact Or.inl hc
                  · exact Or.inr hc.2
            · right; exact ⟨⟨by omega, by omega⟩, k2⟩
        have hkeep4 : ∀ y ∈ s.list, (y.r.real + y.r.size ≤ q.real ∨ q.real + q.size ≤ y.r.real) →
            ∃ z ∈ s4.list, y.core = z.core := by
          intro y hy hdj
          obtain ⟨z, hz, e1⟩ := hkeep2 y hy hdj
          obtain ⟨w, hw, e2⟩ := k3' z hz
          obtain ⟨u, hu, e3⟩ := g2.keep hw
          exact ⟨u, hu, e1.trans (e2.trans e3)⟩
        have c4 : ∀ a v, Cov s4.list a v ↔ (Cov s2.list a v ∨
            (x.r.real ≤ a ∧ a < q.real ∧ v = val x.r.real x.r.id x.r.off a)) ∨
            (q.real ≤ a ∧ a < q.real + q.size ∧ v = val q.real q.id q.off a) := by
          intro a v
          rw [g2.cov, c3]
        have c4s : ∀ a v, Cov s4.list a v → Cov s.list a v ∨
            (q.has a = true ∧ v = val q.real q.id q.off a) := by
          intro a v hc
          rcases (c4 a v).1 hc with (hc | hc) | hc
          · exact Or.inl (hsub2 a v hc)
          · exact Or.inl ⟨x, hxl, by omega, by omega, hc.2.2⟩
          · exact Or.inr ⟨(has_iff q a).2 ⟨hc.1, hc.2.1⟩, hc.2.2⟩
        rcases step3 with ⟨s5, e5, i5, a5, b5, sm5, c5, k5, t5⟩ | ⟨al0, e5⟩
        · refine ⟨true, s5, e5, ?_⟩
          constructor
          · exact i5
          · exact a5
          · exact b5
          · exact sm5
          · intro _ a v
            rw [c5, c4]
            by_cases hq : q.has a = true
            · rw [if_pos hq]
              have hq' := (has_iff q a).1 hq
              constructor
              · rintro (((hc | hc) | hc) | hc)
                · obtain ⟨y, hy, hne, h1, h2, _⟩ := (hcov2 a v).1 hc
                  have := hother y hy hne
                  omega
                · omega
                · exact hc.2.2
                · omega
              · intro hv; exact Or.inl (Or.inr ⟨hq'.1, hq'.2, hv⟩)
            · rw [if_neg hq]
              have hq' : ¬ (q.real ≤ a ∧ a < q.real + q.size) := fun h' => hq ((has_iff q a).2 h')
              have hkx : Kept q x := Or.inr (Or.inr ⟨hx1, hx2, hx3⟩)
              constructor
              · rintro (((hc | hc) | hc) | hc)
                · obtain ⟨y, hy, hne, h1, h2, h3⟩ := (hcov2 a v).1 hc
                  have := hother y hy hne
                  refine ⟨y, hy, ?_, h1, h2, h3⟩
                  unfold Kept; omega
                · exact ⟨x, hxl, hkx, by omega, by omega, hc.2.2⟩
                · exact absurd ⟨hc.1, hc.2.1⟩ hq'
                · exact ⟨x, hxl, hkx, by omega, by omega, hc.2.2⟩
              · rintro ⟨y, hy, hk, h1, h2, h3⟩
                by_cases hyx : y.nid = x.nid
                · rw [hi.nid_inj hy hxl hyx] at h1 h2 h3
                  by_cases hlt : a < q.real
                  · exact Or.inl (Or.inl (Or.inr ⟨h1, hlt, h3⟩))
                  · exact Or.inr ⟨by omega, h2, h3⟩
                · exact Or.inl (Or.inl (Or.inl ((hcov2 a v).2 ⟨y, hy, hyx, h1, h2, h3⟩)))
          · intro hf; cases hf
          · intro y hy hdj
            obtain ⟨z, hz, e1⟩ := hkeep4 y hy hdj
            obtain ⟨w, hw, e2⟩ := k5 z hz
            exact ⟨w, hw, e1.trans e2⟩
          · intro hf; cases hf
          · intro _ t
            rw [t5, g2.hasT, t3, hT2]
            simp only
            constructor
            · rintro (((⟨y, hy, hne, ht⟩ | hc) | hc) | hc)
              · right; left
                have := hother y hy hne
                exact ⟨y, hy, by omega, ht⟩
              · right; right
                exact ⟨x, ⟨hxl, hx1, hx2, hx3⟩, Or.inl hc⟩
              · left; exact hc
              · right; right
                exact ⟨x, ⟨hxl, hx1, hx2, hx3⟩, Or.inr hc⟩
            · rintro (hc | ⟨y, hy, hdj, ht⟩ | ⟨y, hy, hc⟩)
              · exact Or.inl (Or.inr hc)
              · refine Or.inl (Or.inl (Or.inl ⟨y, hy, ?_, ht⟩))
                intro he
                rw [hi.nid_inj hy hxl he] at hdj
                omega
              · rw [huniq y hy] at hc
                rcases hc with hc | hc
                · exact Or.inl (Or.inl (Or.inr hc))
                · exact Or.inr hc
          · intro _; exact hnocut
        · refine ⟨false, s4, e5, ?_⟩
          constructor
          · exact g2.inv
          · exact a4
          · exact g3.mono (by omega)
          · intro y hy
            rcases m4 y hy with ⟨z, hz, _, e2⟩ | ⟨_, e2⟩ | ⟨_, e2⟩
            · have := hs2 z hz; omega
            · omega
            · omega
          · intro hf; cases hf
          · intro _ a v hc; exact c4s a v hc
          · exact hkeep4
          · intro _; exact Or.inl al0
          · intro hf; cases hf
          · intro hf; cases hf
      · rw [g2]
        refine ⟨false, s3, rfl, ?_⟩
        constructor
        · exact i3
        · exact a3
        · exact b3.mono (by omega)
        · intro y hy
          rcases m3 y hy with ⟨z, hz, _, e2⟩ | ⟨_, e2⟩
          · have := hs2 z hz; omega
          · omega
        · intro hf; cases hf
        · intro _ a v hc
          rcases (c3 a v).1 hc with hc | hc
          · exact Or.inl (hsub2 a v hc)
          · exact Or.inl ⟨x, hxl, by omega, by omega, hc.2.2⟩
        · intro y hy hdj
          obtain ⟨z, hz, e1⟩ := hkeep2 y hy hdj
          obtain ⟨w, hw, e2⟩ := k3' z hz
          exact ⟨w, hw, e1.trans e2⟩
        · intro _; left; exact ⟨by omega, by omega⟩
        · intro hf; cases hf
        · intro hf; cases hf
    · rw [e3]
      refine ⟨false, s2, rfl, ?_⟩
      constructor
      · exact u2
      · exact u3
      · exact hb2.mono (by omega)
      · exact hs2
      · intro hf; cases hf
      · intro _ a v hc; exact Or.inl (hsub2 a v hc)
      · exact hkeep2
      · intro _; exact Or.inl al0
      · intro hf; cases hf
      · intro hf; cases hf

/-- One request, in general. -/
theorem mapWithID_spec {s : State} (hi : Inv s) (q : Req) (h S : Nat)
    (hsz : 0 < q.size) (hend : q.real + q.size < W) (hS : q.size ≤ S)
    (hb : Below s.list h) (hs : Small s.list S) (hroom : s.align = 0 ∨ h + 6 * s.align + S < W) :
    ∃ b s', mapWithID s q = some (b, s') ∧ Effect s q h S b s' := by
  by_cases hx : ∃ x, Split s q x
  · obtain ⟨x, hx⟩ := hx
    exact map_split hi q h S hsz hend hb hs hroom x hx
  · exact map_plain hi q h S hsz hend hS hb hs hroom (fun x hx' => hx ⟨x, hx'⟩)

/-! ### Lookups -/

theorem takeWhile_le_last {s : State} (hi : Inv s) (a : Nat) :
    (∀ e, (s.index.takeWhile (fun e => e.1 ≤ a)).getLast? = some e →
        e ∈ s.index ∧ e.1 ≤ a ∧ ∀ e' ∈ s.index, e'.1 ≤ a → e'.1 ≤ e.1) ∧
      ((s.index.takeWhile (fun e => e.1 ≤ a)).getLast? = none → ∀ e' ∈ s.index, ¬ e'.1 ≤ a) := by
  have hw : s.index.takeWhile (fun e => decide (e.1 ≤ a)) = s.index.filter (fun e => decide (e.1 ≤ a)) := by
    have := sorted_takeWhile_filter s.index hi.sorted (a + 1)
    simpa [Nat.lt_succ_iff] using this
  rw [hw]
  constructor
  · intro e he
    have hmem := List.mem_of_getLast? he
    have hm := List.mem_filter.1 hmem
    refine ⟨hm.1, by simpa using hm.2, ?_⟩
    intro e' he' hle
    have hin : e' ∈ s.index.filter (fun e => decide (e.1 ≤ a)) := List.mem_filter.2 ⟨he', by simpa using hle⟩
    obtain ⟨init, hinit⟩ := List.getLast?_eq_some_iff.1 he
    have hp := hi.sorted.sublist (List.filter_sublist (p := fun e => decide (e.1 ≤ a)))
    rw [hinit] at hin hp
    rcases List.mem_append.1 hin with h1 | h1
    · have := (List.pairwise_append.1 hp).2.2 e' h1 e (by simp)
      omega
    · simp only [List.mem_singleton] at h1
      rw [h1]; exact Nat.le_refl _
  · intro he e' he' hle
    have hin : e' ∈ s.index.filter (fun e => decide (e.1 ≤ a)) := List.mem_filter.2 ⟨he', by simpa using hle⟩
    rw [List.getLast?_eq_none_iff] at he
    rw [he] at hin
    simp at hin

theorem rangeContaining_spec {s : State} (hi : Inv s) (a : Nat) :
    (∃ x ∈ s.list, x.r.real ≤ a ∧ a < x.r.real + x.r.size ∧ rangeContaining s a = some (some x.r)) ∨
      ((∀ x ∈ s.list, ¬ (x.r.real ≤ a ∧ a < x.r.real + x.r.size)) ∧ rangeContaining s a = some none) := by
  obtain ⟨hl1, hl2⟩ := takeWhile_le_last hi a
  unfold rangeContaining
  cases hg : (s.index.takeWhile (fun e => e.1 ≤ a)).getLast? with
  | none =>
    right
    refine ⟨?_, rfl⟩
    intro x hx hc
    exact hl2 hg _ (hi.to_index hx) hc.1
  | some e =>
    obtain ⟨k, n⟩ := e
    obtain ⟨h1, h2, h3⟩ := hl1 _ hg
    obtain ⟨x, hx, hxn, hxr⟩ := hi.of_index h1
    simp only at hxn hxr h2 h3
    simp only
    rw [← hxn, hi.node_eq hx]
    have hok := hi.ok x hx
    simp only
    by_cases hc : x.r.containsAddress a = true
    · left
      rw [if_pos hc]
      rw [containsAddress_iff hok.1 hok.2] at hc
      exact ⟨x, hx, hc.1, hc.2, rfl⟩
    · right
      rw [if_neg hc]
      rw [containsAddress_iff hok.1 hok.2] at hc
      refine ⟨?_, rfl⟩
      intro y hy hcy
      have hle := h3 _ (hi.to_index hy) hcy.1
      simp only at hle
      by_cases hyx : y = x
      · rw [hyx] at hcy; exact hc hcy
      · have := hi.disj_mem hy hx hyx
        have := hi.ok y hy
        unfold RealDisj at *
        omega

theorem Inv.cov_fun {s : State} (hi : Inv s) {a : Nat} {v w : Nat × Nat}
    (h1 : Cov s.list a v) (h2 : Cov s.list a w) : v = w := by
  obtain ⟨x, hx, a1, a2, a3⟩ := h1
  obtain ⟨y, hy, b1, b2, b3⟩ := h2
  have : x = y := by
    by_cases h : x = y
    · exact h
    · have := hi.disj_mem hx hy h
      unfold RealDisj at this
      omega
  subst this
  rw [a3, b3]

end Verif.AddressMapper
