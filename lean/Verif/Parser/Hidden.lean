import Verif.Parser.Props
import Verif.AddressMapper.Hidden

/-!
# C141: a remapped recording does not tell where things are in memory

Two recordings that differ only in where things are: in every process, a rearrangement `φ` of its addresses
moves each mapping as a whole. Remapping makes the same of both.
-/

namespace Verif.Parser
open Verif.AddressMapper (Req specRun specLookup specStep Sim Fair Block Both Req.movedBy)
open Verif.HugePages (MMap add64 sub64)

/-! ### Specification -/

/-- The addresses of a sample. -/
def addresses (s : Sample) : List Nat :=
  s.ip :: (s.addr.toList ++ s.callchain ++ s.branches.flatMap (fun b => [b.src, b.dst]))

/-- A sample with things elsewhere. -/
def Sample.moved (f : Nat → Nat) (s : Sample) : Sample :=
  { s with
    ip := f s.ip
    addr := s.addr.map f
    callchain := s.callchain.map f
    branches := s.branches.map (fun b => { b with src := f b.src, dst := f b.dst }) }

/-- A mapping elsewhere. The offset of the first mapping of the kernel is an address. -/
def movedMap (φ : Nat → Nat → Nat) (first : Bool) (m : MMap) : MMap :=
  { m with start := φ (m.pid.getD 0) m.start, pgoff := if first then φ (m.pid.getD 0) m.pgoff else m.pgoff }

/-- An event with things elsewhere; `first`: it is the first mapping of the kernel. -/
def Ev.moved (φ : Nat → Nat → Nat) (first : Bool) (e : Ev) : Ev :=
  { e with
    mmap := if isMmap e then e.mmap.map (movedMap φ first) else e.mmap
    sample := if e.type = 9 then e.sample.map (fun s => s.moved (φ s.pid)) else e.sample }

/-- A recording with things elsewhere: `φ p` says where each address of the process `p` is instead. -/
def relocate (φ : Nat → Nat → Nat) : Bool → List Ev → List Ev
  | _, [] => []
  | first, e :: t => e.moved φ (first && isKernelMmap e) :: relocate φ (first && !isKernelMmap e) t

/-- `φ` moves things about in the memory of each process; `U p` are the addresses of `p` that matter. -/
structure Relocates (O : Opts) (U : Nat → Nat → Prop) (φ : Nat → Nat → Nat) (evs : List Ev) : Prop where
  /-- different addresses stay different -/
  inj : ∀ p a b, U p a → U p b → φ p a = φ p b → a = b
  /-- places within pages stay the same -/
  page : ∀ p a, U p a → φ p a % O.page = a % O.page
  /-- 0 and the markers of contexts are no addresses -/
  zero : ∀ p, U p 0 ∧ φ p 0 = 0
  marker : ∀ p a, U p a → isCode (φ p a) = isCode a ∧ (isCode a = false → φ p a = a)
  /-- the kernel is at the same place for all processes -/
  kernel : ∀ p a, U kernelPid a → U p a ∧ φ p a = φ kernelPid a
  /-- what is in the memory of a process when it forks is at the same place for its child -/
  fork : ∀ e ∈ processed evs, e.type = 7 → ∀ a, U (e.fork.getD {}).ppid a →
    U (e.fork.getD {}).pid a ∧ φ (e.fork.getD {}).pid a = φ (e.fork.getD {}).ppid a
  /-- mappings move as a whole, and stay below the end of memory -/
  whole : ∀ e ∈ processed evs, isMmap e = true → ∀ m, e.mmap = some m → ∀ d, d < m.len →
    U (m.pid.getD 0) (m.start + d) ∧ φ (m.pid.getD 0) (m.start + d) = φ (m.pid.getD 0) m.start + d
  fits : ∀ e ∈ processed evs, isMmap e = true → ∀ m, e.mmap = some m →
    m.start + m.len < 2 ^ 64 ∧ φ (m.pid.getD 0) m.start + m.len < 2 ^ 64
  offset : ∀ e ∈ processed evs, isKernelMmap e = true → ∀ m, e.mmap = some m → U (m.pid.getD 0) m.pgoff
  /-- the addresses of samples move with the mappings; those in no mapping keep their lower 60 bits -/
  samples : ∀ e ∈ processed evs, e.type = 9 → ∀ s, e.sample = some s → NullsLast s.branches = true ∧
    ∀ a ∈ addresses s, U s.pid a ∧ a < 2 ^ 64 ∧ φ s.pid a < 2 ^ 64
  unmapped : ∀ i e, (processed evs)[i]? = some e → e.type = 9 → ∀ s, e.sample = some s → ∀ a ∈ addresses s,
    region O (before evs i) s.pid a = none → φ s.pid a % 2 ^ 60 = a % 2 ^ 60

/-! ### Samples -/

/-- What is made of a sample, for a given mapper. -/
theorem mapSample_eq {O : Opts} {S : Nat} {starts : Nat → Nat} {s : Sample} {evs : List Ev} {st : State}
    {m : Mapper} {ms : Nat → Option Mapper} {qs : List Req} (hp : ∃ k, k ≤ 60 ∧ O.page = 2 ^ k)
    (h1 : mapperFor O st.mappers s.pid kernelPid = some (m, ms)) (h2 : ms s.pid = some m)
    (h4 : MOk O S starts m qs) (hl : ∀ a ∈ lookups s, a < 2 ^ 64)
    (hf : Files evs (specLookup (specRun O.page [] qs).2) st.files) :
    mapSample O evs st s = some
        ({ st with
            mappers := ms
            hits := (lookups s).foldl (hit (specLookup (specRun O.page [] qs).2)) st.hits
            stats := sampleStats (specLookup (specRun O.page [] qs).2) s st.stats },
         replace (tr O m) s,
         { command := st.comms (s.pid, s.tid)
           here := locR evs (specLookup (specRun O.page [] qs).2) s.ip
           data := dataLoc (locR evs (specLookup (specRun O.page [] qs).2)) s.addr
           callchain := (s.callchain.filter (fun a => isCode a && decide (a ≠ s.ip))).map
             (locR evs (specLookup (specRun O.page [] qs).2))
           branches := (usable s.branches).map (pbranch (locR evs (specLookup (specRun O.page [] qs).2))) }) := by
  generalize hreg : specLookup (specRun O.page [] qs).2 = reg at hf ⊢
  have hr : Ready O S starts evs s.pid m qs reg { st with mappers := ms } := ⟨h2, h4, hp, hreg.symm, hf⟩
  have hfirst : mapIp O evs s.pid st s.ip = mapIp O evs s.pid { st with mappers := ms } s.ip := by
    simp only [mapIp, h1, mapperFor_hit h2]
  have hl1 : s.ip < 2 ^ 64 := hl _ (by simp [lookups])
  have hl2 : ∀ a ∈ (s.addr.filter (· ≠ 0)).toList, a < 2 ^ 64 := fun a ha => hl a (by
    unfold lookups
    exact List.mem_cons_of_mem _ (List.mem_append_left _ (List.mem_append_left _ ha)))
  have hl3 : ∀ a ∈ s.callchain.filter (fun a => isCode a && decide (a ≠ s.ip)), a < 2 ^ 64 := fun a ha => hl a (by
    unfold lookups
    exact List.mem_cons_of_mem _ (List.mem_append_left _ (List.mem_append_right _ ha)))
  have hl4 : ∀ a ∈ (usable s.branches).flatMap (fun b => [b.src, b.dst]), a < 2 ^ 64 := fun a ha => hl a (by
    unfold lookups
    exact List.mem_cons_of_mem _ (List.mem_append_right _ ha))
  unfold mapSample
  rw [hfirst, mapIp_ready hr hl1]
  simp only []
  have hr2 := hr.hits (hit reg st.hits s.ip)
  rw [mapData_ready hr2 hl2]
  simp only []
  have hr3 := (hr2.hits ((s.addr.filter (· ≠ 0)).toList.foldl (hit reg) (hit reg st.hits s.ip))).stats
    { st.stats with
        dataSamples := st.stats.dataSamples + (s.addr.filter (· ≠ 0)).toList.length
        dataMapped := st.stats.dataMapped + ((s.addr.filter (· ≠ 0)).toList.filter (fun a => (reg a).isSome)).length }
  rw [mapChain_ready rfl s.callchain hr3 hl3]
  simp only []
  rw [mapBranches_ready (hr3.hits _) hl4]
  simp only [Option.some.injEq, Prod.mk.injEq]
  refine ⟨?_, rfl, trivial⟩
  congr 1
  · simp only [lookups, List.foldl_cons, List.foldl_append]
  · simp only [sampleStats, allMapped, List.all_cons, List.all_append]
    congr 1
    cases (reg s.ip).isSome <;> cases NullsLast s.branches <;>
      cases (s.callchain.filter (fun a => isCode a && decide (a ≠ s.ip))).all (fun a => (reg a).isSome) <;>
      cases ((usable s.branches).flatMap (fun b => [b.src, b.dst])).all (fun a => (reg a).isSome) <;> rfl

/-- `f` keeps 0, markers and differences, for the addresses in `V`. -/
structure Keeps (V : Nat → Prop) (f : Nat → Nat) : Prop where
  inj : ∀ a b, V a → V b → f a = f b → a = b
  zero : V 0 ∧ f 0 = 0
  code : ∀ a, V a → isCode (f a) = isCode a
  marker : ∀ a, V a → isCode a = false → f a = a

theorem Keeps.zero_iff {V : Nat → Prop} {f : Nat → Nat} (h : Keeps V f) {a : Nat} (ha : V a) : f a = 0 ↔ a = 0 := by
  constructor
  · intro he; exact h.inj a 0 ha h.zero.1 (by rw [he, h.zero.2])
  · rintro rfl; exact h.zero.2

/-- The branch elsewhere. -/
def Branch.moved (f : Nat → Nat) (b : Branch) : Branch := { b with src := f b.src, dst := f b.dst }

theorem Keeps.null {V : Nat → Prop} {f : Nat → Nat} (h : Keeps V f) {b : Branch} (h1 : V b.src) (h2 : V b.dst) :
    (b.moved f).null = b.null := by
  have e1 := h.zero_iff h1
  have e2 := h.zero_iff h2
  simp only [Branch.null, Branch.moved]
  have g : ∀ x y : Nat, (x = 0 ↔ y = 0) → (x == 0) = (y == 0) := by
    intro x y hxy
    by_cases c : y = 0
    · rw [hxy.2 c, c]
    · rw [beq_eq_false_iff_ne.2 c, beq_eq_false_iff_ne.2 (fun hx => c (hxy.1 hx))]
  rw [g _ _ e1, g _ _ e2]

theorem takeWhile_moved {f : Nat → Nat} : ∀ (bs : List Branch), (∀ b ∈ bs, (b.moved f).null = b.null) →
    (bs.map (Branch.moved f)).takeWhile (fun b => !b.null) = (bs.takeWhile (fun b => !b.null)).map (Branch.moved f) ∧
    (bs.map (Branch.moved f)).dropWhile (fun b => !b.null) = (bs.dropWhile (fun b => !b.null)).map (Branch.moved f)
  | [], _ => ⟨rfl, rfl⟩
  | b :: t, h => by
    have ih := takeWhile_moved t (fun x hx => h x (by simp [hx]))
    have hb := h b (by simp)
    by_cases hn : b.null = true
    · rw [List.map_cons, List.takeWhile_cons_of_neg (by simp [hb, hn]), List.dropWhile_cons_of_neg (by simp [hb, hn]),
        List.takeWhile_cons_of_neg (by simp [hn]), List.dropWhile_cons_of_neg (by simp [hn])]
      exact ⟨rfl, rfl⟩
    · rw [List.map_cons, List.takeWhile_cons_of_pos (by simp [hb, hn]), List.dropWhile_cons_of_pos (by simp [hb, hn]),
        List.takeWhile_cons_of_pos (by simp [hn]), List.dropWhile_cons_of_pos (by simp [hn])]
      rw [ih.1, ih.2]
      exact ⟨rfl, rfl⟩

theorem usable_moved {f : Nat → Nat} {bs : List Branch} (h : ∀ b ∈ bs, (b.moved f).null = b.null) :
    NullsLast (bs.map (Branch.moved f)) = NullsLast bs ∧
    usable (bs.map (Branch.moved f)) = (usable bs).map (Branch.moved f) := by
  have e := takeWhile_moved bs h
  have h1 : NullsLast (bs.map (Branch.moved f)) = NullsLast bs := by
    unfold NullsLast
    rw [e.2]
    have : ∀ b ∈ bs.dropWhile (fun b => !b.null), (b.moved f).null = b.null :=
      fun b hb => h b ((List.dropWhile_sublist _).subset hb)
    generalize bs.dropWhile (fun b => !b.null) = l at this
    clear e h
    induction l with
    | nil => rfl
    | cons x t ih =>
      rw [List.map_cons, List.all_cons, List.all_cons, this x (by simp), ih (fun b hb => this b (by simp [hb]))]
  refine ⟨h1, ?_⟩
  unfold usable
  rw [h1]
  cases NullsLast bs with
  | true => exact e.1
  | false => rfl

theorem usable_sub {bs : List Branch} : ∀ b ∈ usable bs, b ∈ bs := by
  intro b hb
  unfold usable at hb
  split at hb
  · exact (List.takeWhile_sublist _).subset hb
  · cases hb

theorem lookups_sub {s : Sample} {a : Nat} (h : a ∈ lookups s) : a ∈ addresses s := by
  unfold lookups at h
  unfold addresses
  rcases List.mem_cons.1 h with h | h
  · rw [h]; simp
  refine List.mem_cons_of_mem _ ?_
  rcases List.mem_append.1 h with h | h
  · rcases List.mem_append.1 h with h | h
    · refine List.mem_append_left _ (List.mem_append_left _ ?_)
      simp only [Option.mem_toList, Option.filter_eq_some_iff] at h ⊢
      exact h.1
    · exact List.mem_append_left _ (List.mem_append_right _ (List.mem_filter.1 h).1)
  · refine List.mem_append_right _ ?_
    obtain ⟨b, hb, ha⟩ := List.mem_flatMap.1 h
    exact List.mem_flatMap.2 ⟨b, usable_sub b hb, ha⟩

theorem moved_filter {V : Nat → Prop} {f : Nat → Nat} (h : Keeps V f) {ip : Nat} (hip : V ip) :
    ∀ (l : List Nat), (∀ a ∈ l, V a) →
    (l.map f).filter (fun a => isCode a && decide (a ≠ f ip)) =
      (l.filter (fun a => isCode a && decide (a ≠ ip))).map f
  | [], _ => rfl
  | a :: t, hl => by
    have ih := moved_filter h hip t (fun x hx => hl x (by simp [hx]))
    have ha := hl a (by simp)
    have e1 : (isCode (f a) && decide (f a ≠ f ip)) = (isCode a && decide (a ≠ ip)) := by
      rw [h.code a ha]
      congr 1
      by_cases c : a = ip
      · simp [c]
      · have : f a ≠ f ip := fun he => c (h.inj a ip ha hip he)
        simp [c, this]
    rw [List.map_cons, List.filter_cons, List.filter_cons, e1, ih]
    split <;> rfl

theorem moved_data {V : Nat → Prop} {f : Nat → Nat} (h : Keeps V f) {o : Option Nat} (ho : ∀ a ∈ o, V a) :
    ((o.map f).filter (· ≠ 0)).toList = ((o.filter (· ≠ 0)).toList).map f := by
  cases o with
  | none => rfl
  | some a =>
    have := h.zero_iff (ho a rfl)
    by_cases c : a = 0
    · subst c
      simp [Option.filter, h.zero.2]
    · have c' : f a ≠ 0 := fun he => c (this.1 he)
      simp [Option.filter, c, c']

/-- Everything the parser makes of a sample is the same elsewhere. -/
theorem sample_moved {V : Nat → Prop} {f : Nat → Nat} (h : Keeps V f) {s : Sample} (hV : ∀ a ∈ addresses s, V a)
    (hn : NullsLast s.branches = true) {reg reg' : Nat → Option (Nat × Nat)} {τ τ' : Nat → Nat} {loc loc' : Nat → At}
    (hreg : ∀ a ∈ addresses s, reg' (f a) = reg a) (hτ : ∀ a ∈ addresses s, τ' (f a) = τ a)
    (hloc : ∀ a ∈ addresses s, loc' (f a) = loc a) :
    lookups (s.moved f) = (lookups s).map f ∧ replace τ' (s.moved f) = replace τ s ∧
    (∀ H, (lookups (s.moved f)).foldl (hit reg') H = (lookups s).foldl (hit reg) H) ∧
    (∀ x, sampleStats reg' (s.moved f) x = sampleStats reg s x) ∧
    loc' (s.moved f).ip = loc s.ip ∧ dataLoc loc' (s.moved f).addr = dataLoc loc s.addr ∧
    ((s.moved f).callchain.filter (fun a => isCode a && decide (a ≠ (s.moved f).ip))).map loc' =
      (s.callchain.filter (fun a => isCode a && decide (a ≠ s.ip))).map loc ∧
    (usable (s.moved f).branches).map (pbranch loc') = (usable s.branches).map (pbranch loc) := by
  have mip : s.ip ∈ addresses s := by simp [addresses]
  have madr : ∀ a ∈ s.addr, a ∈ addresses s := by
    intro a ha
    simp only [addresses, List.mem_cons, List.mem_append, Option.mem_toList]
    exact Or.inr (Or.inl (Or.inl ha))
  have mch : ∀ a ∈ s.callchain, a ∈ addresses s := by
    intro a ha
    simp only [addresses, List.mem_cons, List.mem_append]
    exact Or.inr (Or.inl (Or.inr ha))
  have mbr : ∀ b ∈ s.branches, b.src ∈ addresses s ∧ b.dst ∈ addresses s := by
    intro b hb
    simp only [addresses, List.mem_cons, List.mem_append, List.mem_flatMap]
    exact ⟨Or.inr (Or.inr ⟨b, hb, by simp⟩), Or.inr (Or.inr ⟨b, hb, by simp⟩)⟩
  have hnull : ∀ b ∈ s.branches, (b.moved f).null = b.null :=
    fun b hb => h.null (hV _ (mbr b hb).1) (hV _ (mbr b hb).2)
  have hbr : (s.moved f).branches = s.branches.map (Branch.moved f) := rfl
  have hus := usable_moved hnull
  have hch : (s.moved f).callchain.filter (fun a => isCode a && decide (a ≠ (s.moved f).ip)) =
      (s.callchain.filter (fun a => isCode a && decide (a ≠ s.ip))).map f :=
    moved_filter h (hV _ mip) _ (fun a ha => hV a (mch a ha))
  have hdat : ((s.moved f).addr.filter (· ≠ 0)).toList = ((s.addr.filter (· ≠ 0)).toList).map f :=
    moved_data h (fun a ha => hV a (madr a ha))
  have hflat : (usable (s.moved f).branches).flatMap (fun b => [b.src, b.dst]) =
      ((usable s.branches).flatMap (fun b => [b.src, b.dst])).map f := by
    rw [hbr, hus.2]
    generalize usable s.branches = l
    induction l with
    | nil => rfl
    | cons b t ih => rw [List.map_cons, List.flatMap_cons, List.flatMap_cons, List.map_append, ih]; rfl
  have hlook : lookups (s.moved f) = (lookups s).map f := by
    unfold lookups
    rw [hch, hdat, hflat, List.map_cons, List.map_append, List.map_append]
    rfl
  have hall : ∀ l : List Nat, (∀ a ∈ l, a ∈ addresses s) →
      (l.map f).all (fun a => (reg' a).isSome) = l.all (fun a => (reg a).isSome) ∧
      ((l.map f).filter (fun a => (reg' a).isSome)).length = (l.filter (fun a => (reg a).isSome)).length := by
    intro l
    induction l with
    | nil => intro _; exact ⟨rfl, rfl⟩
    | cons a t ih =>
      intro hl
      have ih := ih (fun x hx => hl x (by simp [hx]))
      have := hreg a (hl a (by simp))
      rw [List.map_cons, List.all_cons, List.all_cons, List.filter_cons, List.filter_cons, this, ih.1]
      refine ⟨rfl, ?_⟩
      split
      · rw [List.length_cons, List.length_cons, ih.2]
      · exact ih.2
  have hmap : ∀ l : List Nat, (∀ a ∈ l, a ∈ addresses s) → (l.map f).map loc' = l.map loc := by
    intro l hl
    rw [List.map_map]
    exact List.map_congr_left (fun a ha => hloc a (hl a ha))
  have hlk : ∀ a ∈ lookups s, a ∈ addresses s := fun a ha => lookups_sub ha
  have hdats : ∀ a ∈ (s.addr.filter (· ≠ 0)).toList, a ∈ addresses s := fun a ha => hlk a (by
    unfold lookups
    exact List.mem_cons_of_mem _ (List.mem_append_left _ (List.mem_append_left _ ha)))
  refine ⟨hlook, ?_, ?_, ?_, hloc _ mip, ?_, ?_, ?_⟩
  · unfold replace
    have e1 : τ' (s.moved f).ip = τ s.ip := hτ _ mip
    have e2 : (s.moved f).addr.map (fun a => if a = 0 then 0 else τ' a) =
        s.addr.map (fun a => if a = 0 then 0 else τ a) := by
      show (s.addr.map f).map _ = _
      cases ha : s.addr with
      | none => rfl
      | some a =>
        have hm := madr a (by rw [ha]; rfl)
        have hz := h.zero_iff (hV a hm)
        simp only [Option.map_some]
        by_cases c : a = 0
        · rw [if_pos (hz.2 c), if_pos c]
        · rw [if_neg (fun he => c (hz.1 he)), if_neg c, hτ a hm]
    have e3 : (s.moved f).callchain.map (fun a => if isCode a then τ' a else a) =
        s.callchain.map (fun a => if isCode a then τ a else a) := by
      show (s.callchain.map f).map _ = _
      rw [List.map_map]
      apply List.map_congr_left
      intro a ha
      have hm := mch a ha
      simp only [Function.comp, h.code a (hV a hm)]
      by_cases c : isCode a = true
      · rw [if_pos c, if_pos c, hτ a hm]
      · rw [if_neg c, if_neg c, h.marker a (hV a hm) (by simpa using c)]
    have e4 : (s.moved f).branches.map (fun b =>
          if NullsLast (s.moved f).branches && !b.null then { b with src := τ' b.src, dst := τ' b.dst } else b) =
        s.branches.map (fun b =>
          if NullsLast s.branches && !b.null then { b with src := τ b.src, dst := τ b.dst } else b) := by
      rw [hbr, hus.1, hn, List.map_map]
      apply List.map_congr_left
      intro b hb
      have hm := mbr b hb
      simp only [Function.comp, hnull b hb, Bool.true_and]
      by_cases c : b.null = true
      · rw [if_neg (by simp [c]), if_neg (by simp [c])]
        simp only [Branch.null, Bool.and_eq_true, beq_iff_eq] at c
        obtain ⟨c1, c2⟩ := c
        obtain ⟨src, dst, _, _, _, _, _, _⟩ := b
        simp only at c1 c2
        subst c1; subst c2
        simp only [Branch.moved, h.zero.2]
      · rw [if_pos (by simp [c]), if_pos (by simp [c])]
        simp only [Branch.moved, hτ _ hm.1, hτ _ hm.2]
    rw [e1, e2, e3, e4]
    rfl
  · intro H
    rw [hlook]
    generalize lookups s = l at hlk
    clear hlook
    induction l generalizing H with
    | nil => rfl
    | cons a t ih =>
      rw [List.map_cons, List.foldl_cons, List.foldl_cons]
      have : hit reg' H (f a) = hit reg H a := by
        unfold hit; rw [hreg a (hlk a (by simp))]
      rw [this]
      exact ih _ (fun x hx => hlk x (by simp [hx]))
  · intro x
    have e1 : allMapped reg' (s.moved f) = allMapped reg s := by
      unfold allMapped
      have hnl : NullsLast (s.moved f).branches = NullsLast s.branches := by rw [hbr, hus.1]
      rw [hnl, hch, hflat]
      congr 1
      have := hall (s.ip :: (s.callchain.filter (fun a => isCode a && decide (a ≠ s.ip)) ++
        (usable s.branches).flatMap (fun b => [b.src, b.dst]))) (by
          intro a ha
          apply hlk
          unfold lookups
          rcases List.mem_cons.1 ha with rfl | ha
          · simp
          · refine List.mem_cons_of_mem _ ?_
            rcases List.mem_append.1 ha with ha | ha
            · exact List.mem_append_left _ (List.mem_append_right _ ha)
            · exact List.mem_append_right _ ha)
      rw [← this.1, List.map_cons, List.map_append]
      rfl
    unfold sampleStats
    rw [e1, hdat, List.length_map, (hall _ hdats).2]
  · show dataLoc loc' (s.addr.map f) = _
    cases ha : s.addr with
    | none => rfl
    | some a =>
      have hm := madr a (by rw [ha]; rfl)
      have hz := h.zero_iff (hV a hm)
      simp only [Option.map_some, dataLoc]
      by_cases c : a = 0
      · rw [if_pos (hz.2 c), if_pos c]
      · rw [if_neg (fun he => c (hz.1 he)), if_neg c, hloc a hm]
  · rw [hch]
    exact hmap _ (fun a ha => mch a (List.mem_filter.1 ha).1)
  · rw [hbr, hus.2, List.map_map]
    apply List.map_congr_left
    intro b hb
    have hm := mbr b (usable_sub b hb)
    simp only [Function.comp, pbranch, Branch.moved, hloc _ hm.1, hloc _ hm.2]

/-! ### Mappers -/

/-- Two rearrangements that agree where the first matters. -/
def Within (U : Nat → Prop) (φ : Nat → Nat) (U2 : Nat → Prop) (φ2 : Nat → Nat) : Prop :=
  ∀ a, U a → U2 a ∧ φ2 a = φ a

theorem Sim.within {U U2 : Nat → Prop} {φ φ2 : Nat → Nat} {s s' : Mapper} (h : Sim U φ s s')
    (hi : AddressMapper.Inv s) (hw : Within U φ U2 φ2) :
    Sim U2 φ2 (AddressMapper.copy s) (AddressMapper.copy s') := by
  have hreal : ∀ x ∈ s.list, φ2 x.r.real = φ x.r.real := by
    intro x hx
    have h0 := (h.block x hx 0 (hi.ok x hx).1).1
    exact (hw _ h0).2
  refine ⟨h.align, h.next, ?_, ?_⟩
  · show s'.list = s.list.map _
    rw [h.list]
    apply List.map_congr_left
    intro x hx
    simp only [AddressMapper.mv, hreal x hx]
  · intro x hx d hd
    have hb := h.block x hx d hd
    have := hw _ hb.1
    exact ⟨this.1, by rw [this.2, hb.2, hreal x hx]⟩

/-- The mappers of both recordings belong together. -/
def MSim (U : Nat → Nat → Prop) (φ : Nat → Nat → Nat) (ms ms' : Nat → Option Mapper) : Prop :=
  ∀ p, match ms p, ms' p with
    | none, none => True
    | some s, some s' => Sim (U p) (φ p) s s'
    | _, _ => False

theorem MSim.hit {U : Nat → Nat → Prop} {φ : Nat → Nat → Nat} {ms ms' : Nat → Option Mapper} (h : MSim U φ ms ms')
    {p : Nat} {s : Mapper} (hm : ms p = some s) : ∃ s', ms' p = some s' ∧ Sim (U p) (φ p) s s' := by
  have := h p
  rw [hm] at this
  cases h' : ms' p with
  | none => rw [h'] at this; exact this.elim
  | some s' => rw [h'] at this; exact ⟨s', rfl, this⟩

theorem MSim.miss {U : Nat → Nat → Prop} {φ : Nat → Nat → Nat} {ms ms' : Nat → Option Mapper} (h : MSim U φ ms ms')
    {p : Nat} (hm : ms p = none) : ms' p = none := by
  have := h p
  rw [hm] at this
  cases h' : ms' p with
  | none => rfl
  | some s' => rw [h'] at this; exact this.elim

theorem MSim.put {U : Nat → Nat → Prop} {φ : Nat → Nat → Nat} {ms ms' : Nat → Option Mapper} (h : MSim U φ ms ms')
    {p : Nat} {s s' : Mapper} (hs : Sim (U p) (φ p) s s') : MSim U φ (upd ms p (some s)) (upd ms' p (some s')) := by
  intro x
  by_cases hx : x = p
  · subst hx
    simp only [Parser.upd, if_pos]
    exact hs
  · have := h x
    simp only [Parser.upd, if_neg hx]
    exact this

/-- Finding the mapper of a process, at both places. -/
theorem mapperFor_both {O : Opts} {S : Nat} {starts : Nat → Nat} {T : Nat → Option (List Req)}
    {U : Nat → Nat → Prop} {φ : Nat → Nat → Nat} {ms ms' : Nat → Option Mapper} (ha : AddressMapper.AlignOK O.page)
    (hR : MRel O S starts ms T) (h : MSim U φ ms ms') {p pp : Nat} (h1 : Within (U pp) (φ pp) (U p) (φ p))
    (h2 : Within (U kernelPid) (φ kernelPid) (U p) (φ p)) {m m' : Mapper} {ms1 ms1' : Nat → Option Mapper}
    (e : mapperFor O ms p pp = some (m, ms1)) (e' : mapperFor O ms' p pp = some (m', ms1')) :
    Sim (U p) (φ p) m m' ∧ MSim U φ ms1 ms1' := by
  cases hm : ms p with
  | some s =>
    obtain ⟨s', hm', hs⟩ := h.hit hm
    rw [mapperFor_hit hm] at e
    rw [mapperFor_hit hm'] at e'
    cases e; cases e'
    exact ⟨hs, h⟩
  | none =>
    have hm' := h.miss hm
    cases hpp : ms pp with
    | some pm =>
      obtain ⟨pm', hpp', hs⟩ := h.hit hpp
      obtain ⟨_, _, hok⟩ := hR.hit hpp
      simp only [mapperFor, hm, hpp] at e
      simp only [mapperFor, hm', hpp'] at e'
      cases e; cases e'
      have := Sim.within hs hok.inv h1
      exact ⟨this, h.put this⟩
    | none =>
      have hpp' := h.miss hpp
      cases hk : ms kernelPid with
      | some km =>
        obtain ⟨km', hk', hs⟩ := h.hit hk
        obtain ⟨_, _, hok⟩ := hR.hit hk
        simp only [mapperFor, hm, hpp, hk] at e
        simp only [mapperFor, hm', hpp', hk'] at e'
        cases e; cases e'
        have := Sim.within hs hok.inv h2
        exact ⟨this, h.put this⟩
      | none =>
        have hk' := h.miss hk
        simp only [mapperFor, hm, hpp, hk, AddressMapper.new_ok ha] at e
        simp only [mapperFor, hm', hpp', hk', AddressMapper.new_ok ha] at e'
        cases e; cases e'
        have : Sim (U p) (φ p) ⟨O.page, [], [], 0⟩ ⟨O.page, [], [], 0⟩ := ⟨rfl, rfl, rfl, by intro x hx; cases hx⟩
        exact ⟨this, h.put this⟩

/-! ### Requests -/

theorem moved_isMmap (φ : Nat → Nat → Nat) (b : Bool) (e : Ev) : isMmap (e.moved φ b) = isMmap e := rfl
theorem moved_isKernel (φ : Nat → Nat → Nat) (b : Bool) (e : Ev) : isKernelMmap (e.moved φ b) = isKernelMmap e := rfl
theorem moved_known (φ : Nat → Nat → Nat) (b : Bool) (e : Ev) : known (e.moved φ b) = known e := rfl

/-- The range of a mapping elsewhere. -/
theorem request_relocated {O : Opts} {U : Nat → Nat → Prop} {φ : Nat → Nat → Nat} {id : Nat} {k : Bool} {m : MMap}
    (hinj : ∀ a b, U (m.pid.getD 0) a → U (m.pid.getD 0) b → φ (m.pid.getD 0) a = φ (m.pid.getD 0) b → a = b)
    (hw : Block (U (m.pid.getD 0)) (φ (m.pid.getD 0)) m.start m.len)
    (hf : m.start + m.len < 2 ^ 64 ∧ φ (m.pid.getD 0) m.start + m.len < 2 ^ 64)
    (ho : k = true → U (m.pid.getD 0) m.pgoff) :
    request O id k (movedMap φ k m) = (request O id k m).movedBy (φ (m.pid.getD 0)) ∧
    Block (U (m.pid.getD 0)) (φ (m.pid.getD 0)) (request O id k m).real (request O id k m).size ∧
    (request O id k m).real + (request O id k m).size < 2 ^ 64 ∧
    φ (m.pid.getD 0) (request O id k m).real + (request O id k m).size < 2 ^ 64 := by
  generalize hP : m.pid.getD 0 = P at *
  cases k with
  | false =>
    simp only [request, movedMap, Req.movedBy, hP, Bool.false_and, Bool.false_eq_true, if_false]
    exact ⟨trivial, hw, hf⟩
  | true =>
    have ho := ho rfl
    have a1 : add64 m.start m.len = m.start + m.len := Nat.mod_eq_of_lt hf.1
    have a2 : add64 (φ P m.start) m.len = φ P m.start + m.len := Nat.mod_eq_of_lt hf.2
    have a3 : add64 m.len m.start = m.start + m.len := by
      unfold add64; rw [Nat.add_comm]; exact Nat.mod_eq_of_lt hf.1
    have a4 : add64 m.len (φ P m.start) = φ P m.start + m.len := by
      unfold add64; rw [Nat.add_comm]; exact Nat.mod_eq_of_lt hf.2
    by_cases c : m.pgoff > m.start ∧ m.pgoff < m.start + m.len
    · have hb := hw (m.pgoff - m.start) (by omega)
      rw [show m.start + (m.pgoff - m.start) = m.pgoff by omega] at hb
      have c' : φ P m.pgoff > φ P m.start ∧ φ P m.pgoff < φ P m.start + m.len := by rw [hb.2]; omega
      have s1 : sub64 (m.start + m.len) m.pgoff = m.start + m.len - m.pgoff := by
        unfold sub64
        rw [show m.start + m.len + 2 ^ 64 - m.pgoff = m.start + m.len - m.pgoff + 2 ^ 64 by omega, Nat.add_mod_right]
        exact Nat.mod_eq_of_lt (by omega)
      have s2 : sub64 (φ P m.start + m.len) (φ P m.pgoff) = m.start + m.len - m.pgoff := by
        unfold sub64
        rw [show φ P m.start + m.len + 2 ^ 64 - φ P m.pgoff = m.start + m.len - m.pgoff + 2 ^ 64 by omega,
          Nat.add_mod_right]
        exact Nat.mod_eq_of_lt (by omega)
      simp only [request, movedMap, Req.movedBy, hP, Bool.true_and, if_true, a1, a2, a3, a4, c.1, c.2, c'.1, c'.2,
        decide_true, s1, s2]
      have hpart := hw.part (e := m.pgoff - m.start) (n := m.start + m.len - m.pgoff) (by omega) (by omega)
      rw [show m.start + (m.pgoff - m.start) = m.pgoff by omega] at hpart
      refine ⟨trivial, hpart.1, by omega, by omega⟩
    · have c' : ¬ (φ P m.pgoff > φ P m.start ∧ φ P m.pgoff < φ P m.start + m.len) := by
        intro hc
        have hb := hw (φ P m.pgoff - φ P m.start) (by omega)
        have := hinj _ _ hb.1 ho (by rw [hb.2]; omega)
        apply c
        omega
      have d : (decide (m.pgoff > m.start) && decide (m.pgoff < m.start + m.len)) = false := by
        rw [← Bool.not_eq_true]; simp only [Bool.and_eq_true, decide_eq_true_eq]; exact c
      have d' : (decide (φ P m.pgoff > φ P m.start) && decide (φ P m.pgoff < φ P m.start + m.len)) = false := by
        rw [← Bool.not_eq_true]; simp only [Bool.and_eq_true, decide_eq_true_eq]; exact c'
      simp only [request, movedMap, Req.movedBy, hP, Bool.true_and, if_true, a1, a2, d, d', Bool.false_eq_true, if_false]
      exact ⟨trivial, hw, hf⟩

/-! ### One event -/

/-- Both recordings after the same number of events. -/
structure Lock (O : Opts) (S : Nat) (U : Nat → Nat → Prop) (φ : Nat → Nat → Nat) (h h' : List Ev) (st : State)
    (ms' : Nat → Option Mapper) : Prop where
  one : ∃ starts, Rel O S starts h st
  two : ∃ starts, Rel O S starts h' { st with mappers := ms' }
  maps : MSim U φ st.mappers ms'
  len : h'.length = h.length
  kern : h'.any isKernelMmap = h.any isKernelMmap
  cnt : (h'.filter isMmap).length = (h.filter isMmap).length

/-- Both recordings make the same of an event. -/
def StepBoth (O : Opts) (S : Nat) (U : Nat → Nat → Prop) (φ : Nat → Nat → Nat) (L L' : List Ev) (h h' : List Ev) (st : State)
    (ms' : Nat → Option Mapper) (e e' : Ev) : Prop :=
  (step O L h.length st e = none ∧ step O L' h'.length { st with mappers := ms' } e' = none) ∨
  ∃ st1 ms1 x y, step O L h.length st e = some (some (st1, x, y)) ∧
    step O L' h'.length { st with mappers := ms' } e' = some (some ({ st1 with mappers := ms1 }, x, y)) ∧
    Lock O S U φ (e :: h) (e' :: h') st1 ms1

theorem Lock.grow {O : Opts} {S : Nat} {U : Nat → Nat → Prop} {φ : Nat → Nat → Nat} {h h' : List Ev} {st : State}
    {ms' : Nat → Option Mapper} (hl : Lock O S U φ h h' st ms') {e : Ev} {b : Bool} :
    (e.moved φ b :: h').length = (e :: h).length ∧
    (e.moved φ b :: h').any isKernelMmap = (e :: h).any isKernelMmap ∧
    ((e.moved φ b :: h').filter isMmap).length = ((e :: h).filter isMmap).length := by
  refine ⟨by rw [List.length_cons, List.length_cons, hl.len], ?_, ?_⟩
  · rw [List.any_cons, List.any_cons, moved_isKernel, hl.kern]
  · rw [List.filter_cons, List.filter_cons, moved_isMmap]
    split
    · rw [List.length_cons, List.length_cons, hl.cnt]
    · exact hl.cnt

theorem moved_same (φ : Nat → Nat → Nat) (b : Bool) {e : Ev} (hm : isMmap e = false) (hs : e.type = 9 → e.sample = none) :
    e.moved φ b = e := by
  unfold Ev.moved
  rw [hm]
  by_cases h9 : e.type = 9
  · rw [if_pos h9, hs h9]
    obtain ⟨_, _, _, sample, _, _, _⟩ := e
    have := hs h9
    simp only at this
    subst this
    rfl
  · rw [if_neg h9]; rfl

/-- Events that are neither mappings nor samples. -/
theorem other_both {O : Opts} {S : Nat} {U : Nat → Nat → Prop} {φ : Nat → Nat → Nat} {L L' h h' : List Ev} {st : State}
    {ms' : Nat → Option Mapper} (hp : ∃ k, k ≤ 60 ∧ O.page = 2 ^ k) (hl : Lock O S U φ h h' st ms')
    (hkern : ∀ p, Within (U kernelPid) (φ kernelPid) (U p) (φ p)) {e : Ev} {b : Bool}
    (hfork : e.type = 7 → Within (U (e.fork.getD {}).ppid) (φ (e.fork.getD {}).ppid) (U (e.fork.getD {}).pid) (φ (e.fork.getD {}).pid))
    (hk : known e = true) (hm : isMmap e = false) (hs : e.type = 9 → e.sample = none) :
    StepBoth O S U φ L L' h h' st ms' e (e.moved φ b) := by
  obtain ⟨starts, hR⟩ := hl.one
  obtain ⟨starts', hR'⟩ := hl.two
  have hg := hl.grow (e := e) (b := b)
  rw [moved_same φ b hm hs] at hg ⊢
  obtain ⟨st1, o1, o2⟩ := step_other (evs := L) hp hR hk hm hs
  obtain ⟨st2, t1, t2⟩ := step_other (evs := L') hp hR' hk hm hs
  suffices hsuf : ∃ ms1, st2 = { st1 with mappers := ms1 } ∧ MSim U φ st1.mappers ms1 by
    obtain ⟨ms1, k1, k2⟩ := hsuf
    subst k1
    exact Or.inr ⟨st1, ms1, e, {}, o1, t1, ⟨starts, o2⟩, ⟨starts', t2⟩, k2, hg.1, hg.2.1, hg.2.2⟩
  have hmt : ¬ (e.type = 1 ∨ e.type = 10) := by simpa [isMmap] using hm
  by_cases h9 : e.type = 9
  · have h64 : ¬ e.type ≥ 64 := by omega
    simp only [step, if_neg h64, if_pos h9, hs h9, Option.some.injEq, Prod.mk.injEq] at o1 t1
    obtain ⟨rfl, _⟩ := o1
    obtain ⟨rfl, _⟩ := t1
    exact ⟨ms', rfl, hl.maps⟩
  by_cases h64 : e.type ≥ 64
  · simp only [step, if_pos h64, Option.some.injEq, Prod.mk.injEq] at o1 t1
    obtain ⟨rfl, _⟩ := o1
    obtain ⟨rfl, _⟩ := t1
    exact ⟨ms', rfl, hl.maps⟩
  by_cases h7 : e.type = 7
  · by_cases hpp : (e.fork.getD {}).ppid = (e.fork.getD {}).pid
    · simp only [step, if_neg h64, if_neg h9, if_neg hmt, if_pos h7, mapFork, if_pos hpp, Option.map_some,
        Option.some.injEq, Prod.mk.injEq] at o1 t1
      obtain ⟨rfl, _⟩ := o1
      obtain ⟨rfl, _⟩ := t1
      exact ⟨ms', rfl, hl.maps⟩
    · obtain ⟨m, ms, _, g1, _⟩ := mapperFor_rel (alignOK hp) hR.maps (e.fork.getD {}).pid (e.fork.getD {}).ppid
      obtain ⟨m2, ms2, _, g2, _⟩ := mapperFor_rel (alignOK hp) hR'.maps (e.fork.getD {}).pid (e.fork.getD {}).ppid
      have hb := mapperFor_both (alignOK hp) hR.maps hl.maps (hfork h7) (hkern _) g1 g2
      simp only [step, if_neg h64, if_neg h9, if_neg hmt, if_pos h7, mapFork, if_neg hpp, g1, g2, Option.map_some,
        Option.some.injEq, Prod.mk.injEq] at o1 t1
      obtain ⟨rfl, _⟩ := o1
      obtain ⟨rfl, _⟩ := t1
      exact ⟨ms2, rfl, hb.2⟩
  by_cases h4 : e.type = 4
  · simp only [step, if_neg h64, if_neg h9, if_neg hmt, if_neg h7, if_pos h4, Option.some.injEq, Prod.mk.injEq] at o1 t1
    obtain ⟨rfl, _⟩ := o1
    obtain ⟨rfl, _⟩ := t1
    exact ⟨ms', rfl, hl.maps⟩
  by_cases h3 : e.type = 3
  · obtain ⟨m, ms, _, g1, _⟩ := mapperFor_rel (alignOK hp) hR.maps (e.comm.getD {}).pid kernelPid
    obtain ⟨m2, ms2, _, g2, _⟩ := mapperFor_rel (alignOK hp) hR'.maps (e.comm.getD {}).pid kernelPid
    have hb := mapperFor_both (alignOK hp) hR.maps hl.maps (hkern _) (hkern _) g1 g2
    simp only [step, if_neg h64, if_neg h9, if_neg hmt, if_neg h7, if_neg h4, if_pos h3, g1, g2, Option.map_some,
      Option.some.injEq, Prod.mk.injEq] at o1 t1
    obtain ⟨rfl, _⟩ := o1
    obtain ⟨rfl, _⟩ := t1
    exact ⟨ms2, rfl, hb.2⟩
  by_cases h17 : e.type = 17
  · simp only [step, if_neg h64, if_neg h9, if_neg hmt, if_neg h7, if_neg h4, if_neg h3, if_pos h17,
      Option.some.injEq, Prod.mk.injEq] at o1 t1
    obtain ⟨rfl, _⟩ := o1
    obtain ⟨rfl, _⟩ := t1
    exact ⟨ms', rfl, hl.maps⟩
  have hig : e.type ∈ ignored := by
    simp [known] at hk
    simp [ignored]
    omega
  simp only [step, if_neg h64, if_neg h9, if_neg hmt, if_neg h7, if_neg h4, if_neg h3, if_neg h17, if_pos hig,
    Option.some.injEq, Prod.mk.injEq] at o1 t1
  obtain ⟨rfl, _⟩ := o1
  obtain ⟨rfl, _⟩ := t1
  exact ⟨ms', rfl, hl.maps⟩

/-- A mapping event. -/
theorem mmap_both {O : Opts} {S : Nat} {U : Nat → Nat → Prop} {φ : Nat → Nat → Nat} {L L' h h' : List Ev} {st : State}
    {ms' : Nat → Option Mapper} (hp : ∃ k, k ≤ 60 ∧ O.page = 2 ^ k) (hre : O.remap = true) (hl : Lock O S U φ h h' st ms')
    (hkern : ∀ p, Within (U kernelPid) (φ kernelPid) (U p) (φ p)) {e : Ev} (hm : isMmap e = true)
    (hfair : ∀ p, Fair (U p) (φ p) O.page) (hzero : ∀ p, φ p 0 = 0)
    (hw : ∀ m, e.mmap = some m → Block (U (m.pid.getD 0)) (φ (m.pid.getD 0)) m.start m.len)
    (hf : ∀ m, e.mmap = some m → m.start + m.len < 2 ^ 64 ∧ φ (m.pid.getD 0) m.start + m.len < 2 ^ 64)
    (ho : ∀ m, e.mmap = some m → isKernelMmap e = true → U (m.pid.getD 0) m.pgoff)
    (hS : (requestAt O h e).size ≤ S) (hroom : ((h.filter isMmap).length + 1) * (S + 6 * O.page) < 2 ^ 64) :
    StepBoth O S U φ L L' h h' st ms' e (e.moved φ (!h.any isKernelMmap && isKernelMmap e)) := by
  obtain ⟨starts, hR⟩ := hl.one
  obtain ⟨starts', hR'⟩ := hl.two
  generalize hb : (!h.any isKernelMmap && isKernelMmap e) = b
  have hg := hl.grow (e := e) (b := b)
  have htype : e.type = 1 ∨ e.type = 10 := by simpa [isMmap] using hm
  have h64 : ¬ e.type ≥ 64 := by omega
  have h9 : ¬ e.type = 9 := by omega
  have hmm : (e.moved φ b).mmap = e.mmap.map (movedMap φ b) := by simp [Ev.moved, hm]
  have hpid : ((e.moved φ b).mmap.getD {}).pid = (e.mmap.getD {}).pid := by
    rw [hmm]; cases e.mmap <;> rfl
  have hfile : ((e.moved φ b).mmap.getD {}).filename = (e.mmap.getD {}).filename := by
    rw [hmm]; cases e.mmap <;> rfl
  -- the requests
  have hreq : request O h.length (st.firstKernel && decide (e.misc % 8 = 1)) (e.mmap.getD {}) = requestAt O h e := by
    unfold requestAt
    rw [hR.kern]
    simp only [isKernelMmap, hm, Bool.true_and]
    rw [Bool.and_comm]
  have hreq' : request O h'.length (st.firstKernel && decide (e.misc % 8 = 1)) ((e.moved φ b).mmap.getD {}) =
      requestAt O h' (e.moved φ b) := by
    unfold requestAt
    rw [moved_isKernel, hl.kern, hR.kern]
    simp only [isKernelMmap, hm, Bool.true_and]
    rw [Bool.and_comm]
  have hk : (isKernelMmap e && !h.any isKernelMmap) = b := by rw [Bool.and_comm, hb]
  obtain ⟨q1, q2, q3, q4⟩ : requestAt O h' (e.moved φ b) = (requestAt O h e).movedBy (φ ((e.mmap.getD {}).pid.getD 0)) ∧
      Block (U ((e.mmap.getD {}).pid.getD 0)) (φ ((e.mmap.getD {}).pid.getD 0)) (requestAt O h e).real (requestAt O h e).size ∧
      (requestAt O h e).real + (requestAt O h e).size < 2 ^ 64 ∧
      φ ((e.mmap.getD {}).pid.getD 0) (requestAt O h e).real + (requestAt O h e).size < 2 ^ 64 := by
    unfold requestAt
    rw [moved_isKernel, hl.kern, hk, hl.len, hmm]
    cases hme : e.mmap with
    | none =>
      have h0 : request O h.length b {} = { real := 0, size := 0, id := h.length, off := 0, allowUnaligned := O.allowJit && contains (ascii "jitted-") [] } := by
        simp [request, add64]
      simp only [Option.map_none, Option.getD_none, h0, Req.movedBy]
      refine ⟨by rw [hzero], fun d hd => absurd hd (Nat.not_lt_zero d), by omega, by rw [hzero]; omega⟩
    | some m =>
      simp only [Option.map_some, Option.getD_some]
      refine request_relocated (hfair _).inj (hw m hme) (hf m hme) (fun hbt => ho m hme ?_)
      rw [hbt] at hb
      exact (Bool.and_eq_true _ _ ▸ hb).2
  have hwf : (requestAt O h e).wf := ⟨by omega, by omega, by omega⟩
  have hwf' : (requestAt O h' (e.moved φ b)).wf := by
    rw [q1]; exact ⟨by show φ _ _ < _; omega, by show (requestAt O h e).size < _; omega, by show φ _ _ + (requestAt O h e).size ≠ _; omega⟩
  -- the mappers
  obtain ⟨m, ms, qs, g1, g2, g3, g4, g5, g6⟩ := mapperFor_rel (alignOK hp) hR.maps ((e.mmap.getD {}).pid.getD 0) kernelPid
  obtain ⟨n, ns, rs, j1, j2, j3, j4, j5, j6⟩ := mapperFor_rel (alignOK hp) hR'.maps ((e.mmap.getD {}).pid.getD 0) kernelPid
  obtain ⟨b1, b2⟩ := mapperFor_both (alignOK hp) hR.maps hl.maps (hkern _) (hkern _) g1 j1
  have hlen := inherit_all (P := fun l => l.length ≤ (h.filter isMmap).length) (by simp) (hist_len O h) _ _ _ _ g3
  have hroom' : qs.length * (S + 6 * O.page) + 6 * m.align + S < AddressMapper.W := by
    have := Nat.lt_of_le_of_lt (Nat.mul_le_mul_right (S + 6 * O.page) (Nat.succ_le_succ hlen)) hroom
    rw [Nat.succ_mul] at this
    rw [g4.align]
    simp only [AddressMapper.W]
    omega
  have hfm : Fair (U ((e.mmap.getD {}).pid.getD 0)) (φ ((e.mmap.getD {}).pid.getD 0)) m.align := by
    rw [g4.align]; exact hfair _
  obtain ⟨ok, t, t', k1, k2, k3, k4⟩ := AddressMapper.step_both hfm ⟨b1, g4.inv, j4.inv, g4.below, g4.small⟩
    (requestAt O h e) hwf (q1 ▸ hwf') hS q2 (by constructor <;> intro hx <;> omega) (Or.inr hroom')
  rcases step_mmap (evs := L) hp hR hm hwf hS hroom with ⟨-, o1⟩ | ⟨-, starts1, st1, e1, p1, o1, -, o2, -⟩
  · refine Or.inl ⟨o1, ?_⟩
    rcases step_mmap (evs := L') (e := e.moved φ b) hp hR' hm hwf' (by rw [q1]; exact hS) (by rw [hl.cnt]; exact hroom)
      with ⟨-, t1⟩ | ⟨-, starts2, st2, e2, p2, t1, -, t2, -⟩
    · exact t1
    · exfalso
      simp only [step, if_neg h64, if_neg h9, if_pos htype, mapMmap, g1, hreq, k1, hre, if_true] at o1
      simp only [step, Ev.moved, if_neg h64, if_neg h9, if_pos htype] at t1
      rw [show (if isMmap e = true then e.mmap.map (movedMap φ b) else e.mmap) = (e.moved φ b).mmap from rfl] at t1
      simp only [mapMmap, hpid, j1, hreq', q1, k2, hre, if_true] at t1
      cases ok with
      | false => cases t1
      | true =>
        have hsz : 0 < (requestAt O h e).size := by
          rcases Nat.eq_zero_or_pos (requestAt O h e).size with h0 | h0
          · rw [AddressMapper.map_refused hwf (Or.inl h0)] at k1; cases k1
          · exact h0
        have hu := (q2 0 hsz).1
        have hlk := (AddressMapper.lookup_both (by rw [k3, g4.align]; exact hfair _) k4.sim k4.inv k4.inv' hu).1
        simp only [Nat.add_zero] at hlk hu
        have hpg := (hfair ((e.mmap.getD {}).pid.getD 0)).page (page_ne hp) _ hu
        simp only [Req.movedBy, hlk, hpg] at t1
        cases hgm : AddressMapper.getMappedAddress t (requestAt O h e).real with
        | none => simp only [hgm] at t1; cases t1
        | some z =>
          cases z with
          | none => simp only [hgm] at t1; cases t1
          | some a =>
            simp only [hgm] at t1 o1
            by_cases hc : a % O.page ≠ (requestAt O h e).real % O.page
            · rw [if_pos hc] at t1; cases t1
            · rw [if_neg hc] at o1; cases o1
  · have o1c := o1
    simp only [step, if_neg h64, if_neg h9, if_pos htype, mapMmap, g1, hreq, k1, hre, if_true] at o1
    cases ok with
    | false => cases o1
    | true =>
      have hsz : 0 < (requestAt O h e).size := by
        rcases Nat.eq_zero_or_pos (requestAt O h e).size with h0 | h0
        · rw [AddressMapper.map_refused hwf (Or.inl h0)] at k1; cases k1
        · exact h0
      have hu := (q2 0 hsz).1
      have hlk := (AddressMapper.lookup_both (by rw [k3, g4.align]; exact hfair _) k4.sim k4.inv k4.inv' hu).1
      simp only [Nat.add_zero] at hlk hu
      have hpg := (hfair ((e.mmap.getD {}).pid.getD 0)).page (page_ne hp) _ hu
      cases hgm : AddressMapper.getMappedAddress t (requestAt O h e).real with
      | none => simp only [hgm] at o1; cases o1
      | some z =>
        cases z with
        | none => simp only [hgm] at o1; cases o1
        | some a =>
          simp only [hgm] at o1
          by_cases hc : a % O.page ≠ (requestAt O h e).real % O.page
          · rw [if_pos hc] at o1; cases o1
          · rw [if_neg hc] at o1
            simp only [Option.map_some, Option.some.injEq, Prod.mk.injEq] at o1
            obtain ⟨rfl, rfl, rfl⟩ := o1
            have t1 : step O L' h'.length { st with mappers := ms' } (e.moved φ b) = some (some
                ({ st with
                    mappers := upd ns ((e.mmap.getD {}).pid.getD 0) (some t')
                    hits := upd st.hits h.length (some 0)
                    files := if (e.mmap.getD {}).filename ∈ st.files then st.files else (e.mmap.getD {}).filename :: st.files
                    firstKernel := st.firstKernel && !(st.firstKernel && decide (e.misc % 8 = 1))
                    stats := { st.stats with mmaps := st.stats.mmaps + 1 } },
                  { e with mmap := some { e.mmap.getD {} with start := a, len := (requestAt O h e).size, pgoff := (requestAt O h e).off } }, {})) := by
              have hty : (e.moved φ b).type = e.type := rfl
              have hmi : (e.moved φ b).misc = e.misc := rfl
              have r1 : ∀ f : Nat → Nat, ((requestAt O h e).movedBy f).real = f (requestAt O h e).real := fun _ => rfl
              have r2 : ∀ f : Nat → Nat, ((requestAt O h e).movedBy f).size = (requestAt O h e).size := fun _ => rfl
              have r3 : ∀ f : Nat → Nat, ((requestAt O h e).movedBy f).off = (requestAt O h e).off := fun _ => rfl
              simp only [step, hty, hmi, if_neg h64, if_neg h9, if_pos htype, mapMmap, hpid, j1, hreq', q1, k2, hre, if_true,
                r1, r2, r3, hlk, hpg, hgm, hfile]
              rw [if_neg hc]
              simp only [Option.map_some, hl.len, Ev.moved, if_neg h9, if_pos hm]
              cases hme : e.mmap <;> rfl
            rcases step_mmap (evs := L') (e := e.moved φ b) hp hR' hm hwf' (by rw [q1]; exact hS) (by rw [hl.cnt]; exact hroom)
              with ⟨-, t2⟩ | ⟨-, starts2, st2, e2, p2, t2, -, t3, -⟩
            · rw [t1] at t2; cases t2
            · rw [t1] at t2
              simp only [Option.some.injEq, Prod.mk.injEq] at t2
              obtain ⟨rfl, -, -⟩ := t2
              refine Or.inr ⟨_, upd ns ((e.mmap.getD {}).pid.getD 0) (some t'), _, _, o1c, t1, ⟨starts1, o2⟩, ⟨starts2, t3⟩, ?_, hg.1, hg.2.1, hg.2.2⟩
              exact b2.put k4.sim

/-- The value looked up in the tables of a sample. -/
theorem look_both {O : Opts} {S : Nat} {starts starts' : Nat → Nat} {U : Nat → Prop} {φ : Nat → Nat} {m m' : Mapper}
    {qs qs' : List Req} (hf : Fair U φ O.page) (hs : Sim U φ m m') (h : MOk O S starts m qs) (h' : MOk O S starts' m' qs')
    {a : Nat} (ha : U a) (h1 : a < 2 ^ 64) (h2 : φ a < 2 ^ 64) :
    specLookup (specRun O.page [] qs').2 (φ a) = specLookup (specRun O.page [] qs).2 a ∧
    ((specLookup (specRun O.page [] qs).2 a = none → φ a % 2 ^ 60 = a % 2 ^ 60) → O.remap = true →
      tr O m' (φ a) = tr O m a) := by
  have hl := (AddressMapper.lookup_both (by rw [h.align]; exact hf) hs h.inv h'.inv ha).2
  have c1 := AddressMapper.corr_lookup h.inv h.corr a h1
  have c2 := AddressMapper.corr_lookup h'.inv h'.corr (φ a) h2
  rw [hl, c1] at c2
  refine ⟨(Option.some.inj c2).symm, ?_⟩
  intro hn hr
  simp only [tr, hr, if_true, hl]
  cases hg : AddressMapper.getMappedAddressIDAndOffset m a with
  | none => rw [hg] at c1; cases c1
  | some z =>
    cases z with
    | some z => rfl
    | none =>
      rw [hg] at c1
      simp only [Option.map_some, Option.map_none, Option.some.injEq] at c1
      simp only [mark_eq, hn c1.symm]

/-- A sample. -/
theorem sample_both {O : Opts} {S : Nat} {U : Nat → Nat → Prop} {φ : Nat → Nat → Nat} {L L' h h' rest rest' : List Ev}
    {st : State} {ms' : Nat → Option Mapper} (hp : ∃ k, k ≤ 60 ∧ O.page = 2 ^ k) (hre : O.remap = true)
    (hl : Lock O S U φ h h' st ms') (hkern : ∀ p, Within (U kernelPid) (φ kernelPid) (U p) (φ p)) {e : Ev} {b : Bool}
    (hL : L = h.reverse ++ rest) (hL' : L' = h'.reverse ++ rest')
    (hnames : ∀ j : Nat, (((L'[j]?).bind Ev.mmap).getD {}).filename = (((L[j]?).bind Ev.mmap).getD {}).filename)
    (h9 : e.type = 9) {s : Sample} (hs : e.sample = some s)
    (hfair : ∀ p, Fair (U p) (φ p) O.page) (hkeep : Keeps (U s.pid) (φ s.pid)) (hn : NullsLast s.branches = true)
    (haddr : ∀ a ∈ addresses s, U s.pid a ∧ a < 2 ^ 64 ∧ φ s.pid a < 2 ^ 64)
    (hun : ∀ a ∈ addresses s, region O h s.pid a = none → φ s.pid a % 2 ^ 60 = a % 2 ^ 60) :
    StepBoth O S U φ L L' h h' st ms' e (e.moved φ b) := by
  obtain ⟨starts, hR⟩ := hl.one
  obtain ⟨starts', hR'⟩ := hl.two
  have hg := hl.grow (e := e) (b := b)
  have hm : isMmap e = false := by simp [isMmap, h9]
  have hs' : (e.moved φ b).sample = some (s.moved (φ s.pid)) := by simp [Ev.moved, h9, hs]
  have hty : (e.moved φ b).type = 9 := h9
  obtain ⟨m, ms, qs, g1, g2, g3, g4, g5, g6⟩ := mapperFor_rel (alignOK hp) hR.maps s.pid kernelPid
  obtain ⟨n, ns, rs, j1, j2, j3, j4, j5, j6⟩ := mapperFor_rel (alignOK hp) hR'.maps s.pid kernelPid
  obtain ⟨b1, b2⟩ := mapperFor_both (alignOK hp) hR.maps hl.maps (hkern _) (hkern _) g1 j1
  have hlook : ∀ a ∈ addresses s, specLookup (specRun O.page [] rs).2 (φ s.pid a) = specLookup (specRun O.page [] qs).2 a ∧
      tr O n (φ s.pid a) = tr O m a := by
    intro a ha
    obtain ⟨u1, u2, u3⟩ := haddr a ha
    have := look_both (hfair s.pid) b1 g4 j4 u1 u2 u3
    refine ⟨this.1, this.2 (fun hnone => hun a ha ?_) hre⟩
    rw [region_eq g3]; exact hnone
  have hloc : ∀ a ∈ addresses s, locR L' (specLookup (specRun O.page [] rs).2) (φ s.pid a) =
      locR L (specLookup (specRun O.page [] qs).2) a := by
    intro a ha
    unfold locR
    rw [(hlook a ha).1]
    cases specLookup (specRun O.page [] qs).2 a with
    | none => rfl
    | some v =>
      obtain ⟨j, off⟩ := v
      simp only [hnames j]
  obtain ⟨y1, y2, y3, y4, y5, y6, y7, y8⟩ := sample_moved hkeep (fun a ha => (haddr a ha).1) hn
    (fun a ha => (hlook a ha).1) (fun a ha => (hlook a ha).2) hloc
  have hlt : ∀ a ∈ lookups s, a < 2 ^ 64 := fun a ha => (haddr a (lookups_sub ha)).2.1
  have hlt' : ∀ a ∈ lookups (s.moved (φ s.pid)), a < 2 ^ 64 := by
    rw [y1]
    intro a ha
    obtain ⟨c, hc, rfl⟩ := List.mem_map.1 ha
    exact (haddr c (lookups_sub hc)).2.2
  have e1 := mapSample_eq (s := s) (evs := L) (st := { st with stats := { st.stats with samples := st.stats.samples + 1 } })
    hp g1 g2 g4 hlt (files_of hR hL g3)
  have e2 := mapSample_eq (s := s.moved (φ s.pid)) (evs := L')
    (st := { st with mappers := ms', stats := { st.stats with samples := st.stats.samples + 1 } })
    hp j1 j2 j4 hlt' (files_of hR' hL' j3)
  rw [y2, y3, y4, y5, y6, y7, y8] at e2
  have h64 : ¬ e.type ≥ 64 := by omega
  obtain ⟨st1, x1, p1, o1, o2, -⟩ := step_sample hp hR hL h9 hs hlt
  obtain ⟨st2, x2, p2, t1, t2, -⟩ := step_sample hp hR' hL' hty hs' hlt'
  have o1c := o1
  have t1c := t1
  simp only [step, if_neg h64, if_pos h9, hs, e1, Option.map_some, Option.some.injEq, Prod.mk.injEq] at o1
  have h64' : ¬ (9 : Nat) ≥ 64 := by omega
  simp only [step, hty, if_neg h64', if_true, hs', e2, Option.map_some, Option.some.injEq, Prod.mk.injEq] at t1
  obtain ⟨rfl, rfl, rfl⟩ := o1
  obtain ⟨rfl, rfl, rfl⟩ := t1
  refine Or.inr ⟨_, ns, _, _, o1c, ?_, ⟨starts, o2⟩, ⟨starts', t2⟩, b2, hg.1, hg.2.1, hg.2.2⟩
  rw [t1c]
  simp only [Ev.moved, hm, h9]
  rfl

/-! ### The loop -/

theorem relocate_len (φ : Nat → Nat → Nat) : ∀ (b : Bool) (l : List Ev), (relocate φ b l).length = l.length
  | _, [] => rfl
  | b, e :: t => by rw [relocate, List.length_cons, List.length_cons, relocate_len φ _ t]

theorem relocate_name (φ : Nat → Nat → Nat) : ∀ (b : Bool) (l : List Ev) (j : Nat),
    ((((relocate φ b l)[j]?).bind Ev.mmap).getD {}).filename = (((l[j]?).bind Ev.mmap).getD {}).filename
  | _, [], j => rfl
  | b, e :: t, 0 => by
    simp only [relocate, List.getElem?_cons_zero, Option.bind_some, Ev.moved]
    split
    · cases e.mmap <;> rfl
    · rfl
  | b, e :: t, j + 1 => by
    simp only [relocate, List.getElem?_cons_succ]
    exact relocate_name φ _ t j

/-- What is seen of the loop afterwards. -/
def seen (r : Bool × State × List (Ev × Parsed)) : Bool × (Nat → Option Nat) × Stats × List (Ev × Parsed) :=
  (r.1, r.2.1.hits, r.2.1.stats, r.2.2)

theorem mem_known {evs : List Ev} {e : Ev} (h : e ∈ processed evs) : known e = true := by
  unfold processed at h
  generalize relevant evs = l at h
  induction l with
  | nil => cases h
  | cons x t ih =>
    by_cases hx : known x = true
    · rw [List.takeWhile_cons_of_pos hx] at h
      rcases List.mem_cons.1 h with rfl | h
      · exact hx
      · exact ih h
    · rw [List.takeWhile_cons_of_neg hx] at h; cases h

theorem all_known {evs : List Ev} (h : ∀ e ∈ relevant evs, known e = true) : processed evs = relevant evs := by
  unfold processed
  generalize relevant evs = l at h
  induction l with
  | nil => rfl
  | cons x t ih => rw [List.takeWhile_cons_of_pos (h x (by simp)), ih (fun e he => h e (by simp [he]))]

theorem loop_both {O : Opts} {S : Nat} {U : Nat → Nat → Prop} {φ : Nat → Nat → Nat} {evs : List Ev}
    (hS : Sensible O S evs) (hre : O.remap = true) (hφ : Relocates O U φ evs) {L' : List Ev}
    (hnames : ∀ j : Nat, (((L'[j]?).bind Ev.mmap).getD {}).filename = ((((processed evs)[j]?).bind Ev.mmap).getD {}).filename) :
    ∀ (l h h' : List Ev) (st : State) (ms' : Nat → Option Mapper), processed evs = h.reverse ++ l →
    L' = h'.reverse ++ relocate φ (!h.any isKernelMmap) l → Lock O S U φ h h' st ms' →
    (loop O L' h'.length { st with mappers := ms' } (relocate φ (!h.any isKernelMmap) l)).map seen =
      (loop O (processed evs) h.length st l).map seen
  | [], h, h', st, ms', hL, hL', hl => rfl
  | e :: t, h, h', st, ms', hL, hL', hl => by
    have he : (processed evs)[h.length]? = some e := by
      rw [hL, List.getElem?_append_right (by simp)]; simp
    have hmem : e ∈ processed evs := List.mem_of_getElem? he
    have hbef : before evs h.length = h := by
      unfold before
      rw [hL, List.take_append_of_le_length (by simp), List.take_of_length_le (by simp), List.reverse_reverse]
    have hk : known e = true := mem_known hmem
    have hkern : ∀ p, Within (U kernelPid) (φ kernelPid) (U p) (φ p) := fun p a ha => hφ.kernel p a ha
    have hfair : ∀ p, Fair (U p) (φ p) O.page := fun p => ⟨hφ.inj p, fun _ => hφ.page p⟩
    have hsame : StepBoth O S U φ (processed evs) L' h h' st ms' e (e.moved φ (!h.any isKernelMmap && isKernelMmap e)) := by
      by_cases hm : isMmap e = true
      · have hr := hS.ranges h.length e he hm
        rw [hbef] at hr
        refine mmap_both hS.page hre hl hkern hm hfair (fun p => (hφ.zero p).2) (hφ.whole e hmem hm) (hφ.fits e hmem hm)
          (fun m hme hke => hφ.offset e hmem hke m hme) hr.2 ?_
        refine Nat.lt_of_le_of_lt (Nat.mul_le_mul_right _ ?_) hS.room
        unfold mmapCount
        rw [hL, List.filter_append, List.filter_reverse, List.length_append, List.length_reverse,
          List.filter_cons_of_pos hm, List.length_cons]
        omega
      · have hm' : isMmap e = false := by simpa using hm
        by_cases h9 : e.type = 9 ∧ e.sample ≠ none
        · obtain ⟨h9, hsn⟩ := h9
          cases hs : e.sample with
          | none => exact absurd hs hsn
          | some s =>
            have hsm := hφ.samples e hmem h9 s hs
            refine sample_both hS.page hre hl hkern hL hL' hnames h9 hs hfair
              ⟨hφ.inj s.pid, hφ.zero s.pid, fun a ha => (hφ.marker s.pid a ha).1, fun a ha => (hφ.marker s.pid a ha).2⟩
              hsm.1 hsm.2 ?_
            intro a ha hn
            exact hφ.unmapped h.length e he h9 s hs a ha (by rw [hbef]; exact hn)
        · refine other_both hS.page hl hkern (fun h7 => hφ.fork e hmem h7) hk hm' (fun h => ?_)
          cases hs : e.sample with
          | none => rfl
          | some s => exact absurd ⟨h, by simp [hs]⟩ h9
    have hflag : (!(e :: h).any isKernelMmap) = (!h.any isKernelMmap && !isKernelMmap e) := by
      rw [List.any_cons, Bool.not_or, Bool.and_comm]
    rcases hsame with ⟨s1, s2⟩ | ⟨st1, ms1, x, y, s1, s2, s3⟩
    · simp only [relocate, loop, s1, s2]
    · have ih := loop_both hS hre hφ hnames t (e :: h) (e.moved φ (!h.any isKernelMmap && isKernelMmap e) :: h') st1 ms1
        (by rw [hL]; simp) (by rw [hL', hflag]; simp [relocate]) s3
      rw [hflag, List.length_cons, List.length_cons] at ih
      simp only [relocate, loop, s1, s2, Option.map_map]
      generalize loop O L' (h'.length + 1) { st1 with mappers := ms1 } (relocate φ (!h.any isKernelMmap && !isKernelMmap e) t) = A at ih
      generalize loop O (processed evs) (h.length + 1) st1 t = B at ih
      cases A with
      | none => cases B with
        | none => rfl
        | some b => cases ih
      | some a => cases B with
        | none => cases ih
        | some b =>
          simp only [Option.map_some, Option.some.injEq, seen, Prod.mk.injEq] at ih
          simp only [Option.map_some, Function.comp, seen, ih.1, ih.2.1, ih.2.2.1, ih.2.2.2]

theorem relevant_relocate (φ : Nat → Nat → Nat) : ∀ (b : Bool) (l : List Ev),
    relevant (relocate φ b l) = relocate φ b (relevant l)
  | _, [] => rfl
  | b, e :: t => by
    have hty : (e.moved φ (b && isKernelMmap e)).type = e.type := rfl
    unfold relevant at *
    by_cases h : e.type = 68
    · have hk : isKernelMmap e = false := by simp [isKernelMmap, isMmap, h]
      rw [relocate, List.filter_cons_of_neg (by simp [hty, h]), List.filter_cons_of_neg (by simp [h]), hk]
      have := relevant_relocate φ b t
      unfold relevant at this
      simpa using this
    · rw [relocate, List.filter_cons_of_pos (by simp [hty, h]), List.filter_cons_of_pos (by simp [h]), relocate]
      have := relevant_relocate φ (b && !isKernelMmap e) t
      unfold relevant at this
      rw [this]

theorem putBack_relocate (φ : Nat → Nat → Nat) : ∀ (b : Bool) (l out : List Ev),
    putBack (relocate φ b l) out = putBack l out
  | _, [], _ => rfl
  | b, e :: t, out => by
    have hty : (e.moved φ (b && isKernelMmap e)).type = e.type := rfl
    simp only [relocate, putBack, hty]
    by_cases h : e.type = 68
    · rw [if_pos h, if_pos h, putBack_relocate φ _ t out, moved_same φ _ (by simp [isMmap, h]) (fun h9 => by omega)]
    · rw [if_neg h, if_neg h]
      cases out with
      | nil => rfl
      | cons x o => simp only [putBack_relocate φ _ t o]

/-! ### C141 -/

/-- C141. With remapping, what the parser makes of a recording, everything it returns, is the same wherever
things were in the memory of the processes. -/
theorem C141_hidden (O : Opts) (S : Nat) (U : Nat → Nat → Prop) (φ : Nat → Nat → Nat) (evs : List Ev)
    (hre : O.remap = true) (hS : Sensible O S evs) (hk : ∀ e ∈ relevant evs, known e = true)
    (hφ : Relocates O U φ evs) : parse O (relocate φ true evs) = parse O evs := by
  have hproc : processed evs = relevant evs := all_known hk
  have hlock : Lock O S U φ [] [] {} (fun _ => none) := by
    have hR : Rel O S (fun _ => 0) [] {} := by
      refine ⟨fun p => trivial, fun k => ?_, rfl, fun e he => (by cases he), fun j => rfl, rfl⟩
      simp [commAt, upd]
    exact ⟨⟨_, hR⟩, ⟨_, hR⟩, fun p => trivial, rfl, rfl, rfl⟩
  have hb := loop_both hS hre hφ (L' := relocate φ true (processed evs)) (relocate_name φ true _)
    (processed evs) [] [] {} (fun _ => none) rfl rfl hlock
  rw [hproc] at hb
  have h1 : (relocate φ true evs).filter (fun e => e.type ≠ 68) = relocate φ true (relevant evs) := relevant_relocate φ true evs
  have h2 : evs.filter (fun e => e.type ≠ 68) = relevant evs := rfl
  unfold parse
  rw [h1, h2]
  change (loop O (relocate φ true (relevant evs)) 0 {} (relocate φ true (relevant evs))).map seen =
    (loop O (relevant evs) 0 {} (relevant evs)).map seen at hb
  simp only []
  generalize loop O (relocate φ true (relevant evs)) 0 {} (relocate φ true (relevant evs)) = A at hb ⊢
  generalize loop O (relevant evs) 0 {} (relevant evs) = B at hb ⊢
  cases A with
  | none => cases B with
    | none => rfl
    | some b => cases hb
  | some a => cases B with
    | none => cases hb
    | some b =>
      obtain ⟨a1, a2, a3⟩ := a
      obtain ⟨b1, b2, b3⟩ := b
      simp only [Option.map_some, Option.some.injEq, seen, Prod.mk.injEq] at hb
      obtain ⟨rfl, e2, e3, rfl⟩ := hb
      simp only [e2, e3, putBack_relocate]

/-! A concrete case: the recording of two processes of `Props.lean`. The file `/a`, mapped below all others, is
above them instead. -/

/-- The pages at 0x10000 and those at 0x70000 change places. -/
def exSwap (_ : Nat) (a : Nat) : Nat :=
  if 0x10000 ≤ a ∧ a < 0x13000 then a + 0x60000 else if 0x70000 ≤ a ∧ a < 0x73000 then a - 0x60000 else a

theorem exSwap_ok : Relocates exO (fun _ _ => True) exSwap exEvs := by
  have hin : ∀ e ∈ processed exEvs, ∀ m ∈ e.mmap, 0 < m.len ∧ m.start + m.len < 2 ^ 63 ∧
      (0x10000 ≤ m.start ∧ m.start + m.len ≤ 0x13000 ∨ m.start + m.len ≤ 0x10000 ∨
        0x13000 ≤ m.start ∧ m.start + m.len ≤ 0x70000) := by decide +kernel
  have hsm : ∀ e ∈ processed exEvs, ∀ s ∈ e.sample, NullsLast s.branches = true ∧
      ∀ a ∈ addresses s, a < 2 ^ 64 ∧ exSwap s.pid a < 2 ^ 64 := by decide +kernel
  have hun : ∀ i, i < 8 → ∀ e ∈ (processed exEvs)[i]?, ∀ s ∈ e.sample, ∀ a ∈ addresses s,
      region exO (before exEvs i) s.pid a = none → exSwap s.pid a % 2 ^ 60 = a % 2 ^ 60 := by decide +kernel
  refine ⟨?_, ?_, ?_, ?_, ?_, ?_, ?_, ?_, ?_, ?_, ?_⟩
  · intro p a b _ _ h
    unfold exSwap at h
    repeat' split at h
    all_goals omega
  · intro p a _
    show exSwap p a % 4096 = a % 4096
    unfold exSwap
    split
    · omega
    · split <;> omega
  · intro p; exact ⟨trivial, rfl⟩
  · intro p a _
    unfold exSwap isCode
    split
    · refine ⟨?_, fun h => ?_⟩
      · rw [decide_eq_decide]; omega
      · rw [decide_eq_false_iff_not] at h; omega
    · split
      · refine ⟨?_, fun h => ?_⟩
        · rw [decide_eq_decide]; omega
        · rw [decide_eq_false_iff_not] at h; omega
      · exact ⟨rfl, fun _ => rfl⟩
  · intro p a _; exact ⟨trivial, rfl⟩
  · intro e _ _ a _; exact ⟨trivial, rfl⟩
  · intro e he _ m hm d hd
    have := hin e he m hm
    refine ⟨trivial, ?_⟩
    unfold exSwap
    repeat' split
    all_goals omega
  · intro e he _ m hm
    have := hin e he m hm
    refine ⟨by omega, ?_⟩
    unfold exSwap
    repeat' split
    all_goals omega
  · intro e _ _ m _; trivial
  · intro e he _ s hs
    have := hsm e he s hs
    exact ⟨this.1, fun a ha => ⟨trivial, this.2 a ha⟩⟩
  · intro i e hi _ s hs a ha hr
    have hlen : (processed exEvs).length = 8 := by decide +kernel
    exact hun i (by rw [← hlen]; exact (List.getElem?_eq_some_iff.1 hi).1) e hi s hs a ha hr

example : relocate exSwap true exEvs ≠ exEvs ∧ (parse exO exEvs).isSome = true ∧
    parse exO (relocate exSwap true exEvs) = parse exO exEvs :=
  ⟨by decide +kernel, by decide +kernel,
    C141_hidden exO 0x5000 _ _ _ rfl (exOk _ rfl) (by decide +kernel) exSwap_ok⟩

/-- What an address in no mapping is, is told: only its highest hexadecimal digit is lost. -/
theorem C141_unmapped_told : ∃ evs evs' : List Ev,
    evs = [{ type := 9, sample := some { ip := 0x10000 } }] ∧ evs' = [{ type := 9, sample := some { ip := 0x20000 } }] ∧
    (parse exO evs).map (·.events) = some [{ type := 9, sample := some { ip := 2 ^ 63 + 0x10000 } }] ∧
    (parse exO evs').map (·.events) = some [{ type := 9, sample := some { ip := 2 ^ 63 + 0x20000 } }] :=
  ⟨_, _, rfl, rfl, by decide +kernel, by decide +kernel⟩

/-- Branches with a null one before the last are left as they are, with the addresses in memory. -/
theorem C141_branches_told :
    (parse exO [exMm 1 0x10000 0x3000 0 "/a",
        { type := 9, sample := some { ip := 0x10008, pid := 1, branches := [{}, { src := 0x10010, dst := 0x10020 }] } }]).map
      (·.events) =
    some [exMm 1 0 0x3000 0 "/a",
        { type := 9, sample := some { ip := 8, pid := 1, branches := [{}, { src := 0x10010, dst := 0x10020 }] } }] := by
  decide +kernel

/-- Without remapping everything is told. -/
theorem C141_plain_told : parse {} (relocate exSwap true exEvs) ≠ parse {} exEvs := by decide +kernel

/-! The kernel at another place (its first mapping gives the place as its offset too), with a sample in the kernel. -/

/-- Where the kernel is, and where it could have been. -/
def exKaslr (_ : Nat) (a : Nat) : Nat :=
  if 0xffffffff81000000 ≤ a ∧ a < 0xffffffff82000000 then a + 0x19000000
  else if 0xffffffff9a000000 ≤ a ∧ a < 0xffffffff9b000000 then a - 0x19000000 else a

/-- A sample in the kernel, called from a program. -/
def exKernelSample : Sample :=
  { ip := 0xffffffff81000200
    pid := 1
    callchain := [2 ^ 64 - 128, 0xffffffff81000200, 0xffffffff81001234, 2 ^ 64 - 512, 0x10008] }

/-- The kernel, a program, a sample. -/
def exKernelEvs : List Ev :=
  [{ exMm kernelPid 0xffffffff81000000 0x1000000 0xffffffff81000000 "[kernel.kallsyms]_text" with misc := 1 },
   exMm 1 0x10000 0x3000 0 "/a",
   { type := 9, sample := some exKernelSample }]

theorem exKernel_ok : Sensible exO 0x1000000 exKernelEvs := by
  refine ⟨⟨12, by omega, rfl⟩, ?_, by decide +kernel, by decide +kernel⟩
  have hlen : (processed exKernelEvs).length = 3 := by decide +kernel
  have h : ∀ i : Nat, i < 3 → ∀ e ∈ (processed exKernelEvs)[i]?, isMmap e = true →
      ((requestAt exO (before exKernelEvs i) e).real < 2 ^ 64 ∧ (requestAt exO (before exKernelEvs i) e).size < 2 ^ 64 ∧
        (requestAt exO (before exKernelEvs i) e).real + (requestAt exO (before exKernelEvs i) e).size ≠ 2 ^ 64) ∧
      (requestAt exO (before exKernelEvs i) e).size ≤ 0x1000000 := by decide +kernel
  intro i e hi hm
  exact h i (by rw [← hlen]; exact (List.getElem?_eq_some_iff.1 hi).1) e hi hm

theorem exKaslr_ok : Relocates exO (fun _ _ => True) exKaslr exKernelEvs := by
  have hin : ∀ e ∈ processed exKernelEvs, ∀ m ∈ e.mmap, 0 < m.len ∧
      (0xffffffff81000000 ≤ m.start ∧ m.start + m.len ≤ 0xffffffff82000000 ∨ m.start + m.len ≤ 0xffffffff81000000) := by
    decide +kernel
  have hsm : ∀ e ∈ processed exKernelEvs, ∀ s ∈ e.sample, NullsLast s.branches = true ∧
      ∀ a ∈ addresses s, a < 2 ^ 64 ∧ exKaslr s.pid a < 2 ^ 64 := by decide +kernel
  have hun : ∀ i, i < 3 → ∀ e ∈ (processed exKernelEvs)[i]?, ∀ s ∈ e.sample, ∀ a ∈ addresses s,
      region exO (before exKernelEvs i) s.pid a = none → exKaslr s.pid a % 2 ^ 60 = a % 2 ^ 60 := by decide +kernel
  refine ⟨?_, ?_, ?_, ?_, ?_, ?_, ?_, ?_, ?_, ?_, ?_⟩
  · intro p a b _ _ h
    unfold exKaslr at h
    repeat' split at h
    all_goals omega
  · intro p a _
    show exKaslr p a % 4096 = a % 4096
    unfold exKaslr
    split
    · omega
    · split <;> omega
  · intro p; exact ⟨trivial, rfl⟩
  · intro p a _
    unfold exKaslr isCode
    split
    · refine ⟨?_, fun h => ?_⟩
      · rw [decide_eq_decide]; omega
      · rw [decide_eq_false_iff_not] at h; omega
    · split
      · refine ⟨?_, fun h => ?_⟩
        · rw [decide_eq_decide]; omega
        · rw [decide_eq_false_iff_not] at h; omega
      · exact ⟨rfl, fun _ => rfl⟩
  · intro p a _; exact ⟨trivial, rfl⟩
  · intro e _ _ a _; exact ⟨trivial, rfl⟩
  · intro e he _ m hm d hd
    have := hin e he m hm
    refine ⟨trivial, ?_⟩
    unfold exKaslr
    repeat' split
    all_goals omega
  · intro e he _ m hm
    have := hin e he m hm
    refine ⟨by omega, ?_⟩
    unfold exKaslr
    repeat' split
    all_goals omega
  · intro e _ _ m _; trivial
  · intro e he _ s hs
    have := hsm e he s hs
    exact ⟨this.1, fun a ha => ⟨trivial, this.2 a ha⟩⟩
  · intro i e hi _ s hs a ha hr
    have hlen : (processed exKernelEvs).length = 3 := by decide +kernel
    exact hun i (by rw [← hlen]; exact (List.getElem?_eq_some_iff.1 hi).1) e hi s hs a ha hr

example : relocate exKaslr true exKernelEvs ≠ exKernelEvs ∧
    (parse exO exKernelEvs).map (fun R => R.parsed.map (fun x => (x.2.here, x.2.callchain.map (·.name)))) =
      some [({}, []), ({}, []), (⟨some (ascii "[kernel.kallsyms]_text"), 0x200⟩,
        [some (ascii "[kernel.kallsyms]_text"), some (ascii "/a")])] ∧
    parse exO (relocate exKaslr true exKernelEvs) = parse exO exKernelEvs :=
  ⟨by decide +kernel, by decide +kernel,
    C141_hidden exO 0x1000000 _ _ _ rfl exKernel_ok (by decide +kernel) exKaslr_ok⟩

/-- If the first mapping of the kernel begins below the offset given with it, the place of the kernel is told:
what is left of the mapping above that offset is its size. -/
theorem C141_kernel_told : ∀ place ∈ [0xffffffff81000000, 0xffffffff82000000],
    (parse exO [{ exMm kernelPid 0 0xffffffff9fffffff place "[kernel.kallsyms]_text" with misc := 1 }]).map (·.events) =
      some [{ exMm kernelPid 0 (0xffffffff9fffffff - place) 0 "[kernel.kallsyms]_text" with misc := 1 }] := by decide +kernel

end Verif.Parser
