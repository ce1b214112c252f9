import Verif.Parser.Spec
import Verif.AddressMapper.Props

/-! # Lemmas about the parser: address mappers -/

namespace Verif.Parser
open Verif.AddressMapper (Req specRun specLookup specStep Inv Below Small Corr AlignOK W)
open Verif.HugePages (MMap)

/-! ## Marks -/

theorem mark_eq (a : Nat) : mark a = 8 * 2 ^ 60 + a % 2 ^ 60 := by
  unfold mark
  have h1 : 2 ^ 64 - 1 - (0xf <<< 60) = 2 ^ 60 - 1 := by decide
  have h2 : (0x8 <<< 60 : Nat) = 2 ^ 60 * 8 := by decide
  rw [h1, h2, Nat.and_two_pow_sub_one_eq_mod, Nat.or_comm,
    ← Nat.two_pow_add_eq_or_of_lt (Nat.mod_lt _ (Nat.two_pow_pos 60))]

theorem mod_dvd_mod {a k : Nat} (hk : k ≤ 60) : a % 2 ^ 60 % 2 ^ k = a % 2 ^ k :=
  Nat.mod_mod_of_dvd a (Nat.pow_dvd_pow 2 hk)

theorem mark_page {a k : Nat} (hk : k ≤ 60) : mark a % 2 ^ k = a % 2 ^ k := by
  rw [mark_eq, Nat.add_mod, mod_dvd_mod hk]
  have : 8 * 2 ^ 60 % 2 ^ k = 0 := by
    have : 2 ^ k ∣ 8 * 2 ^ 60 := Nat.dvd_trans (Nat.pow_dvd_pow 2 hk) (Nat.dvd_mul_left ..)
    exact Nat.mod_eq_zero_of_dvd this
  rw [this, Nat.zero_add, Nat.mod_mod]

/-! ## The specification of a history grows by a request -/

theorem specRun_snoc (al : Nat) (q : Req) : ∀ (qs : List Req) (ps : List AddressMapper.Piece),
    specRun al ps (qs ++ [q]) =
      ((specRun al ps qs).1 ++ [(specStep al (specRun al ps qs).2 q).1], (specStep al (specRun al ps qs).2 q).2)
  | [], ps => rfl
  | r :: qs, ps => by
    show ((specStep al ps r).1 :: (specRun al _ (qs ++ [q])).1, (specRun al _ (qs ++ [q])).2) = _
    rw [specRun_snoc al q qs]
    rfl

/-! ## A mapper after a history of requests -/

/-- Two ranges have nothing in common. -/
def Apart (r q : Req) : Prop := r.real + r.size ≤ q.real ∨ q.real + q.size ≤ r.real

structure MOk (O : Opts) (S : Nat) (starts : Nat → Nat) (s : Mapper) (qs : List Req) : Prop where
  inv : Inv s
  align : s.align = O.page
  below : Below s.list (qs.length * (S + 6 * O.page))
  small : Small s.list S
  corr : Corr s (specRun O.page [] qs).2
  good : ∀ b ∈ (specRun O.page [] qs).1, b = true
  placed : O.remap = true → ∀ A q B, qs = A ++ q :: B → (∀ r ∈ B, Apart r q) →
    ∃ x ∈ s.list, x.r.real = q.real ∧ x.r.size = q.size ∧ x.r.id = q.id ∧ x.r.mapped = starts q.id

theorem MOk.dup {O : Opts} {S : Nat} {starts : Nat → Nat} {s : Mapper} {qs : List Req} (h : MOk O S starts s qs) :
    MOk O S starts (AddressMapper.copy s) qs :=
  ⟨AddressMapper.inv_copy h.inv, h.align, h.below, h.small, h.corr, h.good, h.placed⟩

theorem MOk.fresh {O : Opts} {S : Nat} {starts : Nat → Nat} (ha : AlignOK O.page) :
    MOk O S starts ⟨O.page, [], [], 0⟩ [] := by
  refine ⟨AddressMapper.inv_new ha, rfl, ?_, ?_, AddressMapper.corr_nil _, ?_, ?_⟩
  · intro x hx; cases hx
  · intro x hx; cases hx
  · intro b hb; cases hb
  · intro _ A q B h; cases A <;> cases h

/-- The mappers belong to the histories. -/
def MRel (O : Opts) (S : Nat) (starts : Nat → Nat) (ms : Nat → Option Mapper) (T : Nat → Option (List Req)) : Prop :=
  ∀ p, match ms p, T p with
    | none, none => True
    | some s, some qs => MOk O S starts s qs
    | _, _ => False

theorem MRel.hit {O : Opts} {S : Nat} {starts : Nat → Nat} {ms : Nat → Option Mapper} {T : Nat → Option (List Req)}
    (h : MRel O S starts ms T) {p : Nat} {s : Mapper} (hm : ms p = some s) : ∃ qs, T p = some qs ∧ MOk O S starts s qs := by
  have := h p
  rw [hm] at this
  cases hT : T p with
  | none => rw [hT] at this; exact this.elim
  | some qs => rw [hT] at this; exact ⟨qs, rfl, this⟩

theorem MRel.miss {O : Opts} {S : Nat} {starts : Nat → Nat} {ms : Nat → Option Mapper} {T : Nat → Option (List Req)}
    (h : MRel O S starts ms T) {p : Nat} (hm : ms p = none) : T p = none := by
  have := h p
  rw [hm] at this
  cases hT : T p with
  | none => rfl
  | some qs => rw [hT] at this; exact this.elim

theorem MRel.put {O : Opts} {S : Nat} {starts : Nat → Nat} {ms : Nat → Option Mapper} {T T' : Nat → Option (List Req)}
    (h : MRel O S starts ms T) {p : Nat} {s : Mapper} {qs : List Req} (hs : MOk O S starts s qs) (h1 : T' p = some qs)
    (h2 : ∀ x, x ≠ p → T' x = T x) : MRel O S starts (upd ms p (some s)) T' := by
  intro x
  by_cases hx : x = p
  · subst hx
    simp only [Parser.upd, if_pos, h1]
    exact hs
  · have := h x
    simp only [Parser.upd, if_neg hx, h2 x hx]
    exact this

theorem MRel.reads {O : Opts} {S : Nat} {f g : Nat → Nat} {ms : Nat → Option Mapper} {T : Nat → Option (List Req)}
    (h : MRel O S f ms T) (hfg : ∀ p qs, T p = some qs → ∀ q ∈ qs, f q.id = g q.id) : MRel O S g ms T := by
  intro p
  have := h p
  cases hm : ms p with
  | none =>
    rw [hm] at this
    cases hT : T p with
    | none => trivial
    | some qs => rw [hT] at this; exact this.elim
  | some s =>
    rw [hm] at this
    cases hT : T p with
    | none => rw [hT] at this; exact this.elim
    | some qs =>
      rw [hT] at this
      refine ⟨this.inv, this.align, this.below, this.small, this.corr, this.good, ?_⟩
      intro hr A q B hq hB
      obtain ⟨x, hx, e1, e2, e3, e4⟩ := this.placed hr A q B hq hB
      exact ⟨x, hx, e1, e2, e3, by rw [e4, hfg p qs hT q (by rw [hq]; simp)]⟩

theorem mapperFor_hit {O : Opts} {ms : Nat → Option Mapper} {p pp : Nat} {m : Mapper} (h : ms p = some m) :
    mapperFor O ms p pp = some (m, ms) := by
  simp only [mapperFor, h]

theorem mapperFor_rel {O : Opts} {S : Nat} {starts : Nat → Nat} {ms : Nat → Option Mapper}
    {T : Nat → Option (List Req)} (ha : AlignOK O.page) (h : MRel O S starts ms T) (p pp : Nat) :
    ∃ m ms' qs, mapperFor O ms p pp = some (m, ms') ∧ ms' p = some m ∧ inherit T p pp p = some qs ∧
      MOk O S starts m qs ∧ MRel O S starts ms' (inherit T p pp) ∧ ∀ x, x ≠ p → ms' x = ms x := by
  cases hm : ms p with
  | some m =>
    obtain ⟨qs, hT, hok⟩ := h.hit hm
    have hi : inherit T p pp = T := by
      funext x
      by_cases hx : x = p
      · subst hx; simp [inherit, hT]
      · simp [inherit, hx]
    exact ⟨m, ms, qs, mapperFor_hit hm, hm, by rw [hi, hT], hok, by rw [hi]; exact h, fun _ _ => rfl⟩
  | none =>
    have hT := h.miss hm
    obtain ⟨m, qs, h1, h2, h3⟩ : ∃ m qs, mapperFor O ms p pp = some (m, Parser.upd ms p (some m)) ∧
        inherit T p pp p = some qs ∧ MOk O S starts m qs := by
      cases hpp : ms pp with
      | some pm =>
        obtain ⟨qs, hq, hok⟩ := h.hit hpp
        exact ⟨_, qs, by simp only [mapperFor, hm, hpp], by simp [inherit, hT, hq], hok.dup⟩
      | none =>
        have hq := h.miss hpp
        cases hk : ms kernelPid with
        | some km =>
          obtain ⟨qs, hq', hok⟩ := h.hit hk
          exact ⟨_, qs, by simp only [mapperFor, hm, hpp, hk], by simp [inherit, hT, hq, hq'], hok.dup⟩
        | none =>
          have hq' := h.miss hk
          exact ⟨_, [], by simp only [mapperFor, hm, hpp, hk, AddressMapper.new_ok ha],
            by simp [inherit, hT, hq, hq'], MOk.fresh ha⟩
    refine ⟨m, _, qs, h1, by simp [Parser.upd], h2, h3, h.put h3 h2 ?_, ?_⟩
    · intro x hx; simp [inherit, hx]
    · intro x hx; simp [Parser.upd, hx]

/-! ## Lookups -/

/-- A lookup in a mapper with a known history. -/
theorem look {O : Opts} {S : Nat} {starts : Nat → Nat} {s : Mapper} {qs : List Req} (h : MOk O S starts s qs)
    (hp : O.page ≠ 0) {a : Nat} (ha : a < 2 ^ 64) :
    (∃ x ∈ s.list, x.r.real ≤ a ∧ a < x.r.real + x.r.size ∧ ∃ off,
      AddressMapper.getMappedAddressIDAndOffset s a = some (some (a - x.r.real + x.r.mapped, x.r.id, off)) ∧
      specLookup (specRun O.page [] qs).2 a = some (x.r.id, off) ∧
      (a - x.r.real + x.r.mapped) % O.page = a % O.page ∧
      AddressMapper.getMappedAddress s a = some (some (a - x.r.real + x.r.mapped))) ∨
    (AddressMapper.getMappedAddressIDAndOffset s a = some none ∧ specLookup (specRun O.page [] qs).2 a = none) := by
  have hc := AddressMapper.corr_lookup h.inv h.corr a ha
  rcases AddressMapper.get_spec h.inv a ha with ⟨x, hx, h1, h2, h3, h4, _⟩ | ⟨_, h2, _⟩
  · left
    rw [h3] at hc
    simp only [Option.map_some, Option.some.injEq] at hc
    refine ⟨x, hx, h1, h2, _, h3, hc.symm, ?_, h4⟩
    have hpg := h.inv.page (by rw [h.align]; exact hp) x hx
    rw [h.align] at hpg
    rw [Nat.add_mod, hpg, ← Nat.add_mod]
    congr 1
    omega
  · right
    rw [h2] at hc
    simp only [Option.map_some, Option.map_none, Option.some.injEq] at hc
    exact ⟨h2, hc.symm⟩

/-! ## A new mapping -/

theorem map_request {O : Opts} {S : Nat} {starts : Nat → Nat} {s : Mapper} {qs : List Req}
    (h : MOk O S starts s qs) (q : Req) (hw : q.wf) (hS : q.size ≤ S)
    (hroom : (qs.length + 1) * (S + 6 * O.page) < 2 ^ 64) :
    ∃ b s', AddressMapper.mapWithID s q = some (b, s') ∧ b = (specStep O.page (specRun O.page [] qs).2 q).1 ∧
      (b = true → ∃ x ∈ s'.list, x.r.real = q.real ∧ x.r.size = q.size ∧ x.r.id = q.id ∧ 0 < q.size ∧
        q.real + q.size < 2 ^ 64 ∧
        AddressMapper.getMappedAddress s' q.real = some (some x.r.mapped) ∧
        (O.page ≠ 0 → x.r.mapped % O.page = q.real % O.page) ∧
        ∀ starts' : Nat → Nat, starts' q.id = x.r.mapped → (∀ r ∈ qs, starts' r.id = starts r.id) →
          MOk O S starts' s' (qs ++ [q])) := by
  have hlen : (qs.length + 1) * (S + 6 * O.page) = qs.length * (S + 6 * O.page) + (S + 6 * O.page) := by
    rw [Nat.add_mul, Nat.one_mul]
  rw [hlen] at hroom
  have hrm : qs.length * (S + 6 * O.page) + 6 * s.align + S < W := by rw [h.align]; simp only [W]; omega
  obtain ⟨b, s', g1, g2, g3, g4, g5, g6⟩ := AddressMapper.step_corr h.inv q hw _ S hS h.below h.small (Or.inr hrm) h.corr
  obtain ⟨gb, gc⟩ := g6 (Or.inl hrm)
  rw [h.align] at gb gc g3 g4
  refine ⟨b, s', g1, gb, ?_⟩
  intro hb
  subst hb
  have hnr : ¬ (q.size = 0 ∨ 2 ^ 64 < q.real + q.size) := by
    intro hr
    rw [AddressMapper.map_refused hw hr] at g1
    simp at g1
  obtain ⟨hsz, hend⟩ := AddressMapper.wf_end hw hnr
  obtain ⟨b2, s2, k1, k2⟩ := AddressMapper.mapWithID_spec h.inv q _ S hsz hend hS h.below h.small (Or.inr hrm)
  rw [g1] at k1
  simp only [Option.some.injEq, Prod.mk.injEq] at k1
  obtain ⟨rfl, rfl⟩ := k1
  obtain ⟨x, hx, hxt⟩ := (k2.pieces rfl (q.real, q.size, q.id, q.off)).2 (Or.inl rfl)
  unfold AddressMapper.tup at hxt
  simp only [Prod.mk.injEq] at hxt
  obtain ⟨x1, x2, x3, x4⟩ := hxt
  have hget : AddressMapper.getMappedAddress s' q.real = some (some x.r.mapped) := by
    rcases AddressMapper.get_spec g2 q.real hw.1 with ⟨y, hy, y1, y2, _, y4, _⟩ | ⟨y1, _⟩
    · have : x = y := by
        by_cases hxy : x = y
        · exact hxy
        · have := g2.disj_mem hx hy hxy
          unfold AddressMapper.RealDisj at this
          omega
      subst this
      rw [y4, x1]
      congr 2
      omega
    · exact absurd ⟨by omega, by omega⟩ (y1 x hx)
  refine ⟨x, hx, x1, x2, x3, hsz, hend, hget, ?_, ?_⟩
  · intro hp
    have := g2.page (by rw [g3]; exact hp) x hx
    rw [g3] at this
    rw [this, x1]
  · intro starts' hst hold
    have hsn := specRun_snoc O.page q qs []
    refine ⟨g2, g3, ?_, g5, ?_, ?_, ?_⟩
    · refine AddressMapper.Below.mono g4 ?_
      rw [List.length_append, List.length_singleton, hlen]
      omega
    · rw [hsn]; exact gc
    · rw [hsn]
      intro b hb
      rcases List.mem_append.1 hb with hb | hb
      · exact h.good b hb
      · rw [List.mem_singleton.1 hb]; exact gb.symm
    · intro hr A r B hq hB
      rcases List.eq_nil_or_concat B with rfl | ⟨B', z, rfl⟩
      · obtain ⟨rfl, hqr⟩ := List.append_inj' hq (by simp)
        simp only [List.cons.injEq, and_true] at hqr
        subst hqr
        exact ⟨x, hx, x1, x2, x3, hst.symm⟩
      · have hq' : qs ++ [q] = (A ++ r :: B') ++ [z] := by rw [hq]; simp
        obtain ⟨hq1, hz⟩ := List.append_inj' hq' (by simp)
        simp only [List.cons.injEq, and_true] at hz
        subst hz
        obtain ⟨y, hy, y1, y2, y3, y4⟩ := h.placed hr A r B' hq1 (fun t ht => hB t (by simp [ht]))
        have hap := hB q (by simp)
        obtain ⟨w, hw1, hw2⟩ := k2.keep y hy (by
          rcases hap with hap | hap
          · right; omega
          · left; omega)
        have hw2 := AddressMapper.core_eq_iff.1 hw2
        have hm : r ∈ qs := by rw [hq1]; simp
        refine ⟨w, hw1, by omega, by omega, by omega, ?_⟩
        rw [hold r hm, ← y4]
        omega

end Verif.Parser
