import Verif.HugePages.Spec
import Verif.Buffer.Lemmas

/-! Lemmas about the deduction of huge pages. -/

namespace Verif.HugePages
open Verif.Buffer

/-! ## Names -/

theorem find_none {pat : List UInt8} : ∀ {l : List UInt8}, find pat l = none →
    ∀ a b, l ≠ a ++ pat ++ b
  | [], h, a, b, e => by
    simp only [find] at h
    split at h
    · cases h
    · have : pat = [] := by
        have := congrArg List.length e
        simp only [List.length_append, List.length_nil] at this
        exact List.length_eq_zero_iff.mp (by omega)
      contradiction
  | c :: l, h, a, b, e => by
    simp only [find] at h
    split at h
    · cases h
    · rename_i hp
      rw [Option.map_eq_none_iff] at h
      cases a with
      | nil => exact hp (List.isPrefixOf_iff_prefix.mpr ⟨b, by simpa using e.symm⟩)
      | cons x a =>
        simp only [List.cons_append, List.cons.injEq] at e
        exact find_none h a b e.2

theorem find_some {pat : List UInt8} : ∀ {l : List UInt8} {i : Nat}, find pat l = some i →
    ∃ a b, l = a ++ pat ++ b ∧ a.length = i ∧ ∀ a' b', l = a' ++ pat ++ b' → i ≤ a'.length
  | [], i, h => by
    simp only [find] at h
    split at h
    · rename_i hp
      simp only [Option.some.injEq] at h
      subst h hp
      exact ⟨[], [], rfl, rfl, fun _ _ _ => Nat.zero_le _⟩
    · cases h
  | c :: l, i, h => by
    simp only [find] at h
    split at h
    · rename_i hp
      simp only [Option.some.injEq] at h
      subst h
      obtain ⟨b, hb⟩ := List.isPrefixOf_iff_prefix.mp hp
      exact ⟨[], b, by simpa using hb.symm, rfl, fun _ _ _ => Nat.zero_le _⟩
    · rename_i hp
      cases hf : find pat l with
      | none => rw [hf] at h; cases h
      | some j =>
        rw [hf] at h
        simp only [Option.map_some, Option.some.injEq] at h
        obtain ⟨a, b, e, hl, hmin⟩ := find_some hf
        refine ⟨c :: a, b, by rw [e]; simp, by simp [hl, h], fun a' b' e' => ?_⟩
        cases a' with
        | nil => exact absurd (List.isPrefixOf_iff_prefix.mpr ⟨b', by simpa using e'.symm⟩) hp
        | cons x a' =>
          simp only [List.cons_append, List.cons.injEq] at e'
          have := hmin a' b' e'.2
          simp only [List.length_cons]
          omega

theorem rfind_none {c : UInt8} {l : List UInt8} (h : rfind c l = none) : c ∉ l := by
  unfold rfind at h
  rw [Option.map_eq_none_iff, List.findIdx?_eq_none_iff] at h
  intro hc
  have := h c (List.mem_reverse.mpr hc)
  simp at this

theorem rfind_append {c : UInt8} {a b : List UInt8} (h : c ∉ b) : rfind c (a ++ c :: b) = some a.length := by
  unfold rfind
  have : (a ++ c :: b).reverse = b.reverse ++ c :: a.reverse := by simp
  rw [this, List.findIdx?_append]
  have hn : b.reverse.findIdx? (· == c) = none := by
    rw [List.findIdx?_eq_none_iff]
    intro x hx
    simp only [beq_eq_false_iff_ne]
    rintro rfl
    exact h (List.mem_reverse.mp hx)
  rw [hn, List.findIdx?_cons]
  simp only [beq_self_eq_true, if_true, Option.map_some, Option.none_or, List.length_reverse,
    List.length_append, List.length_cons, Option.some.injEq]
  omega

theorem mem_split_last {c : UInt8} : ∀ {l : List UInt8}, c ∈ l → ∃ a b, l = a ++ c :: b ∧ c ∉ b
  | x :: l, h => by
    by_cases hl : c ∈ l
    · obtain ⟨a, b, e, hb⟩ := mem_split_last hl
      exact ⟨x :: a, b, by rw [e]; rfl, hb⟩
    · have : x = c := by
        rcases List.mem_cons.mp h with rfl | h
        · rfl
        · exact absurd h hl
      exact ⟨[], l, by rw [this]; rfl, hl⟩

theorem anon_iff (m : MMap) : isAnon m = true ↔
    m.filename = ascii "//anon" ∨ m.filename = ascii "/anon_hugepage" ∨
    m.filename = ascii "/anon_hugepage (deleted)" := by
  unfold isAnon anonNames
  simp

/-- The code recognises exactly the names of huge pages. -/
theorem isHugePage_iff (m : MMap) : isHugePage m = true ↔ HugeName m.filename := by
  unfold isHugePage HugeName
  by_cases ha : isAnon m = true
  · rw [if_pos ha]
    have := (anon_iff m).mp ha
    simp only [true_iff]
    rcases this with h | h | h
    · exact .inl h
    · exact .inr (.inl h)
    · exact .inr (.inr (.inl h))
  · rw [if_neg ha]
    have hna := fun h => ha ((anon_iff m).mpr h)
    generalize m.filename = f at *
    have slash : ascii "/" = [47] := by decide
    have n47 : (47 : UInt8) ∉ ascii ".buildid_" := by decide
    have l9 : (ascii ".buildid_").length = 9 := by decide
    rw [slash]
    generalize ascii ".buildid_" = pat at *
    constructor
    · intro h
      cases hr : rfind 47 f with
      | none => rw [hr] at h; cases h
      | some s =>
        rw [hr] at h
        simp only at h
        have hm : (47 : UInt8) ∈ f := by
          apply Classical.byContradiction
          intro hc
          have : rfind 47 f = none := by
            unfold rfind
            rw [Option.map_eq_none_iff, List.findIdx?_eq_none_iff]
            intro x hx
            simp only [beq_eq_false_iff_ne]
            rintro rfl
            exact hc (List.mem_reverse.mp hx)
          rw [this] at hr; cases hr
        obtain ⟨d, b, e, hb⟩ := mem_split_last hm
        have hs : s = d.length := by rw [e, rfind_append hb] at hr; exact (Option.some.inj hr).symm
        rw [hs, e, List.drop_left' rfl] at h
        cases hf : find pat (47 :: b) with
        | none => rw [hf] at h; cases h
        | some i =>
          rw [hf] at h
          simp only [List.length_append, List.length_cons, gt_iff_lt, decide_eq_true_eq] at h
          obtain ⟨x, y, e', hl, -⟩ := find_some hf
          have hxl := congrArg List.length e'
          simp only [List.length_append, List.length_cons] at hxl
          have hx : x ≠ [] := by
            intro hx
            subst hx
            simp only [List.nil_append] at e'
            cases pat with
            | nil => simp at l9
            | cons p ps =>
              simp only [List.cons_append, List.cons.injEq] at e'
              exact n47 (by rw [← e'.1]; exact List.mem_cons_self ..)
          obtain ⟨x0, x', rfl⟩ := List.exists_cons_of_ne_nil hx
          simp only [List.cons_append, List.cons.injEq] at e'
          obtain ⟨rfl, e'⟩ := e'
          refine .inr (.inr (.inr ⟨d, x', y, ?_, ?_, ?_, ?_⟩))
          · rw [e, e']; simp
          · rintro rfl; simp at hxl hl; omega
          · intro hc; exact hb (by rw [e']; simp [hc])
          · intro hc; exact hb (by rw [e']; simp [hc])
    · rintro (h | h | h | ⟨d, b, x, e, hx, hb, hh⟩)
      · exact absurd (.inl h) hna
      · exact absurd (.inr (.inl h)) hna
      · exact absurd (.inr (.inr h)) hna
      · have e1 : f = d ++ 47 :: (b ++ pat ++ x) := by rw [e]; simp
        have hn : (47 : UInt8) ∉ b ++ pat ++ x := by
          simp only [List.mem_append, not_or]; exact ⟨⟨hb, n47⟩, hh⟩
        rw [e1, rfind_append hn]
        simp only
        rw [List.drop_left' rfl]
        cases hf : find pat (47 :: (b ++ pat ++ x)) with
        | none => exact absurd rfl (find_none hf (47 :: b) x)
        | some i =>
          obtain ⟨-, -, -, -, hmin⟩ := find_some hf
          have := hmin (47 :: b) x rfl
          have hxl : 0 < x.length := List.length_pos_iff.mpr hx
          simp only [List.length_cons, List.length_append] at this ⊢
          simp only [gt_iff_lt, decide_eq_true_eq]
          omega

/-! ## Ranges -/

/-- The members that take part in the arithmetic are in range. -/
def ItemOk (it : Item) : Prop :=
  it.1.start < 2 ^ 64 ∧ it.1.len < 2 ^ 64 ∧ it.1.pgoff < 2 ^ 64 ∧ it.1.filename.length < 2 ^ 32 ∧ it.2 < 2 ^ 32

/-- Mappings that follow each other in memory. -/
def Chain : List Item → Prop
  | [] => True
  | [_] => True
  | a :: b :: l => add64 a.1.start a.1.len = b.1.start ∧ Chain (b :: l)

theorem chain_snoc : ∀ {l : List Item} {last it : Item}, Chain l → l.getLast? = some last →
    add64 last.1.start last.1.len = it.1.start → Chain (l ++ [it])
  | [], _, _, _, h, _ => by simp at h
  | [a], last, it, _, h, e => by
    simp only [List.getLast?_singleton, Option.some.injEq] at h
    subst h
    exact ⟨e, trivial⟩
  | a :: b :: l, last, it, hc, h, e => by
    refine ⟨hc.1, ?_⟩
    exact chain_snoc (l := b :: l) hc.2 (by simpa [List.getLast?_cons_cons] using h) e

/-- What happens to one item of a range. -/
def ItemChange (later : List Item) (a b : Item) : Prop :=
  b = a ∨ ∃ n, n ∈ later ∧ isHugePage a.1 = true ∧ isHugePage n.1 = false ∧ Relabelled a.1 n.1 b.1 ∧
    b.2 < 2 ^ 32 ∧ (b.2 + nameBytes a.1.filename) % 2 ^ 32 = (a.2 + nameBytes b.1.filename) % 2 ^ 32

def ItemsChanged : List Item → List Item → Prop
  | [], [] => True
  | a :: l, b :: l' => ItemChange l a b ∧ ItemsChanged l l'
  | _, _ => False

theorem ItemsChanged.refl : ∀ l : List Item, ItemsChanged l l
  | [] => trivial
  | _ :: l => ⟨.inl rfl, ItemsChanged.refl l⟩

theorem ItemsChanged.prefix : ∀ (p : List Item) {l l' : List Item}, ItemsChanged l l' →
    ItemsChanged (p ++ l) (p ++ l')
  | [], _, _, h => h
  | _ :: p, _, _, h => ⟨.inl rfl, ItemsChanged.prefix p h⟩

theorem newSize_spec {size : Nat} {old new : List UInt8} (hs : size < 2 ^ 32) (ho : old.length < 2 ^ 32)
    (hn : new.length < 2 ^ 32) :
    newSize size old new < 2 ^ 32 ∧
    (newSize size old new + nameBytes old) % 2 ^ 32 = (size + nameBytes new) % 2 ^ 32 := by
  unfold newSize nameBytes
  rw [alignedStringLength_eq (by omega), alignedStringLength_eq (by omega)]
  unfold fieldSize
  omega

theorem updateItem_relabels {n : MMap} {it : Item} {pg : Nat} (hit : ItemOk it) (hn : n.filename.length < 2 ^ 32)
    (hh : isHugePage it.1 = true) (hpg : pg < 2 ^ 64)
    (hinv : (pg + n.start) % 2 ^ 64 = (n.pgoff + it.1.start) % 2 ^ 64) :
    Relabelled it.1 n (updateItem n pg it).1 ∧ (updateItem n pg it).2 < 2 ^ 32 ∧
    ((updateItem n pg it).2 + nameBytes it.1.filename) % 2 ^ 32 =
      (it.2 + nameBytes (updateItem n pg it).1.filename) % 2 ^ 32 := by
  have hsz := newSize_spec (size := it.2) (old := it.1.filename) (new := n.filename) hit.2.2.2.2 hit.2.2.2.1 hn
  have el : ∀ {α : Type} (a b : Option α), (a.orElse fun _ => b) = a ∨ (a = none ∧ (a.orElse fun _ => b) = b) := by
    intro α a b; cases a
    · exact .inr ⟨rfl, rfl⟩
    · exact .inl rfl
  unfold updateItem
  simp only [hh, Bool.true_or, if_true]
  refine ⟨⟨rfl, rfl, rfl, rfl, rfl, rfl, rfl, el _ _, el _ _, el _ _, el _ _, el _ _, ?_⟩, hsz⟩
  by_cases hz : it.1.pgoff = 0
  · simp only [hz, if_true, beq_self_eq_true]
    exact ⟨hpg, hinv⟩
  · simp only [if_neg hz, beq_iff_eq]

/-- The address behind the last mapping. -/
def endOf : List Item → Nat → Nat
  | [], x => x
  | it :: l, _ => endOf l (add64 it.1.start it.1.len)

theorem updateLoop_spec (n : MMap) (hn : n.filename.length < 2 ^ 32) (hnh : isHugePage n = false) (size : Nat)
    (tail tail' : List Item) (ht : ItemsChanged tail tail') :
    ∀ (l : List Item) (pg a : Nat), (∀ it ∈ l, ItemOk it ∧ isHugePage it.1 = true) → Chain l → pg < 2 ^ 64 →
      (∀ it, l.head? = some it → it.1.start = a) →
      (pg + n.start) % 2 ^ 64 = (n.pgoff + a) % 2 ^ 64 →
      ItemsChanged (l ++ (n, size) :: tail) ((updateLoop n pg l).1 ++ (n, size) :: tail') ∧
      (updateLoop n pg l).2 < 2 ^ 64 ∧
      ((updateLoop n pg l).2 + n.start) % 2 ^ 64 = (n.pgoff + endOf l a) % 2 ^ 64
  | [], pg, a, _, _, hpg, _, hinv => ⟨⟨.inl rfl, ht⟩, hpg, hinv⟩
  | it :: l, pg, a, hall, hc, hpg, hhd, hinv => by
    obtain ⟨hit, hh⟩ := hall it (List.mem_cons_self ..)
    have ha : it.1.start = a := hhd it rfl
    have hinv' : (add64 pg it.1.len + n.start) % 2 ^ 64 = (n.pgoff + add64 it.1.start it.1.len) % 2 ^ 64 := by
      unfold add64; omega
    have hch : Chain l := by
      cases l with
      | nil => trivial
      | cons b l => exact hc.2
    have hhd' : ∀ b, l.head? = some b → b.1.start = add64 it.1.start it.1.len := by
      intro b hb
      cases l with
      | nil => cases hb
      | cons c l =>
        simp only [List.head?_cons, Option.some.injEq] at hb
        subst hb; exact hc.1.symm
    obtain ⟨r1, r2, r3⟩ := updateLoop_spec n hn hnh size tail tail' ht l (add64 pg it.1.len)
      (add64 it.1.start it.1.len) (fun x hx => hall x (List.mem_cons_of_mem _ hx)) hch
      (Nat.mod_lt _ (by decide)) hhd' hinv'
    refine ⟨⟨.inr ⟨(n, size), by simp, hh, hnh, ?_⟩, r1⟩, r2, r3⟩
    exact updateItem_relabels hit hn hh hpg (by rw [ha]; exact hinv)

theorem endOf_last : ∀ {l : List Item} {last : Item} {a : Nat}, l.getLast? = some last →
    endOf l a = add64 last.1.start last.1.len
  | [], _, _, h => by simp at h
  | [x], last, a, h => by
    simp only [List.getLast?_singleton, Option.some.injEq] at h
    subst h; rfl
  | x :: y :: l, last, a, h => by
    rw [endOf]
    exact endOf_last (l := y :: l) (by simpa [List.getLast?_cons_cons] using h)

theorem range_arith {p a b c : Nat} (ha : a < 2 ^ 64) (hb : b < 2 ^ 64) (_hc : c < 2 ^ 64) (hp : p < 2 ^ 64) :
    (sub64 p (add64 (sub64 b a) c) + add64 b c) % 2 ^ 64 = (p + a) % 2 ^ 64 := by
  unfold sub64 add64
  omega

/-- The consistency check of the update never fires, and the result is a relabelling. -/
theorem updateRange_spec {first last : Item} {n : MMap} {size : Nat} {l tail tail' : List Item}
    (hn : n.filename.length < 2 ^ 32) (hnh : isHugePage n = false)
    (hno : n.start < 2 ^ 64 ∧ n.pgoff < 2 ^ 64)
    (hall : ∀ it ∈ l, ItemOk it ∧ isHugePage it.1 = true) (hc : Chain l)
    (hf : l.head? = some first) (hl : l.getLast? = some last)
    (hv : add64 last.1.start last.1.len = n.start) (ht : ItemsChanged tail tail') :
    ∃ l', updateRange first.1 last.1 n l = some l' ∧ ItemsChanged (l ++ (n, size) :: tail) (l' ++ (n, size) :: tail') := by
  have h1 := (hall first (List.mem_of_mem_head? hf)).1
  have h2 := (hall last (List.mem_of_mem_getLast? hl)).1
  obtain ⟨a1, a2, a3, -⟩ := h1
  obtain ⟨b1, b2, b3, -⟩ := h2
  have hstart : sub64 n.pgoff (rangeLength first.1 last.1) < 2 ^ 64 := Nat.mod_lt _ (by decide)
  have hinv : (sub64 n.pgoff (rangeLength first.1 last.1) + n.start) % 2 ^ 64 =
      (n.pgoff + first.1.start) % 2 ^ 64 := by
    rw [← hv]; exact range_arith a1 b1 b2 hno.2
  obtain ⟨r1, r2, r3⟩ := updateLoop_spec n hn hnh size tail tail' ht l _ first.1.start hall hc hstart
    (fun it h => by rw [hf] at h; rw [Option.some.inj h]) hinv
  unfold updateRange
  simp only
  rw [endOf_last hl, hv] at r3
  have hcheck : (updateLoop n (sub64 n.pgoff (rangeLength first.1 last.1)) l).2 =
      add64 (sub64 n.pgoff (rangeLength first.1 last.1)) (rangeLength first.1 last.1) := by
    generalize (updateLoop n (sub64 n.pgoff (rangeLength first.1 last.1)) l).2 = z at r2 r3
    have : rangeLength first.1 last.1 < 2 ^ 64 := Nat.mod_lt _ (by decide)
    generalize rangeLength first.1 last.1 = y at *
    unfold add64 sub64
    omega
  rw [if_pos hcheck]
  exact ⟨_, rfl, r1⟩

/-- The loop over the mappings of a process never aborts and only relabels. -/
theorem go_spec : ∀ (l : List Item) (pre : Option MMap) (pend : List Item),
    (∀ it ∈ l, ItemOk it) → (∀ it ∈ pend, ItemOk it ∧ isHugePage it.1 = true) → Chain pend →
    ∃ r, go pre pend l = some r ∧ ItemsChanged (pend ++ l) r
  | [], pre, pend, _, _, _ => ⟨pend, rfl, by rw [List.append_nil]; exact ItemsChanged.refl _⟩
  | it :: rest, pre, pend, hl, hp, hc => by
    have hit := hl it (List.mem_cons_self ..)
    have hrest := fun x hx => hl x (List.mem_cons_of_mem it hx)
    unfold go
    by_cases hh : isHugePage it.1 = true
    · rw [if_pos hh]
      have hone : ∀ x ∈ [it], ItemOk x ∧ isHugePage x.1 = true := by
        intro x hx; rw [List.mem_singleton.mp hx]; exact ⟨hit, hh⟩
      cases hlast : pend.getLast? with
      | none =>
        rw [List.getLast?_eq_none_iff] at hlast
        subst hlast
        exact go_spec rest pre [it] hrest hone trivial
      | some last =>
        simp only
        by_cases hx : extendsRange last.1 it.1 = true
        · rw [if_pos hx]
          have hv : add64 last.1.start last.1.len = it.1.start := by
            simp only [extendsRange, vmaContiguous, Bool.and_eq_true, beq_iff_eq] at hx
            exact hx.1.1.2
          obtain ⟨r, hr, hch⟩ := go_spec rest pre (pend ++ [it]) hrest
            (fun x hx => by
              rcases List.mem_append.mp hx with h | h
              · exact hp x h
              · exact hone x h) (chain_snoc hc hlast hv)
          exact ⟨r, hr, by simpa using hch⟩
        · rw [if_neg hx]
          obtain ⟨r, hr, hch⟩ := go_spec rest none [it] hrest hone trivial
          rw [hr]
          exact ⟨_, rfl, ItemsChanged.prefix pend hch⟩
    · rw [if_neg hh]
      obtain ⟨r, hr, hch⟩ := go_spec rest (some it.1) [] hrest (by simp) trivial
      rw [hr]
      cases hlast : pend.getLast? with
      | none =>
        rw [List.getLast?_eq_none_iff] at hlast
        subst hlast
        exact ⟨_, rfl, .inl rfl, hch⟩
      | some last =>
        cases hhead : pend.head? with
        | none =>
          rw [List.head?_eq_none_iff] at hhead
          subst hhead
          simp at hlast
        | some first =>
          simp only
          by_cases hu : shouldUpdate pre first.1 last.1 it.1 = true
          · rw [if_pos hu]
            have hv : add64 last.1.start last.1.len = it.1.start := by
              simp only [shouldUpdate, vmaContiguous, Bool.and_eq_true, beq_iff_eq] at hu
              exact hu.1.1.1.2
            obtain ⟨l', hl', hc'⟩ := updateRange_spec (size := it.2) (n := it.1) hit.2.2.2.1 (by simpa using hh)
              ⟨hit.1, hit.2.2.1⟩ hp hc hhead hlast hv hch
            rw [hl']
            exact ⟨_, rfl, hc'⟩
          · rw [if_neg hu]
            exact ⟨_, rfl, ItemsChanged.prefix pend ⟨.inl rfl, hch⟩⟩

end Verif.HugePages
