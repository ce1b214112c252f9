import Verif.Data.Model
import Verif.Buffer.Lemmas

/-! What the conversion of foreign events leaves in memory. -/

namespace Verif.Data
open Verif.Buffer Verif.Event Verif.Sample Verif.Attr Verif.Meta Verif.Serial

/-- The bytes at offset `off` of the event. -/
def bytesAt (e : RawEvent) (off n : Nat) : List UInt8 := (e.payload.drop (off - 8)).take n

theorem int_bytesAt {e : RawEvent} {off n : Nat} (h : 8 ≤ off) (hs : off + n ≤ e.size) :
    e.int off n = some (leNat (bytesAt e off n)) := by
  unfold RawEvent.int fetch bytesAt
  rw [if_pos h, if_pos (by unfold RawEvent.size at hs; omega)]
  rfl

/-- The payload after `swapAt`. -/
def turned (p : List UInt8) (o n : Nat) : List UInt8 := p.take o ++ ((p.drop o).take n).reverse ++ p.drop (o + n)

theorem swapAt_some {e e' : RawEvent} {off n : Nat} (h : swapAt e off n = some e') :
    8 ≤ off ∧ off + n ≤ e.size ∧ e' = { e with payload := turned e.payload (off - 8) n } := by
  unfold swapAt at h
  split at h
  · rename_i c
    cases h
    exact ⟨c.1, c.2, rfl⟩
  · cases h

theorem swapAt_same {e e' : RawEvent} {off n : Nat} (h : swapAt e off n = some e') :
    e'.type = e.type ∧ e'.misc = e.misc ∧ e'.payload.length = e.payload.length := by
  obtain ⟨h1, h2, rfl⟩ := swapAt_some h
  refine ⟨rfl, rfl, ?_⟩
  unfold RawEvent.size at h2
  simp [turned]
  omega

theorem swapAt_this {e e' : RawEvent} {off n : Nat} (h : swapAt e off n = some e') :
    bytesAt e' off n = (bytesAt e off n).reverse := by
  obtain ⟨h1, h2, rfl⟩ := swapAt_some h
  unfold RawEvent.size at h2
  unfold bytesAt
  simp only [turned]
  have l1 : (e.payload.take (off - 8)).length = off - 8 := by rw [List.length_take]; omega
  rw [List.append_assoc, List.drop_append, l1, Nat.sub_self, List.drop_zero, List.drop_eq_nil_of_le (by omega), List.nil_append]
  rw [List.take_append_of_le_length (by simp; omega), List.take_of_length_le (by simp; omega)]

theorem get_bytesAt {e : RawEvent} {off n i : Nat} :
    (bytesAt e off n)[i]? = if i < n then e.payload[off - 8 + i]? else none := by
  unfold bytesAt
  rw [List.getElem?_take]
  split
  · rw [List.getElem?_drop]
  · rfl

theorem swapAt_other {e e' : RawEvent} {off n o k : Nat} (h : swapAt e off n = some e') (ho : 8 ≤ o)
    (hd : o + k ≤ off ∨ off + n ≤ o) : bytesAt e' o k = bytesAt e o k := by
  obtain ⟨h1, h2, rfl⟩ := swapAt_some h
  unfold RawEvent.size at h2
  apply List.ext_getElem?
  intro i
  rw [get_bytesAt, get_bytesAt]
  split
  · rename_i hi
    simp only [turned]
    rcases hd with hd | hd
    · rw [List.append_assoc, List.getElem?_append_left (by rw [List.length_take]; omega), List.getElem?_take, if_pos (by omega)]
    · have l1 : (e.payload.take (off - 8) ++ ((e.payload.drop (off - 8)).take n).reverse).length = off - 8 + n := by simp; omega
      rw [List.getElem?_append_right (l₁ := e.payload.take (off - 8) ++ _) (by rw [l1]; omega), l1, List.getElem?_drop]
      congr 1
      omega
  · rfl

theorem swapAll_same : ∀ {l : List (Nat × Nat)} {e e' : RawEvent}, swapAll l e = some e' →
    e'.type = e.type ∧ e'.misc = e.misc ∧ e'.payload.length = e.payload.length
  | [], _, _, h => by cases h; exact ⟨rfl, rfl, rfl⟩
  | (off, n) :: l, e, e', h => by
    unfold swapAll at h
    cases h1 : swapAt e off n with
    | none => rw [h1] at h; cases h
    | some e1 =>
      rw [h1] at h
      obtain ⟨a, b, c⟩ := swapAt_same h1
      obtain ⟨a', b', c'⟩ := swapAll_same h
      exact ⟨a'.trans a, b'.trans b, c'.trans c⟩

theorem swapAll_other {o k : Nat} (ho : 8 ≤ o) : ∀ {l : List (Nat × Nat)} {e e' : RawEvent}, swapAll l e = some e' →
    (∀ x ∈ l, o + k ≤ x.1 ∨ x.1 + x.2 ≤ o) → bytesAt e' o k = bytesAt e o k
  | [], _, _, h, _ => by cases h; rfl
  | (off, n) :: l, e, e', h, hd => by
    unfold swapAll at h
    cases h1 : swapAt e off n with
    | none => rw [h1] at h; cases h
    | some e1 =>
      rw [h1] at h
      rw [swapAll_other ho h fun x hx => hd x (List.mem_cons_of_mem _ hx), swapAt_other h1 ho (hd (off, n) (by simp))]

/-- Integers that do not overlap. -/
def Apart : List (Nat × Nat) → Prop
  | [] => True
  | x :: l => (∀ y ∈ l, x.1 + x.2 ≤ y.1 ∨ y.1 + y.2 ≤ x.1) ∧ Apart l

theorem swapAll_mem {o k : Nat} : ∀ {l : List (Nat × Nat)} {e e' : RawEvent}, swapAll l e = some e' → Apart l →
    (o, k) ∈ l → bytesAt e' o k = (bytesAt e o k).reverse
  | [], _, _, _, _, hm => by cases hm
  | (off, n) :: l, e, e', h, ha, hm => by
    unfold swapAll at h
    cases h1 : swapAt e off n with
    | none => rw [h1] at h; cases h
    | some e1 =>
      rw [h1] at h
      obtain ⟨h8, hsz, _⟩ := swapAt_some h1
      obtain ⟨ha1, ha2⟩ := ha
      rcases List.mem_cons.mp hm with hm | hm
      · cases hm
        rw [swapAll_other h8 h fun x hx => by have := ha1 x hx; omega, swapAt_this h1]
      · have hd := ha1 (o, k) hm
        rw [swapAll_mem h ha2 hm]
        congr 1
        have h8' : 8 ≤ o := by
          clear hd
          have : ∀ {l : List (Nat × Nat)} {e e' : RawEvent}, swapAll l e = some e' → (o, k) ∈ l → 8 ≤ o := by
            intro l
            induction l with
            | nil => intro e e' _ hm; cases hm
            | cons x l ih =>
              intro e e' h hm
              unfold swapAll at h
              cases h1 : swapAt e x.1 x.2 with
              | none => rw [h1] at h; cases h
              | some e1 =>
                rw [h1] at h
                rcases List.mem_cons.mp hm with hm | hm
                · cases hm; exact (swapAt_some h1).1
                · exact ih h hm
          exact this h hm
        exact swapAt_other h1 h8' (by simp only at hd; omega)

theorem swapAt_ok {e : RawEvent} {off n : Nat} (h : 8 ≤ off) (hs : off + n ≤ e.size) : ∃ e', swapAt e off n = some e' :=
  ⟨_, if_pos ⟨h, hs⟩⟩

theorem swapAll_ok : ∀ {l : List (Nat × Nat)} {e : RawEvent}, (∀ x ∈ l, 8 ≤ x.1 ∧ x.1 + x.2 ≤ e.size) → ∃ e', swapAll l e = some e'
  | [], e, _ => ⟨e, rfl⟩
  | (off, n) :: l, e, h => by
    obtain ⟨h1, h2⟩ := h (off, n) (by simp)
    obtain ⟨e1, he⟩ := swapAt_ok h1 h2
    obtain ⟨a, b, c⟩ := swapAt_same he
    obtain ⟨e2, he2⟩ := swapAll_ok (l := l) (e := e1) fun x hx => by
      have := h x (List.mem_cons_of_mem _ hx)
      unfold RawEvent.size at this ⊢
      rw [c]
      exact this
    exact ⟨e2, by unfold swapAll; rw [he]; exact he2⟩

end Verif.Data
