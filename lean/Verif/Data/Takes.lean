import Verif.Data.Model
import Verif.Meta.Safe

/-! Code whose success depends on nothing but the bytes that it takes. -/

namespace Verif.Data
open Verif.Buffer Verif.Event Verif.Sample Verif.Attr Verif.Meta Verif.Serial

/-- Whenever `p` succeeds, it takes bytes `bs`, `R` holds of its result and `bs`, and it does the same anywhere else where these
bytes are. -/
def Takes {α : Type} (x : Bool) (p : P α) (R : α → List UInt8 → Prop) : Prop :=
  ∀ (r r' : Reader) (a : α), r.Ok → r.cross = x → p r = some (some a, r') →
    ∃ bs, R a bs ∧ bs.length < 2 ^ 63 ∧ slice r.buf r.off bs.length = some bs ∧ r' = { r with off := r.off + bs.length } ∧
      ∀ q : Reader, q.Ok → q.cross = x → slice q.buf q.off bs.length = some bs →
        p q = some (some a, { q with off := q.off + bs.length })

theorem Takes.mono {x : Bool} {α : Type} {p : P α} {R S : α → List UInt8 → Prop} (h : Takes x p R)
    (hs : ∀ a bs, bs.length < 2 ^ 63 → R a bs → S a bs) : Takes x p S := fun r r' a hr hx e => by
  obtain ⟨bs, h1, h2, h3⟩ := h r r' a hr hx e
  exact ⟨bs, hs a bs h2 h1, h2, h3⟩

theorem slice_zero {b : List UInt8} {o : Nat} (h : o ≤ b.length) : slice b o 0 = some [] := by
  unfold slice; rw [if_pos (by omega)]; simp

theorem Takes.pure {x : Bool} {α : Type} {R : α → List UInt8 → Prop} {a : α} (h : R a []) : Takes x (pure a : P α) R := by
  intro r r' b hr hx e
  cases e
  exact ⟨[], h, by simp, slice_zero (by have := hr.1; have := hr.2.1; omega), rfl, fun q _ _ _ => rfl⟩

theorem Takes.fail {x : Bool} {α : Type} {R : α → List UInt8 → Prop} : Takes x (fail : P α) R := fun r r' a _ _ e => by cases e

theorem slice_some {b : List UInt8} {o n : Nat} (h : o + n ≤ b.length) : slice b o n = some ((b.drop o).take n) := if_pos h

theorem slice_append {b c d : List UInt8} {o : Nat} : slice b o (c ++ d).length = some (c ++ d) ↔
    slice b o c.length = some c ∧ slice b (o + c.length) d.length = some d := by
  constructor
  · intro h
    obtain ⟨hl, h⟩ := slice_some_iff.mp h
    rw [List.length_append] at h hl
    rw [slice_some (by omega), slice_some (by omega)]
    constructor
    · have := congrArg (List.take c.length) h
      simpa [List.take_take, Nat.min_eq_left (Nat.le_add_right c.length d.length)] using this.symm
    · have := congrArg (List.drop c.length) h
      simpa [List.drop_take, List.drop_drop] using this.symm
  · rintro ⟨h1, h2⟩
    obtain ⟨l1, h1⟩ := slice_some_iff.mp h1
    obtain ⟨l2, h2⟩ := slice_some_iff.mp h2
    rw [slice_some (by rw [List.length_append]; omega)]
    congr 1
    rw [List.length_append, List.take_add, List.drop_drop, ← h2, ← h1]

theorem ok_forward {r : Reader} (hr : r.Ok) {bs : List UInt8} (h : slice r.buf r.off bs.length = some bs) :
    ({ r with off := r.off + bs.length } : Reader).Ok := by
  have := (slice_some_iff.mp h).1
  exact ⟨hr.1, by show r.off + bs.length ≤ r.size; rw [hr.1]; exact this, hr.2.2⟩

theorem Takes.bind {x : Bool} {α β : Type} {p : P α} {f : α → P β} {R : α → List UInt8 → Prop} {T : β → List UInt8 → Prop}
    (hp : Takes x p R)
    (hf : ∀ a bs, bs.length < 2 ^ 63 → R a bs → Takes x (f a) fun b cs => (bs ++ cs).length < 2 ^ 63 → T b (bs ++ cs)) :
    Takes x (p >>= f) T := by
  intro r r' b hr hx e
  rw [bind_def] at e
  cases h1 : p r with
  | none => rw [h1] at e; cases e
  | some y =>
    obtain ⟨y, r1⟩ := y
    rw [h1] at e
    cases y with
    | none => cases e
    | some a =>
      simp only at e
      obtain ⟨bs, hb, hlt, hs, e1, l1⟩ := hp r r1 a hr hx h1
      have ok1 : r1.Ok := by rw [e1]; exact ok_forward hr hs
      obtain ⟨cs, hc, hlt2, hs2, e2, l2⟩ := hf a bs hlt hb r1 r' b ok1 (by rw [e1]; exact hx) e
      rw [e1] at hs2
      simp only at hs2
      have hsl := slice_append.mpr ⟨hs, hs2⟩
      have hlen : (bs ++ cs).length < 2 ^ 63 := by
        have := (slice_some_iff.mp hsl).1
        have := hr.2.2
        omega
      refine ⟨bs ++ cs, hc hlen, hlen, hsl, by rw [e2, e1]; simp [Nat.add_assoc], fun q okq cq sq => ?_⟩
      obtain ⟨s1, s2⟩ := slice_append.mp sq
      rw [bind_def, l1 q okq cq s1]
      simp only
      rw [l2 { q with off := q.off + bs.length } (ok_forward okq s1) cq s2]
      simp [Nat.add_assoc]

theorem Takes.ite {x : Bool} {α : Type} {c : Prop} [Decidable c] {p q : P α} {R : α → List UInt8 → Prop} (hp : c → Takes x p R)
    (hq : ¬ c → Takes x q R) : Takes x (if c then p else q) R := by
  split
  · exact hp ‹_›
  · exact hq ‹_›

theorem takes_lift {x : Bool} {α : Type} {y : Option (Option α)} {R : α → List UInt8 → Prop} (h : ∀ a, y = some (some a) → R a []) :
    Takes x (lift y) R := by
  intro r r' a hr hx e
  unfold lift at e
  cases y with
  | none => cases e
  | some y =>
    cases e
    exact ⟨[], h a rfl, by simp, slice_zero (by have := hr.1; have := hr.2.1; omega), rfl, fun q _ _ _ => rfl⟩

theorem takes_data {x : Bool} {n : Nat} (hn : n < 2 ^ 64) : Takes x (data n) fun d bs => bs = d ∧ d.length = n := by
  intro r r' d hr hx e
  have hd : data n r = _ := readData_spec hr hn
  rw [hd] at e
  cases hs : slice r.buf r.off n with
  | none => rw [hs] at e; cases e
  | some d' =>
    rw [hs] at e
    cases e
    have hl := slice_length hs
    subst hl
    have := (slice_some_iff.mp hs).1
    have := hr.2.2
    refine ⟨_, ⟨rfl, rfl⟩, by omega, hs, rfl, fun q okq _ sq => ?_⟩
    have hq : data d.length q = _ := readData_spec okq hn
    rw [hq, sq]

theorem takes_isCross {x : Bool} : Takes x isCross fun c bs => bs = [] ∧ c = x := by
  intro r r' d hr hx e
  cases e
  exact ⟨[], ⟨rfl, hx⟩, by simp, slice_zero (by have := hr.1; have := hr.2.1; omega), rfl, fun q _ cq _ => by rw [hx, ← cq]; rfl⟩

theorem takes_skipRest {x : Bool} {st : St} {rest : Nat} (h : rest < 2 ^ 63) :
    Takes x (skipRest st rest) fun y bs => y = (st, rest) ∧ bs.length = rest := by
  have key : ∀ q : Reader, q.Ok → skipRest st rest q = if q.off + rest ≤ q.buf.length then
      some (some (st, rest), { q with off := q.off + rest }) else some (none, q) := by
    intro q okq
    obtain ⟨h1, h2, h3⟩ := okq
    have : addSz q.off rest = q.off + rest := by unfold addSz; omega
    unfold skipRest
    rw [bind_def]
    simp only [tell]
    rw [bind_def]
    unfold seek Reader.seekSet
    rw [this]
    by_cases c : q.off + rest ≤ q.buf.length
    · rw [if_neg (by omega), if_pos c]; rfl
    · rw [if_pos (by omega), if_neg c]; rfl
  intro r r' y hr hx e
  rw [key r hr] at e
  split at e
  · rename_i c
    cases e
    have hs := slice_some c
    have hl := slice_length hs
    refine ⟨_, ⟨rfl, hl⟩, by omega, by rw [hl]; exact hs, by rw [hl], fun q okq _ sq => ?_⟩
    rw [hl] at sq ⊢
    rw [key q okq, if_pos (slice_some_iff.mp sq).1]
  · cases e

/-- A message with the data that were read for it. -/
def withTrace (m : Msg) (d : List UInt8) : Msg :=
  if d = [] then m else { m with body := .auxtrace { m.body.getAuxtrace with trace := d } }

theorem takes_readTrace {x : Bool} {m : Msg} : Takes x (readTrace m) fun m' bs =>
    bs.length = m.body.getAuxtrace.size ∧ m' = withTrace m bs := by
  have key : ∀ q : Reader, q.Ok → readTrace m q = match slice q.buf q.off m.body.getAuxtrace.size with
      | some d => some (some (withTrace m d), { q with off := q.off + m.body.getAuxtrace.size })
      | none => some (none, q) := by
    intro q okq
    unfold readTrace
    generalize hn : m.body.getAuxtrace.size = n
    simp only
    rw [bind_def, remaining_eq okq]
    obtain ⟨h1, h2, h3⟩ := okq
    simp only
    by_cases c : n > q.size - q.off
    · rw [if_pos c]
      have : slice q.buf q.off n = none := if_neg (by omega)
      rw [this]
      rfl
    · rw [if_neg c, bind_def]
      have hq : data n q = _ := readData_spec ⟨h1, h2, h3⟩ (by omega)
      rw [hq]
      have hs := slice_some (b := q.buf) (o := q.off) (n := n) (by omega)
      have hl := slice_length hs
      rw [hs]
      generalize (q.buf.drop q.off).take n = d at hl
      unfold withTrace
      show some (some (if n = 0 then m else _), _) = _
      have : (n = 0) ↔ (d = []) := by rw [← hl]; simp
      by_cases c0 : n = 0
      · simp only [if_pos c0, if_pos (this.mp c0)]
      · simp only [if_neg c0, if_neg (fun x => c0 (this.mpr x))]
  intro r r' m' hr hx e
  rw [key r hr] at e
  cases hs : slice r.buf r.off m.body.getAuxtrace.size with
  | none => rw [hs] at e; cases e
  | some d =>
    rw [hs] at e
    cases e
    have hl := slice_length hs
    have := (slice_some_iff.mp hs).1
    have := hr.2.2
    rw [← hl] at hs
    refine ⟨d, ⟨hl, rfl⟩, by omega, hs, by rw [hl], fun q okq _ sq => ?_⟩
    rw [key q okq, ← hl, sq]

end Verif.Data
