import Verif.Sample.Lemmas

/-! Code that reads through a reader and touches nothing outside of its buffer. -/

namespace Verif.Sample
open Verif.Buffer

/-- Whatever the buffer holds, `p` ends without undefined behaviour, with the reader still inside the buffer. -/
def Safe {α : Type} (p : P α) : Prop :=
  ∀ r : Reader, r.Ok → ∃ x r', p r = some (x, r') ∧ r'.Ok ∧ r'.buf = r.buf ∧ r'.cross = r.cross

theorem Safe.pure {α : Type} (a : α) : Safe (pure a : P α) := fun r h => ⟨some a, r, rfl, h, rfl, rfl⟩
theorem Safe.fail {α : Type} : Safe (fail : P α) := fun r h => ⟨none, r, rfl, h, rfl, rfl⟩

theorem Safe.bind' {α β : Type} {p : P α} {f : α → P β} {Q : α → Prop}
    (hp : ∀ r : Reader, r.Ok → ∃ x r', p r = some (x, r') ∧ r'.Ok ∧ r'.buf = r.buf ∧ r'.cross = r.cross ∧
      ∀ a, x = some a → Q a) (hf : ∀ a, Q a → Safe (f a)) : Safe (p >>= f) := by
  intro r hr
  obtain ⟨x, r1, e1, ok1, b1, c1, hq⟩ := hp r hr
  rw [bind_def, e1]
  cases x with
  | none => exact ⟨none, r1, rfl, ok1, b1, c1⟩
  | some a =>
    obtain ⟨y, r2, e2, ok2, b2, c2⟩ := hf a (hq a rfl) r1 ok1
    exact ⟨y, r2, e2, ok2, b2.trans b1, c2.trans c1⟩

theorem Safe.bind {α β : Type} {p : P α} {f : α → P β} (hp : Safe p) (hf : ∀ a, Safe (f a)) : Safe (p >>= f) :=
  Safe.bind' (Q := fun _ => True) (fun r hr => by
    obtain ⟨x, r', h1, h2, h3, h4⟩ := hp r hr; exact ⟨x, r', h1, h2, h3, h4, fun _ _ => trivial⟩)
    fun a _ => hf a

theorem Safe.ite {α : Type} {c : Prop} [Decidable c] {p q : P α} (hp : c → Safe p) (hq : ¬ c → Safe q) :
    Safe (if c then p else q) := by
  split
  · exact hp ‹_›
  · exact hq ‹_›

theorem safe_data {n : Nat} (h : n < 2 ^ 64) : Safe (data n) := by
  intro r hr
  have e := readData_spec hr h
  show ∃ x r', r.readData n = some (x, r') ∧ _
  rw [e]
  cases hs : slice r.buf r.off n with
  | none => exact ⟨none, r, rfl, hr, rfl, rfl⟩
  | some d =>
    obtain ⟨h1, h2, h3⟩ := hr
    have := (slice_some_iff.mp hs).1
    exact ⟨some d, _, rfl, ⟨h1, by show r.off + n ≤ r.size; omega, h3⟩, rfl, rfl⟩

theorem int_bound {n : Nat} (hn : n = 2 ∨ n = 4 ∨ n = 8) (r : Reader) (hr : r.Ok) :
    ∃ x r', r.readInt n = some (x, r') ∧ r'.Ok ∧ r'.buf = r.buf ∧ r'.cross = r.cross ∧
      ∀ a, x = some a → a < 256 ^ n := by
  rw [readInt_spec hr hn]
  cases hs : slice r.buf r.off n with
  | none => exact ⟨none, r, rfl, hr, rfl, rfl, by simp⟩
  | some d =>
    obtain ⟨h1, h2, h3⟩ := hr
    have := (slice_some_iff.mp hs).1
    refine ⟨some _, _, rfl, ⟨h1, by show r.off + n ≤ r.size; omega, h3⟩, rfl, rfl, ?_⟩
    intro a ha
    simp only [Option.some.injEq] at ha
    have := decodeInt_lt r.cross d
    rw [slice_length hs, ha] at this
    exact this

theorem safe_u32 : Safe u32 := fun r hr => by
  obtain ⟨x, r', a, b, c, d, _⟩ := int_bound (n := 4) (by omega) r hr; exact ⟨x, r', a, b, c, d⟩
theorem safe_u64 : Safe u64 := fun r hr => by
  obtain ⟨x, r', a, b, c, d, _⟩ := int_bound (n := 8) (by omega) r hr; exact ⟨x, r', a, b, c, d⟩

theorem Safe.bind32 {β : Type} {f : Nat → P β} (hf : ∀ a, a < 2 ^ 32 → Safe (f a)) : Safe (u32 >>= f) :=
  Safe.bind' (int_bound (n := 4) (by omega)) hf
theorem Safe.bind64 {β : Type} {f : Nat → P β} (hf : ∀ a, a < 2 ^ 64 → Safe (f a)) : Safe (u64 >>= f) :=
  Safe.bind' (int_bound (n := 8) (by omega)) hf

theorem safe_tell : Safe tell := fun r hr => ⟨_, r, rfl, hr, rfl, rfl⟩
theorem safe_isCross : Safe isCross := fun r hr => ⟨_, r, rfl, hr, rfl, rfl⟩

theorem safe_seek (o : Nat) : Safe (seek o) := by
  intro r hr
  unfold seek Reader.seekSet
  by_cases h : o > r.size
  · rw [if_pos h]; exact ⟨_, r, rfl, hr, rfl, rfl⟩
  · rw [if_neg h]
    obtain ⟨h1, h2, h3⟩ := hr
    exact ⟨_, _, rfl, ⟨h1, by show o ≤ r.size; omega, h3⟩, rfl, rfl⟩

theorem Safe.times {α : Type} {p : P α} (h : Safe p) : ∀ n, Safe (times p n)
  | 0 => Safe.pure _
  | n + 1 => Safe.bind h fun _ => Safe.bind (Safe.times h n) fun _ => Safe.pure _

theorem Safe.opt {α : Type} {c : Bool} {p : P α} {d : α} (h : Safe p) : Safe (opt c p d) := by
  cases c
  · exact Safe.pure d
  · exact h

end Verif.Sample
