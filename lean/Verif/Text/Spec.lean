import Verif.Base.Bytes

/-! # Specification of the text helpers -/

namespace Verif.Text

/-- CPU lists for which formatting followed by parsing is claimed: not empty, 32-bit, strictly
increasing, and without a range that would end at the largest 32-bit number. -/
def CpuList (l : List Nat) : Prop :=
  l ≠ [] ∧ (∀ c ∈ l, c < 2 ^ 32) ∧ l.Pairwise (· < ·) ∧ ¬ (2 ^ 32 - 2 ∈ l ∧ 2 ^ 32 - 1 ∈ l)

/-- Text of the eight-zero padding group. -/
def zeros (n : Nat) : List UInt8 := List.replicate n 48

/-- A run of one or more slashes. -/
def Slashes (s : List UInt8) : Prop := s ≠ [] ∧ ∀ c ∈ s, c = 47

/-- A path component: not empty, without slash. -/
def Component (s : List UInt8) : Prop := s ≠ [] ∧ (47 : UInt8) ∉ s

/-- Names that `RootPath` treats specially. -/
def SpecialName (s : List UInt8) : Prop :=
  ascii "[anon:" <+: s ∨ ascii "/memfd:" <+: s ∨ ascii "/tmp/" <+: s

end Verif.Text
