import Verif.Util.Model
import Mathlib.Algebra.Order.Field.Rat

/-!
# Specification for C132: what a decimal text says

Independent of how the code reads numbers.
-/

namespace Verif.Text

/-- Digits as characters. -/
def digits (ds : List Nat) : List UInt8 := ds.map (fun d => UInt8.ofNat (48 + d))

/-- The number a list of decimal digits denotes, most significant first. -/
def number : List Nat → Nat
  | [] => 0
  | d :: ds => d * 10 ^ ds.length + number ds

/-- A text that denotes a number without sign and exponent: decimal digits, or decimal digits with a
point among them. -/
inductive Written : List UInt8 → ℚ → Prop where
  | whole (ds : List Nat) (h : ds ≠ []) (hd : ∀ d ∈ ds, d < 10) : Written (digits ds) (number ds)
  | point (ds fs : List Nat) (h : ds ++ fs ≠ []) (hd : ∀ d ∈ ds, d < 10) (hf : ∀ d ∈ fs, d < 10) :
      Written (digits ds ++ 46 :: digits fs) (number ds + number fs / 10 ^ fs.length)

end Verif.Text
