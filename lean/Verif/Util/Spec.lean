import Verif.Base.Bytes

/-! # What the helper functions are supposed to do, stated without the model -/

namespace Verif.Util

/-- `m` is the least multiple of `a` that is at least `v`. -/
def IsRoundUp (a v m : Nat) : Prop := a ∣ m ∧ v ≤ m ∧ ∀ m', a ∣ m' → v ≤ m' → m ≤ m'

/-- The `n`-byte integer `y` has the bytes of `x` in reverse order. -/
def IsByteReverse (n x y : Nat) : Prop := y < 256 ^ n ∧ toLE n y = (toLE n x).reverse

/-- The sixteen lowercase digits; position is value. -/
def hexAlphabet : List UInt8 := ascii "0123456789abcdef"

/-- Lowercase hexadecimal digit of value `d`. -/
def IsHexOf (c : UInt8) (d : Nat) : Prop := hexAlphabet[d]? = some c

/-- Value of a hexadecimal digit, upper or lower case. -/
def hexVal (c : UInt8) : Option Nat :=
  match hexAlphabet.idxOf? c with
  | some i => some i
  | none => (ascii "0123456789ABCDEF").idxOf? c

/-- The first `n` bytes encoded by the hexadecimal text, `none` when some pair among those read is
not made of two hexadecimal digits. A trailing odd digit is not read. -/
def hexSpec : List UInt8 → Nat → Option (List UInt8)
  | _, 0 => some []
  | c0 :: c1 :: s, n + 1 =>
    match hexVal c0, hexVal c1, hexSpec s n with
    | some a, some b, some r => some (UInt8.ofNat (16 * a + b) :: r)
    | _, _, _ => none
  | _, _ => some []

/-- Characters `strtol` treats specially: NUL, white space and signs. -/
def strtolSpecial (c : UInt8) : Bool :=
  c == 0 || c == 32 || (9 ≤ c && c ≤ 13) || c == 43 || c == 45

end Verif.Util
