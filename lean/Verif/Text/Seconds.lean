import Verif.Util.Model

/-!
# Model of `SecondsStringToMillisecondsUint64`

`/repo/src/quipper/perf_stat_parser.cc:69-80`: `strtod`, a product, a sum and a conversion of `double`
to `uint64_t`. A `double` is IEEE 754 binary64, all operations round to nearest, ties to even (the
default rounding mode), and nothing is contracted or kept in a wider register; `strtod` is the one of
the C locale, correctly rounded, as the GNU C library has it.
-/

namespace Verif.Text
open Verif.Util

/-- A `double` without its sign. All finite ones are multiples of `2^-1074`, the least positive one;
`fin k` is `k * 2^-1074`. The type of `seconds`, `perf_stat_parser.cc:71`. -/
inductive Dbl where
  | fin (k : Nat)
  | inf
  | nan
deriving DecidableEq, Repr

/-- The natural number nearest to `n / d`, of two the even one: how a `double` is rounded, as in
`perf_stat_parser.cc:71` and `perf_stat_parser.cc:78`. -/
def nearest (n d : Nat) : Nat :=
  if 2 * (n % d) < d ∨ (2 * (n % d) = d ∧ n / d % 2 = 0) then n / d else n / d + 1

/-- The distance of neighbouring doubles around `x * 2^-1074`, as a multiple of `2^-1074`: 53 bits of
precision, and never less than the least positive double. For the values of `perf_stat_parser.cc:71` and
`perf_stat_parser.cc:78`. -/
def ulp (x : Nat) : Nat := 2 ^ (x.log2 - 52)

/-- The double nearest to `n / d`; from `2^1024` on infinity. The result of `strtod`, of the product and of
the sum, `perf_stat_parser.cc:71` and `perf_stat_parser.cc:78`. -/
def toDouble (n d : Nat) : Dbl :=
  let u := ulp (n * 2 ^ 1074 / d)
  let k := nearest (n * 2 ^ 1074) (d * u) * u
  if k < 2 ^ 2098 then .fin k else .inf

/-- Product with the `double` `1000.0`, `perf_stat_parser.cc:78`. -/
def times1000 : Dbl → Dbl
  | .fin k => toDouble (k * 1000) (2 ^ 1074)
  | x => x

/-- Sum with the `double` `0.5`, `perf_stat_parser.cc:78`. -/
def plusHalf : Dbl → Dbl
  | .fin k => toDouble (k + 2 ^ 1073) (2 ^ 1074)
  | x => x

/-- `static_cast<uint64_t>` of a double that is not negative, `perf_stat_parser.cc:78`: the fraction is
dropped. `none` is undefined behaviour: infinity, not a number and what does not fit 64 bits. -/
def toU64 : Dbl → Option Nat
  | .fin k => if k / 2 ^ 1074 < 2 ^ 64 then some (k / 2 ^ 1074) else none
  | _ => none

/-- An optional sign, `true` for minus, as `strtod` reads it (used at `perf_stat_parser.cc:71`). -/
def takeSign : List UInt8 → Bool × List UInt8
  | c :: t => if c = 45 then (true, t) else if c = 43 then (false, t) else (false, c :: t)
  | [] => (false, [])

/-- Digits with an optional point among them, as `strtod` reads them (used at
`perf_stat_parser.cc:71`): the value of all digits, the number of digits behind the point and the rest.
`none`: no digit. -/
def mantissa (b : Nat) (s : List UInt8) : Option (Nat × Nat × List UInt8) :=
  let (v, k, r) := readDigits b 0 s
  match r with
  | c :: t =>
    if c = 46 then
      let (v', k', r') := readDigits b v t
      if k + k' = 0 then none else some (v', k', r')
    else if k = 0 then none else some (v, 0, r)
  | [] => if k = 0 then none else some (v, 0, [])

/-- The exponent `strtod` reads behind a mantissa (used at `perf_stat_parser.cc:71`): one of two
letters, an optional sign and digits; nothing if there are no digits. -/
def exponent (lower upper : UInt8) (s : List UInt8) : Int × List UInt8 :=
  match s with
  | c :: t =>
    if c = lower ∨ c = upper then
      let (neg, t') := takeSign t
      let (v, k, r) := readDigits 10 0 t'
      if k = 0 then (0, s) else (if neg then -(v : Int) else (v : Int), r)
    else (0, s)
  | [] => (0, s)

/-- The double nearest to `m * b ^ e`, the value of `strtod` (used at `perf_stat_parser.cc:71`). -/
def scaled (m b : Nat) (e : Int) : Dbl :=
  if 0 ≤ e then toDouble (m * b ^ e.toNat) 1 else toDouble m (b ^ (-e).toNat)

/-- Small letters of ASCII, for `strtod` (used at `perf_stat_parser.cc:71`). -/
def lowerCase (c : UInt8) : UInt8 := if 65 ≤ c ∧ c ≤ 90 then c + 32 else c

/-- Whether a text starts with a word, whatever the case of its letters; for `strtod` (used at
`perf_stat_parser.cc:71`). -/
def startsWith (w s : List UInt8) : Bool := w.isPrefixOf (s.map lowerCase)

/-- What may stand in parentheses behind `nan`, for `strtod` (used at `perf_stat_parser.cc:71`). -/
def isNChar (c : UInt8) : Bool := (digitVal c).isSome || c == 95

/-- The rest behind `nan`: behind a parenthesis with letters, digits and underscores if there is one. For `strtod` (used at `perf_stat_parser.cc:71`). -/
def afterNan (s : List UInt8) : List UInt8 :=
  match s with
  | c :: t =>
    if c = 40 then
      match t.dropWhile isNChar with
      | c' :: t' => if c' = 41 then t' else s
      | [] => s
    else s
  | [] => s

/-- `strtod` behind white space and sign (used at `perf_stat_parser.cc:71`): the value and the rest of
the text. `none`: no number. -/
def strtodUnsigned (s : List UInt8) : Option (Dbl × List UInt8) :=
  if startsWith (ascii "infinity") s then some (.inf, s.drop 8)
  else if startsWith (ascii "inf") s then some (.inf, s.drop 3)
  else if startsWith (ascii "nan") s then some (.nan, afterNan (s.drop 3))
  else
    let hex : Option (Nat × Nat × List UInt8) :=
      if startsWith (ascii "0x") s then mantissa 16 (s.drop 2) else none
    match hex with
    | some (m, f, r) =>
      let (e, r') := exponent 112 80 r
      some (scaled m 2 (e - 4 * f), r')
    | none =>
      match mantissa 10 s with
      | some (m, f, r) =>
        let (e, r') := exponent 101 69 r
        some (scaled m 10 (e - f), r')
      | none => none

/-- `strtod(str.c_str(), &endptr)`, `perf_stat_parser.cc:71`: sign, absolute value and the text at
`*endptr`. Without a number the value is zero and the text is all of it. -/
def strtod (str : List UInt8) : Bool × Dbl × List UInt8 :=
  let s := cStr str
  let (neg, s') := takeSign (s.dropWhile isSpace)
  match strtodUnsigned s' with
  | some (x, r) => (neg, x, r)
  | none => (false, .fin 0, s)

/-- `seconds < 0`, `perf_stat_parser.cc:75`: false for minus zero and for what is not a number. -/
def isNegative (neg : Bool) (x : Dbl) : Bool := neg && x != .fin 0 && x != .nan

/-- `SecondsStringToMillisecondsUint64`, `perf_stat_parser.cc:69-80`. The outer `none` is undefined
behaviour, the inner one the return value `false`. Where line 78 is reached with a sign, the value is
minus zero or not a number, and its sign changes nothing. -/
def secondsToMs (str : List UInt8) : Option (Option Nat) :=
  let (neg, seconds, rest) := strtod str
  if rest ≠ [] then some none
  else if isNegative neg seconds then some none
  else (toU64 (plusHalf (times1000 seconds))).map some

end Verif.Text
