import Verif.Text.SecondsSpec
import Verif.Text.Stat

/-!
# Specification for C133: what the output of `perf stat` looks like
-/

namespace Verif.Text

/-- A row of the output: a counter with its name, its count and two more numbers, the time in seconds
as a text that says a whole number of milliseconds, or something else. Rows may be indented. -/
inductive Row where
  | counter (indent : Nat) (name : List UInt8) (count a b : Nat)
  | time (indent : Nat) (text : List UInt8) (ms : Nat)
  | other (text : List UInt8)

/-- The row as text. -/
def Row.text : Row → List UInt8
  | .counter k name count a b =>
    List.replicate k 32 ++ (name ++ ascii ":" ++ ascii " " ++ dec count ++ ascii " " ++ dec a ++ ascii " " ++ dec b)
  | .time k t _ => List.replicate k 32 ++ (t ++ ascii " seconds time elapsed")
  | .other l => l

/-- What is asked of a row: names without blanks and line ends, counts of 64 bits; times below
`2^50` milliseconds; other rows have fewer than three blanks. -/
def Row.Good : Row → Prop
  | .counter _ name count _ _ =>
    10 ∉ name ∧ 32 ∉ name ∧ name.head? ≠ some 9 ∧ name.head? ≠ some 13 ∧ count < 2 ^ 64
  | .time _ t n => (∃ q, Written t q ∧ 1000 * q = n) ∧ n < 2 ^ 50
  | .other l => 10 ∉ l ∧ l.count 32 < 3

/-- The output: rows, each with a line end. -/
def output (rows : List Row) : List UInt8 := rows.flatMap (fun r => r.text ++ [10])

/-- The counters of the output. -/
def counters (rows : List Row) : List StatLine :=
  rows.filterMap (fun r => match r with
    | .counter _ name count _ _ => some ⟨name, count⟩
    | _ => none)

/-- The times of the output. -/
def times (rows : List Row) : List Nat :=
  rows.filterMap (fun r => match r with
    | .time _ _ n => some n
    | _ => none)

end Verif.Text
