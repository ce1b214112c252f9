import Verif.Util.Model

/-!
# Model of the text helpers

`/repo/src/quipper/string_utils.cc`, `perf_buildid.cc` and `perf_stat_parser.cc`. A `std::string` is
a list of bytes. Lengths are assumed to fit in an `int` (below 2^31), which the code assumes too when
it indexes with `int`.
-/

namespace Verif.Text
open Verif.Util

/-- `kWhitespaceCharacters`, `string_utils.cc:16`. -/
def isTrimSpace (c : UInt8) : Bool := c == 32 || c == 9 || c == 10 || c == 13

/-- `TrimWhitespace`, `string_utils.cc:15-25`: from the first to the last character that is not white
space. -/
def trimWhitespace (s : List UInt8) : List UInt8 :=
  if s.all isTrimSpace then []
  else ((s.dropWhile isTrimSpace).reverse.dropWhile isTrimSpace).reverse

/-- `SplitString`, `string_utils.cc:27-32`: repeated `std::getline` with a delimiter. At the end of the
text nothing more is extracted, so a trailing delimiter does not produce an empty token. -/
def splitString (delim : UInt8) (s : List UInt8) : List (List UInt8) :=
  match s with
  | [] => []
  | c :: t =>
    let token := (c :: t).takeWhile (· ≠ delim)
    token :: splitString delim ((c :: t).drop (token.length + 1))
termination_by s.length
decreasing_by simp; omega

/-- `std::string::find(c, from)`; `none` is `npos`. -/
def findFrom (s : List UInt8) (c : UInt8) (start : Nat) : Option Nat :=
  ((s.drop start).findIdx? (· == c)).map (· + start)

/-- `while (pos < s.size() && s[pos] == '/') ++pos`, `string_utils.cc:45,47`. -/
def skipSlashes (s : List UInt8) (pos : Nat) : Nat :=
  pos + ((s.drop pos).takeWhile (· == 47)).length

/-- The `for` loop of `RootPath`, `string_utils.cc:46-51`, with `n` iterations left. -/
def rootLoop (s : List UInt8) : Nat → Nat → Nat → Nat
  | 0, pos, _ => pos
  | n + 1, pos, next =>
    match findFrom s 47 (skipSlashes s next) with
    | none => pos
    | some next' => rootLoop s n next' next'

/-- `RootPath`, `string_utils.cc:34-53`. For an empty name `filename[0]` is the NUL that terminates
every `std::string`, so the test at line 42 is well defined. -/
def rootPath (s : List UInt8) : List UInt8 :=
  if (ascii "[anon:").isPrefixOf s then ascii "[anon:"
  else if (ascii "/memfd:").isPrefixOf s then ascii "/memfd:"
  else if (ascii "/tmp/").isPrefixOf s then ascii "/tmp"
  else if s.head? ≠ some 47 then []
  else
    let pos := skipSlashes s 1
    s.take (rootLoop s 2 pos pos)

/-- `strtoul` / `strtoull` in base 10: clamped to `ULONG_MAX` on overflow, negated for a minus
sign. -/
def strtoul10 (s : List UInt8) : Nat × List UInt8 :=
  let (neg, v, r) := strto 10 s
  (if v ≥ 2 ^ 64 then 2 ^ 64 - 1 else if neg then (2 ^ 64 - v) % 2 ^ 64 else v, r)

/-- `Stou32`, `string_utils.cc:55-61`: the value is narrowed to 32 bits; `none` is `false`. -/
def stou32 (s : List UInt8) : Option Nat :=
  let (v, e) := strtoul10 s
  if e ≠ [] then none else some (v % 2 ^ 32)

/-- Outcome of a call that may fail or never return. -/
inductive Outcome (α : Type) where
  | ok (a : α)
  | fail
  | diverge
deriving DecidableEq, Repr

/-- The body of the loop over tokens in `ParseCPUNumbers`, `string_utils.cc:68-98`: the numbers one
token adds. The loop at line 95 counts with a `uint32_t`, so an upper end of `2^32 - 1` never ends. -/
def parseToken (token : List UInt8) : Outcome (List Nat) :=
  match splitString 45 token with
  | [_] => match stou32 token with
    | none => .fail
    | some c => .ok [c]
  | [a, b] => match stou32 a, stou32 b with
    | some s, some e =>
      if e ≤ s then .fail
      else if e = 2 ^ 32 - 1 then .diverge
      else .ok (List.range' s (e - s + 1))
    | _, _ => .fail
  | _ => .fail

/-- The loop over tokens, `string_utils.cc:68-100`. -/
def parseTokens : List (List UInt8) → Outcome (List Nat)
  | [] => .ok []
  | t :: ts => match parseToken t with
    | .ok l => match parseTokens ts with
      | .ok l' => .ok (l ++ l')
      | .fail => .fail
      | .diverge => .diverge
    | .fail => .fail
    | .diverge => .diverge

/-- `ParseCPUNumbers`, `string_utils.cc:63-101`, with an empty `result` vector. -/
def parseCPUNumbers (s : List UInt8) : Outcome (List Nat) :=
  match splitString 44 s with
  | [] => .fail
  | tokens => parseTokens tokens

/-- `tokens << cpu`: decimal output of an unsigned integer. -/
def dec (n : Nat) : List UInt8 :=
  if n < 10 then [UInt8.ofNat (48 + n)] else dec (n / 10) ++ [UInt8.ofNat (48 + n % 10)]

/-- The inner loop of `FormatCPUNumbers`, `string_utils.cc:111-113`: how far the group that ends in
`last` so far extends; the last element, the number of elements added and the rest. `cpus[j-1] + 1`
wraps at 32 bits. -/
def runEnd (last : Nat) : List Nat → Nat × Nat × List Nat
  | [] => (last, 0, [])
  | c :: t =>
    if c > (last + 1) % 2 ^ 32 then (last, 0, c :: t)
    else
      let r := runEnd c t
      (r.1, r.2.1 + 1, r.2.2)

theorem runEnd_length (last : Nat) (l : List Nat) : (runEnd last l).2.2.length ≤ l.length := by
  induction l generalizing last with
  | nil => simp [runEnd]
  | cons c t ih =>
    simp only [runEnd]
    split
    · simp
    · exact Nat.le_succ_of_le (ih c)

/-- The outer loop of `FormatCPUNumbers`, `string_utils.cc:108-120`. -/
def formatLoop (first : Bool) (cpus : List Nat) : List UInt8 :=
  match cpus with
  | [] => []
  | c :: t =>
    let r := runEnd c t
    (if first then [] else [44]) ++
      (if r.2.1 = 0 then dec c else dec c ++ [45] ++ dec r.1) ++ formatLoop false r.2.2
termination_by cpus.length
decreasing_by
  have := runEnd_length c t
  simp only [List.length_cons]; omega

/-- `FormatCPUNumbers`, `string_utils.cc:103-122`. -/
def formatCPUNumbers (cpus : List Nat) : List UInt8 := formatLoop true cpus

/-- `PerfizeBuildIDString`, `perf_buildid.cc:11-13`: `resize(40, '0')`. -/
def perfizeBuildID (s : List UInt8) : List UInt8 := s.take 40 ++ List.replicate (40 - s.length) 48

/-- `TrimZeroesFromBuildIDString`, `perf_buildid.cc:15-28`. -/
def trimZeroes (s : List UInt8) : List UInt8 :=
  if s.length ≥ 8 ∧ s.drop (s.length - 8) = List.replicate 8 48 then
    trimZeroes (s.take (s.length - 8))
  else s
termination_by s.length
decreasing_by simp; omega

end Verif.Text
