/-!
# Model of `IntervalMap<V>` (`/repo/src/intervalmap.h`)

`absl::btree_map<uint64_t, Value>` is a list of entries sorted by `start`.
An iterator is represented by the key it points to (`none` is `end()`); btree iterators are
invalidated by insertion in C++, but the code never uses an iterator after an insertion.

Keys are natural numbers: the class only compares keys, it never does arithmetic on them, so nothing
wraps; the 64-bit bound is irrelevant to its behaviour.
-/

namespace Verif.IntervalMap

/-- One entry of `interval_start_`: the key `start` with `Value{limit, value}`.
Models `intervalmap.h:53-56,104-106`. -/
structure Entry (V : Type) where
  start : Nat
  limit : Nat
  value : V
deriving Repr, DecidableEq

/-- The content of `interval_start_` (`intervalmap.h:106`). -/
abbrev IMap (V : Type) := List (Entry V)

variable {V : Type}

/-- The default constructor, `intervalmap.h:109-110`. -/
def empty : IMap V := []

/-- `upper_bound(point)` followed by `Decrement`: the last entry whose key is at most `point`.
Models `intervalmap.h:65-66,187-203`. -/
def prevEntry (m : IMap V) (point : Nat) : Option (Entry V) :=
  (m.takeWhile (fun e => e.start ≤ point)).getLast?

/-- `GetContainingInterval`, `intervalmap.h:64-84`. -/
def containing (m : IMap V) (point : Nat) : Option (Entry V) :=
  match prevEntry m point with
  | none => none
  | some e => if e.limit ≤ point then none else some e

/-- `Insert`: `emplace` into the ordered map; an existing key is kept.
Models `intervalmap.h:205-208`. -/
def insert (m : IMap V) (start limit : Nat) (v : V) : IMap V :=
  match m with
  | [] => [⟨start, limit, v⟩]
  | e :: t =>
    if e.start < start then e :: insert t start limit v
    else if start < e.start then ⟨start, limit, v⟩ :: e :: t
    else e :: t

/-- Assignment `iter->second.limit = point` through an iterator at key `start`.
Models `intervalmap.h:183`. -/
def setLimit (m : IMap V) (start point : Nat) : IMap V :=
  m.map (fun e => if e.start = start then { e with limit := point } else e)

/-- `SplitInterval`, `intervalmap.h:176-185`. -/
def split (m : IMap V) (iter : Option (Entry V)) (point : Nat) : IMap V :=
  match iter with
  | none => m
  | some e =>
    if point ≤ e.start ∨ point ≥ e.limit then m
    else insert (setLimit m e.start point) point e.limit e.value

/-- `erase(lower_bound(a), lower_bound(b))`, `intervalmap.h:169-173`. -/
def eraseRange (m : IMap V) (a b : Nat) : IMap V :=
  m.takeWhile (fun e => e.start < a) ++
    (m.dropWhile (fun e => e.start < a)).dropWhile (fun e => e.start < b)

/-- `RemoveInterval`, `intervalmap.h:158-174`. -/
def removeInterval (m : IMap V) (start limit : Nat) : IMap V :=
  if start ≥ limit then m
  else
    let m1 := split m (containing m limit) limit
    let m2 := split m1 (containing m1 start) start
    eraseRange m2 start limit

/-- `Set`, `intervalmap.h:112-117`; `none` is the `CHECK_LT` abort. -/
def set (m : IMap V) (start limit : Nat) (v : V) : Option (IMap V) :=
  if start < limit then some (insert (removeInterval m start limit) start limit v) else none

/-- `ClearInterval`, `intervalmap.h:147-151`; `none` is the `CHECK_LT` abort. -/
def clearInterval (m : IMap V) (start limit : Nat) : Option (IMap V) :=
  if start < limit then some (removeInterval m start limit) else none

/-- `Clear`, `intervalmap.h:142-145`. -/
def clear (_ : IMap V) : IMap V := []

/-- `Lookup`, `intervalmap.h:119-127`: `none` is the `false` result. -/
def lookup (m : IMap V) (key : Nat) : Option V :=
  (containing m key).map (·.value)

/-- `FindNext`, `intervalmap.h:129-140`: `none` is the `false` result. -/
def findNext (m : IMap V) (key : Nat) : Option (Nat × Nat × V) :=
  (m.dropWhile (fun e => e.start ≤ key)).head?.map (fun e => (e.start, e.limit, e.value))

/-- `Size`, `intervalmap.h:153-156`. -/
def size (m : IMap V) : Nat := m.length

/-- A mutating call of the public interface, `intervalmap.h:27-48`. -/
inductive Op (V : Type) where
  | set (start limit : Nat) (v : V)
  | clearInterval (start limit : Nat)
  | clear
deriving Repr, DecidableEq

/-- Execute one call; `none` is an abort. -/
def step (m : IMap V) : Op V → Option (IMap V)
  | .set s l v => set m s l v
  | .clearInterval s l => clearInterval m s l
  | .clear => some (clear m)

/-- Execute a sequence of calls from a given state; `none` is an abort. -/
def runFrom (m : IMap V) : List (Op V) → Option (IMap V)
  | [] => some m
  | op :: ops => match step m op with
    | none => none
    | some m' => runFrom m' ops

/-- Execute a sequence of calls on a freshly constructed map. -/
def run (ops : List (Op V)) : Option (IMap V) := runFrom empty ops

end Verif.IntervalMap
