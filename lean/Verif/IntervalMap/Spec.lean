import Verif.IntervalMap.Model

/-!
# Specification of an interval map, independent of the implementation

An interval map is a function from keys to optional values; each call overwrites the keys it touches.
-/

namespace Verif.IntervalMap

variable {V : Type}

/-- Does this call touch `key`? -/
def Op.touches (key : Nat) : Op V → Bool
  | .set s l _ => decide (s ≤ key ∧ key < l)
  | .clearInterval s l => decide (s ≤ key ∧ key < l)
  | .clear => true

/-- The value a call leaves at a key it touches. -/
def Op.writes : Op V → Option V
  | .set _ _ v => some v
  | .clearInterval _ _ => none
  | .clear => none

/-- What `Lookup(key)` must give after the calls `ops` (oldest first): the value written by the
most recent call that touched `key`. -/
def specLookup (ops : List (Op V)) (key : Nat) : Option V :=
  match ops.reverse.find? (Op.touches key) with
  | some op => op.writes
  | none => none

/-- A call whose interval is not empty (`Clear` always qualifies). -/
def Op.wellFormed : Op V → Prop
  | .set s l _ => s < l
  | .clearInterval s l => s < l
  | .clear => True

/-- The stored intervals are non-empty, in increasing order and pairwise disjoint. -/
def SortedDisjoint (m : List (Entry V)) : Prop :=
  (∀ e ∈ m, e.start < e.limit) ∧ m.Pairwise (fun a b => a.limit ≤ b.start)

/-- The documented contract of `FindNext` (`intervalmap.h:35-38`): the interval containing `key`, or else
the first interval that lies after `key`. -/
def FindNextDoc (m : List (Entry V)) (key : Nat) (r : Option (Nat × Nat × V)) : Prop :=
  match r with
  | some (s, l, v) =>
      ⟨s, l, v⟩ ∈ m ∧ key < l ∧ (∀ e ∈ m, key < e.limit → s ≤ e.start)
  | none => ∀ e ∈ m, e.limit ≤ key

end Verif.IntervalMap
