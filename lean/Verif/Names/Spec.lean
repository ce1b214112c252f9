import Verif.Names.Model

/-! # What renaming files, injecting build IDs and sorting should do -/

namespace Verif.Names

/-- The room a file name takes in an event: it ends with a NUL and is filled up to a multiple of 8. -/
def room (name : Bytes) : Nat := (name.length / 8 + 1) * 8

/-- A build ID as text: 40 hexadecimal digits, shorter ones followed by zeros. -/
def buildIdText (bytes : Bytes) : Bytes :=
  (Util.rawDataToHexString bytes).take 40 ++ List.replicate (40 - 2 * bytes.length) 48

/-- The build ID reported for a name: that of the last entry with the name. -/
def reported (l : List BuildId) (name : Bytes) : Option Bytes :=
  ((l.filter (fun b => b.filename = name)).getLast?).map (fun b => buildIdText b.hash)

/-- A table: no key twice. -/
def IsTable {β : Type} (m : List (Bytes × β)) : Prop := (m.map (·.1)).Nodup

/-- The table says `v` about `k`. -/
def Says {β : Type} (m : List (Bytes × β)) (k : Bytes) (v : β) : Prop := (k, v) ∈ m

/-- The newest mapping event of a name. -/
def lastMapping (l : List Event) (name : Bytes) : Option Event :=
  (l.filter (fun e => (e.type = 1 ∨ e.type = 10) ∧ e.filename = name)).getLast?

/-- Events in the order of their times. -/
def InOrder (l : List Event) : Prop := l.Pairwise (fun a b => a.time ≤ b.time)

/-- A stable order by time of a list. -/
structure StableOrder (l r : List Event) : Prop where
  perm : r.Perm l
  order : InOrder r
  stable : ∀ t, r.filter (fun e => e.time = t) = l.filter (fun e => e.time = t)

end Verif.Names
