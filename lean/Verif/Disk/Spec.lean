import Verif.Disk.Model

/-!
# Specification of build IDs in files
-/

namespace Verif.Disk

/-- The note that holds the build ID. -/
def isBuildId (n : Note) : Bool := n.type = 3 ∧ n.name.takeWhile (· ≠ 0) = ascii "GNU"

/-- A field of a note: filled with zeros to a multiple of four bytes. -/
def padded (b : Bytes) : Bytes := b ++ List.replicate ((4 - b.length % 4) % 4) 0

/-- A note as it is stored: three words for the sizes of name and description and for the type, and the two fields. -/
def Note.stored (n : Note) : Bytes := toLE 4 n.name.length ++ toLE 4 n.desc.length ++ toLE 4 n.type ++ padded n.name ++ padded n.desc

/-- The numbers fit into words. -/
def Note.Fits (n : Note) : Prop := n.name.length < 2 ^ 32 ∧ n.desc.length < 2 ^ 32 ∧ n.type < 2 ^ 32

/-- The first section with a name. -/
def firstNamed (n : Bytes) (l : List Section) : Option Section := l.find? (fun s => s.name = some n)

/-- The section that is to hold the build ID: the first `.note.gnu.build-id`, or without such the first `.notes`, or without such the first `.note`. -/
def noteSection (l : List Section) : Option Section :=
  (firstNamed (ascii ".note.gnu.build-id") l).or ((firstNamed (ascii ".notes") l).or (firstNamed (ascii ".note") l))

end Verif.Disk
