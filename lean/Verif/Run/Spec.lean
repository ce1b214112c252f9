import Verif.Run.Model

/-!
# Specification of running a command
-/

namespace Verif.Run

/-- What a command prints: what it writes to its standard output. -/
def printed (writes : List (Nat × Bytes)) : Bytes := writes.flatMap (fun w => if w.1 = 1 then w.2 else [])

/-- A program with standard output and standard error, which can open at least four more descriptors. All its descriptors are its own. -/
structure Usual (max : Nat) (t : Table) : Prop where
  single : (t.map (·.fd)).Nodup
  output : 1 ∈ t.map (·.fd)
  error : 2 ∈ t.map (·.fd)
  own : ∀ s ∈ t, ∃ k, s.to = .file k
  room : t.length + 4 ≤ max

/-- The same descriptors are open and lead to the same. -/
def Same (t t' : Table) : Prop := ∀ s, s ∈ t ↔ s ∈ t'

/-- What `run_command.h:12-15` says: the exit status of a command that exited normally, and -1 otherwise. -/
def promised : Ended → Int
  | .exited c => c
  | .signaled _ => -1

end Verif.Run
