import Verif.Missing.Model

/-!
# Specification: which build IDs are read from files
-/

namespace Verif.Missing
open Verif.Parser (Ev Parsed)

/-- May it be the file that was mapped? The numbers of its device and its inode must be those of the mapping, but they tell nothing if a
number of the device is zero. -/
def MayBe (maj min ino : Nat) (n : Node) : Prop := maj = 0 ∨ min = 0 ∨ n.maj = maj ∧ n.min = min ∧ n.ino = ino

instance (maj min ino : Nat) (n : Node) : Decidable (MayBe maj min ino n) := by unfold MayBe; infer_instance

/-- The build ID of the file at a path, if there is one that may be the file that was mapped. -/
def idAt (fs : Files) (maj min ino : Nat) (path : Bytes) : Option Bytes :=
  (fs.node path).bind fun n => if MayBe maj min ino n then n.elf.bind Disk.getBuildID else none

/-- The path of a file in the root directory of a thread or process. -/
def inRoot (id : Nat) (name : Bytes) : Bytes := ascii "/proc/" ++ Converter.decimal id ++ ascii "/root/" ++ name

/-- The path of the notes of a module. -/
def moduleNotes (m : Bytes) : Bytes := ascii "/sys/module/" ++ m ++ ascii "/notes/.note.gnu.build-id"

/-- Where a file may be: for each thread, in its root directory and in that of its process, and then in our own. -/
def pathsFor (threads : List (Nat × Nat)) (name : Bytes) : List Bytes :=
  threads.flatMap (fun t => [inRoot t.2 name, inRoot t.1 name]) ++ [name]

/-- Pairs in increasing order, each once. -/
def Increasing (l : List (Nat × Nat)) : Prop := l.Pairwise fun a b => a.1 < b.1 ∨ a.1 = b.1 ∧ a.2 < b.2

/-- One of the addresses of a sample is in the file: that of the instruction, that of the data, one of the callchain or one of a branch. -/
def Touches (p : Parsed) (name : Bytes) : Prop :=
  ∃ a, (a = p.here ∨ a = p.data ∨ a ∈ p.callchain ∨ ∃ b ∈ p.branches, a = b.src ∨ a = b.dst) ∧ a.name = some name

/-- The thread has a sample with an address in the file. -/
def SampledIn (out : List (Ev × Parsed)) (name : Bytes) (pid tid : Nat) : Prop :=
  ∃ x ∈ out, ∃ s, x.1.sample = some s ∧ s.pid = pid ∧ s.tid = tid ∧ Touches x.2 name

/-- The threads with samples that have addresses in the file. -/
structure ThreadsIn (out : List (Ev × Parsed)) (name : Bytes) (l : List (Nat × Nat)) : Prop where
  order : Increasing l
  mem : ∀ pid tid, (pid, tid) ∈ l ↔ SampledIn out name pid tid

/-- The device and the inode of a file are those of the first mapping of its name, if that tells them. -/
def Identity (out : List (Ev × Parsed)) (name : Bytes) (maj min ino : Nat) : Prop :=
  ∃ e, (out.map (·.1)).find? (fun e => decide (e.type = 1 ∨ e.type = 10) && (e.mmap.getD {}).filename == name) = some e ∧
    (e.type = 10 → (e.mmap.getD {}).maj.getD 0 = maj ∧ (e.mmap.getD {}).min.getD 0 = min ∧ (e.mmap.getD {}).ino.getD 0 = ino) ∧
    (e.type = 1 → maj = 0 ∧ min = 0 ∧ ino = 0)

/-- The name of a module: in brackets. -/
def ModuleName (name m : Bytes) : Prop := name = 91 :: m ++ [93]

/-- What is found for a file with samples in it, which may be empty. -/
inductive Finds (fs : Files) (out : List (Ev × Parsed)) (name : Bytes) : Bytes → Prop
  | kernel : Normalizer.isKernelNonModuleName name = true → Finds fs out name []
  | module (m : Bytes) (id : Option Bytes) : Normalizer.isKernelNonModuleName name = false → ModuleName name m →
      Disk.readModuleBuildId (fs.source (moduleNotes m)) = some id → Finds fs out name (id.getD [])
  | file (threads : List (Nat × Nat)) (maj min ino : Nat) : Normalizer.isKernelNonModuleName name = false → (∀ m, ¬ ModuleName name m) →
      ThreadsIn out name threads → Identity out name maj min ino →
      Finds fs out name (((pathsFor threads name).findSome? (idAt fs maj min ino)).getD [])

end Verif.Missing
