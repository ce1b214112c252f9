import Verif.HugePages.Model

/-! # What the mappings of a process say, independently of the code -/

namespace Verif.HugePages

/-- The mapping covers the address. -/
def MMap.covers (m : MMap) (x : Nat) : Bool := decide (m.start ≤ x) && decide (x < m.start + m.len)

/-- The file offset of an address. -/
def MMap.offset (m : MMap) (x : Nat) : Nat := (m.pgoff + (x - m.start)) % 2 ^ 64

/-- The latest mapping of process `p` (`none`: events without a process) that covers `x`. -/
def latest (p : Option Nat) (x : Nat) (es : List Ev) : Option MMap :=
  (es.filterMap (·.mmap)).reverse.find? (fun m => decide (m.pid = p) && m.covers x)

/-- The members are in the range of their types and the mapping does not reach the end of the address
space. -/
def MMap.Ok (m : MMap) : Prop :=
  m.start + m.len < 2 ^ 64 ∧ m.pgoff < 2 ^ 64 ∧ ∀ p, m.pid = some p → p < 2 ^ 32

/-- All mappings are fine. -/
def AllOk (es : List Ev) : Prop := ∀ e ∈ es, ∀ m, e.mmap = some m → m.Ok

/-- A file name that stands for a huge page: one of three fixed names, or
`<directory>/<prefix>.buildid_<hash>` with a non-empty hash. -/
def HugeName (f : List UInt8) : Prop :=
  f = ascii "//anon" ∨ f = ascii "/anon_hugepage" ∨ f = ascii "/anon_hugepage (deleted)" ∨
  ∃ dir pre hash, f = dir ++ ascii "/" ++ pre ++ ascii ".buildid_" ++ hash ∧ hash ≠ [] ∧
    47 ∉ pre ∧ 47 ∉ hash

/-- The bytes a name takes in an event: at least one zero byte behind it, a multiple of 8. -/
def nameBytes (f : List UInt8) : Nat := 8 * (f.length / 8 + 1)

/-- What it means that a huge mapping `m` was given the identity of the file mapping `n`: name and
identity of the file come from `n`; an unknown (zero) file offset becomes that of `n`, moved by the
distance of the two in memory; process, addresses, protection and flags stay. -/
structure Relabelled (m n m' : MMap) : Prop where
  pid : m'.pid = m.pid
  start : m'.start = m.start
  len : m'.len = m.len
  prot : m'.prot = m.prot
  flags : m'.flags = m.flags
  filename : m'.filename = n.filename
  md5 : m'.md5 = n.md5
  buildId : m'.buildId = n.buildId ∨ (n.buildId = none ∧ m'.buildId = m.buildId)
  maj : m'.maj = n.maj ∨ (n.maj = none ∧ m'.maj = m.maj)
  min : m'.min = n.min ∨ (n.min = none ∧ m'.min = m.min)
  ino : m'.ino = n.ino ∨ (n.ino = none ∧ m'.ino = m.ino)
  inoGen : m'.inoGen = n.inoGen ∨ (n.inoGen = none ∧ m'.inoGen = m.inoGen)
  pgoff : if m.pgoff = 0 then m'.pgoff < 2 ^ 64 ∧ (m'.pgoff + n.start) % 2 ^ 64 = (n.pgoff + m.start) % 2 ^ 64
    else m'.pgoff = m.pgoff

/-- The difference between an event and what has become of it: nothing, or it is a huge mapping that was
relabelled after a later file mapping of the same process. The size of the event follows the length of the
name; `later` are the events behind it. -/
def Change (later : List Ev) (e e' : Ev) : Prop :=
  e' = e ∨ ∃ m m' n ne, e.mmap = some m ∧ e'.mmap = some m' ∧ ne ∈ later ∧ ne.mmap = some n ∧
    HugeName m.filename ∧ ¬ HugeName n.filename ∧ n.pid.getD (2 ^ 32 - 1) = m.pid.getD (2 ^ 32 - 1) ∧
    Relabelled m n m' ∧ e'.time = e.time ∧ e'.other = e.other ∧
    e'.size < 2 ^ 32 ∧ (e'.size + nameBytes m.filename) % 2 ^ 32 = (e.size + nameBytes m'.filename) % 2 ^ 32

/-- Every event is what it was, or was relabelled. -/
def Changed : List Ev → List Ev → Prop
  | [], [] => True
  | e :: es, e' :: es' => Change es e e' ∧ Changed es es'
  | _, _ => False

/-- The members of a mapping event are in the range of their types, and file names are shorter than 2^32. -/
def EvOk (e : Ev) : Prop := ∀ m, e.mmap = some m →
  m.start < 2 ^ 64 ∧ m.len < 2 ^ 64 ∧ m.pgoff < 2 ^ 64 ∧ m.filename.length < 2 ^ 32 ∧ e.size < 2 ^ 32

/-- The mappings follow each other without a gap from `x` to `e`. -/
def Runs (x : Nat) : List MMap → Nat → Prop
  | [], e => x = e
  | h :: hs, e => h.start = x ∧ Runs (x + h.len) hs e

/-- What a huge mapping between `a` and `n` becomes: the file and the identity are those of `n`, the offset is
that of `a` moved by the distance in memory. -/
def between (a n h : MMap) : MMap :=
  { h with
    filename := n.filename, md5 := n.md5
    buildId := n.buildId.orElse fun _ => h.buildId
    pgoff := a.pgoff + (h.start - a.start)
    maj := n.maj.orElse fun _ => h.maj
    min := n.min.orElse fun _ => h.min
    ino := n.ino.orElse fun _ => h.ino
    inoGen := n.inoGen.orElse fun _ => h.inoGen }

/-- Huge mappings that fill the gap between two mappings `a` and `n` of one file, whose offsets fit. -/
structure Fills (a n : MMap) (hs : List MMap) : Prop where
  file : n.filename = a.filename
  notHuge : ¬ HugeName a.filename
  huge : ∃ f, HugeName f ∧ ∀ h ∈ hs, h.filename = f
  nonempty : hs ≠ []
  noOffset : ∀ h ∈ hs, h.pgoff = 0
  pid : ∃ p, a.pid = p ∧ n.pid = p ∧ ∀ h ∈ hs, h.pid = p
  runs : Runs (a.start + a.len) hs n.start
  offset : n.pgoff = a.pgoff + (n.start - a.start)
  bounds : n.start < 2 ^ 64 ∧ n.pgoff < 2 ^ 64

/-- The mappings of the process, with the sizes of their events. -/
def mapsOf (k : Nat) (es : List Ev) : List Item :=
  es.filterMap (fun e => e.mmap.bind fun m => if m.key = k then some (m, e.size) else none)

/-- A name the kernel gives to anonymous huge pages. -/
def AnonName (f : List UInt8) : Prop :=
  f = ascii "//anon" ∨ f = ascii "/anon_hugepage" ∨ f = ascii "/anon_hugepage (deleted)"

end Verif.HugePages
