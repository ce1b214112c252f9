import Verif.Serial.Model

/-!
# Specification: what is counted in a recording

Told from the records alone. A history is a list of records, newest first.
-/

namespace Verif.Whole
open Verif.Serial (Msg)

/-- Is it a mapping of the kernel? -/
def kernelMap (m : Msg) : Bool :=
  match m.body with
  | .mmap _ => m.misc % 8 == 1
  | _ => false

/-- The addresses of a mapping, from the first to the one after the last: those that the record tells. Only the first mapping of the kernel starts at
its offset, if that is one of its addresses. -/
def placeOf (h : List Msg) (m : Msg) (b : Serial.MMap) : Nat × Nat :=
  if kernelMap m ∧ h.any kernelMap = false ∧ b.start < b.pgoff ∧ b.pgoff < b.start + b.len then (b.pgoff, b.start + b.len)
  else (b.start, b.start + b.len)

/-- Does the record tell of the process: a sample, a mapping or a name of it, or its birth from another one? -/
def mentions (p : Nat) (m : Msg) : Bool :=
  match m.body with
  | .sample s => s.pid.getD 0 == p
  | .mmap b => b.pid == p
  | .comm c => c.pid == p
  | .fork f => f.pid == p && f.ppid != p
  | _ => false

/-- Does what happens to the process `q` happen to `p` too? It does if they are the same, and if `q` is the kernel and `p` has not been mentioned. -/
def concerns (h : List Msg) (p q : Nat) : Bool := p == q || (q == 2 ^ 32 - 1 && !h.any (mentions p))

/-- What is left of older addresses under new ones: all if they do not meet, both ends if the new ones are inside, and else nothing. -/
def left (new old : Nat × Nat) : List (Nat × Nat) :=
  if old.2 ≤ new.1 ∨ new.2 ≤ old.1 then [old]
  else if old.1 ≤ new.1 ∧ new.2 ≤ old.2 ∧ new.2 - new.1 < old.2 - old.1 then
    (if old.1 < new.1 then [(old.1, new.1)] else []) ++ (if new.2 < old.2 then [(new.2, old.2)] else [])
  else []

/-- The addresses of a process that belong to mappings. A process that is born has those of its parent. -/
def places : List Msg → Nat → List (Nat × Nat)
  | [], _ => []
  | m :: h, p =>
    match m.body with
    | .mmap b => if concerns h p b.pid then (places h p).flatMap (left (placeOf h m b)) ++ [placeOf h m b] else places h p
    | .fork f =>
      if f.ppid ≠ f.pid ∧ concerns h p f.pid = true ∧ h.any (mentions f.pid) = false then places h f.ppid else places h p
    | _ => places h p

/-- Does the address of a process belong to a mapping? -/
def reached (h : List Msg) (p a : Nat) : Bool := (places h p).any (fun r => decide (r.1 ≤ a ∧ a < r.2))

/-- An entry of a branch stack that is not used. -/
def unused (b : Serial.Branch) : Bool := b.fromIp == 0 && b.toIp == 0

/-- The addresses of code in a sample: its own, those of its call chain that are not marks, and those of its branches. -/
def codeIn (s : Serial.SampleEvent) : List Nat :=
  s.ip.getD 0 :: (s.callchain.filter (fun a => decide (a < 2 ^ 64 - 4095)) ++
    (s.branches.takeWhile (fun b => !unused b)).flatMap (fun b => [b.fromIp, b.toIp]))

/-- Do all addresses of code in a sample belong to mappings? Branches must stand before all entries that are not used. -/
def covered (h : List Msg) (s : Serial.SampleEvent) : Bool :=
  (s.branches.dropWhile (fun b => !unused b)).all unused && (codeIn s).all (reached h (s.pid.getD 0))

/-- The number of samples all of whose addresses of code belong to mappings. -/
def coveredIn : List Msg → Nat
  | [] => 0
  | m :: h =>
    match m.body with
    | .sample s => coveredIn h + if covered h s then 1 else 0
    | _ => coveredIn h

/-- The data address of a record, if it is a sample that has one. -/
def dataAddress (m : Msg) : Option (Nat × Nat) :=
  match m.body with
  | .sample s => (s.addr.filter (· ≠ 0)).map fun a => (s.pid.getD 0, a)
  | _ => none

/-- The number of samples whose data addresses belong to mappings. -/
def dataCoveredIn : List Msg → Nat
  | [] => 0
  | m :: h =>
    match dataAddress m with
    | some (p, a) => dataCoveredIn h + if reached h p a then 1 else 0
    | none => dataCoveredIn h

def sampleRecord (m : Msg) : Bool := match m.body with | .sample _ => true | _ => false
def mapRecord (m : Msg) : Bool := match m.body with | .mmap _ => true | _ => false
def forkRecord (m : Msg) : Bool := match m.body with | .fork _ => true | _ => false
def exitRecord (m : Msg) : Bool := match m.body with | .exit _ => true | _ => false
def commRecord (m : Msg) : Bool := match m.body with | .comm _ => true | _ => false
def ksymbolRecord (m : Msg) : Bool := match m.body with | .ksymbol _ => true | _ => false

end Verif.Whole
