import Verif.Whole.Spec
import Verif.Converter.Model
import Verif.Base.Lists

/-!
# Specification: what the profile shows of a sample

Told from the records of the recording alone. A history is a list of records, newest first.
-/

namespace Verif.Whole
open Verif.Serial (Msg Body)

/-! ## Mappings -/

/-- The mapping a record tells of: one of a process, or that of a BPF program in the kernel. -/
def areaOf (m : Msg) : Option Serial.MMap :=
  match m.body with
  | .mmap b => some b
  | .ksymbol k =>
    if k.ksymType = 1 ∧ k.flags = 0 then some { pid := 2 ^ 32 - 1, start := k.addr, len := k.len, filename := k.name } else none
  | _ => none

/-- The first address of a mapping. Old kernels tell of themselves as starting near 0 with the address of their text as the
offset. -/
def firstOf (b : Serial.MMap) : Nat :=
  if b.start ≤ 2 ^ 63 ∧ b.pgoff > 2 ^ 63 ∧ b.start + b.len > 2 ^ 63 then b.pgoff / 4096 * 4096 else b.start

/-- A mapping has a name, or it is not where programs used to be loaded: one there without a name gets that of a file which its process maps behind
it. -/
def Nameable (b : Serial.MMap) : Prop := b.filename ≠ [] ∨ b.start ≠ 0x400000

instance (b : Serial.MMap) : Decidable (Nameable b) := inferInstanceAs (Decidable (_ ∨ _))

/-- Does a mapping cover an address? -/
def coversOf (b : Serial.MMap) (x : Nat) : Bool := decide (b.len ≠ 0 ∧ firstOf b ≤ x ∧ x < b.start + b.len)

/-- The child, if the record tells of a new process, and its parent. -/
def forkOf (m : Msg) : Option (Nat × Nat) :=
  match m.body with
  | .fork f => some (f.pid, f.ppid)
  | _ => none

/-- Has the process any mapping? -/
def hasArea : List Msg → Nat → Bool
  | [], _ => false
  | m :: h, pid =>
    (match areaOf m with | some b => b.pid == pid && b.len != 0 | none => false) ||
    (match forkOf m with | some (child, parent) => pid == child && hasArea h parent | none => false) || hasArea h pid

/-- The mapping of a process at an address: the newest that covers it; a new process has those of its parent, if the parent has any. -/
def areaAt : List Msg → Nat → Nat → Option Serial.MMap
  | [], _, _ => none
  | m :: h, pid, x =>
    match forkOf m with
    | some (child, parent) => if pid = child ∧ hasArea h parent then areaAt h parent x else areaAt h pid x
    | none =>
      match areaOf m with
      | some b => if b.pid = pid ∧ coversOf b x then some b else areaAt h pid x
      | none => areaAt h pid x

/-- Where code runs. -/
inductive Mode where
  | unknown | kernel | user | other
deriving DecidableEq, Repr

/-- The mode of a sample. -/
def modeOf (misc : Nat) : Mode :=
  if misc % 8 = 1 then .kernel else if misc % 8 = 2 then .user
  else if misc % 8 = 3 ∨ misc % 8 = 4 ∨ misc % 8 = 5 then .other else .unknown

/-- The mode that a mark in a call chain announces: the kernel, the user, or a guest or hypervisor. -/
def markOf (a : Nat) : Option Mode :=
  if a = 2 ^ 64 - 128 then some .kernel else if a = 2 ^ 64 - 512 then some .user
  else if a = 2 ^ 64 - 32 ∨ a = 2 ^ 64 - 2176 ∨ a = 2 ^ 64 - 2560 then some .other else none

/-- The mapping of an address in a mode: one of the process, or else, unless it is an address of a user, of the kernel. Addresses of guests
and those that have an 8 as their first digit have none. -/
def areaFor (h : List Msg) (pid a : Nat) (mode : Mode) : Option Serial.MMap :=
  if a / 2 ^ 60 = 8 then none
  else match mode with
    | .other => none
    | .user => areaAt h pid a
    | .unknown | .kernel => (areaAt h pid a).or (areaAt h (2 ^ 32 - 1) a)

/-! ## Stacks -/

/-- An address with its mapping. -/
abbrev Spot := Nat × Option Serial.MMap

/-- An address in its mapping; 0 if it has none. -/
def spotOf (h : List Msg) (pid a : Nat) (mode : Mode) : Spot :=
  match areaFor h pid a mode with
  | some b => (a, some b)
  | none => (0, none)

/-- The entries of a call chain with their mappings. -/
def chainSpots (h : List Msg) (pid : Nat) : Mode → List Nat → List Spot
  | _, [] => []
  | mode, a :: l =>
    match markOf a with
    | some mode' => (a, none) :: chainSpots h pid mode' l
    | none => (a, areaFor h pid a mode) :: chainSpots h pid mode l

/-- The callers: the return addresses in the call chain that have a mapping, each moved into the instruction that called. The last 4095
addresses are marks, and the first entry that is not a mark is the address of the sample itself. If the callers in the process come from the
branch stack, the chain counts up to the mark before them only. -/
def callerSpots (h : List Msg) (s : Serial.SampleEvent) : List Spot :=
  let chain := chainSpots h (s.pid.getD 0) .unknown s.callchain
  let part := if s.branches = [] then chain else chain.takeWhile (fun f => f.1 ≠ 2 ^ 64 - 512)
  ((part.filter (fun f => f.1 ≤ 2 ^ 64 - 4096)).drop 1).filterMap (fun f =>
    f.2.bind (fun b => if firstOf b < f.1 then some (f.1 - 1, some b) else none))

/-- The sources of branches that have a mapping. -/
def branchSpots (h : List Msg) (s : Serial.SampleEvent) : List Spot :=
  s.branches.filterMap (fun r => (areaFor h (s.pid.getD 0) r.fromIp .unknown).map (fun b => (r.fromIp, some b)))

/-- The stack of a sample, the innermost first: the data it accessed, if asked for (`data`), its own address, its callers, and the sources of
its branches. -/
def stackOf (data : Bool) (h : List Msg) (misc : Nat) (s : Serial.SampleEvent) : List Spot :=
  (if data then [match s.addr with | some a => spotOf h (s.pid.getD 0) a (modeOf misc) | none => (0, none)] else []) ++
    spotOf h (s.pid.getD 0) (s.ip.getD 0) (modeOf misc) :: (callerSpots h s ++ branchSpots h s)

/-! ## Time -/

/-- The records in the order in which they are looked at: by time if all events record it, those of the same time as they stand in the
file. -/
def Timeline (attrs : List Attr.ProtoFileAttr) (l t : List Msg) : Prop :=
  ((∀ a ∈ attrs, a.attr.sampleType.testBit 2 = true) ∧ t.Pairwise (fun a b => a.timestamp ≤ b.timestamp) ∧
    ∀ n, t.filter (fun m => m.timestamp = n) = l.filter (fun m => m.timestamp = n)) ∨
  ((∃ a ∈ attrs, a.attr.sampleType.testBit 2 = false) ∧ t = l)

/-- Does the record tell of a mapping of the process at the address? -/
def mapsOver (pid a : Nat) (m : Msg) : Bool :=
  match areaOf m with
  | some b => b.pid == pid && coversOf b a
  | none => false

/-- Does the record tell that the process executes another program? -/
def execOf (pid : Nat) (m : Msg) : Bool :=
  match m.body with
  | .comm c => c.pid == pid && c.tid == pid && m.misc.testBit 13
  | _ => false

/-! ## Profiles -/

/-- A mapping of a profile shows a mapping of the recording. -/
structure ShowsArea (p : Profile.Profile) (m : Profile.Mapping) (b : Serial.MMap) : Prop where
  start : m.memoryStart = firstOf b
  limit : m.memoryLimit = b.start + b.len
  offset : m.fileOffset = b.pgoff
  name : b.filename ≠ [] → p.stringTable[m.filename.toNat]? = some (b.filename.takeWhile (· ≠ 0))
  unnamed : b.filename = [] → p.stringTable[m.filename.toNat]? = some (Normalizer.hexDigits 16 b.filenameMd5)
  buildId : ∀ x, b.buildId = some x → x ≠ [] → p.stringTable[m.buildId.toNat]? = some (x.takeWhile (· ≠ 0))

/-- A mapping that an address of a process is shown in after the records `t` (oldest first), the last of which is a sample: that of a sample of
the process with this address in its stack, the last one or one before it, between which the process has neither mapped anything
there nor executed another program. -/
def Held (attrs : List Attr.ProtoFileAttr) (data : Bool) (t : List Msg) (pid a : Nat) (o : Option Serial.MMap) : Prop :=
  ∃ pre m s post, t = pre ++ m :: post ∧ m.body = .sample s ∧ owner attrs s.id ≠ none ∧ s.pid.getD 0 = pid ∧
    (a, o) ∈ stackOf data pre.reverse m.misc s ∧ (∀ x ∈ post, mapsOver pid a x = false) ∧ ∀ x ∈ post, execOf pid x = false

/-- The address at which lost samples are shown. -/
def lostAddress : Nat := 9 * 2 ^ 60

/-- A location of a profile shows an address of a stack; `shows` tells when a mapping of the profile shows one of the recording. -/
def ShowsSpot (shows : Profile.Profile → Profile.Mapping → Serial.MMap → Prop) (held : Nat → Option Serial.MMap → Prop) (p : Profile.Profile)
    (f : Spot) (id : Nat) : Prop :=
  0 < id ∧ ∃ l, p.location[id - 1]? = some l ∧ l.address = f.1 ∧
    (f.1 = lostAddress ∨ (f.1 = 0 ∧ l.mappingId = 0) ∨ ∃ o, held f.1 o ∧ (o = none → l.mappingId = 0) ∧
      ∀ b, o = some b → 0 < l.mappingId ∧ ∃ m, p.mapping[l.mappingId - 1]? = some m ∧ shows p m b)

end Verif.Whole
