import Verif.Converter.Model

/-!
# Specification of the converter

What the profiles should hold, as a function of the callbacks. A history is a list of callbacks with
the newest first; a log is a history in which every sample that was taken carries the profile sample it
was added to.
-/

namespace Verif.Converter
open Verif.Profile Verif.Builder
open Verif.Normalizer (Bytes Source MapRef Loc BranchPair SampleEv SampleCtx Callback ACtx AttrRec nameOrMd5)

/-- The process of a sample; 0 if it has none. -/
abbrev pidOf (c : SampleCtx) : Nat := c.sample.pid.getD 0

/-- A sample is accepted unless its event is not in the recording, or it is a lost sample and these are
to be dropped. -/
def Accepted (S : Setup) (c : SampleCtx) : Prop :=
  c.attrIndex < S.attrs.length ∧ ¬ (c.lost = true ∧ S.options.testBit 4 = true)

instance (S : Setup) (c : SampleCtx) : Decidable (Accepted S c) := by unfold Accepted; infer_instance

/-! ## Frames -/

/-- An address and the mapping it lies in, if known. -/
abbrev Frame := Nat × Option MapRef

/-- A sample with a branch stack that does not come from ARM SPE: its user call stack is taken from the
branch stack. -/
def LbrSample (c : SampleCtx) : Prop := c.branchStack ≠ [] ∧ c.spe = none

instance (c : SampleCtx) : Decidable (LbrSample c) := by unfold LbrSample; infer_instance

/-- Return addresses used from a call chain: the entries that are not markers (the last 4095 addresses),
without the first one. A return address is shown as the address before it, unless it is not inside its
mapping. For an LBR sample only what comes before the marker of the user part counts. -/
def callers (c : SampleCtx) : List Frame :=
  let part := if LbrSample c then c.callchain.takeWhile (fun f => f.ip ≠ 0xfffffffffffffe00) else c.callchain
  ((part.filter (fun f => f.ip ≤ 0xfffffffffffff000)).drop 1).filterMap (fun f =>
    f.mapping.bind (fun r => if r.mapping.start < f.ip then some (f.ip - 1, some r) else none))

/-- Branch sources used from the branch stack of an LBR sample. -/
def branches (c : SampleCtx) : List Frame :=
  if LbrSample c then c.branchStack.filterMap (fun b =>
    b.from_.mapping.bind (fun r => if r.mapping.start ≤ b.from_.ip then some (b.from_.ip, some r) else none))
  else []

/-- The instruction pointer, 0 when it is in no mapping. -/
def leaf (c : SampleCtx) : Frame := (if c.sampleMap = none then 0 else c.sample.ip, c.sampleMap)

/-- The frames that come from code. -/
def codeFrames (c : SampleCtx) : List Frame := leaf c :: (callers c ++ branches c)

/-- The stack of a sample, innermost frame first; with the option `kAddDataAddressFrames` the accessed
data address comes first. -/
def frames (S : Setup) (c : SampleCtx) : List Frame :=
  (if S.options.testBit 3 then [(if c.addrMap = none then 0 else c.sample.addr.getD 0, c.addrMap)] else []) ++
    codeFrames c

/-! ## Labels -/

/-- The name of a thread: that of the last comm event for it, forgotten when its process executes a
program. -/
def commAt : List Callback → Nat → Nat → Bytes
  | [], _, _ => []
  | .comm c isExec :: h, pid, tid =>
    if c.pid = pid then
      if c.tid = tid then nameOrMd5 c.comm c.md5 else if isExec then [] else commAt h pid tid
    else commAt h pid tid
  | .mmap _ _ :: h, pid, tid => commAt h pid tid
  | .sample _ :: h, pid, tid => commAt h pid tid

/-- The contents of a label: a text, or a number and its unit. -/
inductive LabelText where
  | str (s : Bytes)
  | num (n : Int) (unit : Bytes)
deriving DecidableEq, Repr

/-- A text label; the text ends at the first zero byte and an empty one is left out. -/
def textLabel (s : Bytes) : Option LabelText :=
  if s.takeWhile (· ≠ 0) = [] then none else some (.str (s.takeWhile (· ≠ 0)))

/-- A number that is left out when it is zero. -/
def numLabel (n : Nat) (unit : String) : Option LabelText := if n = 0 then none else some (.num n (ascii unit))

/-- The execution modes by the low three bits of the flags. -/
def modeTable : List (Nat × String) :=
  [(1, "Host Kernel"), (2, "Host User"), (3, "Hypervisor"), (4, "Guest Kernel"), (5, "Guest User")]

/-- The levels of the memory hierarchy by bits of the data source, in the order they are tried. -/
def levelTable : List (List Nat × String) :=
  [([8], "L1"), ([9], "LFB"), ([10], "L2"), ([11], "Local L3"), ([12], "Local DRAM"),
   ([13, 14], "Remote DRAM"), ([15], "Near L3"), ([16], "Far L3"), ([17], "IO Memory"),
   ([18], "Uncached Memory")]

/-- The snoop states by bits of the data source, in the order they are tried. -/
def snoopTable : List (List Nat × String) := [([20], "None"), ([21], "Hit"), ([22], "Miss"), ([23], "HitM")]

/-- The first entry of a table one of whose bits is set. -/
def byBits (t : List (List Nat × String)) (v : Nat) (otherwise : String) : Bytes :=
  ascii (((t.find? (fun e => e.1.any (fun b => v.testBit b))).map (·.2)).getD otherwise)

/-- The memory level that was hit, if one was. -/
def levelLabel (v : Nat) : Option LabelText :=
  if v.testBit 6 then some (.str (byBits levelTable v "Unknown Level")) else none

/-- The total latency of a sample: from the SPE record, else the second weight, else the weight. -/
def latencyOf (c : SampleCtx) : Nat :=
  match c.spe, c.sample.weightStruct, c.sample.weight with
  | some r, _, _ => r.totalLat
  | none, some (_, some w), _ => w
  | none, _, some w => w
  | none, _, none => 0

/-- The labels a sample can have, by the bit of `sample_labels` that asks for it, with their contents. -/
def labelFields (S : Setup) (h : List Callback) (c : SampleCtx) : List (Nat × String × Option LabelText) :=
  [ (0, "pid", c.sample.pid.map (fun p => .num p [])),
    (1, "tid", c.sample.tid.map (fun t => .num t [])),
    (4, "comm", c.sample.pid.bind (fun p => textLabel (commAt h p p))),
    (2, "timestamp_ns", c.sample.timeNs.map (fun t => .num t [])),
    (3, "execution_mode", c.misc.bind (fun m => (modeTable.lookup (m % 8)).map (fun s => .str (ascii s)))),
    (5, "thread_type", c.sample.tid.bind (fun t => (S.threadTypes.lookup t).bind textLabel)),
    (6, "thread_comm", c.sample.pid.bind (fun p => c.sample.tid.bind (fun t => textLabel (commAt h p t)))),
    (7, "cgroup", c.cgroup.bind textLabel),
    (8, "code_page_size", numLabel (c.sample.codePageSize.getD 0) ""),
    (9, "data_page_size", numLabel (c.sample.dataPageSize.getD 0) ""),
    (10, "cpu", c.sample.cpu.map (fun n => .num n (ascii "cpu"))),
    (11, "cache_latency", numLabel ((c.sample.weightStruct.bind (·.1)).getD 0) "cycles"),
    (12, "data_src", c.sample.dataSrc.bind levelLabel),
    (12, "snoop_status", c.sample.dataSrc.map (fun v => .str (byBits snoopTable v "Unknown Status"))),
    (13, "total_latency", numLabel (latencyOf c) "cycles"),
    (14, "issue_latency", numLabel ((c.spe.map (·.issueLat)).getD 0) "cycles"),
    (15, "translation_latency", numLabel ((c.spe.map (·.translationLat)).getD 0) "cycles") ]

/-- The labels of a sample: those asked for that it has. -/
def labelsOf (S : Setup) (h : List Callback) (c : SampleCtx) : List (Bytes × LabelText) :=
  (labelFields S h c).filterMap (fun f => if S.labels.testBit f.1 then f.2.2.map (ascii f.2.1, ·) else none)

/-- The numbers of a sample fit the types they are shown in. -/
structure Fits (c : SampleCtx) : Prop where
  time : ∀ t, c.sample.timeNs = some t → t < 2 ^ 63
  weight : ∀ w, c.sample.weight = some w → w < 2 ^ 32
  code : ∀ n, c.sample.codePageSize = some n → n < 2 ^ 63
  data : ∀ n, c.sample.dataPageSize = some n → n < 2 ^ 63
  cache : ∀ n, c.sample.weightStruct.bind (·.1) = some n → n < 2 ^ 63

/-- Not one of the two numbers is left out and the other zero. -/
def Unmixed (x y : Option Nat) : Prop := x.getD 0 = 0 → y.getD 0 = 0 → x.isSome = y.isSome

/-- Of the fields that labels are asked for, none is left out in one of two samples and zero in the other. -/
structure SamePresence (labels : Nat) (c c' : SampleCtx) : Prop where
  pid : labels.testBit 0 = true → Unmixed c.sample.pid c'.sample.pid
  tid : labels.testBit 1 = true → Unmixed c.sample.tid c'.sample.tid
  time : labels.testBit 2 = true → Unmixed c.sample.timeNs c'.sample.timeNs
  cpu : labels.testBit 10 = true → Unmixed c.sample.cpu c'.sample.cpu

/-- A label of a profile, its strings looked up. -/
def readLabel (p : Profile) (l : Label) : Option (Bytes × LabelText) := do
  let key ← p.stringTable[l.key.toNat]?
  if l.str ≠ 0 then
    let s ← p.stringTable[l.str.toNat]?
    return (key, .str s)
  else
    let u ← p.stringTable[l.numUnit.toNat]?
    return (key, .num l.num u)

/-! ## Profiles -/

/-- The address a frame of a profile sample shows. -/
def addressAt (p : Profile) (id : Nat) : Option Nat :=
  if id = 0 then none else (p.location[id - 1]?).map (·.address)

/-- A mapping of a profile shows a mapping of a process: same range, same offset, its name (or the digest of
the name when there is none) and its build ID. -/
def ShowsMapping (p : Profile) (m : Profile.Mapping) (mp : Normalizer.Mapping) : Prop :=
  m.memoryStart = mp.start ∧ m.memoryLimit = mp.limit ∧ m.fileOffset = mp.fileOffset ∧
  p.stringTable[m.filename.toNat]? = some ((nameOrMd5 mp.filename mp.md5).takeWhile (· ≠ 0)) ∧
  p.stringTable[m.buildId.toNat]? = some (mp.buildId.value.takeWhile (· ≠ 0))

/-- The weight of a sample: its period, else the period of its event, else 1. -/
def weightOf (S : Setup) (c : SampleCtx) : Nat :=
  let attr := ((S.attrs[c.attrIndex]?).map (·.samplePeriod)).getD 0
  if 0 < c.sample.period then c.sample.period else if 0 < attr then attr else 1

/-- An event without a name. -/
def anonymous (S : Setup) (i : Nat) : Bool :=
  if S.attrs.length = S.eventTypes.length then ((S.eventTypes[i]?).bind id).isNone else true

/-- The prefix of the two sample types of an event: its name, or its number among those without a name. -/
def eventPrefix (S : Setup) (i : Nat) : Bytes :=
  if anonymous S i then ascii "event_" ++ decimal ((List.range i).filter (anonymous S)).length ++ ascii "_"
  else ((S.eventTypes[i]?).bind id).getD [] ++ ascii "_"

/-- The names of the sample types of an event, up to the first zero byte. -/
def typeNames (S : Setup) (i : Nat) : List Bytes :=
  [(eventPrefix S i ++ ascii "sample").takeWhile (· ≠ 0), (eventPrefix S i ++ ascii "event").takeWhile (· ≠ 0)]

/-- A string of a profile. -/
def textAt (p : Profile) (i : Int) : Option Bytes := p.stringTable[i.toNat]?

/-- The comments of a profile. -/
def commentsOf (S : Setup) : List Bytes :=
  (S.perfVersion.map (fun v => (ascii "perf-version:" ++ v).takeWhile (· ≠ 0))).toList ++
  (S.commandLine.map (fun v => (ascii "perf-command:" ++ v).takeWhile (· ≠ 0))).toList

/-- The accepted samples of a list of callbacks. -/
def acceptedSamples (S : Setup) (cbs : List Callback) : List SampleCtx :=
  cbs.filterMap (fun cb => match cb with
    | .sample c => if Accepted S c then some c else none
    | _ => none)

/-- The accepted samples of a log, with the profile sample each was added to. -/
def placed (L : Log) : List (SampleCtx × Slot) :=
  L.filterMap (fun e => match e with
    | (.sample c, some s) => some (c, s)
    | _ => none)

/-- The frames of a profile sample. -/
def stackAt (ps : List ProcessProfile) (s : Slot) : Option (List Nat) :=
  (ps[s.1]?).bind (fun p => (p.data.sample[s.2]?).map (·.locationId))

/-- The non-zero time stamps of the samples in a profile. -/
def timesIn (L : Log) (i : Nat) : List Nat :=
  (((placed L).filter (fun p => decide (p.2.1 = i))).map (fun p => p.1.sample.timeNs.getD 0)).filter (· ≠ 0)

/-- The history of a log. -/
def hist (L : Log) : List Callback := L.map (·.1)

/-- There is an exec of the process among these callbacks. -/
def execs (h : List Callback) (pid : Nat) : Bool :=
  h.any (fun cb => match cb with
    | .comm c isExec => isExec && c.pid == pid
    | _ => false)

/-- There is a new mapping of the process over the address among these callbacks. -/
def remaps (h : List Callback) (pid addr : Nat) : Bool :=
  h.any (fun cb => match cb with
    | .mmap p m => p == pid && decide (m.mapping.start ≤ addr) && decide (addr < m.mapping.limit)
    | _ => false)

/-- With one profile for all processes, process 0 never executes a program. -/
def Sane (S : Setup) (h : List Callback) : Prop := S.options.testBit 0 = true ∨ execs h 0 = false

/-! ## Where things come from -/

/-- The source of the build ID of a frame's mapping. -/
def srcOf (r : Option MapRef) : Source :=
  match r with
  | some r => r.mapping.buildId.source
  | none => .noMmap

/-- All sources of build IDs. -/
def sources : List Source :=
  [.unknown, .mmapSame, .mmapDiff, .filename, .injected, .ambiguous, .kernelPrefix, .missing, .noMmap]

/-- Where the mapping of a frame of a process at an address can come from: a frame of an accepted sample
of the process at that address with neither an exec of the process nor a new mapping there since. -/
def Src (S : Setup) (L : Log) (P a : Nat) (r : Option MapRef) : Prop :=
  ∃ A c slot B, L = A ++ (.sample c, some slot) :: B ∧ pidOf c = P ∧ (a, r) ∈ frames S c ∧
    execs (hist A) P = false ∧ remaps (hist A) P a = false

/-- The mappings used in a recording, by pointer. -/
def Known (S : Setup) (cbs : List Callback) (ptr : Nat) (mp : Normalizer.Mapping) : Prop :=
  ∃ c, .sample c ∈ cbs ∧ ∃ x : MapRef, (c.main = some x ∨ ∃ f ∈ frames S c, f.2 = some x) ∧ x.ptr = ptr ∧ x.mapping = mp

/-! ## Sensible input -/

/-- An address is in its mapping, or has none, or is 0. -/
def AddrOk (addr : Nat) (r : Option MapRef) : Prop :=
  ∀ m, r = some m → addr ≠ 0 → m.mapping.start ≤ addr ∧ addr < m.mapping.limit

/-- A mapping does not end before it starts. -/
def RangeOk (r : Option MapRef) : Prop := ∀ x, r = some x → x.mapping.start ≤ x.mapping.limit

/-- What a sample must satisfy: its mappings do not end before they start, and its instruction pointer (and
the data address, when shown) is 0, in no mapping or within its mapping. -/
structure SampleOk (S : Setup) (c : SampleCtx) : Prop where
  main : RangeOk c.main
  refs : ∀ f ∈ frames S c, RangeOk f.2
  ip : AddrOk c.sample.ip c.sampleMap
  addr : S.options.testBit 3 = true → AddrOk (c.sample.addr.getD 0) c.addrMap

end Verif.Converter
