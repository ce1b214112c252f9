import Verif.Normalizer.Model
import Verif.Base.Lists

/-!
# Specification of the normalizer

The mapping a sample should be given, told from the history of events alone.
-/

namespace Verif.Normalizer

/-- The first address an mmap event covers. Old kernels report the kernel as starting near 0 with the
address of its text as the offset: it then starts at the page of that address. -/
def MMapEv.first (m : MMapEv) : Nat :=
  if m.start ≤ 2 ^ 63 ∧ m.pgoff > 2 ^ 63 ∧ m.start + m.len > 2 ^ 63 then m.pgoff / 4096 * 4096 else m.start

/-- Does an mmap event cover an address? -/
def MMapEv.covers (m : MMapEv) (x : Nat) : Bool :=
  decide (m.len ≠ 0 ∧ m.first ≤ x ∧ x < m.start + m.len)

/-- The numbers are within their types. -/
def MMapEv.Typed (m : MMapEv) : Prop :=
  m.pid < 2 ^ 32 ∧ m.start < 2 ^ 64 ∧ m.len < 2 ^ 64 ∧ m.pgoff < 2 ^ 64

/-- The event covers a non-empty range that ends below `2^64` (an event of length 0 is ignored). -/
def MMapEv.Fits (m : MMapEv) : Prop :=
  m.len = 0 ∨ (m.start + m.len < 2 ^ 64 ∧ m.first < m.start + m.len)

instance (m : MMapEv) : Decidable m.Fits := inferInstanceAs (Decidable (_ ∨ _))

/-- The mapping an event announces: an mmap event, or the registration of a BPF program in the kernel. -/
def Ev.mapping : Ev → Option MMapEv
  | .mmap m => some m
  | .ksymbol type flags addr len name =>
    if type = 1 ∧ flags = 0 then
      some { pid := 2 ^ 32 - 1, start := addr, len := len, pgoff := 0, filename := name }
    else none
  | _ => none

/-- The numbers in an event are within their types. -/
def Ev.Typed (e : Ev) : Prop := ∀ m, e.mapping = some m → m.Typed

/-- Has the process any mapping? The history is given newest first. -/
def mapped : List Ev → Nat → Bool
  | [], _ => false
  | .fork child parent _ :: es, pid => mapped es pid || (pid == child && mapped es parent)
  | e :: es, pid =>
    match e.mapping with
    | some m => (m.pid == pid && m.len != 0) || mapped es pid
    | none => mapped es pid

/-- The mapping that a process has at an address after a history (newest first): the newest that covers
the address; a new process starts with the mappings of its parent if it has any. -/
def newest : List Ev → Nat → Nat → Option MMapEv
  | [], _, _ => none
  | .fork child parent _ :: es, pid, x =>
    if pid = child ∧ mapped es parent then newest es parent x else newest es pid x
  | e :: es, pid, x =>
    match e.mapping with
    | some m => if m.pid = pid ∧ m.covers x then some m else newest es pid x
    | none => newest es pid x

/-- The mapping an address should be given: none for an address marked as unmapped (`8` in the top four bits) or
from a guest or hypervisor; else the newest mapping of the process, and, unless the address is known to be a
user's, the newest mapping of the kernel. -/
def expected (es : List Ev) (pid ip : Nat) (ctx : ACtx) : Option MMapEv :=
  if ip / 2 ^ 60 = 8 then none
  else match ctx with
    | .guestKernel | .guestUser | .hypervisor => none
    | .hostUser => newest es pid ip
    | .unknown | .hostKernel => (newest es pid ip).or (newest es (2 ^ 32 - 1) ip)

/-- A mapping object describes an mmap event. The name of a mapping is kept, but an empty name of a mapping
at `0x400000` may have been filled in. -/
structure Describes (ids : Ids) (r : Mapping) (m : MMapEv) : Prop where
  first : r.start = m.first
  limit : r.limit = m.start + m.len
  offset : r.fileOffset = m.pgoff
  md5 : r.md5 = m.md5
  name : r.filename = m.filename ∨ (m.filename = [] ∧ m.start = 0x400000)
  buildId : getBuildId ids m = some r.buildId

/-- A reported mapping is the expected one. -/
def Shows (ids : Ids) : Option MapRef → Option MMapEv → Prop
  | none, none => True
  | some r, some m => Describes ids r.mapping m
  | _, _ => False

/-- The context in force at each frame of a call chain: the last marker before it. -/
def frameContexts : ACtx → List Nat → List (Nat × Option ACtx)
  | _, [] => []
  | c, ip :: t =>
    if contextFromCallchain ip = .unknown then (ip, some c) :: frameContexts c t
    else (ip, none) :: frameContexts (contextFromCallchain ip) t

/-- The path of a cgroup: that of the first event that announced it. The history is given newest first. -/
def cgroupPath : List Ev → Nat → Option Bytes
  | [], _ => none
  | .cgroup i path :: es, id => (cgroupPath es id).or (if i = id then some path else none)
  | _ :: es, id => cgroupPath es id

/-- What a reported sample looks like, given the history before it. -/
structure Reported (cfg : Config) (es : List Ev) (hm : Option Nat) (s : SampleEv) (rc : Option Spe.Record)
    (idx : Nat) (c : SampleCtx) : Prop where
  sample : c.sample = s
  misc : c.misc = hm
  index : c.attrIndex = idx
  lost : c.lost = false
  spe : c.spe = rc
  cgroup : c.cgroup = s.cgroup.bind (cgroupPath es)
  ip : Shows cfg.ids c.sampleMap (expected es (s.pid.getD 0) s.ip (contextFromHeader hm))
  addr : Shows cfg.ids c.addrMap (s.addr.bind (fun a => expected es (s.pid.getD 0) a (contextFromHeader hm)))
  chain : All₂ (fun l f => l.ip = f.1 ∧ Shows cfg.ids l.mapping (match f.2 with
      | some ctx => expected es (s.pid.getD 0) f.1 ctx | none => none))
    c.callchain (frameContexts .unknown s.callchain)
  branches : ∃ bs sb, c.branchStack = bs ++ sb ∧
    All₂ (fun l (b : BranchEv) => l.from_.ip = b.fromIp ∧ l.to.ip = b.toIp ∧
        l.mispredicted = b.mispredicted ∧ l.predicted = b.predicted ∧ l.inTransaction = b.inTransaction ∧
        l.abort = b.abort ∧ l.cycles = b.cycles ∧ l.spec = b.spec ∧
        Shows cfg.ids l.from_.mapping (expected es (s.pid.getD 0) b.fromIp .unknown) ∧
        Shows cfg.ids l.to.mapping (expected es (s.pid.getD 0) b.toIp .unknown)) bs s.branchStack ∧
    (∀ b ∈ sb, ∃ r, rc = some r ∧ r.tgtBrIp.addr ≠ 0 ∧ b.from_.ip = s.ip ∧ b.from_.mapping = c.sampleMap ∧
      b.to.ip = r.tgtBrIp.addr ∧ b.mispredicted = r.event.brMisPred ∧
      Shows cfg.ids b.to.mapping (expected es (s.pid.getD 0) r.tgtBrIp.addr (contextFromHeader hm)))

/-- Did the history contain an mmap event of the process? -/
def hadMmapEvent (es : List Ev) (pid : Nat) : Bool :=
  es.any (fun e => match e with | .mmap m => m.pid == pid | _ => false)

/-- Does a comm event stand for an `exec`? It names a process, and either the kernel does not tell, or it tells so,
or the process has had no mmap event. -/
def ExecComm (cfg : Config) (es : List Ev) (misc : Nat) (c : CommEv) : Prop :=
  c.pid = c.tid ∧ (cfg.commExec = false ∨ misc.testBit 13 = true ∨ hadMmapEvent es c.pid = false)

/-- The report of an mmap event. -/
def ReportsMmap (cfg : Config) (m : MMapEv) (cbs : List Callback) : Prop :=
  if m.len = 0 then cbs = []
  else ∃ r, cbs = [.mmap m.pid r] ∧ Describes cfg.ids r.mapping m ∧ r.mapping.filename = m.filename

/-- The report of a loss: one sample for each lost one, marked as lost, at a reserved address, in a mapping named
`[lost]`. -/
def ReportsLost (cfg : Config) (l : LostEv) (cbs : List Callback) : Prop :=
  match eventIndexFor cfg (some l.id) with
  | none => cbs = []
  | some idx => ∃ r, cbs = List.replicate l.num (.sample
      { sample := { id := some l.id, pid := some l.pid, tid := some l.tid, ip := 0x9000000000000000 }, sampleMap := some r,
        attrIndex := idx, lost := true }) ∧ r.mapping.filename = ascii "[lost]" ∧ r.mapping.buildId.value = []

/-- The report of a sample. -/
def ReportsSample (cfg : Config) (es : List Ev) (misc : Option Nat) (s : SampleEv) (cbs : List Callback) : Prop :=
  match eventIndexFor cfg s.id with
  | none => cbs = []
  | some idx => ∃ c, cbs = [.sample c] ∧ Reported cfg es misc s none idx c

/-- The sample an SPE record stands for: its context is the thread; the thread's process is the one that the comm and
fork events name. -/
def recordSample (cfg : Config) (r : Spe.Record) : SampleEv :=
  { tid := some r.context.id, ip := r.ip.addr, pid := some (if r.context.id = 0 then 0 else (cfg.tidToPid r.context.id).getD 0) }

/-- The report of trace data: a sample for each record, attributed to the first event. -/
def ReportsTrace (cfg : Config) (es : List Ev) : Option Bytes → List Callback → Prop
  | none, cbs => cbs = []
  | some data, cbs =>
    ∃ rs d, Spe.decodeAll (data.length + 1) { buf := data, base := cfg.traceBase } {} = some (rs, d) ∧
      All₂ (fun cb r => ∃ c, cb = .sample c ∧ Reported cfg es none (recordSample cfg r) (some r) 0 c) cbs rs

/-- What the handler is told about an event, given the history before it (newest first). -/
def Reports (cfg : Config) (es : List Ev) (e : Ev) (cbs : List Callback) : Prop :=
  match e with
  | .mmap m => ReportsMmap cfg m cbs
  | .ksymbol type flags addr len name =>
    if type = 1 ∧ flags = 0 then
      ReportsMmap cfg { pid := 2 ^ 32 - 1, start := addr, len := len, pgoff := 0, filename := name } cbs
    else cbs = []
  | .comm misc c => ∃ b, cbs = [.comm c b] ∧ (b = true ↔ ExecComm cfg es misc c)
  | .lostSamples l => if cfg.useLostSample then ReportsLost cfg l cbs else cbs = []
  | .lost l => if cfg.useLostSample then cbs = [] else ReportsLost cfg l cbs
  | .sample misc s => ReportsSample cfg es misc s cbs
  | .auxtrace data => if cfg.hasSpe then ReportsTrace cfg es data cbs else cbs = []
  | _ => cbs = []

/-- The events of a history are reported one after the other. -/
def ReportsAll (cfg : Config) : List Ev → List Ev → List Callback → Prop
  | _, [], cbs => cbs = []
  | past, e :: es, cbs => ∃ c cs, cbs = c ++ cs ∧ Reports cfg past e c ∧ ReportsAll cfg (e :: past) es cs

/-! ## The ideal history -/

/-- Is the event an `exec` of a process? -/
def Ev.execs (pid : Nat) : Ev → Bool
  | .comm misc c => c.pid == pid && c.tid == pid && misc.testBit 13
  | _ => false

/-- The mappings a process really has: a fork gives the child exactly the mappings of its parent, and `exec`
drops those of the process. -/
def ideal : List Ev → Nat → Nat → Option MMapEv
  | [], _, _ => none
  | .fork child parent _ :: es, pid, x => if pid = child then ideal es parent x else ideal es pid x
  | e :: es, pid, x =>
    if e.execs pid then none
    else match e.mapping with
      | some m => if m.pid = pid ∧ m.covers x then some m else ideal es pid x
      | none => ideal es pid x

/-- The history has no `exec` of a process with mappings, and no fork from a process without mappings to a
process number with mappings. -/
def Plain : List Ev → Prop
  | [] => True
  | e :: es => Plain es ∧ (∀ pid, e.execs pid = true → mapped es pid = false) ∧
      (∀ c p t, e = .fork c p t → mapped es c = true → mapped es p = true)

/-! ## Build IDs -/

/-- The last of some records with a name. -/
def lastNamed (recs : List BuildIdRec) (name : Bytes) : Option BuildIdRec :=
  recs.reverse.find? (fun r => nameOrMd5 r.filename r.md5 == name)

/-- The build ID of the kernel: that of the first record, not empty, that was made in kernel mode for something
other than a module. -/
def kernelId (recs : List BuildIdRec) : Bytes :=
  match recs.find? (fun r => decide (r.hash ≠ [] ∧ r.misc % 8 = 1) &&
      (isKernelNonModuleName (nameOrMd5 r.filename r.md5) ||
        !(ascii ".ko").isSuffixOf (nameOrMd5 r.filename r.md5))) with
  | some r => hexOf r.hash
  | none => []

/-! ## The main mapping of a process -/

/-- A file name that may be that of a main executable: not of a kernel module, a shared object, a virtual mapping, a Java
archive or the kernel. -/
def MainName (name : Bytes) : Prop :=
  ¬ ((∃ x, name = x ++ ascii ".ko") ∨ (∃ x, name = x ++ ascii ".so") ∨
     (∃ x c y z, x ≠ [] ∧ (c = 46 ∨ c = 95 ∨ c = 32) ∧ name = x ++ ascii ".so" ++ (c :: y) ++ ascii "(deleted)" ++ z) ∨
     (∃ x y, x ≠ [] ∧ name = x ++ ascii ".so." ++ y) ∨
     (∃ x, name = ascii "//" ++ x) ∨ ((∃ x, name = ascii "[" ++ x) ∧ ∃ x, name = x ++ ascii "]") ∨
     (∃ x, name = ascii "/memfd:" ++ x) ∨ (∃ x, name = ascii "[anon:" ++ x) ∨
     (∃ x, name = x ++ ascii "/classes.jsa") ∨ (∃ x, name = ascii "[kernel.kallsyms]" ++ x))

/-- A mapping becomes the main mapping of its process if it starts where executables are loaded, or if there is none yet
and its name allows it; a mapping of the kernel's text becomes the kernel's. -/
def TakesOver (m : MMapEv) (current : Option MMapEv) : Prop :=
  m.first = 0x8048000 ∨ m.first = 0x400000 ∨ (current = none ∧ MainName m.filename) ∨
  (m.pid = 2 ^ 32 - 1 ∧ ∃ x, m.filename = ascii "[kernel.kallsyms]" ++ x)

open Classical in
/-- The main mapping of a process after a history (newest first): a new process has that of its parent, an `exec` forgets
it. -/
noncomputable def mainOf (cfg : Config) : List Ev → Nat → Option MMapEv
  | [], _ => none
  | .fork child parent _ :: es, pid => if pid = child then (mainOf cfg es parent).or (mainOf cfg es pid) else mainOf cfg es pid
  | .comm misc c :: es, pid => if pid = c.pid ∧ ExecComm cfg es misc c then none else mainOf cfg es pid
  | e :: es, pid =>
    match e.mapping with
    | some m => if pid = m.pid ∧ m.len ≠ 0 ∧ TakesOver m (mainOf cfg es pid) then some m else mainOf cfg es pid
    | none => mainOf cfg es pid

/-- The command name of a process: the last one given to its main thread, or its parent's when it was forked. -/
def commOf : List Ev → Nat → Option CommEv
  | [], _ => none
  | .fork child parent _ :: es, pid => if pid = child then (commOf es parent).or (commOf es pid) else commOf es pid
  | .comm _ c :: es, pid => if pid = c.pid ∧ c.pid = c.tid then some c else commOf es pid
  | _ :: es, pid => commOf es pid

/-- The main mapping reported with a sample. A process without one that was sampled in the kernel is a kernel thread: it gets
a mapping named after it with the kernel's build ID, not where executables are loaded, and the idle process gets the kernel's mapping. -/
def MainShown (cfg : Config) (es : List Ev) (c : SampleCtx) : Prop :=
  let pid := c.sample.pid.getD 0
  match mainOf cfg es pid with
  | some m => Shows cfg.ids c.main (some m)
  | none =>
    if contextFromHeader c.misc = .hostKernel then
      match commOf es pid with
      | some cm => ∃ r, c.main = some r ∧ r.mapping.filename = cm.comm ∧ r.mapping.start ≠ 0x400000 ∧
          match mainOf cfg es (2 ^ 32 - 1) with
          | some k => (getBuildId cfg.ids k).map (·.value) = some r.mapping.buildId.value
          | none => r.mapping.buildId.value = []
      | none => if pid = 0 then Shows cfg.ids c.main (mainOf cfg es (2 ^ 32 - 1)) else c.main = none
    else c.main = none

/-- The reports of a history, one after the other, each as `P` says, given the history before. -/
def Each (P : List Ev → Ev → List Callback → Prop) : List Ev → List Ev → List Callback → Prop
  | _, [], cbs => cbs = []
  | past, e :: es, cbs => ∃ c cs, cbs = c ++ cs ∧ P past e c ∧ Each P (e :: past) es cs

end Verif.Normalizer
