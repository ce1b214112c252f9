import Verif.Serial.Model
import Verif.Sample.Spec
import Verif.Attr.Spec

/-!
# Events and messages, independently of the code

The binary form of the event that a message describes: the structures of `/repo/src/quipper/kernel/perf_internals.h:104-634` as
lists of fields, followed by the sample fields of `Sample/Spec.lean`. Unused bytes are zero.
-/

namespace Verif.Serial
open Verif.Buffer Verif.Event Verif.Sample Verif.Attr Verif.Util Verif.Text

/-- The bytes of a field on a little-endian machine. -/
def pieceBytes : Piece → Bytes
  | .u16 v => toLE 2 v
  | .u32 v => toLE 4 v
  | .u64 v => toLE 8 v
  | .bytes l => l
  | .pad n => List.replicate n 0

/-- The bytes of a list of fields. -/
def image (L : List Piece) : Bytes := L.flatMap pieceBytes

/-- A string at the end of an event: it is followed by one to eight zero bytes, so that its size is a multiple of eight. -/
def text (s : Bytes) : List Piece := [.bytes s, .pad (8 - s.length % 8)]

/-- A string in an array of `n` bytes. -/
def array (n : Nat) (s : Bytes) : List Piece := [.bytes s, .pad (n - s.length)]

/-- The value of a hexadecimal digit. -/
def digit (c : UInt8) : UInt8 := if c < 58 then c - 48 else c - 87

/-- The bytes that a string of hexadecimal digits stands for. -/
def unhex : Bytes → Bytes
  | a :: b :: l => (16 * digit a + digit b) :: unhex l
  | _ => []

/-- A build ID: its size, three reserved bytes, and twenty bytes for the ID. -/
def buildIdFields (id : Bytes) : List Piece := [.bytes [UInt8.ofNat id.length], .pad 3, .bytes id, .pad (20 - id.length)]

/-- The event's own fields, behind its header. -/
def own (type : Nat) : Body → List Piece
  | .none => []
  | .mmap m =>
    if type = MMAP2 then
      [.u32 m.pid, .u32 m.tid, .u64 m.start, .u64 m.len, .u64 m.pgoff] ++
        (match m.buildId with
          | some h => buildIdFields (unhex h)
          | none => [.u32 m.maj, .u32 m.min, .u64 m.ino, .u64 m.inoGeneration]) ++
        [.u32 m.prot, .u32 m.flags] ++ text m.filename
    else [.u32 m.pid, .u32 m.tid, .u64 m.start, .u64 m.len, .u64 m.pgoff] ++ text m.filename
  | .sample _ => []
  | .comm m => [.u32 m.pid, .u32 m.tid] ++ text m.comm
  | .fork m => [.u32 m.pid, .u32 m.ppid, .u32 m.tid, .u32 m.ptid, .u64 m.time]
  | .exit m => [.u32 m.pid, .u32 m.ppid, .u32 m.tid, .u32 m.ptid, .u64 m.time]
  | .lost m => [.u64 m.id, .u64 m.lost]
  | .throttle m => [.u64 m.time, .u64 m.id, .u64 m.streamId]
  | .aux m => [.u64 m.offset, .u64 m.size, .u64 (m.truncated.toNat + 2 * m.overwrite.toNat + 4 * m.isPartial.toNat)]
  | .itraceStart m => [.u32 m.pid, .u32 m.tid]
  | .lostSamples m => [.u64 m.lost]
  | .switch m => if type = SWITCH_CPU_WIDE then [.u32 m.pid, .u32 m.tid] else []
  | .namespaces m => [.u32 m.pid, .u32 m.tid, .u64 m.links.length] ++ m.links.flatMap fun x => [.u64 x.1, .u64 x.2]
  | .cgroup m => [.u64 m.id] ++ text m.path
  | .ksymbol m => [.u64 m.addr, .u32 m.len, .u16 m.ksymType, .u16 m.flags] ++ text m.name
  | .bpf m => array 512 m.progName ++ [.u64 m.metadata.length] ++ m.metadata.flatMap fun x => array 64 x.1 ++ array 256 x.2
  | .auxtraceInfo m => [.u32 m.type, .pad 4] ++ m.priv.flatMap fun x => [.u64 x]
  | .auxtrace m => [.u64 m.size, .u64 m.offset, .u64 m.reference, .u32 m.idx, .u32 m.tid, .u32 m.cpu, .pad 4]
  | .auxtraceError m =>
    [.u32 m.type, .u32 m.code, .u32 m.cpu, .u32 m.pid, .u32 m.tid, .pad 4, .u64 m.ip] ++ text m.msg
  | .idIndex l => [.u64 l.length] ++ l.flatMap fun x => [.u64 x.id, .u64 x.idx, .u64 x.cpu, .u64 x.tid]
  | .threadMap l => [.u64 l.length] ++ l.flatMap fun x => [.u64 x.pid] ++ array 16 x.comm
  | .statConfig l => [.u64 l.length] ++ l.flatMap fun x => [.u64 x.1, .u64 x.2]
  | .stat m => [.u64 m.id, .u32 m.cpu, .u32 m.thread, .u64 m.value, .u64 m.enabled, .u64 m.running]
  | .statRound ty t => [.u64 ty, .u64 t]
  | .timeConv m => [.u64 m.shift, .u64 m.mult, .u64 m.zero] ++
      match m.cycles with
      | some c => [.u64 c, .u64 m.mask, .bytes [UInt8.ofNat m.capZero.toNat], .bytes [UInt8.ofNat m.capShort.toNat], .pad 6]
      | none => []

/-- The sample information of an event that is not a sample event. -/
def info : Body → Option SampleInfo
  | .mmap m => some m.info
  | .comm m => some m.info
  | .fork m => some m.info
  | .exit m => some m.info
  | .lost m => some m.info
  | .throttle m => some m.info
  | .aux m => some m.info
  | .itraceStart m => some m.info
  | .lostSamples m => some m.info
  | .switch m => some m.info
  | .namespaces m => some m.info
  | .cgroup m => some m.info
  | .ksymbol m => some m.info
  | .bpf m => some m.info
  | _ => none

/-- The sample that sample information describes. -/
def infoSample (i : SampleInfo) : Sample :=
  { pid := i.pid.getD 0, tid := i.tid.getD 0, time := i.time.getD 0, id := i.id.getD 0, cpu := i.cpu.getD 0
    streamId := i.streamId.getD 0 }

/-- The flag word of a branch: the four flags from bit 0 on, 16 bits of cycles, four of a type, two of a speculation outcome. -/
def branchWord (b : Branch) : Nat :=
  b.mispredicted.toNat + b.predicted.toNat * 2 + b.inTransaction.toNat * 4 + b.abort.toNat * 8 + b.cycles * 2 ^ 4 +
    b.type * 2 ^ 20 + b.spec * 2 ^ 24

/-- The sample that a sample event describes. -/
def eventSample (m : SampleEvent) : Sample :=
  { ip := m.ip.getD 0, pid := m.pid.getD 0, tid := m.tid.getD 0, time := m.time.getD 0, addr := m.addr.getD 0
    id := m.id.getD 0, streamId := m.streamId.getD 0, period := m.period.getD 0, cpu := m.cpu.getD 0, raw := m.raw
    weight := match m.weightStruct with
      | some w => w.var1 + 2 ^ 32 * w.var2 + 2 ^ 48 * w.var3
      | none => m.weight.getD 0
    transaction := m.transaction.getD 0, dataSrc := m.dataSrc.getD 0, physAddr := m.physAddr.getD 0
    cgroup := m.cgroup.getD 0, dataPageSize := m.dataPageSize.getD 0, codePageSize := m.codePageSize.getD 0
    callchain := some m.callchain
    branchStack := some ⟨m.hwIdx.getD 0, m.branches.map fun b => ⟨b.fromIp, b.toIp, branchWord b⟩⟩
    timeEnabled := (m.read.getD {}).timeEnabled, timeRunning := (m.read.getD {}).timeRunning
    one := (m.read.getD {}).values.headD {}, group := some (m.read.getD {}).values }

/-- The sample fields of an event that was recorded with the attribute `a`. -/
def sampleFields (a : Sample.Attr) : Body → List Piece
  | .sample s => layout a true (eventSample s)
  | b =>
    match info b with
    | some i => layout a false (infoSample i)
    | none => []

/-- The event that a message describes. -/
def wire (a : Sample.Attr) (m : Msg) : RawEvent := ⟨m.type, m.misc, image (own m.type m.body ++ sampleFields a m.body)⟩

/-- The time of an event. -/
def stamp : Body → Nat
  | .sample s => s.time.getD 0
  | b =>
    match info b with
    | some i => i.time.getD 0
    | none => 0

/-! ## Messages that are in order -/

/-- A string of fewer than `max` bytes, none of which is zero. -/
def Name (max : Nat) (s : Bytes) : Prop := (0 : UInt8) ∉ s ∧ s.length < max

/-- The members of sample information that are set are those the attribute selects; there are none without `sample_id_all`. -/
def InfoOk (a : Sample.Attr) (i : SampleInfo) : Prop :=
  if a.sampleIdAll then
    i.pid.isSome = a.sampleType.testBit 1 ∧ i.tid.isSome = a.sampleType.testBit 1 ∧ i.time.isSome = a.sampleType.testBit 2 ∧
    i.id.isSome = (a.sampleType.testBit 6 || a.sampleType.testBit 16) ∧ i.cpu.isSome = a.sampleType.testBit 7 ∧
    i.streamId.isSome = a.sampleType.testBit 9 ∧ Fits (infoSample i)
  else i = {}

/-- The values of a read format: a member that the format does not have is 0, a single value has no lost count. -/
def ReadOk (rf : Nat) (r : ReadInfo) : Prop :=
  (rf.testBit 0 = false → r.timeEnabled = 0) ∧ (rf.testBit 1 = false → r.timeRunning = 0) ∧
  (∀ v ∈ r.values, (rf.testBit 2 = false → v.id = 0) ∧ (rf.testBit 4 = false → v.lost = 0)) ∧
  (rf.testBit 3 = false → ∃ v, r.values = [v] ∧ v.lost = 0)

/-- A sample event has the members that the attribute selects; the index into the branch records is 0 if there are none, or if
the attribute does not ask for it. -/
structure SampleOk (a : Sample.Attr) (s : SampleEvent) : Prop where
  ip : s.ip.isSome = a.sampleType.testBit 0
  pid : s.pid.isSome = a.sampleType.testBit 1
  tid : s.tid.isSome = a.sampleType.testBit 1
  time : s.time.isSome = a.sampleType.testBit 2
  addr : s.addr.isSome = a.sampleType.testBit 3
  read : s.read.isSome = a.sampleType.testBit 4
  callchain : a.sampleType.testBit 5 = false → s.callchain = []
  id : s.id.isSome = (a.sampleType.testBit 6 || a.sampleType.testBit 16)
  cpu : s.cpu.isSome = a.sampleType.testBit 7
  period : s.period.isSome = a.sampleType.testBit 8
  streamId : s.streamId.isSome = a.sampleType.testBit 9
  raw : a.sampleType.testBit 10 = false → s.raw = []
  rawSize : s.rawSize = s.raw.length
  branches : a.sampleType.testBit 11 = false → s.branches = []
  noHwIdx : s.noHwIdx = if a.sampleType.testBit 11 then some (!a.branchSampleType.testBit 17) else none
  hwIdx : s.hwIdx.isSome = a.sampleType.testBit 11
  hwIdx0 : a.branchSampleType.testBit 17 = false ∨ s.branches = [] → s.hwIdx.getD 0 = 0
  weight : s.weight.isSome = a.sampleType.testBit 14
  dataSrc : s.dataSrc.isSome = a.sampleType.testBit 15
  transaction : s.transaction.isSome = a.sampleType.testBit 17
  physAddr : s.physAddr.isSome = a.sampleType.testBit 19
  cgroup : s.cgroup.isSome = a.sampleType.testBit 21
  dataPageSize : s.dataPageSize.isSome = a.sampleType.testBit 22
  codePageSize : s.codePageSize.isSome = a.sampleType.testBit 23
  weightStruct : s.weightStruct.isSome = a.sampleType.testBit 24
  readOk : ∀ r ∈ s.read, ReadOk a.readFormat r
  branchOk : ∀ b ∈ s.branches, b.cycles < 2 ^ 16 ∧ b.type < 2 ^ 4 ∧ b.spec < 2 ^ 2
  weightOk : ∀ w ∈ s.weightStruct, w.var1 < 2 ^ 32 ∧ w.var2 < 2 ^ 16 ∧ w.var3 < 2 ^ 16
  fits : Fits (eventSample s)

/-- The name of a mapping and what is derived from it. -/
def FileOk (env : Env) (m : MMap) : Prop :=
  Name 4096 m.filename ∧ m.filenameMd5 = env.md5 m.filename ∧
  m.rootPath = (if rootPath m.filename = [] then none else some (rootPath m.filename)) ∧
  m.rootPathMd5 = env.md5 (rootPath m.filename)

/-- The members of an event are those of its type, they are in range, names are not too long for their type, and what is derived from
other members is right. -/
def BodyOk (env : Env) (type misc : Nat) : Body → Prop
  | .none => type = FINISHED_ROUND
  | .mmap m =>
    m.pid < 2 ^ 32 ∧ m.tid < 2 ^ 32 ∧ m.start < 2 ^ 64 ∧ m.len < 2 ^ 64 ∧ m.pgoff < 2 ^ 64 ∧ FileOk env m ∧
    (type = MMAP ∧ m.maj = 0 ∧ m.min = 0 ∧ m.ino = 0 ∧ m.inoGeneration = 0 ∧ m.prot = 0 ∧ m.flags = 0 ∧ m.buildId = none ∨
     type = MMAP2 ∧ m.prot < 2 ^ 32 ∧ m.flags < 2 ^ 32 ∧ m.buildId.isSome = misc.testBit 14 ∧
      match m.buildId with
      | some h => m.maj = 0 ∧ m.min = 0 ∧ m.ino = 0 ∧ m.inoGeneration = 0 ∧ ∃ id : Bytes, id.length ≤ 20 ∧ h = rawDataToHexString id
      | none => m.maj < 2 ^ 32 ∧ m.min < 2 ^ 32 ∧ m.ino < 2 ^ 64 ∧ m.inoGeneration < 2 ^ 64)
  | .sample _ => type = SAMPLE
  | .comm m => type = COMM ∧ m.pid < 2 ^ 32 ∧ m.tid < 2 ^ 32 ∧ Name 4096 m.comm ∧ m.commMd5 = env.md5 m.comm
  | .fork m => type = FORK ∧ m.pid < 2 ^ 32 ∧ m.ppid < 2 ^ 32 ∧ m.tid < 2 ^ 32 ∧ m.ptid < 2 ^ 32 ∧ m.time < 2 ^ 64
  | .exit m => type = EXIT ∧ m.pid < 2 ^ 32 ∧ m.ppid < 2 ^ 32 ∧ m.tid < 2 ^ 32 ∧ m.ptid < 2 ^ 32 ∧ m.time < 2 ^ 64
  | .lost m => type = LOST ∧ m.id < 2 ^ 64 ∧ m.lost < 2 ^ 64
  | .throttle m => (type = THROTTLE ∨ type = UNTHROTTLE) ∧ m.time < 2 ^ 64 ∧ m.id < 2 ^ 64 ∧ m.streamId < 2 ^ 64
  | .aux m => type = AUX ∧ m.offset < 2 ^ 64 ∧ m.size < 2 ^ 64
  | .itraceStart m => type = ITRACE_START ∧ m.pid < 2 ^ 32 ∧ m.tid < 2 ^ 32
  | .lostSamples m => type = LOST_SAMPLES ∧ m.lost < 2 ^ 64
  | .switch m => m.isOut = misc.testBit 13 ∧
      (type = SWITCH ∧ m.pid = 0 ∧ m.tid = 0 ∨ type = SWITCH_CPU_WIDE ∧ m.pid < 2 ^ 32 ∧ m.tid < 2 ^ 32)
  | .namespaces m => type = NAMESPACES ∧ m.pid < 2 ^ 32 ∧ m.tid < 2 ^ 32 ∧ ∀ x ∈ m.links, x.1 < 2 ^ 64 ∧ x.2 < 2 ^ 64
  | .cgroup m => type = CGROUP ∧ m.id < 2 ^ 64 ∧ Name 4096 m.path
  | .ksymbol m => type = KSYMBOL ∧ m.addr < 2 ^ 64 ∧ m.len < 2 ^ 32 ∧ m.ksymType < 2 ^ 16 ∧ m.flags < 2 ^ 16 ∧ Name 512 m.name
  | .bpf m => type = BPF_METADATA ∧ Name 512 m.progName ∧ (∀ x ∈ m.metadata, Name 64 x.1 ∧ Name 256 x.2) ∧
      m.metadata.Pairwise (fun x y => x.1 ≠ y.1) ∧ env.order m.metadata = m.metadata
  | .auxtraceInfo m => type = AUXTRACE_INFO ∧ m.type < 2 ^ 32 ∧ ∀ x ∈ m.priv, x < 2 ^ 64
  | .auxtrace m => type = AUXTRACE ∧ m.size < 2 ^ 64 ∧ m.offset < 2 ^ 64 ∧ m.reference < 2 ^ 64 ∧ m.idx < 2 ^ 32 ∧
      m.tid < 2 ^ 32 ∧ m.cpu < 2 ^ 32 ∧ m.trace = []
  | .auxtraceError m => type = AUXTRACE_ERROR ∧ m.type < 2 ^ 32 ∧ m.code < 2 ^ 32 ∧ m.cpu < 2 ^ 32 ∧ m.pid < 2 ^ 32 ∧
      m.tid < 2 ^ 32 ∧ m.ip < 2 ^ 64 ∧ Name 64 m.msg ∧ m.msgMd5 = env.md5 m.msg
  | .idIndex l => type = ID_INDEX ∧ ∀ x ∈ l, x.id < 2 ^ 64 ∧ x.idx < 2 ^ 64 ∧ x.cpu < 2 ^ 64 ∧ x.tid < 2 ^ 64
  | .threadMap l => type = THREAD_MAP ∧ ∀ x ∈ l, x.pid < 2 ^ 64 ∧ Name 16 x.comm ∧ x.commMd5 = env.md5 x.comm
  | .statConfig l => type = STAT_CONFIG ∧ ∀ x ∈ l, x.1 < 2 ^ 64 ∧ x.2 < 2 ^ 64
  | .stat m => type = STAT ∧ m.id < 2 ^ 64 ∧ m.cpu < 2 ^ 32 ∧ m.thread < 2 ^ 32 ∧ m.value < 2 ^ 64 ∧ m.enabled < 2 ^ 64 ∧
      m.running < 2 ^ 64
  | .statRound ty t => type = STAT_ROUND ∧ ty < 2 ^ 64 ∧ t < 2 ^ 64
  | .timeConv m => type = TIME_CONV ∧ m.shift < 2 ^ 64 ∧ m.mult < 2 ^ 64 ∧ m.zero < 2 ^ 64 ∧ m.mask < 2 ^ 64 ∧
      (∀ c ∈ m.cycles, c < 2 ^ 64) ∧ (m.cycles = none → m.mask = 0 ∧ m.capZero = false ∧ m.capShort = false)

/-- The message describes an event recorded with the attribute `a`: its members are in order, its size is that of the event, which fits
in the header, and its time is that of the event. -/
structure MsgOk (env : Env) (a : Sample.Attr) (m : Msg) : Prop where
  body : BodyOk env m.type m.misc m.body
  sample : ∀ s, m.body = .sample s → SampleOk a s
  info : ∀ i, info m.body = some i → InfoOk a i
  misc : m.misc < 2 ^ 16
  size : m.size = (wire a m).size
  fits : m.size < 2 ^ 16
  stamp : m.timestamp = stamp m.body

/-! ## Files -/

/-- An event with this id is one of the attribute `f`: it is the one registered for the id, or, if events carry no id, the only one. -/
def Owned (fs : List FileAttr) (f : FileAttr) (id : Option Nat) : Prop :=
  match id with
  | some id => owner fs id = some f
  | none => fs = [f]

/-- The attributes `fs` have been accepted by `ser`; they agree on `sample_id_all`; the sample fields of the event are supported, and the
event is one of the attribute `f`. -/
structure Recorded (fs : List FileAttr) (ser : Ser) (f : FileAttr) (b : Body) : Prop where
  reg : registerAll {} false fs = some ser
  mem : f ∈ fs
  all : ∀ g ∈ fs, g.attr.flags.testBit 18 = f.attr.flags.testBit 18
  type : f.attr.sampleType < 2 ^ 64
  sample : ∀ s, b = .sample s → Supported f.attr.sample true ∧ Owned fs f s.id
  info : ∀ i, info b = some i → f.attr.flags.testBit 18 = true → Supported f.attr.sample false ∧ Owned fs f i.id

end Verif.Serial
