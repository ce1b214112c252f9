import Verif.Attr.Model
import Verif.Buffer.Spec
import Verif.Text.Model

/-!
# Model of the conversion of events between their binary form and messages

`/repo/src/quipper/perf_serializer.cc:42-153,318-1088,1164-1424,1762-1881` and
`/repo/src/quipper/perf_data_utils.cc:50-56,86-147,604-691,722-751`.

A message has a value for every member; a member that is not set has its default value, as its accessor says. Only where the code
asks whether a member is set it is an `Option`. Values are in the range of their types. Memory exhaustion and log messages are not
modelled. The outer `none` of a result is undefined behaviour or an abort, the inner one `return false`.
-/

namespace Verif.Serial
open Verif.Buffer Verif.Event Verif.Sample Verif.Attr Verif.Util Verif.Text

abbrev Bytes := List UInt8

/-- What the code depends on and the model leaves open: `Md5Prefix`, the order in which a `map` of a message is iterated over,
and the content of memory that was allocated and not initialised (`new uint8_t[]`). -/
structure Env where
  md5 : Bytes → Nat
  order : List (Bytes × Bytes) → List (Bytes × Bytes)
  junk : Nat

/-! ## Messages -/

/-- `SampleInfo`, `perf_data.proto:208-226`. -/
structure SampleInfo where
  pid : Option Nat := none
  tid : Option Nat := none
  time : Option Nat := none
  id : Option Nat := none
  cpu : Option Nat := none
  streamId : Option Nat := none
deriving DecidableEq, Repr

/-- `MMapEvent`, `perf_data.proto:252-307`. -/
structure MMap where
  pid : Nat := 0
  tid : Nat := 0
  start : Nat := 0
  len : Nat := 0
  pgoff : Nat := 0
  maj : Nat := 0
  min : Nat := 0
  ino : Nat := 0
  inoGeneration : Nat := 0
  buildId : Option Bytes := none
  prot : Nat := 0
  flags : Nat := 0
  filename : Bytes := []
  filenameMd5 : Nat := 0
  rootPath : Option Bytes := none
  rootPathMd5 : Nat := 0
  info : SampleInfo := {}
deriving DecidableEq, Repr

/-- `BranchStackEntry`, `perf_data.proto:363-390`. -/
structure Branch where
  fromIp : Nat := 0
  toIp : Nat := 0
  mispredicted : Bool := false
  predicted : Bool := false
  inTransaction : Bool := false
  abort : Bool := false
  cycles : Nat := 0
  type : Nat := 0
  spec : Nat := 0
deriving DecidableEq, Repr

/-- `ReadInfo`, `perf_data.proto:345-360`. -/
structure ReadInfo where
  timeEnabled : Nat := 0
  timeRunning : Nat := 0
  values : List ReadValue := []
deriving DecidableEq, Repr

/-- `WeightStruct`, `perf_data.proto:401-410`. -/
structure Weight where
  var1 : Nat := 0
  var2 : Nat := 0
  var3 : Nat := 0
deriving DecidableEq, Repr

/-- `SampleEvent`, `perf_data.proto:413-497`. -/
structure SampleEvent where
  ip : Option Nat := none
  pid : Option Nat := none
  tid : Option Nat := none
  time : Option Nat := none
  addr : Option Nat := none
  id : Option Nat := none
  streamId : Option Nat := none
  period : Option Nat := none
  cpu : Option Nat := none
  raw : Bytes := []
  rawSize : Nat := 0
  read : Option ReadInfo := none
  callchain : List Nat := []
  branches : List Branch := []
  weight : Option Nat := none
  dataSrc : Option Nat := none
  transaction : Option Nat := none
  physAddr : Option Nat := none
  cgroup : Option Nat := none
  dataPageSize : Option Nat := none
  codePageSize : Option Nat := none
  noHwIdx : Option Bool := none
  hwIdx : Option Nat := none
  weightStruct : Option Weight := none
deriving DecidableEq, Repr

/-- `CommEvent`, `perf_data.proto:229-248`. -/
structure Comm where
  pid : Nat := 0
  tid : Nat := 0
  comm : Bytes := []
  commMd5 : Nat := 0
  info : SampleInfo := {}
deriving DecidableEq, Repr

/-- `ForkEvent`, `perf_data.proto:503-521`. -/
structure Fork where
  pid : Nat := 0
  ppid : Nat := 0
  tid : Nat := 0
  ptid : Nat := 0
  time : Nat := 0
  info : SampleInfo := {}
deriving DecidableEq, Repr

/-- `LostEvent`, `perf_data.proto:527-537`. -/
structure Lost where
  id : Nat := 0
  lost : Nat := 0
  info : SampleInfo := {}
deriving DecidableEq, Repr

/-- `ThrottleEvent`, `perf_data.proto:540-552`. -/
structure Throttle where
  time : Nat := 0
  id : Nat := 0
  streamId : Nat := 0
  info : SampleInfo := {}
deriving DecidableEq, Repr

/-- `AuxEvent`, `perf_data.proto:581-599`. -/
structure Aux where
  offset : Nat := 0
  size : Nat := 0
  truncated : Bool := false
  overwrite : Bool := false
  isPartial : Bool := false
  info : SampleInfo := {}
deriving DecidableEq, Repr

/-- `ItraceStartEvent`, `perf_data.proto:700-707`. -/
structure ItraceStart where
  pid : Nat := 0
  tid : Nat := 0
  info : SampleInfo := {}
deriving DecidableEq, Repr

/-- `LostSamplesEvent`, `perf_data.proto:712-718`. -/
structure LostSamples where
  lost : Nat := 0
  info : SampleInfo := {}
deriving DecidableEq, Repr

/-- `ContextSwitchEvent`, `perf_data.proto:721-733`. -/
structure Switch where
  isOut : Bool := false
  pid : Nat := 0
  tid : Nat := 0
  info : SampleInfo := {}
deriving DecidableEq, Repr

/-- `NamespacesEvent`, `perf_data.proto:745-757`; `links` are pairs of device and inode. -/
structure Namespaces where
  pid : Nat := 0
  tid : Nat := 0
  links : List (Nat × Nat) := []
  info : SampleInfo := {}
deriving DecidableEq, Repr

/-- `CgroupEvent`, `perf_data.proto:826-835`. -/
structure Cgroup where
  id : Nat := 0
  path : Bytes := []
  info : SampleInfo := {}
deriving DecidableEq, Repr

/-- `KsymbolEvent`, `perf_data.proto:310-329`. -/
structure Ksymbol where
  addr : Nat := 0
  len : Nat := 0
  ksymType : Nat := 0
  flags : Nat := 0
  name : Bytes := []
  info : SampleInfo := {}
deriving DecidableEq, Repr

/-- `BpfMetadataEvent`, `perf_data.proto:332-342`; `metadata` is the map in the order of iteration. -/
structure Bpf where
  progName : Bytes := []
  metadata : List (Bytes × Bytes) := []
  info : SampleInfo := {}
deriving DecidableEq, Repr

/-- `AuxtraceInfoEvent`, `perf_data.proto:602-626`. -/
structure AuxtraceInfo where
  type : Nat := 0
  priv : List Nat := []
deriving DecidableEq, Repr

/-- `AuxtraceEvent`, `perf_data.proto:629-651`. -/
structure Auxtrace where
  size : Nat := 0
  offset : Nat := 0
  reference : Nat := 0
  idx : Nat := 0
  tid : Nat := 0
  cpu : Nat := 0
  trace : Bytes := []
deriving DecidableEq, Repr

/-- `AuxtraceErrorEvent`, `perf_data.proto:654-678`. -/
structure AuxtraceError where
  type : Nat := 0
  code : Nat := 0
  cpu : Nat := 0
  pid : Nat := 0
  tid : Nat := 0
  ip : Nat := 0
  msg : Bytes := []
  msgMd5 : Nat := 0
deriving DecidableEq, Repr

/-- `IdIndexEventEntry`, `perf_data.proto:681-693`. -/
structure IdEntry where
  id : Nat := 0
  idx : Nat := 0
  cpu : Nat := 0
  tid : Nat := 0
deriving DecidableEq, Repr

/-- `ThreadMapEventEntry`, `perf_data.proto:760-768`. -/
structure ThreadEntry where
  pid : Nat := 0
  comm : Bytes := []
  commMd5 : Nat := 0
deriving DecidableEq, Repr

/-- `StatEvent`, `perf_data.proto:792-810`. -/
structure Stat where
  id : Nat := 0
  cpu : Nat := 0
  thread : Nat := 0
  value : Nat := 0
  enabled : Nat := 0
  running : Nat := 0
deriving DecidableEq, Repr

/-- `TimeConvEvent`, `perf_data.proto:839-854`. -/
structure TimeConv where
  shift : Nat := 0
  mult : Nat := 0
  zero : Nat := 0
  cycles : Option Nat := none
  mask : Nat := 0
  capZero : Bool := false
  capShort : Bool := false
deriving DecidableEq, Repr

/-- `oneof event_type`, `perf_data.proto:868-898`; `none` if none of them is set. The deprecated `read_event` is left out. The
list of an ID index, a thread map or a configuration, and the two numbers of a round, stand for their messages. -/
inductive Body where
  | none
  | mmap (m : MMap)
  | sample (m : SampleEvent)
  | comm (m : Comm)
  | fork (m : Fork)
  | exit (m : Fork)
  | lost (m : Lost)
  | throttle (m : Throttle)
  | aux (m : Aux)
  | itraceStart (m : ItraceStart)
  | lostSamples (m : LostSamples)
  | switch (m : Switch)
  | namespaces (m : Namespaces)
  | cgroup (m : Cgroup)
  | ksymbol (m : Ksymbol)
  | bpf (m : Bpf)
  | auxtraceInfo (m : AuxtraceInfo)
  | auxtrace (m : Auxtrace)
  | auxtraceError (m : AuxtraceError)
  | idIndex (l : List IdEntry)
  | threadMap (l : List ThreadEntry)
  | statConfig (l : List (Nat × Nat))
  | stat (m : Stat)
  | statRound (type time : Nat)
  | timeConv (m : TimeConv)
deriving DecidableEq, Repr

/-- `PerfEvent` with its `EventHeader`, `perf_data.proto:857-863`. -/
structure Msg where
  type : Nat
  misc : Nat := 0
  size : Nat := 0
  body : Body := .none
  timestamp : Nat := 0
deriving DecidableEq, Repr

/-! The accessors of the `oneof`: the default message if another one is set. -/

/-- `mmap_event()`, `perf_data.proto:869`. -/
def Body.getMmap : Body → MMap | .mmap m => m | _ => {}
/-- `sample_event()`, `perf_data.proto:870`. -/
def Body.getSample : Body → SampleEvent | .sample m => m | _ => {}
/-- `comm_event()`, `perf_data.proto:871`. -/
def Body.getComm : Body → Comm | .comm m => m | _ => {}
/-- `fork_event()`, `perf_data.proto:876`. -/
def Body.getFork : Body → Fork | .fork m => m | _ => {}
/-- `exit_event()`, `perf_data.proto:877`. -/
def Body.getExit : Body → Fork | .exit m => m | _ => {}
/-- `lost_event()`, `perf_data.proto:878`. -/
def Body.getLost : Body → Lost | .lost m => m | _ => {}
/-- `throttle_event()`, `perf_data.proto:879`. -/
def Body.getThrottle : Body → Throttle | .throttle m => m | _ => {}
/-- `aux_event()`, `perf_data.proto:881`. -/
def Body.getAux : Body → Aux | .aux m => m | _ => {}
/-- `itrace_start_event()`, `perf_data.proto:882`. -/
def Body.getItraceStart : Body → ItraceStart | .itraceStart m => m | _ => {}
/-- `lost_samples_event()`, `perf_data.proto:883`. -/
def Body.getLostSamples : Body → LostSamples | .lostSamples m => m | _ => {}
/-- `context_switch_event()`, `perf_data.proto:884`. -/
def Body.getSwitch : Body → Switch | .switch m => m | _ => {}
/-- `namespaces_event()`, `perf_data.proto:885`. -/
def Body.getNamespaces : Body → Namespaces | .namespaces m => m | _ => {}
/-- `cgroup_event()`, `perf_data.proto:895`. -/
def Body.getCgroup : Body → Cgroup | .cgroup m => m | _ => {}
/-- `ksymbol_event()`, `perf_data.proto:896`. -/
def Body.getKsymbol : Body → Ksymbol | .ksymbol m => m | _ => {}
/-- `bpf_metadata_event()`, `perf_data.proto:897`. -/
def Body.getBpf : Body → Bpf | .bpf m => m | _ => {}
/-- `auxtrace_info_event()`, `perf_data.proto:886`. -/
def Body.getAuxtraceInfo : Body → AuxtraceInfo | .auxtraceInfo m => m | _ => {}
/-- `auxtrace_event()`, `perf_data.proto:887`. -/
def Body.getAuxtrace : Body → Auxtrace | .auxtrace m => m | _ => {}
/-- `auxtrace_error_event()`, `perf_data.proto:888`. -/
def Body.getAuxtraceError : Body → AuxtraceError | .auxtraceError m => m | _ => {}
/-- `id_index_event().entries()`, `perf_data.proto:889`. -/
def Body.getIdIndex : Body → List IdEntry | .idIndex l => l | _ => []
/-- `thread_map_event().entries()`, `perf_data.proto:890`. -/
def Body.getThreadMap : Body → List ThreadEntry | .threadMap l => l | _ => []
/-- `stat_config_event().data()`, `perf_data.proto:892`. -/
def Body.getStatConfig : Body → List (Nat × Nat) | .statConfig l => l | _ => []
/-- `stat_event()`, `perf_data.proto:893`. -/
def Body.getStat : Body → Stat | .stat m => m | _ => {}
/-- `stat_round_event()`, `perf_data.proto:894`: type and time. -/
def Body.getStatRound : Body → Nat × Nat | .statRound ty t => (ty, t) | _ => (0, 0)
/-- `time_conv_event()`, `perf_data.proto:891`. -/
def Body.getTimeConv : Body → TimeConv | .timeConv m => m | _ => {}

/-- `GetSampleInfoForEvent`, `perf_data_utils.cc:86-123`. -/
def infoOf (m : Msg) : Option SampleInfo :=
  if m.type = MMAP ∨ m.type = MMAP2 then some m.body.getMmap.info
  else if m.type = COMM then some m.body.getComm.info
  else if m.type = FORK then some m.body.getFork.info
  else if m.type = EXIT then some m.body.getExit.info
  else if m.type = LOST then some m.body.getLost.info
  else if m.type = THROTTLE ∨ m.type = UNTHROTTLE then some m.body.getThrottle.info
  else if m.type = AUX then some m.body.getAux.info
  else if m.type = ITRACE_START then some m.body.getItraceStart.info
  else if m.type = LOST_SAMPLES then some m.body.getLostSamples.info
  else if m.type = SWITCH ∨ m.type = SWITCH_CPU_WIDE then some m.body.getSwitch.info
  else if m.type = NAMESPACES then some m.body.getNamespaces.info
  else if m.type = CGROUP then some m.body.getCgroup.info
  else if m.type = KSYMBOL then some m.body.getKsymbol.info
  else if m.type = BPF_METADATA then some m.body.getBpf.info
  else none

/-- `GetTimeFromPerfEvent`, `perf_data_utils.cc:126-134`. -/
def timeOf (m : Msg) : Nat :=
  if m.type = SAMPLE then m.body.getSample.time.getD 0
  else match infoOf m with
    | some i => i.time.getD 0
    | none => 0

/-! ## From the binary form to a message -/

/-- The C string at offset `off` of the event; `none` if it does not end within the event. -/
def cstr (e : RawEvent) (off : Nat) : Option Bytes :=
  if 8 ≤ off then
    let rest := e.payload.drop (off - 8)
    if rest.contains 0 then some (cStr rest) else none
  else none

/-- A loop over `n` entries of a list, from entry `i` on. -/
def entries {α : Type} (f : Nat → Option α) : Nat → Nat → Option (List α)
  | _, 0 => some []
  | i, n + 1 => do
    let a ← f i
    let l ← entries f (i + 1) n
    pure (a :: l)

/-- The header of the event in memory. -/
def headerBytes (e : RawEvent) : Bytes := toLE 4 e.type ++ toLE 2 e.misc ++ toLE 2 e.size

/-- A member that is set if `c`. -/
def setIf {α : Type} (c : Bool) (a : α) : Option α := if c then some a else none

/-- `SerializeSampleInfo`, `perf_serializer.cc:1053-1074`. -/
def readInfo (ser : Ser) (e : RawEvent) : Option (Option SampleInfo) :=
  if ¬ containsSampleInfo ser e.type then some (some {})
  else match readInfoAndType ser e (headerBytes e) {} with
    | none => none
    | some none => some none
    | some (some (s, st)) => some (some {
        pid := setIf (st.testBit 1) s.pid
        tid := setIf (st.testBit 1) s.tid
        time := setIf (st.testBit 2) s.time
        id := setIf (st.testBit 6 || st.testBit 16) s.id
        cpu := setIf (st.testBit 7) s.cpu
        streamId := setIf (st.testBit 9) s.streamId })

/-- The entry of a branch stack with its bit fields, `perf_serializer.cc:630-650`, `kernel/perf_internals.h:298-307`. -/
def branchMsg (b : BranchEntry) : Branch where
  fromIp := b.fromIp
  toIp := b.toIp
  mispredicted := b.flags.testBit 0
  predicted := b.flags.testBit 1
  inTransaction := b.flags.testBit 2
  abort := b.flags.testBit 3
  cycles := b.flags / 2 ^ 4 % 2 ^ 16
  type := b.flags / 2 ^ 20 % 2 ^ 4
  spec := b.flags / 2 ^ 24 % 2 ^ 2

/-- The values of `PERF_SAMPLE_READ`, `perf_serializer.cc:598-623`. -/
def readMsg (rf : Nat) (s : Sample) : ReadInfo :=
  let value (v : ReadValue) : ReadValue := ⟨v.value, if rf.testBit 2 then v.id else 0, if rf.testBit 4 then v.lost else 0⟩
  { timeEnabled := if rf.testBit 0 then s.timeEnabled else 0
    timeRunning := if rf.testBit 1 then s.timeRunning else 0
    values := if rf.testBit 3 then (s.group.getD []).map value else [value s.one] }

/-- `SerializeSampleEvent`, `perf_serializer.cc:572-675`. Without a call chain or a branch stack the pointer to it is null. -/
def readSample (ser : Ser) (e : RawEvent) : Option (Option SampleEvent) :=
  match readInfoAndType ser e (headerBytes e) {} with
  | none => none
  | some none => some none
  | some (some (s, st)) =>
    match readerForEvent ser e with
    | none => none
    | some reader =>
      if st.testBit 5 ∧ s.callchain = none ∨ st.testBit 11 ∧ s.branchStack = none then none
      else
        let stack := s.branchStack.getD {}
        some (some {
          ip := setIf (st.testBit 0) s.ip
          pid := setIf (st.testBit 1) s.pid
          tid := setIf (st.testBit 1) s.tid
          time := setIf (st.testBit 2) s.time
          addr := setIf (st.testBit 3) s.addr
          id := setIf (st.testBit 6 || st.testBit 16) s.id
          streamId := setIf (st.testBit 9) s.streamId
          period := setIf (st.testBit 8) s.period
          cpu := setIf (st.testBit 7) s.cpu
          raw := if st.testBit 10 then s.raw else []
          rawSize := if st.testBit 10 then s.raw.length else 0
          read := if st.testBit 4 then reader.map (fun r => readMsg r.attr.readFormat s) else none
          callchain := if st.testBit 5 then s.callchain.getD [] else []
          branches := if st.testBit 11 then stack.entries.map branchMsg else []
          weight := setIf (st.testBit 14) s.weight
          dataSrc := setIf (st.testBit 15) s.dataSrc
          transaction := setIf (st.testBit 17) s.transaction
          physAddr := setIf (st.testBit 19) s.physAddr
          cgroup := setIf (st.testBit 21) s.cgroup
          dataPageSize := setIf (st.testBit 22) s.dataPageSize
          codePageSize := setIf (st.testBit 23) s.codePageSize
          noHwIdx := setIf (st.testBit 11) s.noHwIdx
          hwIdx := setIf (st.testBit 11) stack.hwIdx
          weightStruct := setIf (st.testBit 24) ⟨s.weight % 2 ^ 32, s.weight / 2 ^ 32 % 2 ^ 16, s.weight / 2 ^ 48 % 2 ^ 16⟩ })

/-- `set_root_path`, `perf_serializer.cc:698-703,745-751`. -/
def rootOf (name : Bytes) : Option Bytes := setIf (rootPath name ≠ []) (rootPath name)

/-- `SerializeMMapEvent` without the sample information, `perf_serializer.cc:689-706`. -/
def readMMap (env : Env) (e : RawEvent) : Option MMap := do
  let pid ← e.int 8 4
  let tid ← e.int 12 4
  let start ← e.int 16 8
  let len ← e.int 24 8
  let pgoff ← e.int 32 8
  let name ← cstr e 40
  pure {
    pid := pid, tid := tid, start := start, len := len, pgoff := pgoff
    filename := name, filenameMd5 := env.md5 name, rootPath := rootOf name, rootPathMd5 := env.md5 (rootPath name) }

/-- `SerializeMMap2Event` without the sample information, `perf_serializer.cc:721-754`. -/
def readMMap2 (env : Env) (e : RawEvent) : Option (Option MMap) := do
  let pid ← e.int 8 4
  let tid ← e.int 12 4
  let start ← e.int 16 8
  let len ← e.int 24 8
  let pgoff ← e.int 32 8
  let m : MMap := { pid := pid, tid := tid, start := start, len := len, pgoff := pgoff }
  let finish (m : MMap) : Option (Option MMap) := do
    let prot ← e.int 64 4
    let flags ← e.int 68 4
    let name ← cstr e 72
    pure (some { m with
      prot := prot, flags := flags
      filename := name, filenameMd5 := env.md5 name, rootPath := rootOf name, rootPathMd5 := env.md5 (rootPath name) })
  if e.misc.testBit 14 then do
    let n ← e.int 40 1
    if n > 20 then pure none
    else do
      let d ← fetch e.payload 36 n
      finish { m with buildId := some (rawDataToHexString d) }
  else do
    let maj ← e.int 40 4
    let min ← e.int 44 4
    let ino ← e.int 48 8
    let gen ← e.int 56 8
    finish { m with maj := maj, min := min, ino := ino, inoGeneration := gen }

/-- `SerializeCommEvent` without the sample information, `perf_serializer.cc:790-799`. -/
def readComm (env : Env) (e : RawEvent) : Option Comm := do
  let pid ← e.int 8 4
  let tid ← e.int 12 4
  let comm ← cstr e 16
  pure { pid := pid, tid := tid, comm := comm, commMd5 := env.md5 comm }

/-- `SerializeForkExitEvent` without the sample information, `perf_serializer.cc:811-821`. -/
def readFork (e : RawEvent) : Option Fork := do
  let pid ← e.int 8 4
  let ppid ← e.int 12 4
  let tid ← e.int 16 4
  let ptid ← e.int 20 4
  let time ← e.int 24 8
  pure { pid := pid, ppid := ppid, tid := tid, ptid := ptid, time := time }

/-- `SerializeLostEvent` without the sample information, `perf_serializer.cc:835-842`. -/
def readLost (e : RawEvent) : Option Lost := do
  let id ← e.int 8 8
  let lost ← e.int 16 8
  pure { id := id, lost := lost }

/-- `SerializeThrottleEvent` without the sample information, `perf_serializer.cc:853-861`. -/
def readThrottle (e : RawEvent) : Option Throttle := do
  let time ← e.int 8 8
  let id ← e.int 16 8
  let streamId ← e.int 24 8
  pure { time := time, id := id, streamId := streamId }

/-- `SerializeAuxEvent` without the sample information, `perf_serializer.cc:873-887`; the flags of
`kernel/perf_event.h:1119-1121`. -/
def readAux (e : RawEvent) : Option Aux := do
  let offset ← e.int 8 8
  let size ← e.int 16 8
  let flags ← e.int 24 8
  pure { offset := offset, size := size, truncated := flags.testBit 0, overwrite := flags.testBit 1, isPartial := flags.testBit 2 }

/-- `SerializeItraceStartEvent` without the sample information, `perf_serializer.cc:901-908`. -/
def readItraceStart (e : RawEvent) : Option ItraceStart := do
  let pid ← e.int 8 4
  let tid ← e.int 12 4
  pure { pid := pid, tid := tid }

/-- `SerializeLostSamplesEvent` without the sample information, `perf_serializer.cc:919-925`. -/
def readLostSamples (e : RawEvent) : Option LostSamples := do
  let lost ← e.int 8 8
  pure { lost := lost }

/-- `SerializeContextSwitchEvent` without the sample information, `perf_serializer.cc:935-944`. -/
def readSwitch (e : RawEvent) : Option Switch :=
  if e.type = SWITCH_CPU_WIDE then do
    let pid ← e.int 8 4
    let tid ← e.int 12 4
    pure { isOut := e.misc.testBit 13, pid := pid, tid := tid }
  else some { isOut := e.misc.testBit 13 }

/-- `SerializeNamespacesEvent` without the sample information, `perf_serializer.cc:956-967`. -/
def readNamespaces (e : RawEvent) : Option Namespaces := do
  let pid ← e.int 8 4
  let tid ← e.int 12 4
  let nr ← e.int 16 8
  let links ← entries (fun i => do
    let dev ← e.int (24 + 16 * i) 8
    let ino ← e.int (24 + 16 * i + 8) 8
    pure (dev, ino)) 0 nr
  pure { pid := pid, tid := tid, links := links }

/-- `SerializeCgroupEvent` without the sample information, `perf_serializer.cc:982-988`. -/
def readCgroup (e : RawEvent) : Option Cgroup := do
  let id ← e.int 8 8
  let path ← cstr e 16
  pure { id := id, path := path }

/-- `SerializeKsymbolEvent` without the sample information, `perf_serializer.cc:998-1007`. -/
def readKsymbol (e : RawEvent) : Option Ksymbol := do
  let addr ← e.int 8 8
  let len ← e.int 16 4
  let ty ← e.int 20 2
  let flags ← e.int 22 2
  let name ← cstr e 24
  pure { addr := addr, len := len, ksymType := ty, flags := flags, name := name }

/-- What `snprintf(dest, max, "%s", src)` leaves in `dest`: a string of fewer than `max` bytes. -/
def cut (max : Nat) (s : Bytes) : Bytes := s.take (max - 1)

/-- `metadata->insert({key, value})`, `perf_serializer.cc:1031`: keeps the value of a key that is there already. -/
def insertNew (l : List (Bytes × Bytes)) (p : Bytes × Bytes) : List (Bytes × Bytes) :=
  if l.any (fun q => q.1 == p.1) then l else l ++ [p]

/-- `SerializeBpfMetadataEvent` without the sample information, `perf_serializer.cc:1020-1034`. `snprintf` looks for the end of its
source even behind the limit. -/
def readBpf (env : Env) (e : RawEvent) : Option Bpf := do
  let name ← cstr e 8
  let nr ← e.int 520 8
  let l ← entries (fun i => do
    let key ← cstr e (528 + 320 * i)
    let value ← cstr e (528 + 320 * i + 64)
    pure (cut 64 key, cut 256 value)) 0 nr
  pure { progName := cut 512 name, metadata := env.order (l.foldl insertNew []) }

/-- `SerializeAuxtraceInfoEvent`, `perf_serializer.cc:1164-1181`. -/
def readAuxtraceInfo (e : RawEvent) : Option AuxtraceInfo := do
  let n := (e.size + 2 ^ 64 - 16) % 2 ^ 64 / 8
  let type ← e.int 8 4
  let priv ← entries (fun i => e.int (16 + 8 * i) 8) 0 n
  pure { type := type, priv := priv }

/-- `SerializeAuxtraceEvent`, `perf_serializer.cc:1193-1204`. -/
def readAuxtrace (e : RawEvent) : Option Auxtrace := do
  let size ← e.int 8 8
  let offset ← e.int 16 8
  let reference ← e.int 24 8
  let idx ← e.int 32 4
  let tid ← e.int 36 4
  let cpu ← e.int 40 4
  pure { size := size, offset := offset, reference := reference, idx := idx, tid := tid, cpu := cpu }

/-- `SerializeAuxtraceErrorEvent`, `perf_serializer.cc:1235-1258`. -/
def readAuxtraceError (env : Env) (e : RawEvent) : Option AuxtraceError := do
  let type ← e.int 8 4
  let code ← e.int 12 4
  let cpu ← e.int 16 4
  let pid ← e.int 20 4
  let tid ← e.int 24 4
  let ip ← e.int 32 8
  let n ← strnlen e 40 (min 64 ((e.size + 2 ^ 64 - 40) % 2 ^ 64))
  let msg ← fetch e.payload 32 n
  pure { type := type, code := code, cpu := cpu, pid := pid, tid := tid, ip := ip, msg := msg, msgMd5 := env.md5 msg }

/-- `SerializeIdIndexEvent`, `perf_serializer.cc:1274-1285`. -/
def readIdIndex (e : RawEvent) : Option (List IdEntry) := do
  let nr ← e.int 8 8
  entries (fun i => do
    let id ← e.int (16 + 32 * i) 8
    let idx ← e.int (16 + 32 * i + 8) 8
    let cpu ← e.int (16 + 32 * i + 16) 8
    let tid ← e.int (16 + 32 * i + 24) 8
    pure ⟨id, idx, cpu, tid⟩) 0 nr

/-- `SerializeThreadMapEvent`, `perf_serializer.cc:1300-1310`. -/
def readThreadMap (env : Env) (e : RawEvent) : Option (List ThreadEntry) := do
  let nr ← e.int 8 8
  entries (fun i => do
    let pid ← e.int (16 + 24 * i) 8
    let comm ← cstr e (16 + 24 * i + 8)
    pure ⟨pid, comm, env.md5 comm⟩) 0 nr

/-- `SerializeStatConfigEvent`, `perf_serializer.cc:1324-1342`. -/
def readStatConfig (e : RawEvent) : Option (List (Nat × Nat)) := do
  let nr ← e.int 8 8
  entries (fun i => do
    let tag ← e.int (16 + 16 * i) 8
    let val ← e.int (16 + 16 * i + 8) 8
    pure (tag, val)) 0 nr

/-- `SerializeStatEvent`, `perf_serializer.cc:1355-1365`. -/
def readStat (e : RawEvent) : Option Stat := do
  let id ← e.int 8 8
  let cpu ← e.int 16 4
  let thread ← e.int 20 4
  let value ← e.int 24 8
  let enabled ← e.int 32 8
  let running ← e.int 40 8
  pure ⟨id, cpu, thread, value, enabled, running⟩

/-- `SerializeTimeConvEvent`, `perf_serializer.cc:1395-1409`. -/
def readTimeConv (e : RawEvent) : Option TimeConv := do
  let shift ← e.int 8 8
  let mult ← e.int 16 8
  let zero ← e.int 24 8
  let m : TimeConv := { shift := shift, mult := mult, zero := zero }
  if e.size = 56 then do
    let cycles ← e.int 32 8
    let mask ← e.int 40 8
    let capZero ← e.int 48 1
    let capShort ← e.int 49 1
    pure { m with cycles := some cycles, mask := mask, capZero := capZero ≠ 0, capShort := capShort ≠ 0 }
  else pure m

/-- The sample information behind data that have been converted. -/
def withInfo {α : Type} (ser : Ser) (e : RawEvent) (x : Option α) (f : α → SampleInfo → Body) : Option (Option Body) :=
  match x with
  | none => none
  | some a =>
    match readInfo ser e with
    | none => none
    | some none => some none
    | some (some i) => some (some (f a i))

/-- Data without sample information. -/
def plain {α : Type} (x : Option α) (f : α → Body) : Option (Option Body) := x.map (fun a => some (f a))

/-- `SerializeKernelEvent` and `SerializeUserEvent`, `perf_serializer.cc:384-424`. Nothing is set for an event of an unsupported
type. -/
def readBody (env : Env) (ser : Ser) (e : RawEvent) : Option (Option Body) :=
  if e.type = SAMPLE then (readSample ser e).map (·.map .sample)
  else if e.type = MMAP then withInfo ser e (readMMap env e) fun m i => .mmap { m with info := i }
  else if e.type = MMAP2 then
    match readMMap2 env e with
    | none => none
    | some none => some none
    | some (some m) => withInfo ser e (some m) fun m i => .mmap { m with info := i }
  else if e.type = COMM then withInfo ser e (readComm env e) fun m i => .comm { m with info := i }
  else if e.type = EXIT then withInfo ser e (readFork e) fun m i => .exit { m with info := i }
  else if e.type = FORK then withInfo ser e (readFork e) fun m i => .fork { m with info := i }
  else if e.type = LOST then withInfo ser e (readLost e) fun m i => .lost { m with info := i }
  else if e.type = THROTTLE ∨ e.type = UNTHROTTLE then
    withInfo ser e (readThrottle e) fun m i => .throttle { m with info := i }
  else if e.type = AUX then withInfo ser e (readAux e) fun m i => .aux { m with info := i }
  else if e.type = ITRACE_START then withInfo ser e (readItraceStart e) fun m i => .itraceStart { m with info := i }
  else if e.type = LOST_SAMPLES then withInfo ser e (readLostSamples e) fun m i => .lostSamples { m with info := i }
  else if e.type = SWITCH ∨ e.type = SWITCH_CPU_WIDE then
    withInfo ser e (readSwitch e) fun m i => .switch { m with info := i }
  else if e.type = NAMESPACES then withInfo ser e (readNamespaces e) fun m i => .namespaces { m with info := i }
  else if e.type = CGROUP then withInfo ser e (readCgroup e) fun m i => .cgroup { m with info := i }
  else if e.type = KSYMBOL then withInfo ser e (readKsymbol e) fun m i => .ksymbol { m with info := i }
  else if e.type = BPF_METADATA then withInfo ser e (readBpf env e) fun m i => .bpf { m with info := i }
  else if e.type = AUXTRACE_INFO then plain (readAuxtraceInfo e) .auxtraceInfo
  else if e.type = AUXTRACE then plain (readAuxtrace e) .auxtrace
  else if e.type = AUXTRACE_ERROR then plain (readAuxtraceError env e) .auxtraceError
  else if e.type = ID_INDEX then plain (readIdIndex e) .idIndex
  else if e.type = THREAD_MAP then plain (readThreadMap env e) .threadMap
  else if e.type = STAT_CONFIG then plain (readStatConfig e) .statConfig
  else if e.type = STAT then plain (readStat e) .stat
  else if e.type = STAT_ROUND then
    plain (do let ty ← e.int 8 8; let t ← e.int 16 8; pure (ty, t)) fun p => .statRound p.1 p.2
  else if e.type = TIME_CONV then plain (readTimeConv e) .timeConv
  else some (some .none)

/-- `SerializeEvent` with `SerializeEventHeader`, `perf_serializer.cc:318-336,554-561`. -/
def serialize (env : Env) (ser : Ser) (e : RawEvent) : Option (Option Msg) :=
  match readBody env ser e with
  | none => none
  | some none => some none
  | some (some b) =>
    let m : Msg := { type := e.type, misc := e.misc, size := e.size, body := b }
    some (some { m with timestamp := timeOf m })

/-! ## Sizes of messages -/

/-- `GetEventDataVariablePayloadSize` for messages, `perf_data_utils.cc:604-691`. -/
def msgVariableSize (m : Msg) : Option Nat :=
  let size : Option Nat :=
    if m.type = MMAP then some (alignedStringLength m.body.getMmap.filename.length)
    else if m.type = COMM then some (alignedStringLength m.body.getComm.comm.length)
    else if m.type = MMAP2 then some (alignedStringLength m.body.getMmap.filename.length)
    else if m.type = NAMESPACES then some (m.body.getNamespaces.links.length * 16)
    else if m.type = AUXTRACE_INFO then some (m.body.getAuxtraceInfo.priv.length * 8)
    else if m.type = AUXTRACE_ERROR then some (alignedStringLength m.body.getAuxtraceError.msg.length)
    else if m.type = ID_INDEX then some (m.body.getIdIndex.length * 32)
    else if m.type = THREAD_MAP then some (m.body.getThreadMap.length * 24)
    else if m.type = STAT_CONFIG then some (m.body.getStatConfig.length * 16)
    else if m.type = CGROUP then some (alignedStringLength m.body.getCgroup.path.length)
    else if m.type = KSYMBOL then some (alignedStringLength m.body.getKsymbol.name.length)
    else if m.type = BPF_METADATA then some (m.body.getBpf.metadata.length * 320)
    else if m.type = TIME_CONV then some (if m.body.getTimeConv.cycles.isSome then 24 else 0)
    else if m.type = LOST ∨ m.type = EXIT ∨ m.type = FORK ∨ m.type = THROTTLE ∨ m.type = UNTHROTTLE ∨ m.type = SAMPLE ∨
        m.type = AUX ∨ m.type = ITRACE_START ∨ m.type = LOST_SAMPLES ∨ m.type = SWITCH ∨ m.type = SWITCH_CPU_WIDE ∨
        m.type = FINISHED_ROUND ∨ m.type = AUXTRACE ∨ m.type = STAT ∨ m.type = STAT_ROUND then some 0
    else none
  match size with
  | none => none
  | some n => if n % 8 ≠ 0 then none else some n

/-- `GetEventDataSize` for messages, `perf_data_utils.cc:722-751`: zero on failure. -/
def msgDataSize (m : Msg) : Nat :=
  match fixedPayloadSize m.type with
  | none => 0
  | some f =>
    match msgVariableSize m with
    | none => 0
    | some n => if f + n > 65535 then 0 else f + n

/-- `GetPerfSampleInfo(const PerfDataProto_SampleInfo&, ...)`, `perf_serializer.cc:1762-1773`, into an empty `perf_sample`; `none` is
the failed `CHECK`. -/
def sampleOfInfo (i : SampleInfo) : Option Sample :=
  if i.pid.isSome ∧ i.tid = none then none
  else some {
    pid := if i.pid.isSome then i.pid.getD 0 else 0
    tid := if i.pid.isSome then i.tid.getD 0 else 0
    time := i.time.getD 0
    id := i.id.getD 0
    cpu := i.cpu.getD 0
    streamId := i.streamId.getD 0 }

/-- The flags of a branch, `perf_serializer.cc:1848-1858`, `kernel/perf_internals.h:298-307`. -/
def branchFlags (b : Branch) : Nat :=
  b.mispredicted.toNat + 2 * b.predicted.toNat + 4 * b.inTransaction.toNat + 8 * b.abort.toNat + 2 ^ 4 * (b.cycles % 2 ^ 16) +
    2 ^ 20 * (b.type % 2 ^ 4) + 2 ^ 24 * (b.spec % 2 ^ 2)

/-- The `read` member of a `perf_sample`, `perf_serializer.cc:1790-1820`: it is left as it is unless there is a reader. -/
def readOfMsg (ser : Ser) (m : SampleEvent) (s : Sample) : Sample :=
  match m.read with
  | none => s
  | some r =>
    match readerForId ser s.id with
    | none => s
    | some reader =>
      let rf := reader.attr.readFormat
      let s := { s with
        timeEnabled := if rf.testBit 0 then r.timeEnabled else 0
        timeRunning := if rf.testBit 1 then r.timeRunning else 0 }
      if rf.testBit 3 then { s with group := some r.values }
      else match r.values with
        | [v] => { s with one := { value := v.value, id := v.id } }
        | _ => s

/-- `GetPerfSampleInfo(const PerfDataProto_SampleEvent&, ...)`, `perf_serializer.cc:1775-1881`, into an empty `perf_sample`; `none` is
the failed `CHECK`. -/
def sampleOfMsg (env : Env) (ser : Ser) (m : SampleEvent) : Option Sample :=
  if m.pid.isSome ∧ m.tid = none then none
  else
    let s : Sample := {
      ip := m.ip.getD 0
      pid := if m.pid.isSome then m.pid.getD 0 else 0
      tid := if m.pid.isSome then m.tid.getD 0 else 0
      time := m.time.getD 0
      addr := m.addr.getD 0
      id := m.id.getD 0
      streamId := m.streamId.getD 0
      cpu := m.cpu.getD 0
      period := m.period.getD 0
      callchain := if m.callchain.length > 0 then some m.callchain else none
      raw := if m.raw ≠ [] then m.raw else List.replicate m.rawSize 0
      noHwIdx := m.noHwIdx.getD true
      branchStack := if m.branches.length > 0 then
          some ⟨m.hwIdx.getD env.junk, m.branches.map (fun b => ⟨b.fromIp, b.toIp, branchFlags b⟩)⟩
        else none
      weight := match m.weightStruct with
        | some w => w.var1 % 2 ^ 32 + 2 ^ 32 * (w.var2 % 2 ^ 16) + 2 ^ 48 * (w.var3 % 2 ^ 16)
        | none => m.weight.getD 0
      dataSrc := m.dataSrc.getD 0
      transaction := m.transaction.getD 0
      physAddr := m.physAddr.getD 0
      cgroup := m.cgroup.getD 0
      dataPageSize := m.dataPageSize.getD 0
      codePageSize := m.codePageSize.getD 0 }
    some (readOfMsg ser m s)

/-- `GetEventSize`, `perf_serializer.cc:111-152`: zero on failure. -/
def eventSize (env : Env) (ser : Ser) (m : Msg) : Option Nat :=
  let n := msgDataSize m
  if n = 0 then some 0
  else if ¬ containsSampleInfo ser m.type then some n
  else
    let withSample (s : Option Sample) : Option Nat :=
      match s with
      | none => none
      | some s =>
        match readerForId ser s.id with
        | none => some 0
        | some r => (sampleDataSize r.attr.sample m.type s).map (n + ·)
    if m.type = SAMPLE then withSample (sampleOfMsg env ser m.body.getSample)
    else match infoOf m with
      | none => some 0
      | some i => withSample (sampleOfInfo i)

/-! ## From a message to the binary form -/

/-- Stores into the memory of an event, in order: offsets from the start of the event, and bytes. `none` if one is outside. -/
def puts : List (Nat × Bytes) → Bytes → Option Bytes
  | [], m => some m
  | (off, d) :: l, m =>
    if 8 ≤ off ∧ off - 8 + d.length ≤ m.length then puts l (overwrite m (off - 8) d) else none

/-- `snprintf(event + off, max, "%s", s.c_str())`. -/
def snprintf (off max : Nat) (s : Bytes) : Nat × Bytes := (off, cut max (cStr s) ++ [0])

/-- The last part of the conversion: writing the sample, `perf_serializer.cc:676-685,1083-1087`. -/
def writeSampleOf (ser : Ser) (s : Option Sample) (e : RawEvent) : Option (Option RawEvent) :=
  match s with
  | none => none
  | some s =>
    match readerForId ser s.id with
    | none => none
    | some r =>
      match writePerfSampleInfo r.attr.sample s e with
      | none => none
      | some (ok, e) => if ok then some (some e) else some none

/-- `DeserializeSampleInfo`, `perf_serializer.cc:1076-1088`, behind the stores `l`. -/
def writeInfo (ser : Ser) (e : RawEvent) (l : List (Nat × Bytes)) (i : SampleInfo) : Option (Option RawEvent) :=
  match puts l e.payload with
  | none => none
  | some p =>
    let e := { e with payload := p }
    if ¬ containsSampleInfo ser e.type then some (some e)
    else writeSampleOf ser (sampleOfInfo i) e

/-- Stores only. -/
def writePlain (e : RawEvent) (l : List (Nat × Bytes)) : Option (Option RawEvent) :=
  (puts l e.payload).map fun p => some { e with payload := p }

/-- The stores of `DeserializeMMapEvent`, `perf_serializer.cc:708-719`. -/
def mmapStores (m : MMap) : List (Nat × Bytes) :=
  [(8, toLE 4 m.pid), (12, toLE 4 m.tid), (16, toLE 8 m.start), (24, toLE 8 m.len), (32, toLE 8 m.pgoff),
    snprintf 40 4096 m.filename]

/-- The first stores of `DeserializeMMap2Event`, `perf_serializer.cc:756-788`. -/
def mmap2Front (m : MMap) : List (Nat × Bytes) :=
  [(8, toLE 4 m.pid), (12, toLE 4 m.tid), (16, toLE 8 m.start), (24, toLE 8 m.len), (32, toLE 8 m.pgoff)]

/-- The stores of a build ID or an inode, `perf_serializer.cc:759-782`; `none` is `return false`. The array `bytes` is not
initialised, only the part that has been is copied. -/
def mmap2Middle (m : MMap) : Option (List (Nat × Bytes)) :=
  match m.buildId with
  | some h =>
    let (ok, bytes) := hexStringToRawData h (List.replicate 20 0) 20
    if h.length % 2 = 0 ∧ h.length / 2 ≤ 20 ∧ ok then
      some [(40, toLE 1 (h.length / 2)), (44, List.replicate 20 0), (44, bytes.take (h.length / 2))]
    else none
  | none => some [(40, toLE 4 m.maj), (44, toLE 4 m.min), (48, toLE 8 m.ino), (56, toLE 8 m.inoGeneration)]

/-- The last stores of `DeserializeMMap2Event`, `perf_serializer.cc:756-788`. -/
def mmap2Back (m : MMap) : List (Nat × Bytes) :=
  [(64, toLE 4 m.prot), (68, toLE 4 m.flags), snprintf 72 4096 m.filename]

/-- `DeserializeMMap2Event`, `perf_serializer.cc:756-788`. -/
def writeMMap2 (ser : Ser) (e : RawEvent) (m : MMap) : Option (Option RawEvent) :=
  match mmap2Middle m with
  | none => (puts (mmap2Front m) e.payload).map fun _ => none
  | some mid => writeInfo ser e (mmap2Front m ++ mid ++ mmap2Back m) m.info

/-- The stores of `DeserializeCommEvent`, `perf_serializer.cc:801-809`. -/
def commStores (m : Comm) : List (Nat × Bytes) := [(8, toLE 4 m.pid), (12, toLE 4 m.tid), snprintf 16 4096 m.comm]

/-- The stores of `DeserializeForkExitEvent`, `perf_serializer.cc:823-833`. -/
def forkStores (m : Fork) : List (Nat × Bytes) :=
  [(8, toLE 4 m.pid), (12, toLE 4 m.ppid), (16, toLE 4 m.tid), (20, toLE 4 m.ptid), (24, toLE 8 m.time)]

/-- The stores of `DeserializeAuxEvent`, `perf_serializer.cc:889-899`; the flags are zero before. -/
def auxStores (m : Aux) : List (Nat × Bytes) :=
  [(8, toLE 8 m.offset), (16, toLE 8 m.size),
    (24, toLE 8 (m.truncated.toNat + 2 * m.overwrite.toNat + 4 * m.isPartial.toNat))]

/-- The stores for the entries of a list, from entry `i` on. -/
def listStores {α : Type} (f : Nat → α → List (Nat × Bytes)) : Nat → List α → List (Nat × Bytes)
  | _, [] => []
  | i, a :: l => f i a ++ listStores f (i + 1) l

/-- The stores of `DeserializeNamespacesEvent`, `perf_serializer.cc:969-980`. -/
def namespacesStores (m : Namespaces) : List (Nat × Bytes) :=
  [(8, toLE 4 m.pid), (12, toLE 4 m.tid), (16, toLE 8 m.links.length)] ++
    listStores (fun i x => [(24 + 16 * i, toLE 8 x.1), (24 + 16 * i + 8, toLE 8 x.2)]) 0 m.links

/-- The stores of `DeserializeKsymbolEvent`, `perf_serializer.cc:1009-1018`. -/
def ksymbolStores (m : Ksymbol) : List (Nat × Bytes) :=
  [(8, toLE 8 m.addr), (16, toLE 4 m.len), (20, toLE 2 m.ksymType), (22, toLE 2 m.flags), snprintf 24 512 m.name]

/-- The stores of `DeserializeBpfMetadataEvent`, `perf_serializer.cc:1036-1051`. -/
def bpfStores (m : Bpf) : List (Nat × Bytes) :=
  [snprintf 8 512 m.progName, (520, toLE 8 m.metadata.length)] ++
    listStores (fun i x => [snprintf (528 + 320 * i) 64 x.1, snprintf (528 + 320 * i + 64) 256 x.2]) 0 m.metadata

/-- The stores of `DeserializeAuxtraceInfoEvent`, `perf_serializer.cc:1183-1191`. -/
def auxtraceInfoStores (m : AuxtraceInfo) : List (Nat × Bytes) :=
  (8, toLE 4 m.type) :: listStores (fun i x => [(16 + 8 * i, toLE 8 x)]) 0 m.priv

/-- The stores of `DeserializeAuxtraceEvent`, `perf_serializer.cc:1216-1227`. -/
def auxtraceStores (m : Auxtrace) : List (Nat × Bytes) :=
  [(8, toLE 8 m.size), (16, toLE 8 m.offset), (24, toLE 8 m.reference), (32, toLE 4 m.idx), (36, toLE 4 m.tid),
    (40, toLE 4 m.cpu)]

/-- The stores of `DeserializeAuxtraceErrorEvent`, `perf_serializer.cc:1260-1272`. -/
def auxtraceErrorStores (m : AuxtraceError) : List (Nat × Bytes) :=
  [(8, toLE 4 m.type), (12, toLE 4 m.code), (16, toLE 4 m.cpu), (20, toLE 4 m.pid), (24, toLE 4 m.tid), (32, toLE 8 m.ip),
    snprintf 40 64 m.msg]

/-- The stores of `DeserializeIdIndexEvent`, `perf_serializer.cc:1287-1298`. -/
def idIndexStores (l : List IdEntry) : List (Nat × Bytes) :=
  (8, toLE 8 l.length) :: listStores (fun i x => [(16 + 32 * i, toLE 8 x.id), (16 + 32 * i + 8, toLE 8 x.idx),
    (16 + 32 * i + 16, toLE 8 x.cpu), (16 + 32 * i + 24, toLE 8 x.tid)]) 0 l

/-- The stores of `DeserializeThreadMapEvent`, `perf_serializer.cc:1312-1322`. -/
def threadMapStores (l : List ThreadEntry) : List (Nat × Bytes) :=
  (8, toLE 8 l.length) ::
    listStores (fun i x => [(16 + 24 * i, toLE 8 x.pid), snprintf (16 + 24 * i + 8) 16 x.comm]) 0 l

/-- The stores of `DeserializeStatConfigEvent`, `perf_serializer.cc:1344-1353`. -/
def statConfigStores (l : List (Nat × Nat)) : List (Nat × Bytes) :=
  (8, toLE 8 l.length) :: listStores (fun i x => [(16 + 16 * i, toLE 8 x.1), (16 + 16 * i + 8, toLE 8 x.2)]) 0 l

/-- The stores of `DeserializeStatEvent`, `perf_serializer.cc:1367-1377`. -/
def statStores (m : Stat) : List (Nat × Bytes) :=
  [(8, toLE 8 m.id), (16, toLE 4 m.cpu), (20, toLE 4 m.thread), (24, toLE 8 m.value), (32, toLE 8 m.enabled),
    (40, toLE 8 m.running)]

/-- The stores of `DeserializeTimeConvEvent`, `perf_serializer.cc:1411-1424`. -/
def timeConvStores (m : TimeConv) : List (Nat × Bytes) :=
  [(8, toLE 8 m.shift), (16, toLE 8 m.mult), (24, toLE 8 m.zero)] ++
    match m.cycles with
    | some c => [(32, toLE 8 c), (40, toLE 8 m.mask), (48, toLE 1 m.capZero.toNat), (49, toLE 1 m.capShort.toNat)]
    | none => []

/-- `PERF_RECORD_COMM`, `perf_serializer.cc:456-471`: the size in the header is replaced by the computed one, the memory is not.
An event that is larger than its memory, or too small for a header, is the outcome `none`. -/
def writeComm (env : Env) (ser : Ser) (m : Msg) (e : RawEvent) : Option (Option RawEvent) :=
  match eventSize env ser m with
  | none => none
  | some size =>
    if size = 0 then some none
    else
      let size := size % 2 ^ 16
      if size < 8 ∨ size > e.size then none
      else writeInfo ser { e with payload := e.payload.take (size - 8) } (commStores m.body.getComm) m.body.getComm.info

/-- `DeserializeKernelEvent` and `DeserializeUserEvent`, `perf_serializer.cc:512-552`. -/
def writeBody (env : Env) (ser : Ser) (m : Msg) (e : RawEvent) : Option (Option RawEvent) :=
  let b := m.body
  if m.type = SAMPLE then writeSampleOf ser (sampleOfMsg env ser b.getSample) e
  else if m.type = MMAP then writeInfo ser e (mmapStores b.getMmap) b.getMmap.info
  else if m.type = MMAP2 then writeMMap2 ser e b.getMmap
  else if m.type = COMM then writeComm env ser m e
  else if m.type = EXIT then
    match b with
    | .exit f => writeInfo ser e (forkStores f) f.info
    | .fork f => writeInfo ser e (forkStores f) f.info
    | _ => some none
  else if m.type = FORK then writeInfo ser e (forkStores b.getFork) b.getFork.info
  else if m.type = LOST then writeInfo ser e [(8, toLE 8 b.getLost.id), (16, toLE 8 b.getLost.lost)] b.getLost.info
  else if m.type = THROTTLE ∨ m.type = UNTHROTTLE then
    writeInfo ser e [(8, toLE 8 b.getThrottle.time), (16, toLE 8 b.getThrottle.id), (24, toLE 8 b.getThrottle.streamId)]
      b.getThrottle.info
  else if m.type = AUX then writeInfo ser e (auxStores b.getAux) b.getAux.info
  else if m.type = ITRACE_START then
    writeInfo ser e [(8, toLE 4 b.getItraceStart.pid), (12, toLE 4 b.getItraceStart.tid)] b.getItraceStart.info
  else if m.type = LOST_SAMPLES then writeInfo ser e [(8, toLE 8 b.getLostSamples.lost)] b.getLostSamples.info
  else if m.type = SWITCH then writeInfo ser e [] b.getSwitch.info
  else if m.type = SWITCH_CPU_WIDE then
    writeInfo ser e [(8, toLE 4 b.getSwitch.pid), (12, toLE 4 b.getSwitch.tid)] b.getSwitch.info
  else if m.type = NAMESPACES then writeInfo ser e (namespacesStores b.getNamespaces) b.getNamespaces.info
  else if m.type = CGROUP then
    writeInfo ser e [(8, toLE 8 b.getCgroup.id), snprintf 16 4096 b.getCgroup.path] b.getCgroup.info
  else if m.type = KSYMBOL then writeInfo ser e (ksymbolStores b.getKsymbol) b.getKsymbol.info
  else if m.type < 64 then some none
  else if m.type = BPF_METADATA then writeInfo ser e (bpfStores b.getBpf) b.getBpf.info
  else if m.type = AUXTRACE_INFO then writePlain e (auxtraceInfoStores b.getAuxtraceInfo)
  else if m.type = AUXTRACE then writePlain e (auxtraceStores b.getAuxtrace)
  else if m.type = AUXTRACE_ERROR then writePlain e (auxtraceErrorStores b.getAuxtraceError)
  else if m.type = ID_INDEX then writePlain e (idIndexStores b.getIdIndex)
  else if m.type = THREAD_MAP then writePlain e (threadMapStores b.getThreadMap)
  else if m.type = STAT_CONFIG then writePlain e (statConfigStores b.getStatConfig)
  else if m.type = STAT then writePlain e (statStores b.getStat)
  else if m.type = STAT_ROUND then writePlain e [(8, toLE 8 b.getStatRound.1), (16, toLE 8 b.getStatRound.2)]
  else if m.type = TIME_CONV then writePlain e (timeConvStores b.getTimeConv)
  else if m.type = 81 ∨ m.type = 82 ∨ m.type = 83 ∨ 85 ≤ m.type then some none
  else some (some e)

/-- `DeserializeEvent` with `CallocMemoryForEvent` and `DeserializeEventHeader`, `perf_serializer.cc:425-447,563-570`,
`perf_data_utils.cc:50-56`. An event that does not have room for a header is undefined behaviour; one whose size does not fit in the
header is not modelled, it is the outcome `none` as well. -/
def deserialize (env : Env) (ser : Ser) (m : Msg) : Option (Option RawEvent) :=
  if m.size < 8 ∨ 2 ^ 16 ≤ m.size then none
  else writeBody env ser m { type := m.type, misc := m.misc % 2 ^ 16, payload := List.replicate (m.size - 8) 0 }

end Verif.Serial
