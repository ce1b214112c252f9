import Verif.Builder.Model
import Verif.Normalizer.Model

/-!
# Model of the converter (`/repo/src/perf_data_converter.cc`)

The converter is a handler: it reacts to the callbacks of the normalizer and turns accepted samples
into samples of profiles. `none` is an abort (`CHECK`, `LOG(FATAL)`) or the undefined overflow of an
`int64_t`. A pointer to a builder is its index in `builders_` (a deque that only grows); a pointer to a
profile sample is that index and the index of the sample. `per_pid_` and the maps in it are functions
or association lists: an entry created by a lookup behaves like an absent one. Ids and repeated fields
are unbounded (protobuf limits them to `2^31 - 1`). `AddOrGetFunction` and
`SetMappingHasFunctionsAndFilenames` are never called and not modelled. Logging is left out.
-/

namespace Verif.Converter
open Verif.Profile Verif.Builder
open Verif.Normalizer (Bytes Source MapRef Loc BranchPair SampleEv SampleCtx Callback ACtx AttrRec
  contextFromHeader nameOrMd5 upd)

/-- What the converter is given besides the callbacks: the parts of the `PerfDataProto` it reads and the
arguments of `PerfDataProtoToProfiles` (`perf_data_converter.cc:215-225`). An event type has a name or
not. -/
structure Setup where
  attrs : List AttrRec := []
  eventTypes : List (Option Bytes) := []
  perfVersion : Option Bytes := none
  commandLine : Option Bytes := none
  labels : Nat := 0
  options : Nat := 0
  threadTypes : List (Nat × Bytes) := []
deriving DecidableEq, Repr

/-- `kGroupByPids`, `perf_data_converter.h:110`. -/
def Setup.grouped (S : Setup) : Bool := S.options.testBit 0
/-- `kFailOnMainMappingMismatch`, `perf_data_converter.h:113`. -/
def Setup.failOnMismatch (S : Setup) : Bool := S.options.testBit 1
/-- `kAddDataAddressFrames`, `perf_data_converter.h:119`. -/
def Setup.dataFrames (S : Setup) : Bool := S.options.testBit 3
/-- `kDropLostEvents`, `perf_data_converter.h:121`. -/
def Setup.dropLost (S : Setup) : Bool := S.options.testBit 4

/-- Conversion of a `uint64_t` to `int64_t`. -/
def toInt64 (n : Nat) : Int := Int.bmod n (2 ^ 64)

/-- `UTF8StringId`, `perf_data_converter.cc:60-62`: `c_str()` ends at the first zero byte. -/
def utf8Id (b : Builder) (s : Bytes) : Nat × Builder := stringId b (Util.cStr s)

/-- `ExecModeString`, `perf_data_converter.cc:38-54`, `perf_data_converter.h:98-102`. -/
def execModeString : ACtx → Bytes
  | .hostKernel => ascii "Host Kernel"
  | .hostUser => ascii "Host User"
  | .guestKernel => ascii "Guest Kernel"
  | .guestUser => ascii "Guest User"
  | .hypervisor => ascii "Hypervisor"
  | .unknown => []

/-- `DataSrcString`, `perf_data_converter.cc:378-395`; the bits are those of
`quipper/kernel/perf_event.h:1054-1067`. -/
def dataSrcString (lvl : Nat) : Bytes :=
  if ¬ lvl.testBit 1 then []
  else if lvl.testBit 3 then ascii "L1"
  else if lvl.testBit 4 then ascii "LFB"
  else if lvl.testBit 5 then ascii "L2"
  else if lvl.testBit 6 then ascii "Local L3"
  else if lvl.testBit 7 then ascii "Local DRAM"
  else if lvl.testBit 8 ∨ lvl.testBit 9 then ascii "Remote DRAM"
  else if lvl.testBit 10 then ascii "Near L3"
  else if lvl.testBit 11 then ascii "Far L3"
  else if lvl.testBit 12 then ascii "IO Memory"
  else if lvl.testBit 13 then ascii "Uncached Memory"
  else ascii "Unknown Level"

/-- `SnoopStatusString`, `perf_data_converter.cc:398-404`; bits in `perf_event.h:1070-1074`. -/
def snoopString (snoop : Nat) : Bytes :=
  if snoop.testBit 1 then ascii "None"
  else if snoop.testBit 2 then ascii "Hit"
  else if snoop.testBit 3 then ascii "Miss"
  else if snoop.testBit 4 then ascii "HitM"
  else ascii "Unknown Status"

/-- `SampleKey`, `perf_data_converter.cc:75-107`, with the equality of `:109-123` (all fields). -/
structure Key where
  pid : Nat := 0
  tid : Nat := 0
  timeNs : Nat := 0
  execMode : ACtx := .unknown
  comm : Nat := 0
  threadType : Nat := 0
  threadComm : Nat := 0
  cgroup : Nat := 0
  codePageSize : Nat := 0
  dataPageSize : Nat := 0
  cpu : Nat := 0
  cacheLatency : Nat := 0
  dataSrc : Nat := 0
  snoopStatus : Nat := 0
  stack : List Nat := []
  totalLatency : Nat := 0
  issueLatency : Nat := 0
  translationLatency : Nat := 0
deriving DecidableEq, Repr

/-- A pointer to a sample of a profile: the builder and the position. -/
abbrev Slot := Nat × Nat

/-- `ProcessMeta`, `perf_data_converter.cc:179-211`. -/
structure Meta where
  pid : Nat
  minNs : Int := 0
  maxNs : Int := 0
deriving DecidableEq, Repr

/-- `UpdateTimestamps`, `perf_data_converter.cc:185-192`. -/
def Meta.update (m : Meta) (t : Int) : Meta :=
  { m with
    minNs := if m.minNs = 0 ∨ t < m.minNs then t else m.minNs
    maxNs := if m.maxNs = 0 ∨ t > m.maxNs then t else m.maxNs }

/-- `PerPidInfo`, `perf_data_converter.cc:352-369`; the builder and the process meta are at the same
index. The function map is never used. -/
structure PidInfo where
  builder : Option Nat := none
  locs : List (Nat × Nat) := []
  maps : List (Nat × Nat) := []
  comms : List (Nat × Bytes) := []
  samples : List (Key × Slot) := []
deriving DecidableEq, Repr

/-- The state of the converter, `perf_data_converter.cc:347-374`, and the counters
`process_build_id_stats_` of the handler (`perf_data_handler.h:218`). -/
structure State where
  builders : List Builder := []
  metas : List Meta := []
  pids : Nat → PidInfo := fun _ => {}
  stats : Nat → Source → Nat := fun _ _ => 0

/-- The process whose profile a sample goes to, `perf_data_converter.cc:504`. -/
def Setup.home (S : Setup) (pid : Nat) : Nat := if S.grouped then pid else 0

/-- `tid_to_comm_map[tid]`: an absent entry is created empty. -/
def commOf (st : State) (pid tid : Nat) : Bytes := (find (st.pids pid).comms tid).getD []

/-- Intern a string if there is one. -/
def internOpt (b : Builder) : Option Bytes → Nat × Builder
  | none => (0, b)
  | some s => utf8Id b s

/-- The thread type looked up for a key, `perf_data_converter.cc:290-292,424-430`. -/
def threadType? (S : Setup) (s : SampleEv) : Option Bytes :=
  if S.labels.testBit 5 ∧ S.threadTypes ≠ [] then s.tid.bind (find S.threadTypes) else none

/-- The comm for a key, `perf_data_converter.cc:419-423`. -/
def comm? (S : Setup) (st : State) (s : SampleEv) : Option Bytes :=
  if S.labels.testBit 4 then s.pid.map (fun p => commOf st p p) else none

/-- The thread's comm, `perf_data_converter.cc:431-437`. -/
def threadComm? (S : Setup) (st : State) (s : SampleEv) : Option Bytes :=
  if S.labels.testBit 6 then
    match s.pid, s.tid with
    | some p, some t => some (commOf st p t)
    | _, _ => none
  else none

/-- The data source bits of a sample, when wanted, `perf_data_converter.cc:476`. -/
def dataSrc? (S : Setup) (s : SampleEv) : Option Nat := if S.labels.testBit 12 then s.dataSrc else none

/-- The total latency, `perf_data_converter.cc:465-473,487-490`; the field has 32 bits. -/
def totalLatency (S : Setup) (c : SampleCtx) : Nat :=
  if S.labels.testBit 13 then
    match c.spe with
    | some r => r.totalLat
    | none =>
      match c.sample.weightStruct.bind (·.2) with
      | some w => w
      | none => (c.sample.weight.getD 0) % 2 ^ 32
  else 0

/-- `MakeSampleKey`, `perf_data_converter.cc:406-500`: the key, its stack still empty, and the builder
after interning its strings. -/
def makeKey (S : Setup) (st : State) (c : SampleCtx) (b : Builder) : Key × Builder :=
  let s := c.sample
  let comm := internOpt b (comm? S st s)
  let tt := internOpt comm.2 (threadType? S s)
  let tc := internOpt tt.2 (threadComm? S st s)
  let cg := internOpt tc.2 (if S.labels.testBit 7 then c.cgroup else none)
  let ds := internOpt cg.2 ((dataSrc? S s).map (fun v => dataSrcString (v / 2 ^ 5 % 2 ^ 14)))
  let sn := internOpt ds.2 ((dataSrc? S s).map (fun v => snoopString (v / 2 ^ 19 % 2 ^ 5)))
  ({ pid := s.pid.getD 0
     tid := if S.labels.testBit 1 then s.tid.getD 0 else 0
     timeNs := if S.labels.testBit 2 then s.timeNs.getD 0 else 0
     execMode := if S.labels.testBit 3 then contextFromHeader c.misc else .unknown
     comm := comm.1
     threadType := tt.1
     threadComm := tc.1
     cgroup := cg.1
     codePageSize := if S.labels.testBit 8 then s.codePageSize.getD 0 else 0
     dataPageSize := if S.labels.testBit 9 then s.dataPageSize.getD 0 else 0
     cpu := if S.labels.testBit 10 then s.cpu.getD 0 else 0
     cacheLatency := if S.labels.testBit 11 then (s.weightStruct.bind (·.1)).getD 0 else 0
     dataSrc := ds.1
     snoopStatus := sn.1
     totalLatency := totalLatency S c
     issueLatency := if S.labels.testBit 14 then (c.spe.map (·.issueLat)).getD 0 else 0
     translationLatency := if S.labels.testBit 15 then (c.spe.map (·.translationLat)).getD 0 else 0 },
   sn.2)

/-! ## Creating a profile -/

/-- `std::to_string` of a count. -/
def decimal (n : Nat) : Bytes := (Nat.toDigits 10 n).map (fun c => UInt8.ofNat c.toNat)

/-- The prefix of a named event, empty if there is no name, `perf_data_converter.cc:524-530`. -/
def namedPrefix (S : Setup) (idx : Nat) : Bytes :=
  if S.attrs.length = S.eventTypes.length then
    match S.eventTypes[idx]? with
    | some (some n) => n ++ ascii "_"
    | _ => []
  else []

/-- The names given to the events, `perf_data_converter.cc:518-533`: the loop over the attributes from
an index on, with the number of anonymous events so far. -/
def eventNames (S : Setup) : Nat → Nat → Nat → List Bytes
  | 0, _, _ => []
  | fuel + 1, idx, unknown =>
    let named := namedPrefix S idx
    if named = [] then (ascii "event_" ++ decimal unknown ++ ascii "_") :: eventNames S fuel (idx + 1) (unknown + 1)
    else named :: eventNames S fuel (idx + 1) unknown

/-- Two sample types for an event, `perf_data_converter.cc:534-541`; the default sample type is the last one
(`:543`). -/
def addType (b : Builder) (n : Bytes) : Builder :=
  let r1 := utf8Id b (n ++ ascii "sample")
  let u1 := stringId r1.2 (ascii "count")
  let r2 := utf8Id u1.2 (n ++ ascii "event")
  let u2 := stringId r2.2 (ascii "count")
  { u2.2 with profile := { u2.2.profile with
    sampleType := u2.2.profile.sampleType ++ [⟨r1.1, u1.1⟩, ⟨r2.1, u2.1⟩]
    defaultSampleType := r2.1 } }

/-- The sample types of all events. -/
def addTypes (b : Builder) : List Bytes → Builder
  | [] => b
  | n :: t => addTypes (addType b n) t

/-- A comment, `perf_data_converter.cc:552-562`. -/
def addComment (b : Builder) (pre : Bytes) : Option Bytes → Builder
  | none => b
  | some v =>
    let r := utf8Id b (pre ++ v)
    { r.2 with profile := { r.2.profile with comment := r.2.profile.comment ++ [(r.1 : Int)] } }

/-- `AddOrGetMapping`, `perf_data_converter.cc:605-643`: id, the process's map, builder. -/
def addMapping (maps : List (Nat × Nat)) (b : Builder) : Option MapRef → Option (Nat × List (Nat × Nat) × Builder)
  | none => some (0, maps, b)
  | some r =>
    match find maps r.ptr with
    | some id => some (id, maps, b)
    | none =>
      let id := b.profile.mapping.length + 1
      let bid := if r.mapping.buildId.value ≠ [] then utf8Id b r.mapping.buildId.value else (0, b)
      let fn := utf8Id bid.2 (nameOrMd5 r.mapping.filename r.mapping.md5)
      if r.mapping.start ≤ r.mapping.limit then
        some (id, (r.ptr, id) :: maps, { fn.2 with profile := { fn.2.profile with
          mapping := fn.2.profile.mapping ++
            [{ id, memoryStart := r.mapping.start, memoryLimit := r.mapping.limit,
               fileOffset := r.mapping.fileOffset, filename := fn.1, buildId := bid.1 }] } })
      else none

/-- A new profile before its main mapping, `perf_data_converter.cc:509-543`. -/
def newProfile (S : Setup) : Builder := addTypes new (eventNames S S.attrs.length 0 0)

/-- The main mapping of a new profile, `perf_data_converter.cc:544-551`. -/
def addMain (maps : List (Nat × Nat)) (b : Builder) : Option MapRef → Option (List (Nat × Nat) × Builder)
  | none => some (maps, { b with profile := { b.profile with
      mapping := b.profile.mapping ++ [{ id := b.profile.mapping.length + 1, memoryStart := 0, memoryLimit := 1 }] } })
  | some r =>
    match addMapping maps b (some r) with
    | none => none
    | some (_, maps', b') => some (maps', b')

/-- The comments of a new profile, `perf_data_converter.cc:552-562`. -/
def addComments (S : Setup) (b : Builder) : Builder :=
  addComment (addComment b (ascii "perf-version:") S.perfVersion) (ascii "perf-command:") S.commandLine

/-- Is the main mapping of the sample at odds with the first mapping of the profile, and the conversion
meant to fail then? `perf_data_converter.cc:563-581`. `none` is an access to a mapping that is not
there. -/
def mismatchFatal (S : Setup) (b : Builder) (c : SampleCtx) : Option Bool :=
  match c.main with
  | none => some false
  | some r =>
    if S.grouped ∧ r.mapping.filename ≠ [] then
      match b.profile.mapping[0]? with
      | none => none
      | some m =>
        match b.profile.stringTable[m.filename.toNat]? with
        | none => none
        | some name => some (decide (name ≠ nameOrMd5 r.mapping.filename r.mapping.md5) && S.failOnMismatch)
    else some false

/-- Note the time of a sample, `perf_data_converter.cc:582-584`. -/
def stamp (c : SampleCtx) (m : Meta) : Meta :=
  if c.sample.timeNs.getD 0 ≠ 0 then m.update (toInt64 (c.sample.timeNs.getD 0)) else m

/-- `GetOrCreateBuilder`, `perf_data_converter.cc:502-586`: the builder's index and the state. -/
def getOrCreate (S : Setup) (st : State) (c : SampleCtx) : Option (Nat × State) :=
  let pid := c.sample.pid.getD 0
  let h := S.home pid
  match (st.pids h).builder with
  | some bi =>
    match st.builders[bi]? with
    | none => none
    | some b =>
      match mismatchFatal S b c with
      | some false => some (bi, { st with metas := st.metas.modify bi (stamp c) })
      | _ => none
  | none =>
    let bi := st.builders.length
    match addMain (st.pids pid).maps (newProfile S) c.main with
    | none => none
    | some (maps, b) =>
      let pids1 := upd st.pids h { st.pids h with builder := some bi }
      some (bi, { st with
        builders := st.builders ++ [addComments S b]
        metas := st.metas ++ [stamp c { pid := h }]
        pids := upd pids1 pid { pids1 pid with maps := maps } })

/-! ## Locations -/

/-- The maps of a process and the builder, as `AddOrGetLocation` changes them. -/
structure Work where
  locs : List (Nat × Nat)
  maps : List (Nat × Nat)
  b : Builder

/-- `AddOrGetLocation`, `perf_data_converter.cc:807-831`. -/
def addLocation (w : Work) (addr : Nat) (r : Option MapRef) : Option (Nat × Work) :=
  match find w.locs addr with
  | some id => some (id, w)
  | none =>
    let id := w.b.profile.location.length + 1
    match addMapping w.maps w.b r with
    | none => none
    | some (mid, maps, b) =>
      if mid = 0 ∧ addr ≠ 0 then none
      else some (id, { locs := (addr, id) :: w.locs, maps,
                       b := { b with profile := { b.profile with
                         location := b.profile.location ++ [{ id, mappingId := mid, address := addr }] } } })

/-- `IncBuildIdStats`, `perf_data_handler.cc:1054-1059`. -/
def incStats (st : Source → Nat) (r : Option MapRef) : Source → Nat :=
  let src := match r with
    | some r => r.mapping.buildId.source
    | none => .noMmap
  upd st src (st src + 1)

/-- The stack so far, the maps and the counters of the process. -/
structure Acc where
  stack : List Nat
  w : Work
  stats : Source → Nat

/-- One frame: `stack.push_back(AddOrGetLocation(…))`, then `IncBuildIdStats` where the code calls it. -/
def pushFrame (a : Acc) (count : Bool) (addr : Nat) (r : Option MapRef) : Option Acc :=
  match addLocation a.w addr r with
  | none => none
  | some (id, w) => some { stack := a.stack ++ [id], w, stats := if count then incStats a.stats r else a.stats }

/-- Is this an LBR sample, `perf_data_converter.cc:898`. -/
def isLbr (c : SampleCtx) : Bool := !c.branchStack.isEmpty && !c.spe.isSome

/-- The loop over the call chain, `perf_data_converter.cc:900-936`. -/
def pushChain (lbr : Bool) : Bool → List Loc → Acc → Option Acc
  | _, [], a => some a
  | skipped, f :: t, a =>
    if lbr ∧ f.ip = 2 ^ 64 - 512 then some a
    else if f.ip ≥ 2 ^ 64 - 4095 then pushChain lbr skipped t a
    else if ¬ skipped then pushChain lbr true t a
    else
      match f.mapping with
      | none => pushChain lbr skipped t a
      | some r =>
        if f.ip ≤ r.mapping.start then pushChain lbr skipped t a
        else
          match pushFrame a true (f.ip - 1) (some r) with
          | none => none
          | some a => pushChain lbr skipped t a

/-- The loop over the branch stack, `perf_data_converter.cc:940-956`. -/
def pushBranches : List BranchPair → Acc → Option Acc
  | [], a => some a
  | f :: t, a =>
    match f.from_.mapping with
    | none => pushBranches t a
    | some r =>
      if f.from_.ip < r.mapping.start then pushBranches t a
      else
        match pushFrame a true f.from_.ip (some r) with
        | none => none
        | some a => pushBranches t a

/-- The checks on an address and its mapping, `perf_data_converter.cc:869-875,881-887`: the address to
use, or a failed `CHECK`. -/
def checkedAddr (addr : Nat) (r : Option MapRef) : Option Nat :=
  match r with
  | none => some 0
  | some r =>
    if addr = 0 then some 0
    else if r.mapping.start ≤ addr ∧ addr < r.mapping.limit then some addr else none

/-- The data address frame, `perf_data_converter.cc:880-890`. -/
def pushData (S : Setup) (c : SampleCtx) (a : Acc) : Option Acc :=
  if S.dataFrames then
    match checkedAddr (c.sample.addr.getD 0) c.addrMap with
    | none => none
    | some x => pushFrame a false x c.addrMap
  else some a

/-- The stack of a sample, `perf_data_converter.cc:869-957`. -/
def pushStack (S : Setup) (c : SampleCtx) (a : Acc) : Option Acc :=
  match checkedAddr c.sample.ip c.sampleMap with
  | none => none
  | some ip =>
    match pushData S c a with
    | none => none
    | some a =>
      match pushFrame a true ip c.sampleMap with
      | none => none
      | some a =>
        match pushChain (isLbr c) false c.callchain a with
        | none => none
        | some a => if isLbr c then pushBranches c.branchStack a else some a

/-! ## Samples -/

/-- What a label holds: the id of an interned string, a string to intern, or a number with a unit. -/
inductive LabelVal where
  | id (n : Nat)
  | text (s : Bytes)
  | num (n : Int) (unit : Option Bytes)
deriving DecidableEq, Repr

/-- The labels of a new sample, `perf_data_converter.cc:658-754`, in order. -/
def labelsFor (S : Setup) (c : SampleCtx) (k : Key) : List (Bytes × LabelVal) :=
  let on := fun (i : Nat) (p : Prop) [Decidable p] (name : String) (v : LabelVal) =>
    if S.labels.testBit i ∧ p then [(ascii name, v)] else []
  on 0 (c.sample.pid.isSome) "pid" (.num (c.sample.pid.getD 0) none) ++
  on 1 (c.sample.tid.isSome) "tid" (.num (c.sample.tid.getD 0) none) ++
  on 4 (k.comm ≠ 0) "comm" (.id k.comm) ++
  on 2 (c.sample.timeNs.isSome) "timestamp_ns" (.num (toInt64 (c.sample.timeNs.getD 0)) none) ++
  on 3 (k.execMode ≠ .unknown) "execution_mode" (.text (execModeString k.execMode)) ++
  on 5 (S.threadTypes ≠ [] ∧ k.threadType ≠ 0) "thread_type" (.id k.threadType) ++
  on 6 (k.threadComm ≠ 0) "thread_comm" (.id k.threadComm) ++
  on 7 (k.cgroup ≠ 0) "cgroup" (.id k.cgroup) ++
  on 8 (k.codePageSize ≠ 0) "code_page_size" (.num (toInt64 k.codePageSize) none) ++
  on 9 (k.dataPageSize ≠ 0) "data_page_size" (.num (toInt64 k.dataPageSize) none) ++
  on 10 (c.sample.cpu.isSome) "cpu" (.num (c.sample.cpu.getD 0) (some (ascii "cpu"))) ++
  on 11 (k.cacheLatency ≠ 0) "cache_latency" (.num (toInt64 k.cacheLatency) (some (ascii "cycles"))) ++
  on 12 (k.dataSrc ≠ 0) "data_src" (.id k.dataSrc) ++
  on 12 (k.snoopStatus ≠ 0) "snoop_status" (.id k.snoopStatus) ++
  on 13 (k.totalLatency ≠ 0) "total_latency" (.num k.totalLatency (some (ascii "cycles"))) ++
  on 14 (k.issueLatency ≠ 0) "issue_latency" (.num k.issueLatency (some (ascii "cycles"))) ++
  on 15 (k.translationLatency ≠ 0) "translation_latency"
    (.num k.translationLatency (some (ascii "cycles")))

/-- Set key, value and unit of a label. -/
def internLabel (b : Builder) (name : Bytes) (v : LabelVal) : Label × Builder :=
  let r := stringId b name
  match v with
  | .id n => ({ key := r.1, str := n }, r.2)
  | .text s => let t := stringId r.2 s; ({ key := r.1, str := t.1 }, t.2)
  | .num n none => ({ key := r.1, num := n }, r.2)
  | .num n (some u) => let t := stringId r.2 u; ({ key := r.1, num := n, numUnit := t.1 }, t.2)

/-- All labels of a sample. -/
def internLabels (b : Builder) : List (Bytes × LabelVal) → List Label × Builder
  | [] => ([], b)
  | (name, v) :: t =>
    let r := internLabel b name v
    let r' := internLabels r.2 t
    (r.1 :: r'.1, r'.2)

/-- The weight of a sample, `perf_data_converter.cc:765-776`; `int64_t weight` is set from a `uint64_t`. -/
def weight (S : Setup) (c : SampleCtx) : Int :=
  if c.sample.period > 0 then toInt64 c.sample.period
  else
    match S.attrs[c.attrIndex]? with
    | some a => if a.samplePeriod > 0 then toInt64 a.samplePeriod else 1
    | none => 1

/-- `value + d` in `int64_t`; `none` is an overflow. -/
def addInt64 (v d : Int) : Option Int :=
  if -(2 ^ 63) ≤ v + d ∧ v + d < 2 ^ 63 then some (v + d) else none

/-- The two counters of an event, `perf_data_converter.cc:777-780`. -/
def bump (vs : List Int) (e : Nat) (w : Int) : Option (List Int) := do
  let n ← (vs[2 * e]?).bind (addInt64 · 1)
  let m ← (vs[2 * e + 1]?).bind (addInt64 · w)
  return (vs.set (2 * e) n).set (2 * e + 1) m

/-- A new sample of a profile, `perf_data_converter.cc:651-762`. -/
def newSample (S : Setup) (c : SampleCtx) (k : Key) (b : Builder) : Builder :=
  let ls := internLabels b (labelsFor S c k)
  { ls.2 with profile := { ls.2.profile with
      sample := ls.2.profile.sample ++
        [{ locationId := k.stack, label := ls.1, value := List.replicate (2 * S.attrs.length) 0 }] } }

/-- Add to the values of a sample, `perf_data_converter.cc:777-780`. -/
def bumpSlot (S : Setup) (c : SampleCtx) (bs : List Builder) (slot : Slot) : Option (List Builder) := do
  let b ← bs[slot.1]?
  let s ← b.profile.sample[slot.2]?
  let vs ← bump s.value c.attrIndex (weight S c)
  return bs.set slot.1 { b with profile := { b.profile with
    sample := b.profile.sample.set slot.2 { s with value := vs } } }

/-- `AddOrUpdateSample`, `perf_data_converter.cc:645-781`. -/
def addOrUpdate (S : Setup) (st : State) (c : SampleCtx) (bi : Nat) (k : Key) : Option (State × Slot) :=
  let pid := c.sample.pid.getD 0
  match find (st.pids pid).samples k with
  | some slot =>
    match bumpSlot S c st.builders slot with
    | none => none
    | some bs => some ({ st with builders := bs }, slot)
  | none =>
    match st.builders[bi]? with
    | none => none
    | some b =>
      let slot := (bi, b.profile.sample.length)
      match bumpSlot S c (st.builders.set bi (newSample S c k b)) slot with
      | none => none
      | some bs => some ({ st with
          builders := bs
          pids := upd st.pids pid { st.pids pid with samples := (k, slot) :: (st.pids pid).samples } }, slot)

/-- Does the converter take a sample, `perf_data_converter.cc:854-863`. -/
def takes (S : Setup) (c : SampleCtx) : Bool :=
  decide (c.attrIndex < S.attrs.length) && !(c.lost && S.dropLost)

/-- The body of `Sample` for a sample that is taken, `perf_data_converter.cc:865-960`. -/
def takeSample (S : Setup) (st : State) (c : SampleCtx) : Option (State × Slot) :=
  let pid := c.sample.pid.getD 0
  match getOrCreate S st c with
  | none => none
  | some (bi, st) =>
    match st.builders[bi]? with
    | none => none
    | some b =>
      let k := makeKey S st c b
      let info := st.pids pid
      match pushStack S c ⟨[], ⟨info.locs, info.maps, k.2⟩, st.stats pid⟩ with
      | none => none
      | some a =>
        addOrUpdate S { st with
          builders := st.builders.set bi a.w.b
          pids := upd st.pids pid { info with locs := a.w.locs, maps := a.w.maps }
          stats := upd st.stats pid a.stats } c bi { k.1 with stack := a.stack }

/-- The callbacks: `Comm` (`perf_data_converter.cc:833-844`), `MMap` (`:847-851`), `Sample` (`:853-961`).
For a sample that is taken, the profile sample it was added to is reported too. Erasing a range of a
`std::map` whose end comes before its start is undefined. -/
def step (S : Setup) (st : State) : Callback → Option (State × Option Slot)
  | .comm c isExec =>
    let info : PidInfo := if isExec then {} else st.pids c.pid
    let info' : PidInfo := { info with comms := (c.tid, nameOrMd5 c.comm c.md5) :: info.comms }
    some ({ st with pids := upd st.pids c.pid info' }, none)
  | .mmap pid m =>
    let locs := (st.pids pid).locs.filter
      (fun e => !(decide (m.mapping.start ≤ e.1) && decide (e.1 < m.mapping.limit)))
    let info' : PidInfo := { st.pids pid with locs := locs }
    if (st.pids pid).locs.any (fun e => decide (m.mapping.limit ≤ e.1) && decide (e.1 < m.mapping.start)) then none
    else some ({ st with pids := upd st.pids pid info' }, none)
  | .sample c =>
    if takes S c then (takeSample S st c).map (fun r => (r.1, some r.2)) else some (st, none)

/-- The callbacks so far with the profile samples they were added to, newest first. -/
abbrev Log := List (Callback × Option Slot)

/-- All callbacks in order. -/
def run (S : Setup) : State → Log → List Callback → Option (State × Log)
  | st, log, [] => some (st, log)
  | st, log, cb :: t =>
    match step S st cb with
    | none => none
    | some (st', o) => run S st' ((cb, o) :: log) t

/-- `ProcessProfile`, `perf_data_converter.h:124-138`. -/
structure ProcessProfile where
  pid : Nat
  data : Profile
  minNs : Int
  maxNs : Int
  stats : Source → Nat

/-- `Profiles`, `perf_data_converter.cc:963-973`, `MakeProcessProfile`, `:194-205`. -/
def profiles (st : State) : List ProcessProfile :=
  (st.builders.zip st.metas).map (fun bm =>
    { pid := bm.2.pid, data := (finalize bm.1).2.profile, minNs := bm.2.minNs, maxNs := bm.2.maxNs,
      stats := st.stats bm.2.pid })

/-- The conversion of a list of callbacks: the profiles, and where each sample went. -/
def convert (S : Setup) (cbs : List Callback) : Option (List ProcessProfile × Log) :=
  (run S {} [] cbs).map (fun r => (profiles r.1, r.2))

/-- `PerfDataProtoToProfiles`, `perf_data_converter.cc:978-984`. -/
def protoToProfiles (inp : Normalizer.Input) (eventTypes : List (Option Bytes)) (commandLine : Option Bytes)
    (labels options : Nat) (threadTypes : List (Nat × Bytes)) : Option (List ProcessProfile × Log) :=
  match Normalizer.process inp with
  | none => none
  | some cbs => convert { attrs := inp.attrs, eventTypes, perfVersion := inp.perfVersion, commandLine,
                          labels, options, threadTypes } cbs

end Verif.Converter
