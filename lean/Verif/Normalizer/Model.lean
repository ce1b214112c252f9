import Verif.Base.Bytes
import Verif.IntervalMap.Model
import Verif.Util.Model
import Verif.Spe.Model

/-!
# Model of the normalizer (`/repo/src/perf_data_handler.{h,cc}`, `/repo/src/path_matching.h`)

A `PerfDataProto` is reduced to what the normalizer reads. The callbacks the handler receives are the
output: a list, in order. `none` is an abort: a failed `CHECK` or an uncaught exception. A mapping is
known by its pointer, which is its index in `owned_mappings_`; a callback carries the pointer and the
contents of the mapping at that moment. Numbers are within their protobuf types (32 or 64 bits).
Logging and the counters that are only logged (`stat_`) are left out. Hash maps are functions.
`sample_info` is reduced to `id`, `pid` and `tid`.
-/

namespace Verif.Normalizer
open Verif.IntervalMap

abbrev Bytes := List UInt8

/-- `BuildIdSource`, `perf_data_handler.h:21-50`. -/
inductive Source where
  | unknown | mmapSame | mmapDiff | filename | injected | ambiguous | kernelPrefix | missing | noMmap
deriving DecidableEq, Repr

/-- `BuildId`, `perf_data_handler.h:55-63`. -/
structure BuildId where
  value : Bytes := []
  source : Source := .unknown
deriving DecidableEq, Repr

/-- `PerfDataHandler::Mapping`, `perf_data_handler.h:77-98`. -/
structure Mapping where
  filename : Bytes
  buildId : BuildId
  start : Nat
  limit : Nat
  fileOffset : Nat
  md5 : Nat
deriving DecidableEq, Repr

/-- `PerfDataProto_MMapEvent`, the fields read. -/
structure MMapEv where
  pid : Nat := 0
  start : Nat := 0
  len : Nat := 0
  pgoff : Nat := 0
  filename : Bytes := []
  md5 : Nat := 0
  buildId : Option Bytes := none
deriving DecidableEq, Repr

/-- `PerfDataProto_CommEvent`, the fields read. -/
structure CommEv where
  pid : Nat := 0
  tid : Nat := 0
  comm : Bytes := []
  md5 : Nat := 0
deriving DecidableEq, Repr

/-- `PerfDataProto_BranchStackEntry`, the fields read. -/
structure BranchEv where
  fromIp : Nat := 0
  toIp : Nat := 0
  mispredicted : Bool := false
  predicted : Bool := false
  inTransaction : Bool := false
  abort : Bool := false
  cycles : Nat := 0
  spec : Nat := 0
deriving DecidableEq, Repr

/-- `PerfDataProto_SampleEvent`, the fields the normalizer and the converter read; `none` is an absent
field where presence is tested. Of a weight structure `var1_dw` and `var2_w` are read. -/
structure SampleEv where
  ip : Nat := 0
  pid : Option Nat := none
  tid : Option Nat := none
  timeNs : Option Nat := none
  addr : Option Nat := none
  id : Option Nat := none
  period : Nat := 0
  cpu : Option Nat := none
  callchain : List Nat := []
  branchStack : List BranchEv := []
  weight : Option Nat := none
  weightStruct : Option (Option Nat × Option Nat) := none
  dataSrc : Option Nat := none
  cgroup : Option Nat := none
  dataPageSize : Option Nat := none
  codePageSize : Option Nat := none
deriving DecidableEq, Repr

/-- The part of a lost event that is read: count, id, process, thread. -/
structure LostEv where
  num : Nat := 0
  id : Nat := 0
  pid : Nat := 0
  tid : Nat := 0
deriving DecidableEq, Repr

/-- `PerfDataProto_PerfEvent`, a oneof (`perf_data.proto:868-905`). Event kinds the normalizer skips
are `other`. The header is kept where it is read. -/
inductive Ev where
  | mmap (m : MMapEv)
  | comm (misc : Nat) (c : CommEv)
  | fork (pid ppid tid : Nat)
  | cgroup (id : Nat) (path : Bytes)
  | lostSamples (l : LostEv)
  | lost (l : LostEv)
  | sample (misc : Option Nat) (s : SampleEv)
  | auxtraceInfo (type : Nat)
  | auxtrace (data : Option Bytes)
  | ksymbol (type flags addr len : Nat) (name : Bytes)
  | other
deriving DecidableEq, Repr

/-- `PerfDataProto_PerfBuildID`, the fields read. -/
structure BuildIdRec where
  hash : Bytes := []
  filename : Bytes := []
  md5 : Nat := 0
  injected : Bool := false
  misc : Nat := 0
deriving DecidableEq, Repr

/-- `PerfDataProto_PerfFileAttr`, the fields read. -/
structure AttrRec where
  ids : List Nat := []
  commExec : Bool := false
  samplePeriod : Nat := 0
deriving DecidableEq, Repr

/-- `PerfDataProto`, the fields read. `traceBase` is the address of the trace data in memory and
`lostMd5` is `Md5Prefix("[lost]")`, `perf_data_handler.cc:378-379`. -/
structure Input where
  buildIds : List BuildIdRec := []
  perfVersion : Option Bytes := none
  attrs : List AttrRec := []
  events : List Ev := []
  traceBase : Nat := 0
  lostMd5 : Nat := 0
deriving DecidableEq, Repr

/-! ## Strings -/

/-- `std::string::find(pat, pos)`: the first occurrence at or after a position. -/
def findFrom (pat s : Bytes) (pos : Nat) : Option Nat :=
  (List.range (s.length + 1)).find? (fun i => decide (pos ≤ i) && pat.isPrefixOf (s.drop i))

/-- Digits of a number in base 16, most significant first, on `fuel` digits. -/
def hexDigits : Nat → Nat → Bytes
  | 0, _ => []
  | fuel + 1, v => if v < 16 then [Util.hexDigit v] else hexDigits fuel (v / 16) ++ [Util.hexDigit (v % 16)]

/-- `NameOrMd5Prefix`, `perf_data_handler.cc:1040-1048`: `ss << std::hex << md5_prefix`. -/
def nameOrMd5 (name : Bytes) (md5 : Nat) : Bytes := if name = [] then hexDigits 16 md5 else name

/-- Two lowercase hexadecimal digits per byte, `perf_data_handler.cc:100-109`. -/
def hexOf (b : Bytes) : Bytes := b.flatMap (fun x => [Util.hexDigit (x.toNat / 16), Util.hexDigit (x.toNat % 16)])

/-- `kKernelPrefix`, `perf_data_handler.cc:43`. -/
def kernelPrefix : Bytes := ascii "[kernel.kallsyms]"

/-- `kKernelPid`: `static_cast<uint32_t>(-1)`, `perf_data_handler.cc:46`. -/
abbrev kernelPid : Nat := 2 ^ 32 - 1

/-- `IsKernelNonModuleName`, `quipper/dso.cc:163-176`. -/
def isKernelNonModuleName (name : Bytes) : Bool :=
  [ascii "[kernel.kallsyms]", ascii "[guest.kernel.kallsyms", ascii "[vdso]", ascii "[vsyscall]"].any
    (fun n => n.isPrefixOf name)

/-- The loop of `IsDeletedSharedObject`, `perf_data_handler.cc:1008-1026`; `none` is the exception
thrown by `path.at`. -/
def deletedLoop (path : Bytes) : Nat → Nat → Option Bool
  | 0, _ => none
  | fuel + 1, cursor =>
    match findFrom (ascii ".so") path cursor with
    | none => some false
    | some i =>
      match path[i + 3]? with
      | none => none
      | some ch =>
        if ch = 46 ∨ ch = 95 ∨ ch = 32 then some (findFrom (ascii "(deleted)") path (i + 3)).isSome
        else deletedLoop path fuel (i + 3)

/-- `IsDeletedSharedObject`, `perf_data_handler.cc:1017-1026`. -/
def isDeletedSharedObject (path : Bytes) : Option Bool := deletedLoop path (path.length + 1) 1

/-- `IsVersionedSharedObject`, `perf_data_handler.cc:1028-1030`. -/
def isVersionedSharedObject (path : Bytes) : Bool := (findFrom (ascii ".so.") path 1).isSome

/-- `IsVirtualMapping`, `perf_data_handler.cc:752-757`. -/
def isVirtualMapping (name : Bytes) : Bool :=
  (ascii "//").isPrefixOf name ||
  ((ascii "[").isPrefixOf name && (ascii "]").isSuffixOf name) ||
  (ascii "/memfd:").isPrefixOf name ||
  (ascii "[anon:").isPrefixOf name

/-- `a.substr(a.find(b) + b.length()).find_first_not_of('0') == npos`, `perf_data_handler.cc:713-714`,
where `a.find(b)` may be `npos = 2^64 - 1` and `substr` throws beyond the end. -/
def restAllZero (a b : Bytes) : Option Bool :=
  let pos := ((findFrom b a 0).getD (2 ^ 64 - 1) + b.length) % 2 ^ 64
  if pos > a.length then none else some ((a.drop pos).all (· == 48))

/-- The lambda of `IsSameBuildId`, `perf_data_handler.cc:711-715`. -/
def isSamePrefix (a b : Bytes) : Option Bool :=
  if (Util.cStr b).isPrefixOf a then restAllZero a b else some false

/-- `IsSameBuildId`, `perf_data_handler.cc:709-717`. -/
def isSameBuildId (a b : Bytes) : Option Bool :=
  match isSamePrefix a b with
  | none => none
  | some true => some true
  | some false => isSamePrefix b a

/-! ## Constructor -/

/-- `filename_to_build_id_` and `maybe_kernel_build_id_`. -/
structure Ids where
  byName : Bytes → Option BuildId := fun _ => none
  kernel : Bytes := []

/-- Update of a map. -/
def upd {α β : Type} [DecidableEq α] (f : α → β) (a : α) (b : β) : α → β := fun x => if x = a then b else f x

/-- One build ID record, `perf_data_handler.cc:99-148`. -/
def addBuildId (t : Ids) (r : BuildIdRec) : Ids :=
  let name := nameOrMd5 r.filename r.md5
  let source := match t.byName name with
    | some old => if old.value ≠ hexOf r.hash then Source.ambiguous
                  else if r.injected then .injected else .filename
    | none => if r.injected then .injected else .filename
  { byName := upd t.byName name (some ⟨hexOf r.hash, source⟩)
    kernel :=
      if r.misc % 8 = 1 ∧ (isKernelNonModuleName name ∨ ¬ (ascii ".ko").isSuffixOf name) then
        if t.kernel ≠ [] ∧ t.kernel ≠ hexOf r.hash then t.kernel else hexOf r.hash
      else t.kernel }

/-- Is the byte a decimal digit? -/
def isDigit (c : UInt8) : Bool := 48 ≤ c && c ≤ 57

/-- The value of decimal digits. -/
def decVal (l : Bytes) : Nat := l.foldl (fun a c => 10 * a + (c.toNat - 48)) 0

/-- `std::regex_match(v.c_str(), "([0-9]+)\\.([0-9]+).*")`, `perf_data_handler.cc:158-162`: the two groups.
The dot before `*` matches any character but a line terminator. -/
def matchVersion (v : Bytes) : Option (Bytes × Bytes) :=
  let s := Util.cStr v
  let d1 := s.takeWhile isDigit
  match s.dropWhile isDigit with
  | 46 :: t =>
    let d2 := t.takeWhile isDigit
    if d1 ≠ [] ∧ d2 ≠ [] ∧ (t.dropWhile isDigit).all (fun c => c ≠ 10 && c ≠ 13) then some (d1, d2) else none
  | _ => none

/-- `use_lost_sample_`, `perf_data_handler.cc:150-168`; `none` is `std::stoi` throwing `out_of_range`. -/
def useLostSample (version : Option Bytes) : Option Bool :=
  match matchVersion (version.getD []) with
  | none => some false
  | some (d1, d2) =>
    if decVal d1 ≥ 2 ^ 31 ∨ decVal d2 ≥ 2 ^ 31 then none
    else some (decide (decVal d1 > 6 ∨ (decVal d1 = 6 ∧ decVal d2 ≥ 1)))

/-- `id_to_event_index_`, `perf_data_handler.cc:170-176`: a later attribute overwrites. -/
def indexTable : Nat → List AttrRec → (Nat → Option Nat) → (Nat → Option Nat)
  | _, [], f => f
  | i, a :: t, f => indexTable (i + 1) t (fun id => if id ∈ a.ids then some i else f id)

/-- `HasArmSPEAuxtrace`, `perf_data_handler.cc:62-72`; the type is 4 (`kernel/perf_internals.h:597-603`). -/
def hasSpe (es : List Ev) : Bool := es.any (fun e => match e with | .auxtraceInfo t => t == 4 | _ => false)

/-- `TidToPidMapping`, `perf_data_handler.cc:75-88`. -/
def tidToPid (es : List Ev) : Nat → Option Nat :=
  es.foldl (fun f e => match e with
    | .fork pid _ tid => upd f tid (some pid)
    | .comm _ c => upd f c.tid (some c.pid)
    | _ => f) (fun _ => none)

/-- What the constructor computes, `perf_data_handler.cc:97-182`. -/
structure Config where
  ids : Ids := {}
  useLostSample : Bool := false
  numAttrs : Nat := 0
  eventIndex : Nat → Option Nat := fun _ => none
  hasSpe : Bool := false
  tidToPid : Nat → Option Nat := fun _ => none
  commExec : Bool := false
  traceBase : Nat := 0
  lostMd5 : Nat := 0

/-- The constructor, and `has_comm_exec_support` (`perf_data_handler.cc:382-390`). -/
def mkConfig (inp : Input) : Option Config := do
  let u ← useLostSample inp.perfVersion
  return { ids := inp.buildIds.foldl addBuildId {}
           useLostSample := u
           numAttrs := inp.attrs.length
           eventIndex := indexTable 0 inp.attrs (fun _ => none)
           hasSpe := hasSpe inp.events
           tidToPid := if hasSpe inp.events then tidToPid inp.events else fun _ => none
           commExec := inp.attrs.any (·.commExec)
           traceBase := inp.traceBase
           lostMd5 := inp.lostMd5 }

/-! ## State and callbacks -/

/-- A pointer to a mapping with the contents at the moment. -/
structure MapRef where
  ptr : Nat
  mapping : Mapping
deriving DecidableEq, Repr

/-- `PerfDataHandler::Location`, `perf_data_handler.h:100-105`. -/
structure Loc where
  ip : Nat
  mapping : Option MapRef
deriving DecidableEq, Repr

/-- `BranchStackPair`, `perf_data_handler.h:107-130`. -/
structure BranchPair where
  from_ : Loc
  to : Loc
  mispredicted : Bool := false
  predicted : Bool := false
  inTransaction : Bool := false
  abort : Bool := false
  cycles : Nat := 0
  spec : Nat := 0
deriving DecidableEq, Repr

/-- `SampleContext`, `perf_data_handler.h:132-171`. The index is there: samples without one are not
reported. -/
structure SampleCtx where
  misc : Option Nat := none
  sample : SampleEv
  main : Option MapRef := none
  sampleMap : Option MapRef := none
  addrMap : Option MapRef := none
  callchain : List Loc := []
  branchStack : List BranchPair := []
  attrIndex : Nat := 0
  cgroup : Option Bytes := none
  lost : Bool := false
  spe : Option Spe.Record := none
deriving DecidableEq, Repr

/-- A call of the handler: `Comm`, `MMap`, `Sample` (`perf_data_handler.h:206-212`). -/
inductive Callback where
  | comm (c : CommEv) (isExec : Bool)
  | mmap (pid : Nat) (m : MapRef)
  | sample (ctx : SampleCtx)
deriving DecidableEq, Repr

/-- The state of the normalizer, `perf_data_handler.cc:252-354`. -/
structure State where
  owned : List Mapping := []
  maps : Nat → Option (IMap Nat) := fun _ => none
  comms : Nat → Option CommEv := fun _ => none
  execs : Nat → Option Nat := fun _ => none
  hadMmap : Nat → Bool := fun _ => false
  fakes : Bytes × Bytes × Nat → Option Nat := fun _ => none
  cgroups : Nat → Option Bytes := fun _ => none

/-- Dereference a pointer. -/
def State.ref (st : State) (p : Nat) : Option MapRef := (st.owned[p]?).map (⟨p, ·⟩)

/-- `AddressContext`, `quipper/address_context.h`. -/
inductive ACtx where
  | unknown | hostKernel | hostUser | guestKernel | guestUser | hypervisor
deriving DecidableEq, Repr

/-- `ContextFromHeader`, `quipper/address_context.cc:8-24`. -/
def contextFromHeader : Option Nat → ACtx
  | none => .unknown
  | some misc =>
    match misc % 8 with
    | 1 => .hostKernel
    | 2 => .hostUser
    | 3 => .hypervisor
    | 4 => .guestKernel
    | 5 => .guestUser
    | _ => .unknown

/-- `ContextFromCallchain`, `quipper/address_context.cc:26-46`. -/
def contextFromCallchain (ip : Nat) : ACtx :=
  if ip = 2 ^ 64 - 32 then .hypervisor
  else if ip = 2 ^ 64 - 128 then .hostKernel
  else if ip = 2 ^ 64 - 512 then .hostUser
  else if ip = 2 ^ 64 - 2176 then .guestKernel
  else if ip = 2 ^ 64 - 2560 then .guestUser
  else .unknown

/-- `TryLookupInPid`, `perf_data_handler.cc:875-887`. -/
def tryLookup (st : State) (pid ip : Nat) : Option Nat :=
  match st.maps pid with
  | none => none
  | some m => lookup m ip

/-- The checks on the mapping found, `perf_data_handler.cc:916-922`; the outer `none` is a failed `CHECK`. -/
def checkFound (st : State) (ip : Nat) : Option Nat → Option (Option MapRef)
  | none => some none
  | some p =>
    match st.ref p with
    | none => none
    | some r => if r.mapping.start ≤ ip ∧ ip < r.mapping.limit then some (some r) else none

/-- `GetMappingFromPidAndIP`, `perf_data_handler.cc:893-923`; the outer `none` is a failed `CHECK`. -/
def getMapping (st : State) (pid ip : Nat) (ctx : ACtx) : Option (Option MapRef) :=
  if ip / 2 ^ 60 = 8 then some none
  else if ctx = .guestKernel ∨ ctx = .guestUser ∨ ctx = .hypervisor then some none
  else
    let own := tryLookup st pid ip
    checkFound st ip (if own = none ∧ ctx ≠ .hostUser then tryLookup st kernelPid ip else own)

/-- `GetEventIndexForSample`, `perf_data_handler.cc:936-953`. -/
def eventIndexFor (cfg : Config) (id : Option Nat) : Option Nat :=
  if cfg.numAttrs = 1 then some 0
  else match id with
    | none => none
    | some id => cfg.eventIndex id

/-- `GetBuildId`, `perf_data_handler.cc:719-750`; `none` when `IsSameBuildId` throws. -/
def getBuildId (t : Ids) (m : MMapEv) : Option BuildId :=
  let name := nameOrMd5 m.filename m.md5
  let fromName := (t.byName name).getD ⟨[], .missing⟩
  let fromMmap := m.buildId.getD []
  if fromMmap ≠ [] then
    (isSameBuildId fromName.value fromMmap).map (fun b => ⟨fromMmap, if b then .mmapSame else .mmapDiff⟩)
  else if fromName.value ≠ [] then some fromName
  else if kernelPrefix.isPrefixOf name then some ⟨t.kernel, .kernelPrefix⟩
  else some ⟨[], .missing⟩

/-- The mapping of an mmap event, `perf_data_handler.cc:794-810`. -/
def mkMapping (bid : BuildId) (m : MMapEv) : Mapping :=
  let limit := (m.start + m.len) % 2 ^ 64
  { filename := m.filename
    buildId := bid
    start := if m.start ≤ 2 ^ 63 ∧ m.pgoff > 2 ^ 63 ∧ limit > 2 ^ 63 then m.pgoff - m.pgoff % 4096 else m.start
    limit := limit
    fileOffset := m.pgoff
    md5 := m.md5 }

/-- The names that never name a main executable, `perf_data_handler.cc:844-854`; `none` is an exception.
The conjuncts are evaluated in the order of the source. -/
def canBeMain (name : Bytes) : Option Bool :=
  if (ascii ".ko").isSuffixOf name then some false
  else if (ascii ".so").isSuffixOf name then some false
  else match isDeletedSharedObject name with
    | none => none
    | some true => some false
    | some false =>
      some (!isVersionedSharedObject name && !isVirtualMapping name &&
        !(ascii "/classes.jsa").isSuffixOf name && !kernelPrefix.isPrefixOf name)

/-- The rename of an unnamed main mapping that was remapped, `perf_data_handler.cc:828-842`. -/
def renameOld (st : State) (m : MMapEv) (mp : Mapping) : State :=
  match st.execs m.pid with
  | none => st
  | some o =>
    match st.owned[o]? with
    | none => st
    | some om =>
      if om.start = 0x400000 ∧ om.filename = [] ∧ (mp.start + 2 ^ 64 - mp.fileOffset) % 2 ^ 64 = 0x400000 then
        { st with owned := st.owned.set o { om with filename := m.filename } }
      else st

/-- The kernel's own main mapping, `perf_data_handler.cc:870-872`. -/
def kernelGuess (st : State) (m : MMapEv) (p : Nat) : State :=
  if m.pid = kernelPid ∧ kernelPrefix.isPrefixOf m.filename then
    { st with execs := upd st.execs m.pid (some p) } else st

/-- The guess of the main executable, `perf_data_handler.cc:819-872`, after the mapping `mp` with pointer
`p` has been added. -/
def guessMain (st : State) (m : MMapEv) (mp : Mapping) (p : Nat) : Option State :=
  if mp.start = 0x8048000 ∨ mp.start = 0x400000 then
    some { st with execs := upd st.execs m.pid (some p) }
  else
    let st1 := renameOld st m mp
    if (st.execs m.pid).isSome then some (kernelGuess st1 m p)
    else
      match canBeMain m.filename with
      | none => none
      | some true => some { st1 with execs := upd st1.execs m.pid (some p) }
      | some false => some (kernelGuess st1 m p)

/-- `UpdateMapsWithMMapEvent`, `perf_data_handler.cc:778-873`. The callback is made before the guess, so it
carries the contents of the mapping before the guess. -/
def updateMmap (cfg : Config) (st : State) (m : MMapEv) : Option (State × List Callback) :=
  if m.len = 0 then some (st, [])
  else
    match getBuildId cfg.ids m with
    | none => none
    | some bid =>
      let mp := mkMapping bid m
      let p := st.owned.length
      match set ((st.maps m.pid).getD []) mp.start mp.limit p with
      | none => none
      | some im =>
        let st1 := { st with owned := st.owned ++ [mp], maps := upd st.maps m.pid (some im) }
        (guessMain st1 m mp p).map (fun s => (s, [.mmap m.pid ⟨p, mp⟩]))

/-- A child gets its parent's entry in a map, if there is one. -/
def inherit {α : Type} (f : Nat → Option α) (pid ppid : Nat) : Nat → Option α :=
  match f ppid with
  | some v => upd f pid (some v)
  | none => f

/-- `UpdateMapsWithForkEvent`, `perf_data_handler.cc:357-376`. -/
def updateFork (st : State) (pid ppid : Nat) : State :=
  if pid = ppid then st
  else
    { st with maps := inherit st.maps pid ppid, comms := inherit st.comms pid ppid, execs := inherit st.execs pid ppid }

/-- `GetOrAddFakeMapping`, `perf_data_handler.cc:605-617`. -/
def getOrAddFake (st : State) (comm : Bytes) (bid : BuildId) (md5 start : Nat) : State × Nat :=
  match st.fakes (comm, bid.value, md5) with
  | some p => (st, p)
  | none =>
    ({ st with
        owned := st.owned ++ [{ filename := comm, buildId := bid, start, limit := (start + 1) % 2 ^ 64, fileOffset := 0, md5 }]
        fakes := upd st.fakes (comm, bid.value, md5) (some st.owned.length) }, st.owned.length)

/-- The build ID for the fake mapping of a kernel thread, `perf_data_handler.cc:511-519`. -/
def threadBuildId (st : State) : BuildId :=
  match st.execs kernelPid with
  | some k => ⟨((st.owned[k]?).map (·.buildId.value)).getD [], .kernelPrefix⟩
  | none => ⟨[], .missing⟩

/-- The main mapping of a sample, `perf_data_handler.cc:507-530`: the state (a fake mapping may be added) and
the pointer. -/
def mainMapping (st : State) (pid : Nat) (ctx : ACtx) : State × Option Nat :=
  match st.execs pid with
  | some p => (st, some p)
  | none =>
    if ctx = .hostKernel then
      match st.comms pid with
      | some c =>
        let r := getOrAddFake st c.comm (threadBuildId st) c.md5 0
        (r.1, some r.2)
      | none => if pid = 0 then (st, st.execs kernelPid) else (st, none)
    else (st, none)

/-- The loop over the call chain, `perf_data_handler.cc:534-555`. -/
def normChain (st : State) (pid : Nat) : ACtx → List Nat → Option (List Loc)
  | _, [] => some []
  | ctx, ip :: t =>
    let cur := contextFromCallchain ip
    if cur ≠ .unknown then (normChain st pid cur t).map (⟨ip, none⟩ :: ·)
    else
      match getMapping st pid ip ctx with
      | none => none
      | some m => (normChain st pid ctx t).map (⟨ip, m⟩ :: ·)

/-- The loop over the branch stack, `perf_data_handler.cc:557-580`. -/
def normBranches (st : State) (pid : Nat) : List BranchEv → Option (List BranchPair)
  | [] => some []
  | b :: t =>
    match getMapping st pid b.fromIp .unknown with
    | none => none
    | some f =>
      match getMapping st pid b.toIp .unknown with
      | none => none
      | some to =>
        (normBranches st pid t).map
          ({ from_ := ⟨b.fromIp, f⟩, to := ⟨b.toIp, to⟩, mispredicted := b.mispredicted, predicted := b.predicted,
             inTransaction := b.inTransaction, abort := b.abort, cycles := b.cycles, spec := b.spec } :: ·)

/-- The branch pair of an SPE record, `perf_data_handler.cc:582-594`. -/
def speBranch (st : State) (pid ip : Nat) (sm : Option MapRef) (ctx : ACtx) :
    Option Spe.Record → Option (List BranchPair)
  | none => some []
  | some r =>
    if r.tgtBrIp.addr ≠ 0 then
      match getMapping st pid r.tgtBrIp.addr ctx with
      | none => none
      | some to => some [{ from_ := ⟨ip, sm⟩, to := ⟨r.tgtBrIp.addr, to⟩, mispredicted := r.event.brMisPred }]
    else some []

/-- The mapping of the data address, `perf_data_handler.cc:500-505`. -/
def addrMapping (st : State) (pid : Nat) (ctx : ACtx) : Option Nat → Option (Option MapRef)
  | some a => getMapping st pid a ctx
  | none => some none

/-- `HandleSample`, `perf_data_handler.cc:471-603`. -/
def handleSample (cfg : Config) (st : State) (misc : Option Nat) (s : SampleEv) (spe : Option Spe.Record) :
    Option (State × List Callback) :=
  match (if spe.isSome then some 0 else eventIndexFor cfg s.id) with
  | none => some (st, [])
  | some idx =>
    let pid := s.pid.getD 0
    let hctx := contextFromHeader misc
    match getMapping st pid s.ip hctx with
    | none => none
    | some sm =>
    match addrMapping st pid hctx s.addr with
    | none => none
    | some am =>
    let mm := mainMapping st pid hctx
    match normChain mm.1 pid .unknown s.callchain with
    | none => none
    | some chain =>
    match normBranches mm.1 pid s.branchStack with
    | none => none
    | some brs =>
    match speBranch mm.1 pid s.ip sm hctx spe with
    | none => none
    | some sb =>
      some (mm.1, [.sample {
        misc := misc, sample := s, main := mm.2.bind mm.1.ref, sampleMap := sm, addrMap := am,
        callchain := chain, branchStack := brs ++ sb, attrIndex := idx,
        cgroup := s.cgroup.bind mm.1.cgroups, lost := false, spe := spe }])

/-- `HandleLost`, `perf_data_handler.cc:619-683`, for the kind of lost event that is in use. -/
def handleLost (cfg : Config) (st : State) (l : LostEv) : State × List Callback :=
  match eventIndexFor cfg (some l.id) with
  | none => (st, [])
  | some idx =>
    let s : SampleEv := { id := some l.id, pid := some l.pid, tid := some l.tid, ip := 9 * 2 ^ 60 }
    let r := getOrAddFake st (ascii "[lost]") ⟨[], .missing⟩ cfg.lostMd5 (9 * 2 ^ 60)
    (r.1, List.replicate l.num (.sample { sample := s, sampleMap := r.1.ref r.2, attrIndex := idx, lost := true }))

/-- The sample made from an SPE record, `perf_data_handler.cc:966-984`. -/
def speSample (cfg : Config) (r : Spe.Record) : SampleEv :=
  { tid := some r.context.id, ip := r.ip.addr
    pid := some (if r.context.id ≠ 0 then (cfg.tidToPid r.context.id).getD 0 else 0) }

/-- The loop of `HandleSpeAuxtrace`, `perf_data_handler.cc:963-989`, over the decoded records. -/
def handleRecords (cfg : Config) : State → List Spe.Record → Option (State × List Callback)
  | st, [] => some (st, [])
  | st, r :: rs =>
    match handleSample cfg st none (speSample cfg r) (some r) with
    | none => none
    | some (st1, cb) => (handleRecords cfg st1 rs).map (fun x => (x.1, cb ++ x.2))

/-- `HandleSpeAuxtrace`, `perf_data_handler.cc:955-990`. -/
def handleSpe (cfg : Config) (st : State) : Option Bytes → Option (State × List Callback)
  | none => some (st, [])
  | some data =>
    match Spe.decodeAll (data.length + 1) { buf := data, base := cfg.traceBase } {} with
    | none => none
    | some x => handleRecords cfg st x.1

/-- Does a `Comm` event count as an `exec`? `perf_data_handler.cc:397-403`. -/
def isExecComm (cfg : Config) (st : State) (misc : Nat) (c : CommEv) : Bool :=
  decide (c.pid = c.tid) && (!cfg.commExec || misc.testBit 13 || !st.hadMmap c.pid)

/-- One event of `Normalize`, `perf_data_handler.cc:391-466`. -/
def step (cfg : Config) (st : State) : Ev → Option (State × List Callback)
  | .mmap m =>
    (updateMmap cfg st m).map (fun r => ({ r.1 with hadMmap := upd r.1.hadMmap m.pid true }, r.2))
  | .comm misc c =>
    let st1 := if isExecComm cfg st misc c then { st with execs := upd st.execs c.pid none } else st
    let st2 := if c.pid = c.tid then { st1 with comms := upd st1.comms c.pid (some c) } else st1
    some (st2, [.comm c (isExecComm cfg st misc c)])
  | .fork pid ppid _ => some (updateFork st pid ppid, [])
  | .cgroup id path =>
    some ({ st with cgroups := if (st.cgroups id).isSome then st.cgroups else upd st.cgroups id (some path) }, [])
  | .lostSamples l => some (if cfg.useLostSample then handleLost cfg st l else (st, []))
  | .lost l => some (if cfg.useLostSample then (st, []) else handleLost cfg st l)
  | .sample misc s => handleSample cfg st misc s none
  | .auxtrace data => if cfg.hasSpe then handleSpe cfg st data else some (st, [])
  | .ksymbol type flags addr len name =>
    if type = 1 ∧ flags = 0 then
      updateMmap cfg st { pid := kernelPid, start := addr, len := len, pgoff := 0, filename := name }
    else some (st, [])
  | .auxtraceInfo _ => some (st, [])
  | .other => some (st, [])

/-- The loop over the events. -/
def runFrom (cfg : Config) : State → List Ev → Option (State × List Callback)
  | st, [] => some (st, [])
  | st, e :: es =>
    match step cfg st e with
    | none => none
    | some (st1, cb) => (runFrom cfg st1 es).map (fun x => (x.1, cb ++ x.2))

/-- `PerfDataHandler::Process`, `perf_data_handler.cc:1034-1038`: the calls the handler gets. -/
def process (inp : Input) : Option (List Callback) := do
  let cfg ← mkConfig inp
  let r ← runFrom cfg {} inp.events
  return r.2

end Verif.Normalizer
