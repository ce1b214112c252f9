import Verif.AddressMapper.Model
import Verif.HugePages.Model

/-!
# Model of the parser (`/repo/src/quipper/perf_parser.{h,cc}`)

The parser walks over the events of a recording, keeps an address mapper for every process, says for every
address of a sample which file it lies in and where, and can replace the addresses by made-up ones. `none` is
an abort (a failed `CHECK`) or undefined behaviour. Sorting by time is part of the reader. Reading build
IDs from the file system (`read_missing_buildids`, `perf_parser.cc:333-453`), and with it the `hit` and
`threads` members of `DSOInfo`, which only that code reads, is in `Verif.Missing`. Logging is left out. Counters are
natural numbers. The tables `pidtid_to_comm_map_` and `name_to_dso_` survive from one call of
`ParseRawEvents` to the next; the model is of the first call. `sysconf(_SC_PAGESIZE)` is a parameter.
-/

namespace Verif.Parser
open Verif.HugePages (MMap add64 sub64)

abbrev Bytes := List UInt8
abbrev Mapper := AddressMapper.State

/-- A function changed at one place. -/
def upd {α β : Type} [DecidableEq α] (f : α → β) (a : α) (b : β) : α → β := fun x => if x = a then b else f x

/-- `PerfParserOptions`, `perf_parser.h:147-181`, and the page size, `perf_parser.cc:51`. -/
structure Opts where
  remap : Bool := false
  discard : Bool := false
  allowJit : Bool := false
  page : Nat := 4096
deriving DecidableEq, Repr

/-- `BranchStackEntry` of `perf_data.proto`, the members read. -/
structure Branch where
  src : Nat := 0
  dst : Nat := 0
  mispredicted : Bool := false
  predicted : Bool := false
  inTransaction : Bool := false
  abort : Bool := false
  cycles : Nat := 0
  spec : Nat := 0
deriving DecidableEq, Repr

/-- `SampleEvent`, the members read or written; `rest` stands for the others. Whether `ip` is present is not
kept apart from its being 0. -/
structure Sample where
  ip : Nat := 0
  pid : Nat := 0
  tid : Nat := 0
  addr : Option Nat := none
  callchain : List Nat := []
  branches : List Branch := []
  rest : Nat := 0
deriving DecidableEq, Repr

/-- `ForkEvent`, the members read. -/
structure Fork where
  pid : Nat := 0
  tid : Nat := 0
  ppid : Nat := 0
  ptid : Nat := 0
deriving DecidableEq, Repr

/-- `CommEvent`, the members read. -/
structure Comm where
  pid : Nat := 0
  tid : Nat := 0
  comm : Bytes := []
deriving DecidableEq, Repr

/-- `PerfEvent`: `header.type`, `header.misc`, the payloads read, everything else. -/
structure Ev where
  type : Nat
  misc : Nat := 0
  mmap : Option MMap := none
  sample : Option Sample := none
  fork : Option Fork := none
  comm : Option Comm := none
  rest : Nat := 0
deriving DecidableEq, Repr

/-- `DSOAndOffset`, `perf_parser.h:58-80`: the name of the file and an offset. -/
structure At where
  name : Option Bytes := none
  offset : Nat := 0
deriving DecidableEq, Repr

/-- `BranchEntry`, `perf_parser.h:89-111`. -/
structure PBranch where
  mispredicted : Bool
  predicted : Bool
  inTransaction : Bool
  abort : Bool
  cycles : Nat
  spec : Nat
  src : At
  dst : At
deriving DecidableEq, Repr

/-- `ParsedEvent`, `perf_parser.h:37-123`, without the event and the number of samples. -/
structure Parsed where
  command : Option Bytes := none
  here : At := {}
  data : At := {}
  callchain : List At := []
  branches : List PBranch := []
deriving DecidableEq, Repr

/-- `PerfEventStats`, `perf_parser.h:125-145`, without `did_remap`. -/
structure Stats where
  samples : Nat := 0
  mmaps : Nat := 0
  comms : Nat := 0
  forks : Nat := 0
  exits : Nat := 0
  ksymbols : Nat := 0
  mapped : Nat := 0
  dataSamples : Nat := 0
  dataMapped : Nat := 0
deriving DecidableEq, Repr

/-- `kKernelPid`, `perf_parser.h:27`. -/
def kernelPid : Nat := 2 ^ 32 - 1

/-- The tables of the parser, `perf_parser.h:255-285`; `hits i` is `num_samples_in_mmap_region` of the i-th
parsed event, `none` while it is uninitialised; `files` are the keys of `name_to_dso_`; `firstKernel` is the
local `first_kernel_mmap` of `ProcessEvents`. The initial values are those of `perf_parser.cc:161-184`. -/
structure State where
  mappers : Nat → Option Mapper := fun _ => none
  comms : Nat × Nat → Option Bytes := upd (fun _ => none) (0, 0) (some (ascii "swapper"))
  files : List Bytes := []
  hits : Nat → Option Nat := fun _ => none
  firstKernel : Bool := true
  stats : Stats := {}

/-- `GetOrCreateProcessMapper`, `perf_parser.cc:790-816`. -/
def mapperFor (O : Opts) (ms : Nat → Option Mapper) (pid ppid : Nat) : Option (Mapper × (Nat → Option Mapper)) :=
  match ms pid with
  | some m => some (m, ms)
  | none =>
    match (match ms ppid with
      | some p => some (AddressMapper.copy p)
      | none =>
        match ms kernelPid with
        | some k => some (AddressMapper.copy k)
        | none => AddressMapper.new O.page) with
    | none => none
    | some m => some (m, upd ms pid (some m))

/-- The mark of an address in no mapping, `perf_parser.cc:668`. -/
def mark (ip : Nat) : Nat := (ip &&& (2 ^ 64 - 1 - (0xf <<< 60))) ||| (0x8 <<< 60)

/-- What is found out about an address: `*new_ip`, `*dso_and_offset`, the value returned. -/
structure Found where
  addr : Nat
  loc : At
  ok : Bool
deriving DecidableEq, Repr

/-- `MapIPAndPidAndGetNameAndOffset`, `perf_parser.cc:620-683`; the caller has set `*new_ip` to 0. `evs` are
the parsed events, of which only the file names of mappings are read. -/
def mapIp (O : Opts) (evs : List Ev) (pid : Nat) (st : State) (ip : Nat) : Option (State × Found) :=
  match mapperFor O st.mappers pid kernelPid with
  | none => none
  | some (m, ms) =>
    match AddressMapper.getMappedAddressIDAndOffset m ip with
    | none => none
    | some none =>
      some ({ st with mappers := ms },
        { addr := if O.remap then (if mark ip % O.page ≠ ip % O.page then 0 else mark ip) else ip
          loc := {}, ok := false })
    | some (some (mapped, id, offset)) =>
      match evs[id]? with
      | none => none
      | some e =>
        let name := (e.mmap.getD {}).filename
        if name ∈ st.files then
          some ({ st with mappers := ms, hits := upd st.hits id ((st.hits id).map (· + 1)) },
            { addr := if O.remap then (if mapped % O.page ≠ ip % O.page then 0 else mapped) else ip
              loc := { name := some name, offset }
              ok := !O.remap || decide (mapped % O.page = ip % O.page) })
        else none

/-- `MapCallchain`, `perf_parser.cc:519-558`: the loop, with the new call chain, the locations and whether all
could be mapped. `PERF_CONTEXT_MAX` is -4095. -/
def mapChain (O : Opts) (evs : List Ev) (pid orig ip : Nat) : State → List Nat →
    Option (State × List Nat × List At × Bool)
  | st, [] => some (st, [], [], true)
  | st, e :: t =>
    if e ≥ 2 ^ 64 - 4095 then
      (mapChain O evs pid orig ip st t).map (fun r => (r.1, e :: r.2.1, r.2.2))
    else if e = orig then
      (mapChain O evs pid orig ip st t).map (fun r => (r.1, ip :: r.2.1, r.2.2))
    else
      match mapIp O evs pid st e with
      | none => none
      | some (st, f) =>
        (mapChain O evs pid orig ip st t).map (fun r =>
          (r.1, f.addr :: r.2.1, f.loc :: r.2.2.1, f.ok && r.2.2.2))

/-- `IsNullBranchStackEntry`, `perf_parser.cc:63-65`. -/
def Branch.null (b : Branch) : Bool := b.src == 0 && b.dst == 0

/-- The loop over the entries before the first null entry, `perf_parser.cc:590-615`. -/
def mapEntries (O : Opts) (evs : List Ev) (pid : Nat) : State → List Branch →
    Option (State × List Branch × List PBranch × Bool)
  | st, [] => some (st, [], [], true)
  | st, b :: t =>
    match mapIp O evs pid st b.src with
    | none => none
    | some (st, f) =>
      match mapIp O evs pid st b.dst with
      | none => none
      | some (st, g) =>
        (mapEntries O evs pid st t).map (fun r =>
          (r.1, { b with src := f.addr, dst := g.addr } :: r.2.1,
           { mispredicted := b.mispredicted, predicted := b.predicted, inTransaction := b.inTransaction,
             abort := b.abort, cycles := b.cycles, spec := b.spec, src := f.loc, dst := g.loc } :: r.2.2.1,
           (f.ok && g.ok) && r.2.2.2))

/-- `MapBranchStack`, `perf_parser.cc:560-618`. -/
def mapBranches (O : Opts) (evs : List Ev) (pid : Nat) (st : State) (bs : List Branch) :
    Option (State × List Branch × List PBranch × Bool) :=
  let front := bs.takeWhile (fun b => !b.null)
  let back := bs.dropWhile (fun b => !b.null)
  if back.any (fun b => !b.null) then some (st, bs, [], false)
  else (mapEntries O evs pid st front).map (fun r => (r.1, r.2.1 ++ back, r.2.2))

/-- The data address of a sample, `perf_parser.cc:491-501`. -/
def mapData (O : Opts) (evs : List Ev) (pid : Nat) (st : State) : Option Nat → Option (State × Option Nat × At)
  | none => some (st, none, {})
  | some a =>
    if a = 0 then some (st, some a, {})
    else
      (mapIp O evs pid st a).map (fun r =>
        ({ r.1 with stats := { r.1.stats with
            dataSamples := r.1.stats.dataSamples + 1
            dataMapped := if r.2.ok then r.1.stats.dataMapped + 1 else r.1.stats.dataMapped } },
         some r.2.addr, r.2.loc))

/-- `MapSampleEvent`, `perf_parser.cc:470-517`. -/
def mapSample (O : Opts) (evs : List Ev) (st : State) (s : Sample) : Option (State × Sample × Parsed) :=
  match mapIp O evs s.pid st s.ip with
  | none => none
  | some (st1, f) =>
    match mapData O evs s.pid st1 s.addr with
    | none => none
    | some (st2, addr, data) =>
      match mapChain O evs s.pid s.ip f.addr st2 s.callchain with
      | none => none
      | some (st3, chain, locs, ok1) =>
        match mapBranches O evs s.pid st3 s.branches with
        | none => none
        | some (st4, bs, pbs, ok2) =>
          some ({ st4 with stats := { st4.stats with
              mapped := if f.ok && ok1 && ok2 then st4.stats.mapped + 1 else st4.stats.mapped } },
            { s with ip := f.addr, addr := addr, callchain := chain, branches := bs },
            { command := st.comms (s.pid, s.tid), here := f.loc, data := data, callchain := locs, branches := pbs })

/-- `std::string::find` for a pattern. -/
def contains (pat : Bytes) (s : Bytes) : Bool := (HugePages.find pat s).isSome

/-- The range a mapping event asks for, `perf_parser.cc:692-739`: the first mapping of the kernel is
normalised. -/
def request (O : Opts) (id : Nat) (isKernel : Bool) (m : MMap) : AddressMapper.Req :=
  let shift := isKernel && decide (m.pgoff > m.start) && decide (m.pgoff < add64 m.start m.len)
  { real := if shift then m.pgoff else m.start
    size := if shift then sub64 (add64 m.len m.start) m.pgoff else m.len
    id
    off := if isKernel then 0 else m.pgoff
    allowUnaligned := O.allowJit && contains (ascii "jitted-") m.filename }

/-- `MapMmapEvent`, `perf_parser.cc:685-761`; a return value of false fails the `CHECK` of the only caller
(`:217-218`). -/
def mapMmap (O : Opts) (ms : Nat → Option Mapper) (id : Nat) (isKernel : Bool) (m : MMap) :
    Option ((Nat → Option Mapper) × MMap) :=
  let pid := m.pid.getD 0
  match mapperFor O ms pid kernelPid with
  | none => none
  | some (mp, ms) =>
    let q := request O id isKernel m
    match AddressMapper.mapWithID mp q with
    | some (true, mp') =>
      if O.remap then
        match AddressMapper.getMappedAddress mp' q.real with
        | some (some a) =>
          if a % O.page ≠ q.real % O.page then none
          else some (upd ms pid (some mp'), { m with start := a, len := q.size, pgoff := q.off })
        | _ => none
      else some (upd ms pid (some mp'), m)
    | _ => none

/-- `MapForkEvent`, `perf_parser.cc:768-788`. -/
def mapFork (O : Opts) (st : State) (f : Fork) : Option State :=
  let comms :=
    if (f.ppid, f.ptid) ≠ (f.pid, f.tid) then
      match st.comms (f.ppid, f.ptid) with
      | some c => upd st.comms (f.pid, f.tid) (some c)
      | none => st.comms
    else st.comms
  if f.ppid = f.pid then some { st with comms }
  else (mapperFor O st.mappers f.pid f.ppid).map (fun r => { st with comms, mappers := r.2 })

/-- Event types without any effect, `perf_parser.cc:273-285`. -/
def ignored : List Nat := [2, 5, 6, 11, 12, 13, 14, 15, 16, 19]

/-- One round of the loop of `ProcessEvents`, `perf_parser.cc:186-291`, for the event at index `i`. The inner
`none` is `return false`. -/
def step (O : Opts) (evs : List Ev) (i : Nat) (st : State) (e : Ev) : Option (Option (State × Ev × Parsed)) :=
  if e.type ≥ 64 then some (some (st, e, {}))
  else if e.type = 9 then
    let st := { st with stats := { st.stats with samples := st.stats.samples + 1 } }
    match e.sample with
    | none => some (some (st, e, {}))
    | some s => (mapSample O evs st s).map (fun r => some (r.1, { e with sample := some r.2.1 }, r.2.2))
  else if e.type = 1 ∨ e.type = 10 then
    let st := { st with stats := { st.stats with mmaps := st.stats.mmaps + 1 } }
    let isKernel := st.firstKernel && decide (e.misc % 8 = 1)
    let m := e.mmap.getD {}
    (mapMmap O st.mappers i isKernel m).map (fun r =>
      some ({ st with
          mappers := r.1
          hits := upd st.hits i (some 0)
          files := if m.filename ∈ st.files then st.files else m.filename :: st.files
          firstKernel := st.firstKernel && !isKernel },
        { e with mmap := some r.2 }, {}))
  else if e.type = 7 then
    let st := { st with stats := { st.stats with forks := st.stats.forks + 1 } }
    (mapFork O st (e.fork.getD {})).map (fun st => some (st, e, {}))
  else if e.type = 4 then
    some (some ({ st with stats := { st.stats with exits := st.stats.exits + 1 } }, e, {}))
  else if e.type = 3 then
    let c := e.comm.getD {}
    (mapperFor O st.mappers c.pid kernelPid).map (fun r =>
      some ({ st with
          mappers := r.2
          comms := upd st.comms (c.pid, c.tid) (some c.comm)
          stats := { st.stats with comms := st.stats.comms + 1 } }, e, {}))
  else if e.type = 17 then
    some (some ({ st with stats := { st.stats with ksymbols := st.stats.ksymbols + 1 } }, e, {}))
  else if e.type ∈ ignored then some (some (st, e, {}))
  else some none

/-- The loop of `ProcessEvents`: was it run to the end, the tables, the events as they are then. After
`return false` the remaining events stay as they were. -/
def loop (O : Opts) (evs : List Ev) : Nat → State → List Ev → Option (Bool × State × List (Ev × Parsed))
  | _, st, [] => some (true, st, [])
  | i, st, e :: t =>
    match step O evs i st e with
    | none => none
    | some none => some (false, st, (e :: t).map (fun e => (e, {})))
    | some (some (st', e', p)) =>
      (loop O evs (i + 1) st' t).map (fun r => (r.1, r.2.1, (e', p) :: r.2.2))

/-- Are the samples of a mapping counted and is there none, `perf_parser.cc:121-124`; `none` is the use of an
uninitialised number. -/
def unused (hits : Nat → Option Nat) (i : Nat) (e : Ev) : Option Bool :=
  if e.mmap.isSome then (hits i).map (· == 0) else some false

/-- Dropping the mappings without samples, `perf_parser.cc:115-131`. -/
def dropUnused (hits : Nat → Option Nat) : Nat → List (Ev × Parsed) → Option (List (Ev × Parsed))
  | _, [] => some []
  | i, x :: t =>
    match unused hits i x.1 with
    | none => none
    | some b => (dropUnused hits (i + 1) t).map (fun r => if b then r else x :: r)

/-- The parsed events back in the places of the events they came from: `event_ptr` points into the events of
the reader, `perf_parser.cc:98-110`. -/
def putBack : List Ev → List Ev → List Ev
  | [], _ => []
  | e :: t, out =>
    if e.type = 68 then e :: putBack t out
    else
      match out with
      | [] => []
      | x :: o => x :: putBack t o

/-- The outcome: the events of the reader, the parsed events, the counters, whether all events were
looked at. -/
structure Result where
  events : List Ev
  parsed : List (Ev × Parsed)
  stats : Stats
  complete : Bool
deriving DecidableEq, Repr

/-- `ParseRawEvents` after sorting and the treatment of mappings, `perf_parser.cc:94-136`. It returns true
whatever `ProcessEvents` says. -/
def parse (O : Opts) (evs : List Ev) : Option Result :=
  let pe := evs.filter (fun e => e.type ≠ 68)
  match loop O pe 0 {} pe with
  | none => none
  | some (complete, st, out) =>
    if O.discard then
      (dropUnused st.hits 0 out).map (fun out =>
        { events := out.map (·.1), parsed := out, stats := st.stats, complete })
    else some { events := putBack evs (out.map (·.1)), parsed := out, stats := st.stats, complete }

end Verif.Parser
