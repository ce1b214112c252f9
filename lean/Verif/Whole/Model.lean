import Verif.File.Model
import Verif.HugePages.Model
import Verif.Parser.Model
import Verif.Converter.Model

/-!
# Model of the way from the bytes of a recording to profiles

`RawPerfDataToProfiles`, `/repo/src/perf_data_converter.cc:985-1027`: the reader, the changes to build IDs, the parser and the
converter, one after the other. The parts are modelled elsewhere, each with those members of an event it looks at. Here each part
sees the events of the reader through a view in which the place of the event stands for the members the part does not know; afterwards
the members it changed are put back into the events. The outer `none` is an abort, undefined behaviour or a loop without end.
-/

namespace Verif.Whole
open Verif.Serial (Msg Body)

abbrev Bytes := List UInt8

/-- What the code depends on and the model leaves open: see `Serial.Env`; the size of a page (`sysconf`); the order in which a hash map
delivers its keys; the address of trace data in memory. -/
structure Machine where
  env : Serial.Env
  page : Nat := 4096
  order : List Nat → List Nat := id
  traceBase : Nat := 0

/-- The events through a view that knows the place of each. -/
def views {α : Type} (f : Nat → Msg → α) : Nat → List Msg → List α
  | _, [] => []
  | i, m :: l => f i m :: views f (i + 1) l

/-! ## Build IDs -/

/-- What the functions for names and build IDs see of an event. -/
def nameView (i : Nat) (m : Msg) : Names.Event :=
  { type := m.type, misc := m.misc, size := m.size, filename := m.body.getMmap.filename, md5 := m.body.getMmap.filenameMd5,
    time := m.timestamp, rest := i }

/-- What they see of a recording. -/
def namesData (i : Meta.Info) (events : List Msg) : Names.Data :=
  { events := views nameView 0 events, buildIds := i.buildIds, sampleTypes := i.attrs.map (·.attr.sampleType), mask := i.mask }

/-- The names given to `AlternateBuildIDFilenames`, `perf_data_converter.cc:1004-1007`. -/
def kernelNames : List (Bytes × Bytes) :=
  [(ascii "[kernel.kallsyms]", ascii "[kernel.kallsyms]_text"),
   (ascii "[kernel.kallsyms]", ascii "[kernel.kallsyms]_stext")]

/-- `InjectBuildIDs` (whose result is ignored) and `AlternateBuildIDFilenames`, `perf_data_converter.cc:996-1007`. -/
def withBuildIds (md5 : Bytes → Nat) (ids : List (Bytes × Bytes)) (i : Meta.Info) (events : List Msg) : Meta.Info :=
  let d := Names.alternateNames kernelNames (Names.injectBuildIDs md5 ids (namesData i events)).1
  { i with buildIds := d.buildIds, mask := d.mask }

/-! ## Sorting and the treatment of mappings -/

/-- `MaybeSortEventsByTime`, `perf_parser.cc:77-79`. -/
def sortEvents (i : Meta.Info) (events : List Msg) : List Msg :=
  (Names.maybeSortByTime (namesData i events)).events.filterMap (fun e => events[e.rest]?)

/-- Does the message of a mapping event have the members that identify a file: `SerializeMMap2Event`, `perf_serializer.cc:729-742`,
sets them unless the event has a build ID, and `SerializeMMapEvent` never does. -/
def hasInode (m : Msg) : Bool := m.type == 10 && !m.misc.testBit 14

/-- A mapping as the functions for huge pages see it. -/
def hugeMap (inode : Bool) (b : Serial.MMap) : HugePages.MMap :=
  { pid := some b.pid, start := b.start, len := b.len, pgoff := b.pgoff,
    maj := if inode then some b.maj else none, min := if inode then some b.min else none,
    ino := if inode then some b.ino else none, inoGen := if inode then some b.inoGeneration else none,
    buildId := b.buildId, prot := b.prot, flags := b.flags, filename := b.filename, md5 := b.filenameMd5 }

/-- What the functions for huge pages see of an event. -/
def hugeView (i : Nat) (m : Msg) : HugePages.Ev :=
  { mmap := match m.body with
      | .mmap b => some (hugeMap (hasInode m) b)
      | _ => none
    time := m.timestamp, size := m.size, other := i }

/-- A mapping with the members that were changed. -/
def putMap (h : HugePages.MMap) (b : Serial.MMap) : Serial.MMap :=
  { b with
    start := h.start, len := h.len, pgoff := h.pgoff, maj := h.maj.getD 0, min := h.min.getD 0, ino := h.ino.getD 0,
    inoGeneration := h.inoGen.getD 0, buildId := h.buildId, filename := h.filename, filenameMd5 := h.md5 }

/-- An event with the members that were changed. -/
def putHuge (e : HugePages.Ev) (m : Msg) : Msg :=
  match e.mmap, m.body with
  | some h, .mmap b => { m with size := e.size, body := .mmap (putMap h b) }
  | _, _ => m

/-- The events after the functions for huge pages. -/
def fromHuge (events : List Msg) (es : List HugePages.Ev) : List Msg :=
  es.filterMap (fun e => (events[e.other]?).map (putHuge e))

/-- The processes with mappings that were there from the start: the keys of `map_`, `huge_page_deducer.cc:228-260`. -/
def startKeys : List HugePages.Ev → List Nat
  | [] => []
  | e :: l =>
    match e.mmap with
    | some m => if e.time = 0 ∧ m.key ∉ startKeys l then m.key :: startKeys l else startKeys l
    | none => startKeys l

/-- `DeduceHugePages`, `perf_parser.cc:84-87`. -/
def deduce (M : Machine) (events : List Msg) : Option (List Msg) :=
  let es := views hugeView 0 events
  (HugePages.deduceHugePages (M.order (startKeys es)) es).map (fromHuge events)

/-- `CombineMappings`, `perf_parser.cc:89-92`. The members `maj`, `min`, `ino` and `ino_generation` stay those of the event that is
kept. -/
def combine (events : List Msg) : List Msg :=
  fromHuge events (HugePages.combineMappings (views (fun i m =>
    match m.body with
    | .mmap _ => { hugeView i m with mmap := some (hugeMap true m.body.getMmap) }
    | _ => hugeView i m) 0 events))

/-! ## The parser -/

/-- A branch as the parser sees it. -/
def parserBranch (b : Serial.Branch) : Parser.Branch :=
  { src := b.fromIp, dst := b.toIp, mispredicted := b.mispredicted, predicted := b.predicted, inTransaction := b.inTransaction,
    abort := b.abort, cycles := b.cycles, spec := b.spec }

/-- What the parser sees of an event. -/
def parserView (i : Nat) (m : Msg) : Parser.Ev :=
  { type := m.type, misc := m.misc, rest := i
    mmap := match m.body with | .mmap b => some (hugeMap true b) | _ => none
    sample := match m.body with
      | .sample s => some { ip := s.ip.getD 0, pid := s.pid.getD 0, tid := s.tid.getD 0, addr := s.addr, callchain := s.callchain,
                            branches := s.branches.map parserBranch, rest := i }
      | _ => none
    fork := match m.body with | .fork f => some ⟨f.pid, f.tid, f.ppid, f.ptid⟩ | _ => none
    comm := match m.body with | .comm c => some ⟨c.pid, c.tid, c.comm⟩ | _ => none }

/-- Branches with the addresses that were changed. -/
def putBranches : List Parser.Branch → List Serial.Branch → List Serial.Branch
  | p :: ps, b :: bs => { b with fromIp := p.src, toIp := p.dst } :: putBranches ps bs
  | _, bs => bs

/-- An event with the members that the parser changed: the range of a mapping, `perf_parser.cc:754-758`, and the addresses of a sample,
`perf_parser.cc:480-517,519-618`. -/
def putParsed (e : Parser.Ev) (m : Msg) : Msg :=
  match m.body with
  | .mmap b =>
    match e.mmap with
    | some h => { m with body := .mmap { b with start := h.start, len := h.len, pgoff := h.pgoff } }
    | none => m
  | .sample s =>
    match e.sample with
    | some p => { m with body := .sample { s with
        ip := some p.ip, addr := p.addr, callchain := p.callchain, branches := putBranches p.branches s.branches } }
    | none => m
  | _ => m

/-- `ParseRawEvents`, `perf_parser.cc:76-136`, with sorting if `sort`, the deduction of huge pages if `huge`, and combining if
`comb`: the events afterwards, and the counters. -/
def parseEvents (M : Machine) (O : Parser.Opts) (sort huge comb : Bool) (i : Meta.Info) (events : List Msg) :
    Option (List Msg × Parser.Stats) := do
  let events := if sort then sortEvents i events else events
  let events ← if huge then deduce M events else some events
  let events := if comb then combine events else events
  let r ← Parser.parse O (views parserView 0 events)
  return (r.events.filterMap (fun e => (events[e.rest]?).map (putParsed e)), r.stats)

/-! ## The converter -/

/-- A branch as the normalizer sees it. -/
def normBranch (b : Serial.Branch) : Normalizer.BranchEv :=
  { fromIp := b.fromIp, toIp := b.toIp, mispredicted := b.mispredicted, predicted := b.predicted, inTransaction := b.inTransaction,
    abort := b.abort, cycles := b.cycles, spec := b.spec }

/-- A sample as the normalizer sees it. -/
def normSample (s : Serial.SampleEvent) : Normalizer.SampleEv :=
  { ip := s.ip.getD 0, pid := s.pid, tid := s.tid, timeNs := s.time, addr := s.addr, id := s.id, period := s.period.getD 0, cpu := s.cpu,
    callchain := s.callchain, branchStack := s.branches.map normBranch, weight := s.weight,
    weightStruct := s.weightStruct.map (fun w => (some w.var1, some w.var2)), dataSrc := s.dataSrc, cgroup := s.cgroup,
    dataPageSize := s.dataPageSize, codePageSize := s.codePageSize }

/-- An event as the normalizer sees it. -/
def normView (m : Msg) : Normalizer.Ev :=
  match m.body with
  | .mmap b => .mmap { pid := b.pid, start := b.start, len := b.len, pgoff := b.pgoff, filename := b.filename, md5 := b.filenameMd5,
                       buildId := b.buildId }
  | .comm c => .comm m.misc { pid := c.pid, tid := c.tid, comm := c.comm, md5 := c.commMd5 }
  | .fork f => .fork f.pid f.ppid f.tid
  | .cgroup c => .cgroup c.id c.path
  | .lostSamples l => .lostSamples { num := l.lost, id := l.info.id.getD 0, pid := l.info.pid.getD 0, tid := l.info.tid.getD 0 }
  | .lost l => .lost { num := l.lost, id := l.id, pid := l.info.pid.getD 0, tid := l.info.tid.getD 0 }
  | .sample s => .sample (some m.misc) (normSample s)
  | .auxtraceInfo a => .auxtraceInfo a.type
  | .auxtrace a => .auxtrace (some a.trace)
  | .ksymbol k => .ksymbol k.ksymType k.flags k.addr k.len k.name
  | _ => .other

/-- What the normalizer sees of a recording. `comm_exec` is bit 24. -/
def normInput (M : Machine) (i : Meta.Info) (events : List Msg) : Normalizer.Input :=
  { buildIds := i.buildIds.map (fun b => { hash := b.hash, filename := b.filename, md5 := b.md5, injected := b.injected, misc := b.misc })
    perfVersion := i.version
    attrs := i.attrs.map (fun a => { ids := a.ids, commExec := a.attr.flags.testBit 24, samplePeriod := a.attr.samplePeriod })
    events := events.map normView
    traceBase := M.traceBase
    lostMd5 := M.env.md5 (ascii "[lost]") }

/-- `PerfDataProtoToProfiles`, `perf_data_converter.cc:978-984`. -/
def toProfiles (M : Machine) (labels options : Nat) (threadTypes : List (Nat × Bytes)) (i : Meta.Info) (events : List Msg) :
    Option (List Converter.ProcessProfile) :=
  (Converter.protoToProfiles (normInput M i events) (i.eventTypes.map (fun t => some t.2)) i.cmdWhole labels options threadTypes).map (·.1)

/-- What `RawPerfDataToProfiles` asks of the parser, `perf_data_converter.cc:1009-1017`; `kAllowUnalignedJitMappings` is bit 2. -/
def rawOpts (M : Machine) (options : Nat) : Parser.Opts := { allowJit := options.testBit 2, page := M.page }

/-- `RawPerfDataToProfiles` after reading, `perf_data_converter.cc:996-1024`. `ParseRawEvents` never fails. -/
def convertRead (M : Machine) (ids : List (Bytes × Bytes)) (labels options : Nat) (threadTypes : List (Nat × Bytes)) (i : Meta.Info)
    (events : List Msg) : Option (List Converter.ProcessProfile) := do
  let i := withBuildIds M.env.md5 ids i events
  let (events, _) ← parseEvents M (rawOpts M options) true true true i events
  toProfiles M labels options threadTypes i events

/-- `RawPerfDataToProfiles`, `perf_data_converter.cc:985-1024`: the profiles; none if the bytes cannot be read. -/
def rawToProfiles (M : Machine) (ids : List (Bytes × Bytes)) (labels options : Nat) (threadTypes : List (Nat × Bytes)) (b : Bytes) :
    Option (List Converter.ProcessProfile) :=
  match File.readBytes { env := M.env } b with
  | none => none
  | some none => some []
  | some (some st) => convertRead M ids labels options threadTypes st.base.info st.events

end Verif.Whole
