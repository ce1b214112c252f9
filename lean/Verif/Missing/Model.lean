import Verif.Disk.Model
import Verif.Tool.Messages

/-!
# Model of reading missing build IDs from the file system

`/repo/src/quipper/perf_parser.cc:333-453` with `SameInode` of `dso.cc`, which run if `read_missing_buildids` is set. The parser's other
work is modelled in `Verif.Parser`. The files do not change while they are looked at. `none` as the outcome of a function is undefined
behaviour or the end of the program. How descriptors are closed is modelled in `Verif.Disk`.
-/

namespace Verif.Missing
open Verif.Parser (Ev Parsed)
open Verif.Util (cStr rawDataToHexString)

abbrev Bytes := List UInt8

/-- A file that was opened: `st_dev` and `st_ino` as `fstat` tells them, and what libelf makes of it. -/
structure Node where
  maj : Nat
  min : Nat
  ino : Nat
  elf : Option Disk.Elf
deriving DecidableEq, Repr

/-- The files that can be opened: as ELF files, and by a `FileReader`. -/
structure Files where
  node : Bytes → Option Node
  source : Bytes → Option Disk.Source

/-- `DSOInfo`, `dso.h:22-31`, without `build_id`; `threads` in increasing order. It is `hit` if there are threads: both are set at the same
place, `perf_parser.cc:650-651`. -/
structure Dso where
  name : Bytes
  maj : Nat := 0
  min : Nat := 0
  ino : Nat := 0
  threads : List Nat := []
deriving DecidableEq, Repr

/-- `mergeTwoU32`, `perf_parser.cc:351-353`; both are less than `2 ^ 32`. -/
def merge (first second : Nat) : Nat := first * 2 ^ 32 + second

/-- `splitU64`, `perf_parser.cc:357-360`. -/
def split (v : Nat) : Nat × Nat := (v / 2 ^ 32, v % 2 ^ 32)

/-- `SameInode`, `dso.cc:178-182`. -/
def sameInode (d : Dso) (n : Node) : Bool := d.maj == n.maj && d.min == n.min && d.ino == n.ino

/-- `ReadElfBuildIdIfSameInode`, `perf_parser.cc:362-377`, with `ReadElfBuildId`, `dso.cc:114-130`; `none` is false. `fstat` does not fail. -/
def readIfSame (fs : Files) (d : Dso) (path : Bytes) : Option Bytes :=
  match fs.node (cStr path) with
  | none => none
  | some n =>
    if d.maj ≠ 0 ∧ d.min ≠ 0 ∧ sameInode d n = false then none
    else n.elf.bind Disk.getBuildID

/-- A path through `/proc`, `perf_parser.cc:401-403` and `:411-413`. -/
def rootPath (id : Nat) (name : Bytes) : Bytes := ascii "/proc/" ++ Converter.decimal id ++ ascii "/root/" ++ name

/-- The loop of `FindDsoBuildId`, `perf_parser.cc:398-418`; `last` is `last_pid`. -/
def tryThreads (fs : Files) (d : Dso) : Nat → List Nat → Option Bytes
  | _, [] => none
  | last, v :: l =>
    match readIfSame fs d (rootPath (split v).2 d.name) with
    | some id => some id
    | none =>
      if (split v).1 = last ∨ (split v).1 = (split v).2 then tryThreads fs d last l
      else
        match readIfSame fs d (rootPath (split v).1 d.name) with
        | some id => some id
        | none => tryThreads fs d (split v).1 l

/-- The file with the notes of a module, `dso.cc:135-136`. -/
def notesPath (module : Bytes) : Bytes := ascii "/sys/module/" ++ module ++ ascii "/notes/.note.gnu.build-id"

/-- `FindDsoBuildId`, `perf_parser.cc:382-424`: the build ID, which is empty if there is none. -/
def findBuildId (fs : Files) (d : Dso) : Option Bytes :=
  if Normalizer.isKernelNonModuleName d.name then some []
  else if d.name.length ≥ 2 ∧ d.name.head? = some 91 ∧ d.name.getLast? = some 93 then
    (Disk.readModuleBuildId (fs.source (cStr (notesPath ((d.name.drop 1).take (d.name.length - 2)))))).map (·.getD [])
  else
    match tryThreads fs d 0 d.threads with
    | some id => some id
    | none => some ((readIfSame fs d d.name).getD [])

/-- The files noted for the addresses of a sample. -/
def named (p : Parsed) : List Bytes :=
  (p.here :: p.data :: (p.callchain ++ p.branches.flatMap (fun b => [b.src, b.dst]))).filterMap (·.name)

/-- Put a number into a sorted set. -/
def insertNum (n : Nat) : List Nat → List Nat
  | [] => [n]
  | a :: l => if n < a then n :: a :: l else if n = a then a :: l else a :: insertNum n l

/-- `threads` of a file after all events, sorted as by `perf_parser.cc:395-397`. An entry is made where a file is noted for an address,
`perf_parser.cc:645-651`, so the files noted tell which. -/
def threadsOf (name : Bytes) : List (Ev × Parsed) → List Nat → List Nat
  | [], acc => acc
  | (e, p) :: l, acc =>
    threadsOf name l
      (if name ∈ named p then insertNum (merge ((e.sample.map (·.pid)).getD 0) ((e.sample.map (·.tid)).getD 0)) acc else acc)

/-- Is it a mapping? -/
def isMap (e : Ev) : Bool := decide (e.type = 1) || decide (e.type = 10)

/-- The name of the file of a mapping. -/
def fileOf (e : Ev) : Bytes := (e.mmap.getD {}).filename

/-- The entry of a name in `name_to_dso_`, `perf_parser.cc:221-228`: `emplace` leaves the entry of the first mapping. -/
def dsoOf (out : List (Ev × Parsed)) (name : Bytes) : Dso :=
  match (out.map (·.1)).find? (fun e => isMap e && fileOf e == name) with
  | some e =>
    if e.type = 10 then
      { name, maj := ((e.mmap.getD {}).maj).getD 0, min := ((e.mmap.getD {}).min).getD 0, ino := ((e.mmap.getD {}).ino).getD 0
        threads := threadsOf name out [] }
    else { name, threads := threadsOf name out [] }
  | none => { name, threads := threadsOf name out [] }

/-- The keys of `name_to_dso_`, in order. -/
def dsoNames : List (Ev × Parsed) → List Bytes → List Bytes
  | [], acc => acc
  | (e, _) :: l, acc => dsoNames l (if isMap e then Names.insert (fileOf e) acc else acc)

/-- The loop of `FillInDsoBuildIds`, `perf_parser.cc:434-449`, in the order of the keys of `new_buildids`. -/
def newIds (fs : Files) (out : List (Ev × Parsed)) : List Bytes → Option (List (Bytes × Bytes))
  | [] => some []
  | n :: l =>
    if (dsoOf out n).threads = [] then newIds fs out l
    else
      match findBuildId fs (dsoOf out n) with
      | none => none
      | some id => (newIds fs out l).map (fun r => if id = [] then r else (n, rawDataToHexString id) :: r)

/-- `FillInDsoBuildIds`, `perf_parser.cc:428-453`, with `read_missing_buildids`: what is known beside the events. The result of
`InjectBuildIDs` is not looked at. -/
def fillIn (md5 : Bytes → Nat) (fs : Files) (out : List (Ev × Parsed)) (d : Names.Data) : Option Names.Data :=
  (newIds fs out (dsoNames out [])).map (fun ids => if ids = [] then d else (Names.injectBuildIDs md5 ids d).1)

/-- `build_id` of the entry of a name afterwards, `perf_parser.cc:437-448`: what the reader had, or what was found. -/
def dsoBuildId (fs : Files) (out : List (Ev × Parsed)) (d : Names.Data) (name : Bytes) : Option Bytes :=
  let old := (Names.find (Names.toBuildIDs d.buildIds []) name).getD []
  if (dsoOf out name).threads = [] then some old
  else (findBuildId fs (dsoOf out name)).map (fun id => if id = [] then old else rawDataToHexString id)

/-- `ParseRawEvents`, `perf_parser.cc:76-136`, on a reader, with `read_missing_buildids`: what the reader holds then, and the counters. If
an event is of an unknown type build IDs are not looked for, `perf_parser.cc:286-290`. The names and kinds of mappings are those before the
addresses were changed. -/
def parseHeld (M : Whole.Machine) (fs : Files) (o : Tool.ParseOpts) (h : Tool.Held) : Option (Tool.Held × Parser.Stats) := do
  let events := if o.sort then Whole.sortEvents h.msg.info h.msg.events else h.msg.events
  let events ← if o.huge then Whole.deduce M events else some events
  let events := if o.combine then Whole.combine events else events
  let evs := Whole.views Whole.parserView 0 events
  let r ← Parser.parse (o.parser M.page) evs
  let (complete, _, out) ← Parser.loop (o.parser M.page) (evs.filter (fun e => e.type ≠ 68)) 0 {} (evs.filter (fun e => e.type ≠ 68))
  let d := Whole.namesData h.msg.info events
  let d ← if complete then fillIn M.env.md5 fs out d else some d
  return (⟨{ h.msg with events := (Whole.parsed events r).1, info := { h.msg.info with buildIds := d.buildIds, mask := d.mask } }, h.ser⟩,
    r.stats)

/-- `SerializeFromStringWithOptions`, `perf_protobuf_io.cc:21-35`, with `read_missing_buildids`. -/
def serializeFrom (M : Whole.Machine) (fs : Files) (o : Tool.ParseOpts) (now : Nat) (b : Bytes) : Option (Option Tool.Message) :=
  match Tool.readRecording M b with
  | none => none
  | some none => some none
  | some (some h) => (parseHeld M fs o h).map fun r => some (Tool.serializeStats r.2 o.remap (Tool.serialize now r.1))

end Verif.Missing
