import Verif.Util.Model
import Verif.Text.Model

/-!
# Model of the file names and build IDs of a recording

`perf_reader.cc:135-153, 216-220, 656-806, 2575-2600` and the build ID part of `perf_serializer.cc:1113-1136`. Of an
event only what these functions look at is modelled; everything else is `rest`. `Md5Prefix` is a parameter. A
`std::map` is a list of pairs whose keys are strictly increasing; a lookup takes the first pair with the key. The
machine has 64 bits, so the only sums that can wrap are those of `LocalizeMMapFilenames`.
-/

namespace Verif.Names
open Verif.Util (align rawDataToHexString hexStringToRawData cStr)
open Verif.Text (perfizeBuildID trimZeroes)

abbrev Bytes := List UInt8

/-- `PerfEvent` of `perf_data.proto:866-898` with the header and, for mappings, the file name. `time` is
`timestamp`. -/
structure Event where
  type : Nat
  misc : Nat := 0
  size : Nat := 0
  filename : Bytes := []
  md5 : Nat := 0
  time : Nat := 0
  rest : Nat := 0
deriving DecidableEq, Repr

/-- `PerfBuildID` of `perf_data.proto:953-977`. -/
structure BuildId where
  misc : Nat := 0
  pid : Nat := 0
  hash : Bytes := []
  filename : Bytes := []
  md5 : Nat := 0
  size : Option Nat := none
  injected : Bool := false
deriving DecidableEq, Repr

/-- What is stored: `proto_`. `sampleTypes` are those of the attributes; `mask` is `metadata_mask`. -/
structure Data where
  events : List Event := []
  buildIds : List BuildId := []
  sampleTypes : List Nat := []
  mask : Nat := 0
deriving DecidableEq, Repr

/-- `PERF_RECORD_MMAP` or `PERF_RECORD_MMAP2`. -/
def Event.isMmap (e : Event) : Bool := decide (e.type = 1) || decide (e.type = 10)

/-- `std::map::find`. -/
def find {β : Type} (m : List (Bytes × β)) (k : Bytes) : Option β := (m.find? (fun p => p.1 == k)).map (·.2)

/-- `map[key] = value`, where the order of the keys does not matter. -/
def set {β : Type} (m : List (Bytes × β)) (k : Bytes) (v : β) : List (Bytes × β) := (k, v) :: m

/-- `GetUint64AlignedStringLength(size_t)`, `perf_data_utils.h:59-61`. -/
def padded (n : Nat) : Nat := align 3 (n + 1)

/-- `CreateBuildIDEvent`, `perf_reader.cc:137-153`, followed by `SerializeBuildIDEvent`,
`perf_serializer.cc:1113-1136`: the build ID goes through an array of 20 zero bytes, and the result of reading the
hexadecimal digits is ignored; the name goes through a C string. `none` is `return false`, after an entry was added. -/
def newEntry (md5 : Bytes → Nat) (buildId filename : Bytes) (misc : Nat) : Option BuildId :=
  let array := (hexStringToRawData buildId (List.replicate 20 0) 20).2
  let name := cStr filename
  let text := trimZeroes (rawDataToHexString array)
  let (ok, bytes) := hexStringToRawData text (List.replicate 20 0) 20
  if ok then
    some {
      misc
      pid := 2 ^ 32 - 1
      hash := bytes.take (text.length / 2)
      filename := name
      md5 := md5 name
      size := if misc.testBit 15 then some 0 else none
      injected := true }
  else none

/-- The loop over existing entries, `perf_reader.cc:661-681`: the entries as they are when the loop ends, the names
updated and whether it went through. -/
def updateEntries (ids : List (Bytes × Bytes)) : List BuildId → List BuildId × List Bytes × Bool
  | [] => ([], [], true)
  | b :: t =>
    match find ids b.filename with
    | none =>
      let r := updateEntries ids t
      (b :: r.1, r.2)
    | some s =>
      let (ok, data) := hexStringToRawData s (List.replicate (s.length / 2) 0) (s.length / 2)
      if ok then
        let r := updateEntries ids t
        ({ b with hash := data, injected := true } :: r.1, b.filename :: r.2.1, r.2.2)
      else (b :: t, [], false)

/-- `filename_to_misc`, `perf_reader.cc:686-692`: the last mapping of a name counts; `misc` is narrowed to 16 bits. -/
def miscOf : List Event → List (Bytes × Nat) → List (Bytes × Nat)
  | [], m => m
  | e :: t, m => miscOf t (if e.isMmap then set m e.filename (e.misc % 2 ^ 16) else m)

/-- The loop over the new names, `perf_reader.cc:694-712`. -/
def addEntries (md5 : Bytes → Nat) (miscs : List (Bytes × Nat)) (updated : List Bytes) :
    List (Bytes × Bytes) → List BuildId × Bool
  | [] => ([], true)
  | (f, s) :: t =>
    if f ∈ updated then addEntries md5 miscs updated t
    else
      match newEntry md5 s f ((find miscs f).getD 1) with
      | none => ([], false)
      | some b =>
        let r := addEntries md5 miscs updated t
        (b :: r.1, r.2)

/-- `InjectBuildIDs`, `perf_reader.cc:656-714`. When it fails in the second loop an unfinished entry is left behind;
that is not modelled, since the loop never fails (`newEntry_ok`). -/
def injectBuildIDs (md5 : Bytes → Nat) (ids : List (Bytes × Bytes)) (d : Data) : Data × Bool :=
  let d := { d with mask := d.mask ||| 4 }
  let (old, updated, ok) := updateEntries ids d.buildIds
  if !ok then ({ d with buildIds := old }, false)
  else
    let (new, ok) := addEntries md5 (miscOf d.events []) updated ids
    ({ d with buildIds := old ++ new }, ok)

/-- `GetFilenamesToBuildIDs`, `perf_reader.cc:781-789`: the last entry of a name counts. -/
def toBuildIDs : List BuildId → List (Bytes × Bytes) → List (Bytes × Bytes)
  | [], m => m
  | b :: t, m => toBuildIDs t (set m b.filename (perfizeBuildID (rawDataToHexString b.hash)))

/-- `LocalizeMMapFilenames`, `perf_reader.cc:2575-2600`; `size_t` arithmetic, and the field is narrowed to 32 bits. -/
def renameEvent (names : List (Bytes × Bytes)) (e : Event) : Event :=
  if e.isMmap then
    match find names e.filename with
    | none => e
    | some new =>
      let size := (e.size + 2 ^ 64 - padded e.filename.length + padded new.length) % 2 ^ 64
      { e with filename := new, size := size % 2 ^ 32 }
  else e

/-- The loop of `LocalizeUsingFilenames`, `perf_reader.cc:734-738`. -/
def renameEntry (names : List (Bytes × Bytes)) (b : BuildId) : BuildId :=
  match find names b.filename with
  | none => b
  | some new => { b with filename := new }

/-- `LocalizeUsingFilenames`, `perf_reader.cc:731-740`; the `CHECK` of `LocalizeMMapFilenames` fails without
attributes (`SampleInfoReaderAvailable`). -/
def localizeNames (names : List (Bytes × Bytes)) (d : Data) : Option Data :=
  if d.sampleTypes = [] then none
  else some { d with events := d.events.map (renameEvent names), buildIds := d.buildIds.map (renameEntry names) }

/-- The table built by `Localize`, `perf_reader.cc:718-726`. -/
def namesByBuildID (files : List (Bytes × Bytes)) : List BuildId → List (Bytes × Bytes) → List (Bytes × Bytes)
  | [], m => m
  | b :: t, m =>
    match find files (perfizeBuildID (rawDataToHexString b.hash)) with
    | none => namesByBuildID files t m
    | some new => namesByBuildID files t (set m b.filename new)

/-- `Localize`, `perf_reader.cc:716-729`. -/
def localize (files : List (Bytes × Bytes)) (d : Data) : Option Data :=
  localizeNames (namesByBuildID files d.buildIds []) d

/-- `AlternateBuildIDFilenames`, `perf_reader.cc:742-761`. The order within `equal_range` of an `unordered_multimap` is
not specified; here it is that of the list. -/
def alternateNames (names : List (Bytes × Bytes)) (d : Data) : Data :=
  { d with buildIds := d.buildIds ++ d.buildIds.flatMap (fun b =>
      (names.filter (fun p => p.1 == b.filename)).map (fun p => { b with filename := p.2 })) }

/-- Byte strings in the order of `std::string`. -/
def less : Bytes → Bytes → Bool
  | [], [] => false
  | [], _ :: _ => true
  | _ :: _, [] => false
  | a :: s, b :: t => if a < b then true else if b < a then false else less s t

/-- `std::set::insert`. -/
def insert (s : Bytes) : List Bytes → List Bytes
  | [] => [s]
  | a :: t => if less s a then s :: a :: t else if less a s then a :: insert s t else a :: t

/-- `GetFilenamesAsSet`, `perf_reader.cc:771-779`. -/
def filenamesAsSet : List Event → List Bytes → List Bytes
  | [], acc => acc
  | e :: t, acc => filenamesAsSet t (if e.isMmap then insert e.filename acc else acc)

/-- `GetFilenames`, `perf_reader.cc:763-769`. -/
def filenames (d : Data) : List Bytes := filenamesAsSet d.events []

/-- `std::stable_sort`: an element goes behind those that are not greater. -/
def insertByTime (e : Event) : List Event → List Event
  | [] => [e]
  | a :: t => if e.time < a.time then e :: a :: t else a :: insertByTime e t

/-- The elements are put in place one after the other. -/
def stableSort : List Event → List Event → List Event
  | [], acc => acc
  | e :: t, acc => stableSort t (insertByTime e acc)

/-- `MaybeSortEventsByTime`, `perf_reader.cc:791-806`, with `CompareEventTimes`, `perf_reader.cc:218-220`;
`PERF_SAMPLE_TIME` is bit 2. -/
def maybeSortByTime (d : Data) : Data :=
  if d.sampleTypes.all (fun t => t.testBit 2) then { d with events := stableSort d.events [] } else d

end Verif.Names
