import Verif.Buffer.Model
import Verif.Base.Bytes

/-!
# Huge pages and split mappings

Models `/repo/src/quipper/huge_page_deducer.cc`. File names are byte strings, addresses and offsets are 64
bit numbers. Only the members of an event that the code reads or writes are kept; everything else of it is
`other`.
-/

namespace Verif.HugePages
open Verif.Buffer

/-- `MMapEvent`, `perf_data.proto:252-307`; members that are tested with `has_` are optional. -/
structure MMap where
  pid : Option Nat := none
  start : Nat := 0
  len : Nat := 0
  pgoff : Nat := 0
  maj : Option Nat := none
  min : Option Nat := none
  ino : Option Nat := none
  inoGen : Option Nat := none
  buildId : Option (List UInt8) := none
  prot : Nat := 0
  flags : Nat := 0
  filename : List UInt8 := []
  md5 : Nat := 0
deriving DecidableEq, Repr

/-- `PerfEvent`, `perf_data.proto:866-901`: `mmap_event`, `timestamp`, `header.size`, everything else. -/
structure Ev where
  mmap : Option MMap := none
  time : Nat := 0
  size : Nat := 0
  other : Nat := 0
deriving DecidableEq, Repr

/-- `kAnonFilename`, `kAnonHugepageFilename`, `kAnonHugepageDeletedFilename`,
`huge_page_deducer.cc:20-22`. -/
def anonNames : List (List UInt8) :=
  [ascii "//anon", ascii "/anon_hugepage", ascii "/anon_hugepage (deleted)"]

/-- `IsAnon`, `huge_page_deducer.cc:24-29`. -/
def isAnon (m : MMap) : Bool := anonNames.contains m.filename

/-- `HasExecuteProtection`, `huge_page_deducer.cc:32-34`; `PROT_EXEC` is 4. -/
def hasExec (m : MMap) : Bool := m.prot.testBit 2

/-- 64-bit sum. -/
def add64 (a b : Nat) : Nat := (a + b) % 2 ^ 64
/-- 64-bit difference. -/
def sub64 (a b : Nat) : Nat := (a + 2 ^ 64 - b) % 2 ^ 64

/-- `IsVmaContiguous`, `huge_page_deducer.cc:38-40`; the default of `pid` is 0. -/
def vmaContiguous (a b : MMap) : Bool :=
  a.pid.getD 0 == b.pid.getD 0 && add64 a.start a.len == b.start

/-- `std::string::rfind` of a character. -/
def rfind (c : UInt8) (l : List UInt8) : Option Nat :=
  (l.reverse.findIdx? (· == c)).map (l.length - 1 - ·)

/-- `std::string::find` of a string from the start. -/
def find (pat : List UInt8) : List UInt8 → Option Nat
  | [] => if pat = [] then some 0 else none
  | c :: l => if pat.isPrefixOf (c :: l) then some 0 else (find pat l).map (· + 1)

/-- `IsHugePage`, `huge_page_deducer.cc:46-64`. -/
def isHugePage (m : MMap) : Bool :=
  if isAnon m then true
  else match rfind 47 m.filename with
    | none => false
    | some s =>
      match find (ascii ".buildid_") (m.filename.drop s) with
      | none => false
      | some b => m.filename.length > s + b + 9

/-- `IsFileContiguous`, `huge_page_deducer.cc:77-86`. -/
def fileContiguous (a b : MMap) : Bool :=
  (add64 a.pgoff a.len == b.pgoff && !isAnon a) || (!hasExec a && !isAnon a && isAnon b)

/-- `IsEquivalentFile`, `huge_page_deducer.cc:91-96`. -/
def equivalentFile (a b : MMap) : Bool := a.filename == b.filename || isHugePage a || isHugePage b

/-- `IsEquivalentProtection`, `huge_page_deducer.cc:102-120`; `MAP_TYPE` is 15, `PROT_READ` 1 and
`PROT_WRITE` 2. -/
def equivalentProt (a b : MMap) : Bool :=
  (a.flags % 16 == b.flags % 16 || hasExec a) &&
  (a.prot == b.prot || (a.prot == 1 && b.prot == 3) || (a.prot == 3 && b.prot == 1))

/-- `IsCombinableFile`, `huge_page_deducer.cc:125-130`. -/
def combinableFile (m : MMap) : Bool := !(ascii "/dev/").isPrefixOf m.filename

/-- The size of the event after `SetMmapFilename`, `huge_page_deducer.cc:134-144`; `size` is a
`uint32`. -/
def newSize (size : Nat) (old new : List UInt8) : Nat :=
  (size + alignedStringLength new.length + 2 ^ 64 - alignedStringLength old.length) % 2 ^ 64 % 2 ^ 32

/-- The key of a mapping in the per process maps: the `pid`, or -1 (as a `uint32`) if there is none,
`huge_page_deducer.cc:249-252` and `409`. -/
def MMap.key (m : MMap) : Nat := m.pid.getD (2 ^ 32 - 1)

/-! ## DeduceHugePages -/

/-- A mapping and the size of its event. -/
abbrev Item := MMap × Nat

/-- The body of the loop of `UpdateRangeFromNext`, `huge_page_deducer.cc:279-312`. -/
def updateItem (next : MMap) (pgoff : Nat) (it : Item) : Item :=
  let m := it.1
  if isHugePage m || m.pgoff == 0 then
    ({ m with
        filename := next.filename, md5 := next.md5
        buildId := next.buildId.orElse fun _ => m.buildId
        pgoff := if m.pgoff == 0 then pgoff else m.pgoff
        maj := next.maj.orElse fun _ => m.maj
        min := next.min.orElse fun _ => m.min
        ino := next.ino.orElse fun _ => m.ino
        inoGen := next.inoGen.orElse fun _ => m.inoGen },
     newSize it.2 m.filename next.filename)
  else it

/-- The loop of `UpdateRangeFromNext`: the items and the final `pgoff`. -/
def updateLoop (next : MMap) : Nat → List Item → List Item × Nat
  | pgoff, [] => ([], pgoff)
  | pgoff, it :: l =>
    let r := updateLoop next (add64 pgoff it.1.len) l
    (updateItem next pgoff it :: r.1, r.2)

/-- `mmap_range_last.start() - mmap_range_first.start() + mmap_range_last.len()`. -/
def rangeLength (first last : MMap) : Nat := add64 (sub64 last.start first.start) last.len

/-- `UpdateRangeFromNext`, `huge_page_deducer.cc:270-314`. `none` is the failed `CHECK_EQ`. -/
def updateRange (first last next : MMap) (range : List Item) : Option (List Item) :=
  let len := rangeLength first last
  let start := sub64 next.pgoff len
  let r := updateLoop next start range
  if r.2 = add64 start len then some r.1 else none

/-- Whether a huge mapping extends the pending range, `huge_page_deducer.cc:342-346`
(`IsMergeableAnon` is constantly false). -/
def extendsRange (last cur : MMap) : Bool :=
  vmaContiguous last cur && last.filename == cur.filename &&
  (fileContiguous last cur || (last.pgoff == 0 && cur.pgoff == 0))

/-- `start_pgoff`, `huge_page_deducer.cc:366-374`. -/
def startPgoff (pre : Option MMap) (first cur : MMap) : Nat :=
  match pre with
  | none => 0
  | some p =>
    if vmaContiguous p first && equivalentFile p first && equivalentFile p cur then add64 p.pgoff p.len else 0

/-- The decision to update the pending range, `huge_page_deducer.cc:375-378`. -/
def shouldUpdate (pre : Option MMap) (first last cur : MMap) : Bool :=
  vmaContiguous last cur && equivalentFile last cur && decide (rangeLength first last ≤ cur.pgoff) &&
  sub64 cur.pgoff (rangeLength first last) == startPgoff pre first cur

/-- The loop over the mappings of one process, `huge_page_deducer.cc:326-387`. `pend` are the mappings from
`huge_mmap_range_first` to the one before `itr`: they are always consecutive, because every mapping that is
not huge ends the range and every huge one either extends it or starts a new one. `pre` is the content of
`pre_mmap_range_last`, which is not written to while it is remembered. -/
def go (pre : Option MMap) (pend : List Item) : List Item → Option (List Item)
  | [] => some pend
  | it :: rest =>
    if isHugePage it.1 then
      match pend.getLast? with
      | none => go pre [it] rest
      | some last =>
        if extendsRange last.1 it.1 then go pre (pend ++ [it]) rest
        else (go none [it] rest).map (pend ++ ·)
    else
      match pend.head?, pend.getLast? with
      | some first, some last =>
        if shouldUpdate pre first.1 last.1 it.1 then
          match updateRange first.1 last.1 it.1 pend with
          | none => none
          | some pend' => (go (some it.1) [] rest).map (fun r => pend' ++ it :: r)
        else (go (some it.1) [] rest).map (fun r => pend ++ it :: r)
      | _, _ => (go (some it.1) [] rest).map (it :: ·)

/-- A mapping of the process that perf synthesized, `huge_page_deducer.cc:239-252`. -/
def isStart (key : Nat) (e : Ev) : Bool :=
  match e.mmap with
  | some m => m.key == key && e.time == 0
  | none => false

/-- A mapping of the process, `huge_page_deducer.cc:181-196`. -/
def isOf (key : Nat) (e : Ev) : Bool :=
  match e.mmap with
  | some m => m.key == key
  | none => false

/-- Which events the iteration for one process visits: those mappings of it that lie between the first and
the last synthesized one (`PerPidMMapEventRange`, `huge_page_deducer.cc:150-268`). -/
def mask (key : Nat) (seen : Bool) : List Ev → List Bool
  | [] => []
  | e :: rest =>
    (isOf key e && (seen || isStart key e) && (e :: rest).any (isStart key)) ::
      mask key (seen || isStart key e) rest

/-- The visited mappings. -/
def gather : List Bool → List Ev → List Item
  | b :: bs, e :: es =>
    match b, e.mmap with
    | true, some m => (m, e.size) :: gather bs es
    | _, _ => gather bs es
  | _, _ => []

/-- Put them back. -/
def scatter : List Bool → List Ev → List Item → List Ev
  | b :: bs, e :: es, items =>
    match b, e.mmap, items with
    | true, some _, it :: items => { e with mmap := some it.1, size := it.2 } :: scatter bs es items
    | _, _, items => e :: scatter bs es items
  | _, es, _ => es

/-- One round of the outer loop of `DeduceHugePages`, `huge_page_deducer.cc:321-388`. -/
def deducePid (key : Nat) (es : List Ev) : Option (List Ev) :=
  (go none [] (gather (mask key false es) es)).map (scatter (mask key false es) es)

/-- `DeduceHugePages`, `huge_page_deducer.cc:318-389`. `order` is the order in which the hash map delivers
the processes. -/
def deduceHugePages : List Nat → List Ev → Option (List Ev)
  | [], es => some es
  | k :: order, es => (deducePid k es).bind (deduceHugePages order)

/-! ## CombineMappings -/

/-- The decision to merge, `huge_page_deducer.cc:420-425`. -/
def shouldMerge (prev m : MMap) : Bool :=
  combinableFile m && combinableFile prev && equivalentFile prev m && equivalentProt prev m &&
  fileContiguous prev m && vmaContiguous prev m

/-- The merge, `huge_page_deducer.cc:426-437`. -/
def merge (prev : Ev) (p m : MMap) : Ev :=
  if isHugePage p && !isHugePage m then
    { prev with
      mmap := some { p with
        pgoff := sub64 m.pgoff p.len, filename := m.filename, md5 := m.md5
        buildId := m.buildId.orElse fun _ => p.buildId
        len := add64 p.len m.len }
      size := newSize prev.size p.filename m.filename }
  else { prev with mmap := some { p with len := add64 p.len m.len } }

/-- One round of the loop of `CombineMappings`, `huge_page_deducer.cc:399-445`: the new events and
`pid_to_prev_map`. -/
def combineStep (st : List Ev × (Nat → Option Nat)) (e : Ev) : List Ev × (Nat → Option Nat) :=
  match e.mmap with
  | none => (st.1 ++ [e], st.2)
  | some m =>
    let add := (st.1 ++ [e], fun k => if k = m.key then some st.1.length else st.2 k)
    match st.2 m.key with
    | none => add
    | some i =>
      match st.1[i]? with
      | none => add
      | some prev =>
        match prev.mmap with
        | none => add
        | some p => if shouldMerge p m then (st.1.set i (merge prev p m), st.2) else add

/-- `CombineMappings`, `huge_page_deducer.cc:391-448`. -/
def combineMappings (es : List Ev) : List Ev := (es.foldl combineStep ([], fun _ => none)).1

end Verif.HugePages
