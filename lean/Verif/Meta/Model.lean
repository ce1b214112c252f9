import Verif.Attr.Model
import Verif.Names.Model
import Verif.Text.Model

/-!
# Model of the metadata of a recording: reading and writing the feature sections of `perf.data`

`/repo/src/quipper/perf_reader.cc:69-85,155-214,1253-1781,2009-2351,2439-2569,2602-2614` and
`/repo/src/quipper/perf_serializer.cc:295-317,1090-1162,1426-1586`.

`proto_` is an `Info`; the prefixes of MD5 hashes next to texts other than names of files with build IDs are not
modelled. Memory exhaustion and log messages are not modelled. Code that reads has the type `P` of the sample reader: the
outer `none` is undefined behaviour, an abort or a loop without end, the inner one `return false`.
-/

namespace Verif.Meta
open Verif.Buffer Verif.Event Verif.Sample Verif.Attr Verif.Names Verif.Text Verif.Util

/-- `PerfCPUTopologyMetadata`; `cpus` are pairs of core and socket. -/
structure Topology where
  cores : List Bytes := []
  threads : List Bytes := []
  cpus : List (Nat × Nat) := []
deriving DecidableEq, Repr

/-- `PerfNodeTopologyMetadata`. -/
structure Node where
  id : Nat := 0
  total : Nat := 0
  free : Nat := 0
  cpus : Bytes := []
deriving DecidableEq, Repr

/-- `PerfGroupDescMetadata`. -/
structure Group where
  name : Bytes := []
  leader : Nat := 0
  members : Nat := 0
deriving DecidableEq, Repr

/-- `PerfHybridTopologyMetadata`; `cpus` may be absent. -/
structure Hybrid where
  pmu : Bytes := []
  cpus : Option Bytes := none
  cpuList : List Nat := []
deriving DecidableEq, Repr

/-- The part of `PerfDataProto` that is not events. `uint32s` and `uint64s` are lists of a type and its values,
`eventTypes` of ids and names, `pmus` of types and names. -/
structure Info where
  mask : Nat := 0
  tracing : Bytes := []
  buildIds : List BuildId := []
  hostname : Option Bytes := none
  osrelease : Option Bytes := none
  version : Option Bytes := none
  arch : Option Bytes := none
  cpudesc : Option Bytes := none
  cpuid : Option Bytes := none
  cmdTokens : List Bytes := []
  cmdWhole : Option Bytes := none
  uint32s : List (Nat × List Nat) := []
  uint64s : List (Nat × List Nat) := []
  attrs : List ProtoFileAttr := []
  eventTypes : List (Nat × Bytes) := []
  topology : Topology := {}
  numa : List Node := []
  pmus : List (Nat × Bytes) := []
  groups : List Group := []
  hybrids : List Hybrid := []
deriving DecidableEq, Repr

/-- `proto_`, the table of sample readers, `file_attrs_seen_` and `file_attr_configs_seen_`. -/
structure St where
  info : Info := {}
  ser : Ser := {}
  seenIds : List Nat := []
  seenConfigs : List Nat := []
deriving DecidableEq, Repr

/-! ## Headers -/

structure Header where
  type : Nat
  misc : Nat
  size : Nat
deriving DecidableEq, Repr

/-- An integer member of a structure that was read, after the conversion for foreign data. -/
def field (cross : Bool) (d : Bytes) (off n : Nat) : Nat :=
  let v := leNat ((d.drop off).take n)
  if cross then (if n = 2 then bswap16 v else if n = 4 then bswap32 v else bswap64 v) else v

/-- `data->size() - data->Tell()`. -/
def remaining : P Nat := fun r => some (some ((r.size + 2 ^ 64 - r.off) % 2 ^ 64), r)
/-- `data->size()`. -/
def dataSize : P Nat := fun r => some (some r.size, r)

/-- `ReadPerfEventHeader`, `perf_reader.cc:163-188`. -/
def readEventHeader : P Header := do
  let d ← data 8
  let cross ← isCross
  let h : Header := ⟨field cross d 0 4, field cross d 4 2, field cross d 6 2⟩
  if h.size < 8 then fail
  else do
    let rem ← remaining
    if h.size - 8 > rem then fail else pure h

/-- `ReadPerfFileSection`, `perf_reader.cc:192-214`: offset and size. -/
def readFileSection : P (Nat × Nat) := do
  let d ← data 16
  let cross ← isCross
  let off := field cross d 0 8
  let size := field cross d 8 8
  let total ← dataSize
  if off > total then fail
  else if size > (total + 2 ^ 64 - off) % 2 ^ 64 then fail
  else pure (off, size)

/-! ## Reading -/

/-- `ReadStringWithSizeFromData`. -/
def sizedStr : P Bytes := fun r => r.readStringWithSize

/-- `ReadTracingMetadata`, `perf_reader.cc:1739-1753`, with `SerializeTracingMetadata`, `perf_serializer.cc:1090-1100`. -/
def readTracing (st : St) (size : Nat) : P St := do
  let d ← data size
  pure (if size = 0 then st else { st with info := { st.info with tracing := d } })

/-- The build ID kept by `SerializeBuildIDEvent`, `perf_serializer.cc:1123-1133`. -/
def keptHash (array : Bytes) : Option Bytes :=
  let text := trimZeroes (rawDataToHexString array)
  let r := hexStringToRawData text (List.replicate 20 0) 20
  if r.1 then some (r.2.take (text.length / 2)) else none

/-- `ReadBuildIDMetadataWithoutHeader`, `perf_reader.cc:1388-1437`, with `SerializeBuildIDEvent`,
`perf_serializer.cc:1113-1136`. The name is read as a C string up to its first NUL, which is inside of the event.
`sizeof(build_id_event)` is 36, `PATH_MAX` 4096. -/
def readBuildId (md5 : Bytes → Nat) (h : Header) : P BuildId := do
  if h.size < 36 then fail
  else do
    let d ← data (h.size - 8)
    let cross ← isCross
    let name := d.drop 28
    let max := min (h.size - 36) 4096
    let len := ((name.take max).takeWhile (· ≠ 0)).length
    if len = max then fail
    else if 36 + padded len > h.size then fail
    else match keptHash ((d.drop 4).take 20) with
      | none => fail
      | some hash =>
        pure {
          misc := h.misc
          pid := field cross d 0 4
          hash := hash
          filename := name.take len
          md5 := md5 (name.take len)
          size := if h.misc.testBit 15 then some (leNat ((d.drop 24).take 1)) else none }

/-- `ReadBuildIDMetadata`, `perf_reader.cc:1365-1386`. Every round takes at least 36 from `size`; `fuel` is at least the
number of rounds. -/
def readBuildIds (md5 : Bytes → Nat) : Nat → Nat → P (List BuildId)
  | _, 0 => pure []
  | 0, _ + 1 => abort
  | fuel + 1, size => do
    let h ← readEventHeader
    if h.size > size then fail
    else do
      let b ← readBuildId md5 h
      let l ← readBuildIds md5 fuel (size - h.size)
      pure (b :: l)

/-- `ReadSingleStringMetadata`, `perf_reader.cc:1439-1450`. -/
def readSingle (max : Nat) : P Bytes := if max = 0 then pure [] else sizedStr

/-- The loop of `ReadRepeatedStringMetadata`, `perf_reader.cc:1452-1481`. -/
def readTokens (max : Nat) : Nat → Nat → P (List Bytes)
  | 0, _ => pure []
  | n + 1, sizeRead =>
    if sizeRead < max then do
      let o ← tell
      let s ← readSingle (max - sizeRead)
      let o' ← tell
      let l ← readTokens max n (addSz sizeRead (o' - o))
      pure (s :: l)
    else pure []

/-- `full_string`, `perf_reader.cc:1463,1472-1473`. -/
def joinTokens (l : List Bytes) : Bytes :=
  l.foldl (fun full s => (if full = [] then full else full ++ [32]) ++ s) []

/-- `ReadRepeatedStringMetadata`, `perf_reader.cc:1452-1481`, for the command line. -/
def readCmdline (st : St) (max : Nat) : P St := do
  let count ← u32
  let l ← readTokens max count 4
  pure { st with info := { st.info with cmdTokens := st.info.cmdTokens ++ l, cmdWhole := some (joinTokens l) } }

/-- The loops of `ReadUint32Metadata` and `ReadUint64Metadata`, `perf_reader.cc:1487-1498,1514-1525`; `size` wraps below
0. -/
def readWords (p : P Nat) (w : Nat) : Nat → Nat → P (List Nat)
  | _, 0 => pure []
  | 0, _ + 1 => abort
  | fuel + 1, size => do
    let a ← p
    let l ← readWords p w fuel ((size + 2 ^ 64 - w) % 2 ^ 64)
    pure (a :: l)

/-- `ReadUint32Metadata`, `perf_reader.cc:1483-1508`. A buffer has no more than `size()` integers. -/
def readUint32 (st : St) (type size : Nat) : P St := fun r =>
  (do
    let l ← readWords u32 4 (r.size + 1) size
    if l = [] then fail
    else pure { st with info := { st.info with uint32s := st.info.uint32s ++ [(type, l)] } } : P St) r

/-- `ReadUint64Metadata`, `perf_reader.cc:1510-1535`. -/
def readUint64 (st : St) (type size : Nat) : P St := fun r =>
  (do
    let l ← readWords u64 8 (r.size + 1) size
    if l = [] then fail
    else pure { st with info := { st.info with uint64s := st.info.uint64s ++ [(type, l)] } } : P St) r

/-- `AddPerfFileAttr`, `perf_reader.cc:2602-2614`. -/
def addAttr (st : St) (f : FileAttr) (cross : Bool) : P St :=
  let r := createReader st.ser f cross
  if r.1 then
    pure { st with
      info := { st.info with attrs := st.info.attrs ++ [serializeFileAttr f] }
      ser := r.2
      seenIds := st.seenIds ++ f.ids.take 1
      seenConfigs := st.seenConfigs ++ [f.attr.config] }
  else fail

/-- The loop of `ReadEventDescMetadata`, `perf_reader.cc:1537-1596`, with `SerializePerfEventType`,
`perf_serializer.cc:295-302`. -/
def readEventDescs : Nat → St → P St
  | 0, st => pure st
  | n + 1, st => do
    let a ← readEventAttr
    let nrIds ← u32
    let name ← sizedStr
    let ids ← times u64 nrIds
    let cross ← isCross
    let st ← addAttr st ⟨a, ids⟩ cross
    readEventDescs n { st with info := { st.info with eventTypes := st.info.eventTypes ++ [(a.config, name)] } }

/-- `ReadEventDescMetadata`, `perf_reader.cc:1537-1596`. -/
def readEventDesc (st : St) : P St := do
  let nr ← u32
  if nr > 2 ^ 31 - 1 then fail
  else do
    let _ ← u32
    readEventDescs nr { st with info := { st.info with attrs := [] }, seenIds := [], seenConfigs := [] }

/-- `nrcpus`, `perf_reader.cc:1638-1645`. -/
def nrCpus (l : List (Nat × List Nat)) : Nat :=
  l.foldl (fun n m => match m with
    | (7, v :: _) => v
    | _ => n) 0

/-- Core and socket, `perf_reader.cc:1654-1662`. -/
def readCpu : P (Nat × Nat) := do
  let core ← u32
  let socket ← u32
  pure (core, socket)

/-- `ReadCPUTopologyMetadata`, `perf_reader.cc:1598-1670`. -/
def readTopology (st : St) (size : Nat) : P St := do
  let begin_ ← tell
  let n ← u32
  if n > size then fail
  else do
    let cores ← times sizedStr n
    let m ← u32
    if m > size then fail
    else do
      let threads ← times sizedStr m
      let now ← tell
      let cpus ← (if size > now - begin_ then
          (if nrCpus st.info.uint32s = 0 then fail else times readCpu (nrCpus st.info.uint32s))
        else pure [])
      let t := st.info.topology
      let t' : Topology := ⟨t.cores ++ cores, t.threads ++ threads, t.cpus ++ cpus⟩
      pure { st with info := { st.info with topology := t' } }

/-- One node, `perf_reader.cc:1680-1687`. -/
def readNode : P Node := do
  let id ← u32
  let total ← u64
  let free ← u64
  let cpus ← sizedStr
  pure ⟨id, total, free, cpus⟩

/-- `ReadNUMATopologyMetadata`, `perf_reader.cc:1672-1691`. -/
def readNuma (st : St) : P St := do
  let n ← u32
  let l ← times readNode n
  pure { st with info := { st.info with numa := st.info.numa ++ l } }

/-- One mapping, `perf_reader.cc:1707-1712`. -/
def readPmu : P (Nat × Bytes) := do
  let type ← u32
  let name ← sizedStr
  pure (type, name)

/-- `ReadPMUMappingsMetadata`, `perf_reader.cc:1693-1717`. -/
def readPmus (st : St) : P St := do
  let n ← u32
  if n = 0 then fail
  else do
    let l ← times readPmu n
    pure { st with info := { st.info with pmus := st.info.pmus ++ l } }

/-- One group, `perf_reader.cc:1727-1733`. -/
def readGroup : P Group := do
  let name ← sizedStr
  let leader ← u32
  let members ← u32
  pure ⟨name, leader, members⟩

/-- `ReadGroupDescMetadata`, `perf_reader.cc:1719-1737`. -/
def readGroups (st : St) : P St := do
  let n ← u32
  let l ← times readGroup n
  pure { st with info := { st.info with groups := st.info.groups ++ l } }

/-- The numbers that `ParseCPUNumbers`, `string_utils.cc:63-101`, leaves in its result, also when it fails; `none` if it
does not end. -/
def parsedTokens : List Bytes → Option (List Nat)
  | [] => some []
  | t :: ts => match parseToken t with
    | .ok l => (parsedTokens ts).map (l ++ ·)
    | .fail => some []
    | .diverge => none

def parsedCpus (s : Bytes) : Option (List Nat) := parsedTokens (splitString 44 s)

/-- One PMU, `perf_reader.cc:1769-1777`; the result of `ParseCPUNumbers` is ignored. -/
def readHybrid : P Hybrid := do
  let pmu ← sizedStr
  let cpus ← sizedStr
  match parsedCpus cpus with
  | none => abort
  | some l => pure ⟨pmu, some cpus, l⟩

/-- `ReadHybridTopologyMetadata`, `perf_reader.cc:1755-1781`. -/
def readHybrids (st : St) : P St := do
  let n ← u32
  let l ← times readHybrid n
  pure { st with info := { st.info with hybrids := st.info.hybrids ++ l } }

/-- The features that `ReadMetadataWithoutHeader` reads, `perf_reader.cc:1293-1351`: `kSupportedMetadataMask`,
`perf_reader.cc:76-85`. -/
def supported : Nat := 2 ^ 18 - 2 + 2 ^ 30

/-- The `switch` of `ReadMetadataWithoutHeader`, `perf_reader.cc:1281-1363`. -/
def readFeature (md5 : Bytes → Nat) (st : St) (type size : Nat) : P St :=
  match type with
  | 1 => readTracing st size
  | 2 => do
    let l ← readBuildIds md5 size size
    pure { st with info := { st.info with buildIds := st.info.buildIds ++ l } }
  | 3 => do let s ← readSingle size; pure { st with info := { st.info with hostname := some s } }
  | 4 => do let s ← readSingle size; pure { st with info := { st.info with osrelease := some s } }
  | 5 => do let s ← readSingle size; pure { st with info := { st.info with version := some s } }
  | 6 => do let s ← readSingle size; pure { st with info := { st.info with arch := some s } }
  | 7 => readUint32 st 7 size
  | 8 => do let s ← readSingle size; pure { st with info := { st.info with cpudesc := some s } }
  | 9 => do let s ← readSingle size; pure { st with info := { st.info with cpuid := some s } }
  | 10 => readUint64 st 10 size
  | 11 => readCmdline st size
  | 12 => readEventDesc st
  | 13 => readTopology st size
  | 14 => readNuma st
  | 15 => pure st
  | 16 => readPmus st
  | 17 => readGroups st
  | 30 => readHybrids st
  | _ => pure st

/-- `set_metadata_mask_bit`, `perf_reader.h:324-326`. -/
def setMaskBit (st : St) (type : Nat) : St := { st with info := { st.info with mask := st.info.mask ||| 2 ^ type } }

/-- `ReadMetadataWithoutHeader`, `perf_reader.cc:1281-1363`. -/
def readMetadataSection (md5 : Bytes → Nat) (st : St) (type size : Nat) : P St := do
  let rem ← remaining
  if size > rem then fail
  else do
    let begin_ ← tell
    let st ← readFeature md5 st type size
    let st := if supported.testBit type then setMaskBit st type else st
    let now ← tell
    if size ≠ (now + 2 ^ 64 - begin_) % 2 ^ 64 then do
      let _ ← seek ((now + (size + 2 ^ 64 - (now + 2 ^ 64 - begin_) % 2 ^ 64)) % 2 ^ 64)
      pure st
    else pure st

/-- `GetNumBits`, `binary_data_utils.h:33-36`, of 64 bits. -/
def numBits (n : Nat) : Nat := ((List.range 64).filter n.testBit).length

/-- The loop over the features, `perf_reader.cc:1269-1276`. Running out of sections is undefined behaviour. -/
def readFeatures (md5 : Bytes → Nat) : List Nat → List (Nat × Nat) → St → P St
  | [], _, st => pure st
  | type :: types, sections, st =>
    if st.info.mask.testBit type then
      match sections with
      | [] => abort
      | (off, size) :: sections => do
        let _ ← seek off
        let st ← readMetadataSection md5 st type size
        readFeatures md5 types sections st
    else readFeatures md5 types sections st

/-- The types from `HEADER_FIRST_FEATURE` up to `HEADER_LAST_FEATURE`. -/
def featureTypes : List Nat := List.range' 1 30

/-- `ReadMetadata`, `perf_reader.cc:1253-1279`; `dataEnd` is `header_.data.offset + header_.data.size`. -/
def readMetadata (md5 : Bytes → Nat) (st : St) (dataEnd : Nat) : P St := do
  let _ ← seek dataEnd
  let sections ← times readFileSection (numBits st.info.mask)
  readFeatures md5 featureTypes sections st

/-! ## Writing -/

/-- Code that writes through a `DataWriter`; the inner `none` is `return false`, the outer one undefined behaviour or an
abort. -/
def W (α : Type) := Writer → Option (Option α × Writer)

def W.bind {α β : Type} (p : W α) (f : α → W β) : W β := fun w =>
  match p w with
  | none => none
  | some (none, w') => some (none, w')
  | some (some a, w') => f a w'

instance : Monad W where
  pure a := fun w => some (some a, w)
  bind := W.bind

def wfail {α : Type} : W α := fun w => some (none, w)
def wabort {α : Type} : W α := fun _ => none
def wtell : W Nat := fun w => some (some w.off, w)
def wseek (o : Nat) : W Unit := fun w => some (some (), w.seekSet o)

def ofBool (x : Option (Bool × Writer)) : Option (Option Unit × Writer) :=
  match x with
  | none => none
  | some (true, w) => some (some (), w)
  | some (false, w) => some (none, w)

/-- `WriteDataValue`. -/
def wdata (b : Bytes) : W Unit := fun w => ofBool (w.writeData b)
/-- `WriteStringWithSizeToData`. -/
def wstr (s : Bytes) : W Unit := fun w => ofBool (w.writeStringWithSize s)

/-- A loop around writes. -/
def each {α : Type} (f : α → W Unit) : List α → W Unit
  | [] => pure ()
  | a :: l => do
    f a
    each f l

/-- `DeserializeBuildIDEvent`, `perf_serializer.cc:1138-1162`: the `header.size` bytes at the event that are written
(`perf_reader.cc:2137-2139`); `header.size` has 16 bits. More than 20 bytes of build ID overwrite what follows: `none`.
A name that begins with NUL fails the `CHECK_GT`. -/
def buildIdEvent (b : BuildId) : Option Bytes :=
  let size := 36 + padded b.filename.length
  if b.hash.length > 20 then none
  else if b.filename ≠ [] ∧ cStr b.filename = [] then none
  else
    let name := cStr b.filename
    some ((toLE 4 67 ++ toLE 2 b.misc ++ toLE 2 size ++ toLE 4 b.pid ++ b.hash ++ List.replicate (20 - b.hash.length) 0 ++
      toLE 1 (if b.misc.testBit 15 then b.size.getD 0 else 0) ++ [0, 0, 0] ++
      name ++ List.replicate (padded b.filename.length - name.length) 0).take (size % 2 ^ 16))

/-- `WriteBuildIDMetadata`, `perf_reader.cc:2128-2143`. -/
def writeBuildIds (l : List BuildId) : W Unit :=
  each (fun b => match buildIdEvent b with
    | none => wabort
    | some d => wdata d) l

/-- `WriteRepeatedStringMetadata`, `perf_reader.cc:2150-2162`. -/
def writeCmdline (l : List Bytes) : W Unit := do
  wdata (toLE 4 l.length)
  each wstr l

/-- `WriteUint32Metadata`, `WriteUint64Metadata`, `perf_reader.cc:2164-2192`: the first entry of the type. -/
def writeWords (n type : Nat) (l : List (Nat × List Nat)) : W Unit :=
  match l.find? (fun m => m.1 == type) with
  | some (_, v) => wdata (v.map (toLE n)).flatten
  | none => wfail

/-- The memory of a `perf_event_attr`, `kernel/perf_event.h:307-407`. -/
def attrMemory (a : EventAttr) : Bytes :=
  toLE 4 a.type ++ toLE 4 a.size ++ toLE 8 a.config ++ toLE 8 a.samplePeriod ++ toLE 8 a.sampleType ++
    toLE 8 a.readFormat ++ toLE 8 a.flags ++ toLE 4 a.wakeup ++ toLE 4 a.bpType ++ toLE 8 a.bpAddr ++ toLE 8 a.bpLen ++
    toLE 8 a.branchSampleType ++ toLE 8 a.sampleRegsUser ++ toLE 4 a.sampleStackUser ++ toLE 4 a.reserved2

/-- The loop of `WriteEventDescMetadata`, `perf_reader.cc:2194-2240`, with `DeserializePerfEventType`,
`perf_serializer.cc:304-317`. -/
def writeEventDescs : List ProtoFileAttr → List (Nat × Bytes) → W Unit
  | [], _ => pure ()
  | _ :: _, [] => wabort
  | f :: fs, (id, name) :: ts => do
    let a := deserializeFileAttr f
    if a.attr.config ≠ id then wfail
    else do
      wdata (attrMemory a.attr)
      wdata (toLE 4 a.ids.length)
      wstr name
      wdata (a.ids.map (toLE 8)).flatten
      writeEventDescs fs ts

/-- `WriteEventDescMetadata`, `perf_reader.cc:2194-2240`. -/
def writeEventDesc (i : Info) : W Unit :=
  if i.attrs.length > i.eventTypes.length then wfail
  else do
    wdata (toLE 4 i.attrs.length)
    wdata (toLE 4 96)
    writeEventDescs i.attrs i.eventTypes

/-- `WriteCPUTopologyMetadata`, `perf_reader.cc:2242-2272`. -/
def writeTopology (t : Topology) : W Unit := do
  wdata (toLE 4 t.cores.length)
  each wstr t.cores
  wdata (toLE 4 t.threads.length)
  each wstr t.threads
  each (fun c => do wdata (toLE 4 c.1); wdata (toLE 4 c.2)) t.cpus

/-- `WriteNUMATopologyMetadata`, `perf_reader.cc:2274-2293`. -/
def writeNuma (l : List Node) : W Unit := do
  wdata (toLE 4 l.length)
  each (fun n => do wdata (toLE 4 n.id); wdata (toLE 8 n.total); wdata (toLE 8 n.free); wstr n.cpus) l

/-- `WritePMUMappingsMetadata`, `perf_reader.cc:2295-2312`. -/
def writePmus (l : List (Nat × Bytes)) : W Unit := do
  wdata (toLE 4 l.length)
  each (fun m => do wdata (toLE 4 m.1); wstr m.2) l

/-- `WriteGroupDescMetadata`, `perf_reader.cc:2314-2332`. -/
def writeGroups (l : List Group) : W Unit := do
  wdata (toLE 4 l.length)
  each (fun g => do wstr g.name; wdata (toLE 4 g.leader); wdata (toLE 4 g.members)) l

/-- The text written for the CPUs, `perf_reader.cc:2343-2348`. -/
def Hybrid.text (h : Hybrid) : Bytes :=
  if h.cpus.getD [] ≠ [] then h.cpus.getD [] else formatCPUNumbers h.cpuList

/-- `WriteHybridTopologyMetadata`, `perf_reader.cc:2334-2351`. -/
def writeHybrids (l : List Hybrid) : W Unit := do
  wdata (toLE 4 l.length)
  each (fun h => do wstr h.pmu; wstr h.text) l

/-- The `switch` of `WriteMetadata`, `perf_reader.cc:2009-2126`. -/
def writeFeature (i : Info) (type : Nat) : W Unit :=
  match type with
  | 1 => wdata i.tracing
  | 2 => writeBuildIds i.buildIds
  | 3 => wstr (i.hostname.getD [])
  | 4 => wstr (i.osrelease.getD [])
  | 5 => wstr (i.version.getD [])
  | 6 => wstr (i.arch.getD [])
  | 7 => writeWords 4 7 i.uint32s
  | 8 => wstr (i.cpudesc.getD [])
  | 9 => wstr (i.cpuid.getD [])
  | 10 => writeWords 8 10 i.uint64s
  | 11 => writeCmdline i.cmdTokens
  | 12 => writeEventDesc i
  | 13 => writeTopology i.topology
  | 14 => writeNuma i.numa
  | 15 => pure ()
  | 16 => writePmus i.pmus
  | 17 => writeGroups i.groups
  | 30 => writeHybrids i.hybrids
  | _ => wfail

/-- The loop of `WriteMetadata`, `perf_reader.cc:2009-2126`: the sections written; `feats` is `adds_features[0]`. -/
def writeFeatures (i : Info) (feats : Nat) : List Nat → W (List (Nat × Nat))
  | [] => pure []
  | type :: types =>
    if feats.testBit type then do
      let off ← wtell
      writeFeature i type
      let now ← wtell
      let l ← writeFeatures i feats types
      pure ((off, (now + 2 ^ 64 - off) % 2 ^ 64) :: l)
    else writeFeatures i feats types

/-- `WriteMetadata`, `perf_reader.cc:2009-2126`; `dataEnd` is `header.data.offset + header.data.size`. A failing `CHECK_EQ`
is `wabort`. -/
def writeMetadata (i : Info) (feats dataEnd : Nat) : W Unit := do
  let pos ← wtell
  if pos ≠ dataEnd then wabort
  else do
    let num := numBits (i.mask &&& supported)
    wseek (addSz dataEnd (num * 16))
    let sections ← writeFeatures i feats featureTypes
    if num ≠ sections.length then wabort
    else do
      let old ← wtell
      wseek dataEnd
      wdata (sections.flatMap (fun s => toLE 8 s.1 ++ toLE 8 s.2))
      let pos ← wtell
      if pos ≠ addSz dataEnd (num * 16) then wabort
      else wseek old

/-! ## Sizes -/

/-- `ExpectedStorageSizeOf`, `perf_reader.cc:158-160`. -/
def storageSize (s : Bytes) : Nat := 4 + padded s.length

/-- `GetEventDescMetadataSize`, `perf_reader.cc:2443-2462`. -/
def eventDescSize (i : Info) : Nat :=
  if i.attrs.length > i.eventTypes.length then 0
  else if i.mask.testBit 12 then
    8 + ((i.attrs.zip i.eventTypes).map (fun x => 96 + 4 + storageSize x.2.2 + x.1.ids.length * 8)).sum
  else 0

/-- `GetBuildIDMetadataSize`, `perf_reader.cc:2464-2471`. -/
def buildIdSize (i : Info) : Nat := (i.buildIds.map (fun b => 36 + padded b.filename.length)).sum

def optSize : Option Bytes → Nat
  | none => 0
  | some s => storageSize s

/-- `GetStringMetadataSize`, `perf_reader.cc:2473-2494`. -/
def stringSize (i : Info) : Nat :=
  optSize i.hostname + optSize i.osrelease + optSize i.version + optSize i.arch + optSize i.cpudesc + optSize i.cpuid +
    (if i.cmdTokens ≠ [] then 4 + (i.cmdTokens.map storageSize).sum else 0)

/-- `GetUint32MetadataSize`, `GetUint64MetadataSize`, `perf_reader.cc:2496-2508`. -/
def wordsSize (n : Nat) (l : List (Nat × List Nat)) : Nat := (l.map (fun m => m.2.length * n)).sum

/-- `GetCPUTopologyMetadataSize`, `perf_reader.cc:2510-2526`. -/
def topologySize (t : Topology) : Nat :=
  4 + (t.cores.map storageSize).sum + 4 + (t.threads.map storageSize).sum + t.cpus.length * 2 * 4

/-- `GetNUMATopologyMetadataSize`, `perf_reader.cc:2528-2536`. -/
def numaSize (l : List Node) : Nat := 4 + (l.map (fun n => 4 + (8 + 8) + storageSize n.cpus)).sum

/-- `GetPMUMappingsMetadataSize`, `perf_reader.cc:2538-2545`. -/
def pmusSize (l : List (Nat × Bytes)) : Nat := 4 + (l.map (fun m => 4 + storageSize m.2)).sum

/-- `GetGroupDescMetadataSize`, `perf_reader.cc:2547-2555`. -/
def groupsSize (l : List Group) : Nat := 4 + (l.map (fun g => storageSize g.name + 4 + 4)).sum

/-- `GetHybridTopologyMetadataSize`, `perf_reader.cc:2557-2569`. -/
def hybridsSize (l : List Hybrid) : Nat :=
  4 + (l.map (fun h => storageSize h.pmu + storageSize (match h.cpus with
    | some c => c
    | none => formatCPUNumbers h.cpuList))).sum

/-- The sizes of metadata that `GetSize` adds up, `perf_reader.cc:585-599`. -/
def metadataSize (i : Info) : Nat :=
  numBits (i.mask &&& supported) * 16 + i.tracing.length + buildIdSize i + stringSize i + wordsSize 4 i.uint32s +
    wordsSize 8 i.uint64s + eventDescSize i + topologySize i.topology + numaSize i.numa + pmusSize i.pmus +
    groupsSize i.groups + hybridsSize i.hybrids

end Verif.Meta
