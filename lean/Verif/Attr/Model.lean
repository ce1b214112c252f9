import Verif.Sample.Model

/-!
# Model of event attributes and of the choice of an event's attribute

`/repo/src/quipper/perf_reader.cc:88-103,929-1000` (reading attributes),
`/repo/src/quipper/perf_serializer.cc:97-110,155-293,1611-1762` (attributes as messages, the table of
sample readers), `struct perf_event_attr` of `/repo/src/quipper/kernel/perf_event.h`.

The bit fields of an attribute are its 64-bit word `flags`; on the modelled little-endian host the field
declared first is bit 0. Log messages are not modelled.
-/

namespace Verif.Attr
open Verif.Buffer Verif.Event Verif.Sample

/-- `struct perf_event_attr`, `kernel/perf_event.h:307-407`, 96 bytes. `wakeup` is the union of
`wakeup_events` and `wakeup_watermark`, `samplePeriod` that of `sample_period` and `sample_freq`, `bpAddr`
and `bpLen` those with `config1` and `config2`. -/
structure EventAttr where
  type : Nat := 0
  size : Nat := 0
  config : Nat := 0
  samplePeriod : Nat := 0
  sampleType : Nat := 0
  readFormat : Nat := 0
  flags : Nat := 0
  wakeup : Nat := 0
  bpType : Nat := 0
  bpAddr : Nat := 0
  bpLen : Nat := 0
  branchSampleType : Nat := 0
  sampleRegsUser : Nat := 0
  sampleStackUser : Nat := 0
  reserved2 : Nat := 0
deriving DecidableEq, Repr

/-- The members that `SampleInfoReader` looks at. -/
def EventAttr.sample (a : EventAttr) : Sample.Attr :=
  ⟨a.sampleType, a.readFormat, a.branchSampleType, a.flags.testBit 18⟩

/-! ## Reading an attribute -/

/-- The member of `n` bytes at offset `off` of the memory behind `type` and `size`; bytes that were not read
are zero. -/
def member (d : List UInt8) (off n : Nat) : Nat := leNat ((d.drop (off - 8)).take n)

/-- The members after `type` and `size` (`kernel/perf_event.h:319-407`). -/
def ofMemory (type size : Nat) (d : List UInt8) : EventAttr :=
  { type := type, size := size, config := member d 8 8, samplePeriod := member d 16 8
    sampleType := member d 24 8, readFormat := member d 32 8, flags := member d 40 8
    wakeup := member d 48 4, bpType := member d 52 4, bpAddr := member d 56 8, bpLen := member d 64 8
    branchSampleType := member d 72 8, sampleRegsUser := member d 80 8
    sampleStackUser := member d 88 4, reserved2 := member d 92 4 }

/-- `SwapBitfieldOfBits` of the flag word, then `precise_ip` (bits 15 and 16) swapped back,
`perf_reader.cc:978-983`. -/
def swapFlags (flags : Nat) : Nat :=
  let f := leNat (Util.swapBitfieldOfBits (toLE 8 flags))
  let tmp := f / 2 ^ 15 % 4
  f - tmp * 2 ^ 15 + ((tmp &&& 2) >>> 1 ||| (tmp &&& 1) <<< 1) * 2 ^ 15

/-- The conversion of a foreign attribute, `perf_reader.cc:965-992`. `type` and `size` are swapped here
although `ReadUint32` has already done so; `__reserved_2` is not swapped. -/
def EventAttr.swap (a : EventAttr) : EventAttr :=
  { a with
    type := Util.bswap32 a.type, size := Util.bswap32 a.size, config := Util.bswap64 a.config
    samplePeriod := Util.bswap64 a.samplePeriod, sampleType := Util.bswap64 a.sampleType
    readFormat := Util.bswap64 a.readFormat, flags := swapFlags a.flags
    wakeup := Util.bswap32 a.wakeup, bpType := Util.bswap32 a.bpType, bpAddr := Util.bswap64 a.bpAddr
    bpLen := Util.bswap64 a.bpLen, branchSampleType := Util.bswap64 a.branchSampleType
    sampleRegsUser := Util.bswap64 a.sampleRegsUser
    sampleStackUser := Util.bswap32 a.sampleStackUser }

/-- `attr_readable_size - attr_offset`, `perf_reader.cc:955-958`. -/
def restSize (size : Nat) : Nat := (min size 96 + 2 ^ 64 - 8) % 2 ^ 64

/-- The position after the attribute, `perf_reader.cc:961`. -/
def skipTo (here size : Nat) : Nat := (here + size + 2 ^ 64 - min size 96) % 2 ^ 64

/-- `ReadEventAttr`, `perf_reader.cc:938-1000`; the subtractions and additions are those of `size_t`. -/
def readEventAttr : P EventAttr := do
  let type ← u32
  let size ← u32
  let d ← data (restSize size)
  let here ← tell
  let _ ← seek (skipTo here size)
  let cross ← isCross
  let a := ofMemory type size d
  pure { (if cross then a.swap else a) with size := 96 }

/-- `ReadUniqueIDs`, `perf_reader.cc:1002-1012`. The allocation in advance is not modelled. -/
def readUniqueIDs (num : Nat) : P (List Nat) := times u64 num

/-! ## Attributes as messages -/

/-- The message `PerfDataProto.PerfEventAttr`, `perf_data.proto`. Absent members are 0, which is what reading
them yields. `flags` holds the members that are bit fields of `perf_event_attr`, at the positions they have
there. -/
structure ProtoAttr where
  type : Nat := 0
  size : Nat := 0
  config : Nat := 0
  samplePeriod : Nat := 0
  sampleFreq : Nat := 0
  sampleType : Nat := 0
  readFormat : Nat := 0
  flags : Nat := 0
  wakeupEvents : Nat := 0
  wakeupWatermark : Nat := 0
  bpType : Nat := 0
  bpAddr : Nat := 0
  bpLen : Nat := 0
  branchSampleType : Nat := 0
  sampleRegsUser : Nat := 0
  sampleStackUser : Nat := 0
deriving DecidableEq, Repr

/-- The bit fields copied by `SerializePerfEventAttr` and `DeserializePerfEventAttr`: `disabled` (0) to
`ksymbol` (29) and `cgroup` (32). -/
def carried : Nat := 2 ^ 30 - 1 + 2 ^ 32

/-- `SerializePerfEventAttr`, `perf_serializer.cc:180-235`, into a new message. The test for `freq` comes
before `freq` is stored, so it sees the default value; the test for `watermark` comes after. -/
def serializeAttr (a : EventAttr) : ProtoAttr :=
  let p : ProtoAttr := { type := a.type, size := a.size, config := a.config }
  let p := if p.flags.testBit 10 then { p with sampleFreq := a.samplePeriod }
           else { p with samplePeriod := a.samplePeriod }
  let p := { p with sampleType := a.sampleType, readFormat := a.readFormat, flags := a.flags &&& carried }
  let p := if p.flags.testBit 14 then { p with wakeupWatermark := a.wakeup }
           else { p with wakeupEvents := a.wakeup }
  { p with
    bpType := a.bpType, bpAddr := a.bpAddr, bpLen := a.bpLen, branchSampleType := a.branchSampleType
    sampleRegsUser := a.sampleRegsUser, sampleStackUser := a.sampleStackUser }

/-- `DeserializePerfEventAttr`, `perf_serializer.cc:237-293`, with the same order of tests and stores. -/
def deserializeAttr (p : ProtoAttr) : EventAttr :=
  let a : EventAttr := { type := p.type, size := p.size, config := p.config }
  let a := if a.flags.testBit 10 then { a with samplePeriod := p.sampleFreq }
           else { a with samplePeriod := p.samplePeriod }
  let a := { a with sampleType := p.sampleType, readFormat := p.readFormat, flags := p.flags &&& carried }
  let a := if a.flags.testBit 14 then { a with wakeup := p.wakeupWatermark }
           else { a with wakeup := p.wakeupEvents }
  { a with
    bpType := p.bpType, bpAddr := p.bpAddr, bpLen := p.bpLen, branchSampleType := p.branchSampleType
    sampleRegsUser := p.sampleRegsUser, sampleStackUser := p.sampleStackUser }

/-- `PerfFileAttr`, `perf_data_structures.h:33-37`, without the name. -/
structure FileAttr where
  attr : EventAttr
  ids : List Nat
deriving DecidableEq, Repr

/-- The message `PerfFileAttr`. -/
structure ProtoFileAttr where
  attr : ProtoAttr
  ids : List Nat
deriving DecidableEq, Repr

/-- `SerializePerfFileAttr`, `perf_serializer.cc:155-166`. -/
def serializeFileAttr (f : FileAttr) : ProtoFileAttr := ⟨serializeAttr f.attr, f.ids⟩

/-- `DeserializePerfFileAttr`, `perf_serializer.cc:168-178`, into a new object. -/
def deserializeFileAttr (f : ProtoFileAttr) : FileAttr := ⟨deserializeAttr f.attr, f.ids⟩

/-! ## The table of sample readers -/

/-- A `SampleInfoReader`: its attribute and `read_cross_endian_`. -/
structure InfoReader where
  attr : EventAttr
  cross : Bool
deriving DecidableEq, Repr

/-- `sample_info_reader_map_`, `sample_event_id_pos_` and `other_event_id_pos_`,
`perf_serializer.h:330-340`. The map is ordered by id. A position is `none` when uninitialised,
`some none` when not present. -/
structure Ser where
  readers : List (Nat × InfoReader) := []
  samplePos : Option (Option Nat) := none
  otherPos : Option (Option Nat) := none
deriving DecidableEq, Repr

/-- `map[id] = r` in an ordered map. -/
def insert (id : Nat) (r : InfoReader) : List (Nat × InfoReader) → List (Nat × InfoReader)
  | [] => [(id, r)]
  | (k, x) :: l =>
    if id < k then (id, r) :: (k, x) :: l
    else if id = k then (id, r) :: l
    else (k, x) :: insert id r l

/-- `map.find(id)`. -/
def find (id : Nat) : List (Nat × InfoReader) → Option InfoReader
  | [] => none
  | (k, x) :: l => if k = id then some x else find id l

def bit (st b : Nat) : Nat := if st.testBit b then 1 else 0

/-- The positions computed at `perf_serializer.cc:1623-1643`. -/
def positions (st : Nat) : Option Nat × Option Nat :=
  if st.testBit 16 then (some 0, some 1)
  else if st.testBit 6 then
    (some (bit st 0 + bit st 1 + bit st 2 + bit st 3), some (1 + bit st 7 + bit st 9))
  else (none, none)

/-- `UpdateEventIdPositions`, `perf_serializer.cc:1621-1666`. -/
def updatePositions (s : Ser) (a : EventAttr) : Bool × Ser :=
  let new := positions a.sampleType
  match s.samplePos with
  | some p =>
    if new.1 ≠ p then (false, s)
    else match s.otherPos with
      | some q => (new.2 = q, s)
      | none => (true, { s with otherPos := some new.2 })
  | none =>
    let s := { s with samplePos := some new.1 }
    match s.otherPos with
    | some q => (new.2 = q, s)
    | none => (true, { s with otherPos := some new.2 })

/-- `CreateSampleInfoReader`, `perf_serializer.cc:1611-1619`. -/
def createReader (s : Ser) (f : FileAttr) (cross : Bool) : Bool × Ser :=
  let ids := if f.ids = [] then [0] else f.ids
  let readers := ids.foldl (fun m id => insert id ⟨f.attr, cross⟩ m) s.readers
  updatePositions { s with readers := readers } f.attr

/-- `ContainsSampleInfo`, `perf_serializer.cc:97-110`. -/
def containsSampleInfo (s : Ser) (type : Nat) : Bool :=
  if type = SAMPLE then true
  else if ¬ isSupportedEventType type then false
  else match s.readers with
    | [] => false
    | (_, r) :: _ => r.attr.flags.testBit 18

/-- `GetSampleInfoReaderForId`, `perf_serializer.cc:1735-1745`. -/
def readerForId (s : Ser) (id : Nat) : Option InfoReader :=
  if id ≠ 0 then find id s.readers
  else s.readers.head?.map (·.2)

/-- `GetSampleInfoReaderForEvent`, `perf_serializer.cc:1668-1733`. The outer `none` is `LOG(FATAL)` or an
access outside of the event, the inner one the null pointer. The id is read in native order. -/
def readerForEvent (s : Ser) (e : RawEvent) : Option (Option InfoReader) :=
  let pos := if e.type = SAMPLE then s.samplePos
             else if containsSampleInfo s e.type then s.otherPos
             else some none
  match pos with
  | none => none
  | some none => some (readerForId s 0)
  | some (some pos) =>
    match eventDataSize e with
    | none => none
    | some offset =>
      if offset = 0 then some none
      else if e.size ≤ offset then some none
      else
        let start := offset / 8
        let n := (e.size - offset) / 8
        if e.type = SAMPLE then
          if n ≤ pos then some none
          else (e.int (8 * (start + pos)) 8).map (readerForId s)
        else
          if n < pos then some none
          else (e.int (8 * (start + (n - pos))) 8).map (readerForId s)

/-- `ReadPerfSampleInfoAndType`, `perf_serializer.cc:1747-1760`: the sample and the sample type; `header`
are the bytes of the event's header in memory. -/
def readInfoAndType (s : Ser) (e : RawEvent) (header : List UInt8) (s₀ : Sample) :
    Option (Option (Sample × Nat)) :=
  match readerForEvent s e with
  | none => none
  | some none => some none
  | some (some r) =>
    match readPerfSampleInfo e header r.attr.sample r.cross s₀ with
    | none => none
    | some none => some none
    | some (some s') => some (some (s', r.attr.sampleType))

end Verif.Attr
