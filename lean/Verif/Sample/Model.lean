import Verif.Event.Model

/-!
# Model of `SampleInfoReader`

`/repo/src/quipper/sample_info_reader.{h,cc}`, with `perf_sample` of
`/repo/src/quipper/kernel/perf_internals.h:270-392`.

Undefined behaviour and aborts (`CHECK`, `LOG(FATAL)`) are the outcome `none`; so is, when reading, an
allocation of more list entries than the event could hold, and when writing, a store outside of the
event. The host is little-endian. Memory leaks and log messages are not modelled.
-/

namespace Verif.Sample
open Verif.Buffer Verif.Event

/-- The members of `struct perf_event_attr` that matter here (`kernel/perf_event.h`). -/
structure Attr where
  sampleType : Nat := 0
  readFormat : Nat := 0
  branchSampleType : Nat := 0
  sampleIdAll : Bool := false
deriving DecidableEq, Repr

/-- `sample_read_value`, `kernel/perf_internals.h:270-274`. -/
structure ReadValue where
  value : Nat := 0
  id : Nat := 0
  lost : Nat := 0
deriving DecidableEq, Repr

/-- `branch_entry` and `branch_flags`, `kernel/perf_internals.h:298-313`; `flags` is the 64-bit word with the bit fields. -/
structure BranchEntry where
  fromIp : Nat := 0
  toIp : Nat := 0
  flags : Nat := 0
deriving DecidableEq, Repr

/-- `branch_stack`, `kernel/perf_internals.h:315-319`. -/
structure BranchStack where
  hwIdx : Nat := 0
  entries : List BranchEntry := []
deriving DecidableEq, Repr

/-- `perf_sample` and `sample_read`, `kernel/perf_internals.h:276-291,321-392`. Pointers to counted lists are `Option`s of lists;
`raw_size` is the length of `raw`; the members nothing reads or writes are left out. -/
structure Sample where
  ip : Nat := 0
  pid : Nat := 0
  tid : Nat := 0
  time : Nat := 0
  addr : Nat := 0
  id : Nat := 0
  streamId : Nat := 0
  period : Nat := 0
  weight : Nat := 0
  transaction : Nat := 0
  cpu : Nat := 0
  raw : List UInt8 := []
  dataSrc : Nat := 0
  noHwIdx : Bool := false
  callchain : Option (List Nat) := none
  branchStack : Option BranchStack := none
  timeEnabled : Nat := 0
  timeRunning : Nat := 0
  one : ReadValue := {}
  group : Option (List ReadValue) := none
  physAddr : Nat := 0
  cgroup : Nat := 0
  dataPageSize : Nat := 0
  codePageSize : Nat := 0
deriving DecidableEq, Repr

/-! ## Reading -/

/-- Code that reads through a `DataReader` and may return `false` (inner `none`). -/
def P (α : Type) := Reader → Option (Option α × Reader)

def P.bind {α β : Type} (p : P α) (f : α → P β) : P β := fun r =>
  match p r with
  | none => none
  | some (none, r') => some (none, r')
  | some (some a, r') => f a r'

instance : Monad P where
  pure a := fun r => some (some a, r)
  bind := P.bind

/-- `return false`. -/
def fail {α : Type} : P α := fun r => some (none, r)
/-- Abort. -/
def abort {α : Type} : P α := fun _ => none
/-- `DataReader::ReadUint16`, `ReadUint32`, `ReadUint64`, `data_reader.h:42-50` (see `Reader.readInt`). -/
def u16 : P Nat := fun r => r.readInt 2
def u32 : P Nat := fun r => r.readInt 4
def u64 : P Nat := fun r => r.readInt 8
/-- `ReadData`. -/
def data (n : Nat) : P (List UInt8) := fun r => r.readData n
def tell : P Nat := fun r => some (some r.off, r)
def seek (o : Nat) : P Unit := fun r =>
  let x := r.seekSet o
  some (if x.1 then some () else none, x.2)
def isCross : P Bool := fun r => some (some r.cross, r)

/-- A conditional read that leaves `d` in place otherwise. -/
def opt {α : Type} (c : Bool) (p : P α) (d : α) : P α := if c then p else pure d

/-- `for (i = 0; i < n; ++i)` around a read. -/
def times {α : Type} (p : P α) : Nat → P (List α)
  | 0 => pure []
  | n + 1 => do
    let a ← p
    let l ← times p n
    pure (a :: l)

/-- The check of a count against the bytes left, `(reader->size() - reader->Tell()) / entry`, and the
allocation of the list; allocating more entries than the event has bytes for is `none`. -/
def guardAlloc {α : Type} (num entry : Nat) (p : P α) : P α := fun r =>
  if num > (r.size + 2 ^ 64 - r.off) % 2 ^ 64 / entry then some (none, r)
  else if num * entry > r.size then none
  else p r

/-- `ReadReadInfo`, `sample_info_reader.cc:25-47`. -/
def readReadInfo (rf : Nat) (s : Sample) : P Sample := do
  let value ← u64
  let te ← opt (rf.testBit 0) u64 s.timeEnabled
  let tr ← opt (rf.testBit 1) u64 s.timeRunning
  let id ← opt (rf.testBit 2) u64 s.one.id
  let lost ← opt (rf.testBit 4) u64 s.one.lost
  pure { s with timeEnabled := te, timeRunning := tr, one := ⟨value, id, lost⟩ }

/-- One value of a group, `sample_info_reader.cc:93-102`; members that are not read are indeterminate in
the code and zero here. -/
def readGroupValue (rf : Nat) : P ReadValue := do
  let value ← u64
  let id ← opt (rf.testBit 2) u64 0
  let lost ← opt (rf.testBit 4) u64 0
  pure ⟨value, id, lost⟩

/-- `ReadGroupReadInfo`, `sample_info_reader.cc:52-107`. -/
def readGroupReadInfo (rf : Nat) (s : Sample) : P Sample := do
  let num ← u64
  let te ← opt (rf.testBit 0) u64 s.timeEnabled
  let tr ← opt (rf.testBit 1) u64 s.timeRunning
  if s.group ≠ none then abort else
  let entry := 8 + (if rf.testBit 2 then 8 else 0) + (if rf.testBit 4 then 8 else 0)
  guardAlloc num entry (do
    let values ← times (readGroupValue rf) num
    pure { s with timeEnabled := te, timeRunning := tr, group := some values })

/-- `ReadCallchain`, `sample_info_reader.cc:112-147`. -/
def readCallchain (s : Sample) : P Sample :=
  if s.callchain ≠ none then abort else do
    let nr ← u64
    guardAlloc nr 8 (do
      let ips ← times u64 nr
      pure { s with callchain := some ips })

/-- `ReadRawData`, `sample_info_reader.cc:152-177`. -/
def readRawData (s : Sample) : P Sample := do
  let off ← tell
  let size ← u32
  guardAlloc size 1 (do
    let d ← data size
    let _ ← seek (addSz off (Util.align 3 (addSz 4 size)))
    pure { s with raw := d })

/-- One branch entry, `sample_info_reader.cc:222-233`. -/
def readBranchEntry : P BranchEntry := do
  let f ← u64
  let t ← u64
  let flags ← data 8
  let cross ← isCross
  if cross then fail else pure ⟨f, t, leNat flags⟩

/-- `ReadBranchStack`, `sample_info_reader.cc:182-236`. -/
def readBranchStack (s : Sample) : P Sample :=
  if s.branchStack ≠ none then abort else do
    let nr ← u64
    let hw ← opt (!s.noHwIdx) u64 0
    guardAlloc nr 24 (do
      let es ← times readBranchEntry nr
      pure { s with branchStack := some ⟨hw, es⟩ })

/-- `PERF_SAMPLE_TID | PERF_SAMPLE_TIME | PERF_SAMPLE_ID | PERF_SAMPLE_STREAM_ID | PERF_SAMPLE_CPU |
PERF_SAMPLE_IDENTIFIER`. -/
def sampleIdMask : Nat := 2 ||| 4 ||| 64 ||| 512 ||| 128 ||| 65536

/-- `GetSampleFieldsForEventType`, `sample_info_reader.cc:913-944`. -/
def fieldsFor (type sampleType : Nat) : Option Nat :=
  if type = MMAP ∨ type = LOST ∨ type = COMM ∨ type = EXIT ∨ type = THROTTLE ∨ type = UNTHROTTLE ∨
      type = FORK ∨ type = MMAP2 ∨ type = KSYMBOL ∨ type = BPF_METADATA ∨ type = AUX ∨
      type = ITRACE_START ∨ type = LOST_SAMPLES ∨ type = SWITCH ∨ type = SWITCH_CPU_WIDE ∨
      type = NAMESPACES ∨ type = CGROUP then
    some (sampleType &&& sampleIdMask)
  else if type = SAMPLE then some (sampleType &&& (2 ^ 64 - 1))
  else none

/-- The weight fields, `sample_info_reader.cc:444-465`; `weight.full` is the little-endian word of the
three parts. -/
def readWeight (f old : Nat) : P Nat :=
  if f.testBit 14 && f.testBit 24 then fail
  else if f.testBit 14 then u64
  else if f.testBit 24 then do
    let cross ← isCross
    if cross then fail else
    let a ← u32
    let b ← u16
    let c ← u16
    pure (a + 2 ^ 32 * b + 2 ^ 48 * c)
  else pure old

/-- The fields in the order they are read, `sample_info_reader.cc:268-520`, for the field mask `f`. A bit
test `f & PERF_SAMPLE_X` is `f.testBit n` with `PERF_SAMPLE_X = 1 << n`. In the last check
`PERF_SAMPLE_MAX` promotes to `int`, as the C++ standard has it, so the mask covers bits 25 to 63 (a
compiler that promotes it to `unsigned` would only look at bits 25 to 31). -/
def readFields (a : Attr) (isSample : Bool) (f : Nat) (s : Sample) : P Sample := do
  let id1 ← opt (isSample && f.testBit 16) u64 s.id
  let ip ← opt (f.testBit 0) u64 s.ip
  let pid ← opt (f.testBit 1) u32 s.pid
  let tid ← opt (f.testBit 1) u32 s.tid
  let time ← opt (f.testBit 2) u64 s.time
  let addr ← opt (f.testBit 3) u64 s.addr
  let id2 ← opt (f.testBit 6) u64 id1
  let streamId ← opt (f.testBit 9) u64 s.streamId
  let cpu ← opt (f.testBit 7) u32 s.cpu
  let _ ← opt (f.testBit 7) u32 0
  let id3 ← opt (!isSample && f.testBit 16) u64 id2
  let period ← opt (f.testBit 8) u64 s.period
  let s := { s with ip := ip, pid := pid, tid := tid, time := time, addr := addr, id := id3,
                    streamId := streamId, cpu := cpu, period := period }
  let s ← opt (f.testBit 4)
    (if a.readFormat.testBit 3 then readGroupReadInfo a.readFormat s else readReadInfo a.readFormat s) s
  let s ← opt (f.testBit 5) (readCallchain s) s
  let s ← opt (f.testBit 10) (readRawData s) s
  let s ← opt (f.testBit 11)
    (readBranchStack { s with noHwIdx := !a.branchSampleType.testBit 17 }) s
  if f.testBit 12 then fail else
  if f.testBit 13 then fail else
  let weight ← readWeight f s.weight
  let dataSrc ← opt (f.testBit 15) u64 s.dataSrc
  let transaction ← opt (f.testBit 17) u64 s.transaction
  if f.testBit 18 then fail else
  let physAddr ← opt (f.testBit 19) u64 s.physAddr
  let cgroup ← opt (f.testBit 21) u64 s.cgroup
  let dps ← opt (f.testBit 22) u64 s.dataPageSize
  let cps ← opt (f.testBit 23) u64 s.codePageSize
  if f >>> 25 ≠ 0 then fail else
  pure { s with weight := weight, dataSrc := dataSrc, transaction := transaction,
                physAddr := physAddr, cgroup := cgroup, dataPageSize := dps, codePageSize := cps }

/-- `ReadPerfSampleFromData`, `sample_info_reader.cc:246-524`: the sample and the bytes read or skipped. -/
def readPerfSampleFromData (e : RawEvent) (header : List UInt8) (a : Attr) (cross : Bool) (s : Sample) :
    Option (Option (Sample × Nat)) :=
  match eventDataSize e with
  | none => none
  | some sk =>
    if sk = 0 then some none
    else
      let r := (Reader.new (header ++ e.payload) cross).seekSet sk
      if ¬ r.1 then some none
      else if ¬ (e.type = SAMPLE ∨ a.sampleIdAll) then some (some (s, r.2.off))
      else match fieldsFor e.type a.sampleType with
        | none => none
        | some f =>
          match readFields a (e.type = SAMPLE) f s r.2 with
          | none => none
          | some (none, _) => some none
          | some (some s', r') => some (some (s', r'.off))

/-- `IsSupportedEventType`, `sample_info_reader.cc:826-849`. -/
def isSupportedEventType (type : Nat) : Bool :=
  type = SAMPLE ∨ type = MMAP ∨ type = MMAP2 ∨ type = KSYMBOL ∨ type = BPF_METADATA ∨ type = FORK ∨
  type = EXIT ∨ type = COMM ∨ type = LOST ∨ type = THROTTLE ∨ type = UNTHROTTLE ∨ type = AUX ∨
  type = ITRACE_START ∨ type = LOST_SAMPLES ∨ type = SWITCH ∨ type = SWITCH_CPU_WIDE ∨
  type = NAMESPACES ∨ type = CGROUP

/-- `ReadPerfSampleInfo`, `sample_info_reader.cc:851-872`: the inner `none` is `false`. `header` are the
eight bytes of the event's header in memory. -/
def readPerfSampleInfo (e : RawEvent) (header : List UInt8) (a : Attr) (cross : Bool) (s : Sample) :
    Option (Option Sample) :=
  if ¬ isSupportedEventType e.type then some none
  else match readPerfSampleFromData e header a cross s with
    | none => none
    | some none => some none
    | some (some (s', n)) => if n = e.size then some (some s') else some none

/-! ## Writing -/

/-- `PerfSampleDataWriter`, `sample_info_reader.cc:526-588`: the memory written to, the position of
`array_` in it, `size_`. -/
structure W where
  mem : List UInt8
  pos : Nat
  size : Nat
deriving DecidableEq, Repr

/-- A store of bytes at the current position followed by a move of `move` bytes; when writes are skipped
only `size_` changes. -/
def store (skip : Bool) (bytes : List UInt8) (move : Nat) (w : W) : Option W :=
  if skip then some { w with size := w.size + move }
  else if w.pos + bytes.length ≤ w.mem.length then
    some ⟨w.mem.take w.pos ++ bytes ++ w.mem.drop (w.pos + bytes.length), w.pos + move, w.size + move⟩
  else none

/-- `WriteData(uint64_t)`, `sample_info_reader.cc:546-549`. -/
def w64 (skip : Bool) (v : Nat) : W → Option W := store skip (toLE 8 v) 8

/-- `WriteSizeAndData`, `sample_info_reader.cc:551-563`. A `num_bytes` that does not fit in an `int`
would move the position backwards; this is `none`. -/
def wRaw (skip : Bool) (d : List UInt8) (w : W) : Option W :=
  let n := Util.align 3 (addSz 4 (d.length % 2 ^ 32))
  if n ≥ 2 ^ 31 then none else store skip (toLE 4 d.length ++ d) n w

/-- `WriteData(uint32_t, void*)` for the flags of a branch entry, `sample_info_reader.cc:565-575`. -/
def wFlags (skip : Bool) (v : Nat) : W → Option W := store skip (toLE 8 v) 8

/-- Run `f` if `c`. -/
def wOpt (c : Bool) (f : W → Option W) (w : W) : Option W := if c then f w else some w

/-- A loop. -/
def wEach {α : Type} (f : α → W → Option W) : List α → W → Option W
  | [], w => some w
  | a :: l, w => (f a w).bind (wEach f l)

/-- The `PERF_SAMPLE_READ` part, `sample_info_reader.cc:677-700`. -/
def wRead (skip : Bool) (rf : Nat) (s : Sample) (w : W) : Option W :=
  if rf.testBit 3 then do
    let w ← w64 skip ((s.group.getD []).length) w
    let w ← wOpt (rf.testBit 0) (w64 skip s.timeEnabled) w
    let w ← wOpt (rf.testBit 1) (w64 skip s.timeRunning) w
    wEach (fun v w => do
      let w ← w64 skip v.value w
      let w ← wOpt (rf.testBit 2) (w64 skip v.id) w
      wOpt (rf.testBit 4) (w64 skip v.lost) w) (s.group.getD []) w
  else do
    let w ← w64 skip s.one.value w
    let w ← wOpt (rf.testBit 0) (w64 skip s.timeEnabled) w
    let w ← wOpt (rf.testBit 1) (w64 skip s.timeRunning) w
    let w ← wOpt (rf.testBit 2) (w64 skip s.one.id) w
    wOpt (rf.testBit 4) (w64 skip s.one.lost) w

/-- The callchain, `sample_info_reader.cc:704-714`. -/
def wCallchain (skip : Bool) (s : Sample) (w : W) : Option W := do
  let w ← w64 skip ((s.callchain.getD []).length) w
  wEach (w64 skip) (s.callchain.getD []) w

/-- The branch stack, `sample_info_reader.cc:725-741`. -/
def wBranch (skip : Bool) (s : Sample) (w : W) : Option W := do
  let b := s.branchStack.getD {}
  let w ← w64 skip b.entries.length w
  let w ← wOpt (!s.noHwIdx) (w64 skip b.hwIdx) w
  wEach (fun e w => do
    let w ← w64 skip e.fromIp w
    let w ← w64 skip e.toIp w
    wFlags skip e.flags w) b.entries w

/-- The fields in the order they are written, `sample_info_reader.cc:606-821`, for the field mask `f`. -/
def writeFields (skip : Bool) (a : Attr) (isSample : Bool) (f : Nat) (s : Sample) (w : W) : Option W := do
  let w ← wOpt (isSample && f.testBit 16) (w64 skip s.id) w
  let w ← wOpt (f.testBit 0) (w64 skip s.ip) w
  let w ← wOpt (f.testBit 1) (w64 skip (s.pid + 2 ^ 32 * s.tid)) w
  let w ← wOpt (f.testBit 2) (w64 skip s.time) w
  let w ← wOpt (f.testBit 3) (w64 skip s.addr) w
  let w ← wOpt (f.testBit 6) (w64 skip s.id) w
  let w ← wOpt (f.testBit 9) (w64 skip s.streamId) w
  let w ← wOpt (f.testBit 7) (w64 skip s.cpu) w
  let w ← wOpt (!isSample && f.testBit 16) (w64 skip s.id) w
  let w ← wOpt (f.testBit 8) (w64 skip s.period) w
  let w ← wOpt (f.testBit 4) (wRead skip a.readFormat s) w
  let w ← wOpt (f.testBit 5) (wCallchain skip s) w
  let w ← wOpt (f.testBit 10) (wRaw skip s.raw) w
  let w ← wOpt (f.testBit 11) (wBranch skip s) w
  if f.testBit 12 then return w
  if f.testBit 13 then return w
  let w ← wOpt (f.testBit 14 || f.testBit 24) (w64 skip s.weight) w
  let w ← wOpt (f.testBit 15) (w64 skip s.dataSrc) w
  let w ← wOpt (f.testBit 17) (w64 skip s.transaction) w
  if f.testBit 18 then return w
  let w ← wOpt (f.testBit 19) (w64 skip s.physAddr) w
  let w ← wOpt (f.testBit 21) (w64 skip s.cgroup) w
  let w ← wOpt (f.testBit 22) (w64 skip s.dataPageSize) w
  wOpt (f.testBit 23) (w64 skip s.codePageSize) w

/-- `PerfSampleDataWriter::Write`, `sample_info_reader.cc:590-822`: the number of bytes and the memory. -/
def writeSample (skip : Bool) (a : Attr) (type : Nat) (s : Sample) (mem : List UInt8) (pos : Nat) :
    Option (Nat × List UInt8) :=
  if ¬ (type = SAMPLE ∨ a.sampleIdAll) then some (0, mem)
  else match fieldsFor type a.sampleType with
    | none => none
    | some f =>
      match writeFields skip a (type = SAMPLE) f s ⟨mem, pos, 0⟩ with
      | none => none
      | some w => some (w.size, w.mem)

/-- `GetPerfSampleDataSize`, `sample_info_reader.cc:905-910`. -/
def sampleDataSize (a : Attr) (type : Nat) (s : Sample) : Option Nat :=
  (writeSample true a type s [] 0).map (·.1)

/-- `WritePerfSampleInfo`, `sample_info_reader.cc:874-903`, on an event whose memory is `header.size`
bytes: the verdict and the event afterwards. -/
def writePerfSampleInfo (a : Attr) (s : Sample) (e : RawEvent) : Option (Bool × RawEvent) :=
  if ¬ isSupportedEventType e.type then some (false, e)
  else match eventDataSize e with
    | none => none
    | some off =>
      if off = 0 then some (false, e)
      else match writeSample false a e.type s e.payload (off - 8) with
        | none => none
        | some (n, mem) => some (off + n = e.size, { e with payload := mem })

end Verif.Sample
