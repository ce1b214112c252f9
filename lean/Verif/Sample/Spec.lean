import Verif.Sample.Model
import Verif.Buffer.Spec

/-!
# The sample format, independently of the code

The comment on `PERF_RECORD_SAMPLE` and `struct sample_id` of `/repo/src/quipper/kernel/perf_event.h`
(lines 624-645 and 730-812) as a list of typed pieces, and what it means that some bytes are such
a list.
-/

namespace Verif.Sample
open Verif.Buffer

/-- A field of the format. -/
inductive Piece where
  | u16 (v : Nat)
  | u32 (v : Nat)
  | u64 (v : Nat)
  | bytes (l : List UInt8)
  /-- Unused bytes, of any content. -/
  | pad (n : Nat)
deriving DecidableEq, Repr

/-- The size of a field in bytes. -/
def Piece.len : Piece → Nat
  | .u16 _ => 2
  | .u32 _ => 4
  | .u64 _ => 8
  | .bytes l => l.length
  | .pad n => n

/-- The bytes `bs` hold the field; integers are in the other byte order if `cross`. -/
def Piece.Is (cross : Bool) (bs : List UInt8) : Piece → Prop
  | .u16 v => bs.length = 2 ∧ decodeInt cross bs = v
  | .u32 v => bs.length = 4 ∧ decodeInt cross bs = v
  | .u64 v => bs.length = 8 ∧ decodeInt cross bs = v
  | .bytes l => bs = l
  | .pad n => bs.length = n

/-- The bytes `bs` hold the fields, one after the other, and nothing else. -/
def Matches (cross : Bool) : List Piece → List UInt8 → Prop
  | [], bs => bs = []
  | p :: ps, bs => ∃ a b, bs = a ++ b ∧ p.Is cross a ∧ Matches cross ps b

/-- The size of a list of fields in bytes. -/
def total (L : List Piece) : Nat := (L.map Piece.len).sum

/-- Fields that are there only if `c`. -/
def only (c : Bool) (L : List Piece) : List Piece := if c then L else []

/-- `{ u64 value; { u64 id; } && PERF_FORMAT_ID; { u64 lost; } && PERF_FORMAT_LOST }`. -/
def valueLayout (rf : Nat) (v : ReadValue) : List Piece :=
  .u64 v.value :: (only (rf.testBit 2) [.u64 v.id] ++ only (rf.testBit 4) [.u64 v.lost])

/-- `struct read_format` (`perf_event.h:266-286`): with `PERF_FORMAT_GROUP` (bit 3) a number of values, else one value. -/
def readLayout (rf : Nat) (s : Sample) : List Piece :=
  if rf.testBit 3 then
    .u64 (s.group.getD []).length :: (only (rf.testBit 0) [.u64 s.timeEnabled] ++
      (only (rf.testBit 1) [.u64 s.timeRunning] ++ (s.group.getD []).flatMap (valueLayout rf)))
  else
    .u64 s.one.value :: (only (rf.testBit 0) [.u64 s.timeEnabled] ++
      (only (rf.testBit 1) [.u64 s.timeRunning] ++
        (only (rf.testBit 2) [.u64 s.one.id] ++ only (rf.testBit 4) [.u64 s.one.lost])))

/-- `{ u64 nr; u64 ips[nr]; }`. -/
def callchainLayout (s : Sample) : List Piece :=
  .u64 (s.callchain.getD []).length :: (s.callchain.getD []).map .u64

/-- `{ u32 size; char data[size]; }`, filled up to a multiple of eight bytes. -/
def rawLayout (s : Sample) : List Piece :=
  [.u32 s.raw.length, .bytes s.raw, .pad ((8 - (4 + s.raw.length) % 8) % 8)]

/-- `{ u64 nr; { u64 hw_idx; } && PERF_SAMPLE_BRANCH_HW_INDEX; { u64 from, to, flags } lbr[nr]; }`. -/
def branchLayout (hw : Bool) (s : Sample) : List Piece :=
  .u64 (s.branchStack.getD {}).entries.length :: (only hw [.u64 (s.branchStack.getD {}).hwIdx] ++
    (s.branchStack.getD {}).entries.flatMap (fun e => [.u64 e.fromIp, .u64 e.toIp, .u64 e.flags]))

/-- Whether the field of `PERF_SAMPLE_X = 1 << b` is part of the event: sample events have all fields of
the attribute's `sample_type`, other events only TID, TIME, ID, CPU, STREAM_ID and IDENTIFIER. -/
def has (a : Attr) (isSample : Bool) (b : Nat) : Bool :=
  a.sampleType.testBit b && (isSample || [1, 2, 6, 7, 9, 16].contains b)

/-- The sample part of an event. An event other than a sample event has one only if `sample_id_all`. The id
is in the data up to twice: `p` is the IDENTIFIER field at the start of a sample event, `q` the ID field. -/
def layoutIds (p q : Piece) (a : Attr) (isSample : Bool) (s : Sample) : List Piece :=
  if isSample || a.sampleIdAll then
    let h := has a isSample
    only (isSample && h 16) [p] ++
    (only (h 0) [.u64 s.ip] ++
    (only (h 1) [.u32 s.pid] ++
    (only (h 1) [.u32 s.tid] ++
    (only (h 2) [.u64 s.time] ++
    (only (h 3) [.u64 s.addr] ++
    (only (h 6) [q] ++
    (only (h 9) [.u64 s.streamId] ++
    (only (h 7) [.u32 s.cpu] ++
    (only (h 7) [.pad 4] ++
    (only (!isSample && h 16) [.u64 s.id] ++
    (only (h 8) [.u64 s.period] ++
    (only (h 4) (readLayout a.readFormat s) ++
    (only (h 5) (callchainLayout s) ++
    (only (h 10) (rawLayout s) ++
    (only (h 11) (branchLayout (a.branchSampleType.testBit 17) s) ++
    (only (h 14) [.u64 s.weight] ++
    (only (h 24) [.u32 (s.weight % 2 ^ 32), .u16 (s.weight / 2 ^ 32 % 2 ^ 16), .u16 (s.weight / 2 ^ 48)] ++
    (only (h 15) [.u64 s.dataSrc] ++
    (only (h 17) [.u64 s.transaction] ++
    (only (h 19) [.u64 s.physAddr] ++
    (only (h 21) [.u64 s.cgroup] ++
    (only (h 22) [.u64 s.dataPageSize] ++
    only (h 23) [.u64 s.codePageSize]))))))))))))))))))))))
  else []

/-- The sample part of an event that carries `s`. -/
def layout (a : Attr) (isSample : Bool) (s : Sample) : List Piece :=
  layoutIds (.u64 s.id) (.u64 s.id) a isSample s

/-- The same, where of two ids only the later one has to be that of `s`. -/
def layoutLoose (a : Attr) (isSample : Bool) (s : Sample) : List Piece :=
  layoutIds (if has a isSample 6 then .pad 8 else .u64 s.id)
    (if !isSample && has a isSample 16 then .pad 8 else .u64 s.id) a isSample s

/-- The fields quipper knows how to handle: no registers or stack of the user (bits 12, 13, 18), not
both kinds of weight (14, 24), nothing beyond bit 24. Bit 20 (`PERF_SAMPLE_AUX`) is not refused by the
code; it has no effect on it. -/
def Supported (a : Attr) (isSample : Bool) : Prop :=
  has a isSample 12 = false ∧ has a isSample 13 = false ∧ has a isSample 18 = false ∧
  (has a isSample 14 && has a isSample 24) = false ∧ ∀ b, 25 ≤ b → has a isSample b = false

/-- Additional demand on data in the other byte order: no branch entries, no structured weight. -/
def CrossOk (a : Attr) (isSample : Bool) (s : Sample) : Prop :=
  (has a isSample 11 = true → (s.branchStack.getD {}).entries = []) ∧ has a isSample 24 = false

/-- The members are in the range of their types. -/
structure Fits (s : Sample) : Prop where
  ip : s.ip < 2 ^ 64
  pid : s.pid < 2 ^ 32
  tid : s.tid < 2 ^ 32
  time : s.time < 2 ^ 64
  addr : s.addr < 2 ^ 64
  id : s.id < 2 ^ 64
  streamId : s.streamId < 2 ^ 64
  period : s.period < 2 ^ 64
  weight : s.weight < 2 ^ 64
  transaction : s.transaction < 2 ^ 64
  cpu : s.cpu < 2 ^ 32
  raw : s.raw.length < 2 ^ 31 - 16
  dataSrc : s.dataSrc < 2 ^ 64
  callchainLen : (s.callchain.getD []).length < 2 ^ 64
  callchain : ∀ x ∈ s.callchain.getD [], x < 2 ^ 64
  hwIdx : (s.branchStack.getD {}).hwIdx < 2 ^ 64
  branchLen : (s.branchStack.getD {}).entries.length < 2 ^ 64
  branch : ∀ e ∈ (s.branchStack.getD {}).entries, e.fromIp < 2 ^ 64 ∧ e.toIp < 2 ^ 64 ∧ e.flags < 2 ^ 64
  timeEnabled : s.timeEnabled < 2 ^ 64
  timeRunning : s.timeRunning < 2 ^ 64
  one : s.one.value < 2 ^ 64 ∧ s.one.id < 2 ^ 64 ∧ s.one.lost < 2 ^ 64
  groupLen : (s.group.getD []).length < 2 ^ 64
  group : ∀ v ∈ s.group.getD [], v.value < 2 ^ 64 ∧ v.id < 2 ^ 64 ∧ v.lost < 2 ^ 64
  physAddr : s.physAddr < 2 ^ 64
  cgroup : s.cgroup < 2 ^ 64
  dataPageSize : s.dataPageSize < 2 ^ 64
  codePageSize : s.codePageSize < 2 ^ 64

/-- A group value without the members that are not in the format. -/
def ReadValue.pick (rf : Nat) (v : ReadValue) : ReadValue :=
  ⟨v.value, if rf.testBit 2 then v.id else 0, if rf.testBit 4 then v.lost else 0⟩

/-- The members that the attribute selects from `s`, all others from `s₀`. -/
def pick (a : Attr) (isSample : Bool) (s s₀ : Sample) : Sample :=
  if isSample || a.sampleIdAll then
    let h := has a isSample
    let rf := a.readFormat
    { ip := if h 0 then s.ip else s₀.ip
      pid := if h 1 then s.pid else s₀.pid
      tid := if h 1 then s.tid else s₀.tid
      time := if h 2 then s.time else s₀.time
      addr := if h 3 then s.addr else s₀.addr
      id := if h 6 || h 16 then s.id else s₀.id
      streamId := if h 9 then s.streamId else s₀.streamId
      period := if h 8 then s.period else s₀.period
      weight := if h 14 || h 24 then s.weight else s₀.weight
      transaction := if h 17 then s.transaction else s₀.transaction
      cpu := if h 7 then s.cpu else s₀.cpu
      raw := if h 10 then s.raw else s₀.raw
      dataSrc := if h 15 then s.dataSrc else s₀.dataSrc
      noHwIdx := if h 11 then !a.branchSampleType.testBit 17 else s₀.noHwIdx
      callchain := if h 5 then some (s.callchain.getD []) else s₀.callchain
      branchStack :=
        if h 11 then some ⟨if a.branchSampleType.testBit 17 then (s.branchStack.getD {}).hwIdx else 0,
          (s.branchStack.getD {}).entries⟩
        else s₀.branchStack
      timeEnabled := if h 4 && rf.testBit 0 then s.timeEnabled else s₀.timeEnabled
      timeRunning := if h 4 && rf.testBit 1 then s.timeRunning else s₀.timeRunning
      one := ⟨if h 4 && !rf.testBit 3 then s.one.value else s₀.one.value,
        if h 4 && !rf.testBit 3 && rf.testBit 2 then s.one.id else s₀.one.id,
        if h 4 && !rf.testBit 3 && rf.testBit 4 then s.one.lost else s₀.one.lost⟩
      group := if h 4 && rf.testBit 3 then some ((s.group.getD []).map (ReadValue.pick rf)) else s₀.group
      physAddr := if h 19 then s.physAddr else s₀.physAddr
      cgroup := if h 21 then s.cgroup else s₀.cgroup
      dataPageSize := if h 22 then s.dataPageSize else s₀.dataPageSize
      codePageSize := if h 23 then s.codePageSize else s₀.codePageSize }
  else s₀

/-- A sample nothing has been read into: the pointers are null. -/
def Sample.Empty (s : Sample) : Prop := s.callchain = none ∧ s.branchStack = none ∧ s.group = none

end Verif.Sample
