import Verif.Attr.Model
import Verif.Sample.Spec
import Verif.Event.Local

/-!
# Attributes in files, and which attribute an event belongs to, independently of the code
-/

namespace Verif.Attr
open Verif.Buffer Verif.Event Verif.Sample

/-- The structure `perf_event_attr` (`kernel/perf_event.h:307-407`) as fields; `fl` is the word of bit fields. -/
def attrLayout (a : EventAttr) (fl : Piece) : List Piece :=
  [.u32 a.type, .u32 a.size, .u64 a.config, .u64 a.samplePeriod, .u64 a.sampleType, .u64 a.readFormat, fl,
   .u32 a.wakeup, .u32 a.bpType, .u64 a.bpAddr, .u64 a.bpLen, .u64 a.branchSampleType, .u64 a.sampleRegsUser,
   .u32 a.sampleStackUser, .u32 a.reserved2]

/-- The attribute as stored in a file has `a.size` bytes: a version of the structure that is older than the
96 bytes quipper knows ends early, and what is missing is zero; a newer one has more fields behind. -/
def known (bs : List UInt8) : List UInt8 := bs.take 96 ++ List.replicate (96 - bs.length) 0

/-- How a big-endian machine stores the bit fields: from the most significant bit of the first byte on, in
the order of their declaration; only `precise_ip` (bits 15 and 16 of `flags`) has two bits, the more
significant one first. -/
def StoredBigEndian (stored : List UInt8) (flags : Nat) : Prop :=
  stored.length = 8 ∧
  ∀ i < 64, (stored.getD (i / 8) 0).toNat.testBit (7 - i % 8) =
    flags.testBit (if i = 15 then 16 else if i = 16 then 15 else i)

/-- The ids for which an attribute is registered: its own, or 0 if it has none. -/
def regIds (f : FileAttr) : List Nat := if f.ids = [] then [0] else f.ids

/-- The attribute that an id belongs to: the last one registered for it. -/
def owner (fs : List FileAttr) (id : Nat) : Option FileAttr := fs.reverse.find? (fun f => (regIds f).contains id)

/-- Register attributes one after the other; `none` if one is refused. -/
def registerAll (s : Ser) (cross : Bool) : List FileAttr → Option Ser
  | [] => some s
  | f :: fs =>
    match createReader s f cross with
    | (true, s') => registerAll s' cross fs
    | (false, _) => none

/-- Where an attribute puts the id: the number of bytes before it in the fields of a sample event (before the id come
the instruction pointer, pid and tid, time, address), and from it to the end of the fields of other events (behind it
come stream id and CPU). An identifier is always first or last. -/
def idPlace (st : Nat) : Option (Nat × Nat) :=
  if st.testBit 16 then some (0, 8)
  else if st.testBit 6 then
    some (8 * ([0, 1, 2, 3].filter st.testBit).length, 8 + 8 * ([7, 9].filter st.testBit).length)
  else none

end Verif.Attr
