import Verif.Data.Model
import Verif.Names.Spec
import Verif.Buffer.Spec

/-!
# What reading the data section of a recording should do

A section is a row of records. A record starts with its type (4 bytes), bits (2 bytes) and size (2 bytes, with these 8); data of a
tracing unit follow a record that announces them, and count as part of it here. `foreign` says that the bytes of the integers are in
the opposite order.
-/

namespace Verif.Data
open Verif.Buffer Verif.Event Verif.Attr Verif.Meta Verif.Serial Verif.Names Verif.Text Verif.Util

/-- The integer of `n` bytes at offset `off` of a record. -/
def num (foreign : Bool) (c : List UInt8) (off n : Nat) : Nat := decodeInt foreign ((c.drop off).take n)

/-- The type, the bits and the size of a record. -/
def kind (foreign : Bool) (c : List UInt8) : Nat := num foreign c 0 4
def bits (foreign : Bool) (c : List UInt8) : Nat := num foreign c 4 2
def extent (foreign : Bool) (c : List UInt8) : Nat := num foreign c 6 2

/-- The types of records that are understood, `kernel/perf_event.h` and `kernel/perf_internals.h`. -/
def understood : List Nat :=
  [1, 2, 3, 4, 5, 6, 7, 9, 10, 11, 12, 13, 14, 15, 16, 17, 19, 68, 69, 70, 71, 72, 73, 75, 76, 77, 79, 84]

/-- The size of the data of a tracing unit that follow. Nothing is expected to follow if such records are not wanted. -/
def following (cfg : Cfg) (foreign : Bool) (c : List UInt8) : Nat :=
  if kind foreign c = 71 ∧ 71 ∉ cfg.skip then num foreign c 8 8 else 0

/-- A mapping of a file (type 1 or 10). -/
def Mapping (foreign : Bool) (c : List UInt8) : Prop := kind foreign c = 1 ∨ kind foreign c = 10

/-- A record that is passed over: of an unknown type, or a mapping whose source was cut off by a timeout. -/
def Passed (foreign : Bool) (c : List UInt8) : Prop :=
  kind foreign c ∉ understood ∨ Mapping foreign c ∧ (bits foreign c).testBit 12 = true

/-- A mapping of the kernel with length zero in a recording whose first attribute excludes the kernel. -/
def EmptyKernel (st : St) (foreign : Bool) (c : List UInt8) : Prop :=
  Mapping foreign c ∧ (bits foreign c).testBit 0 = true ∧ num foreign c 24 8 = 0 ∧
    ∃ a l, st.base.info.attrs = a :: l ∧ a.attr.flags.testBit 5 = true

/-- `m` is the message for the event that `c` holds: the event `e` in memory has the header of `c` and its bytes, up to the order of
the bytes of integers. -/
def Shown (cfg : Cfg) (st : St) (foreign : Bool) (c : List UInt8) (m : Msg) : Prop :=
  ∃ e : RawEvent, e.type = kind foreign c ∧ e.misc = bits foreign c ∧ e.size = extent foreign c ∧
    (foreign = false → e.payload = (c.take (extent foreign c)).drop 8) ∧
    serialize cfg.env st.base.ser e = some (some m)

/-- What the record `c` does to the state; `out` is the message that it adds. -/
structure Effect (cfg : Cfg) (foreign : Bool) (st : St) (c : List UInt8) (out : Option Msg) (st' : St) : Prop where
  /-- The record is as long as it says, and at least as long as its header. -/
  size : 8 ≤ extent foreign c ∧ c.length = extent foreign c + following cfg foreign c
  /-- Messages are only added, at the end. -/
  events : st'.events = st.events ++ out.toList
  /-- There is a message unless the record is passed over, empty, or not wanted. -/
  kept : out = none ↔ Passed foreign c ∨ EmptyKernel st foreign c ∨ kind foreign c ∈ cfg.skip
  /-- The message shows the record and has the data behind it. -/
  message : ∀ m, out = some m → ∃ m₀, Shown cfg st foreign c m₀ ∧ m = (if c.drop (extent foreign c) = [] then m₀ else
    { m₀ with body := .auxtrace { m₀.body.getAuxtrace with trace := c.drop (extent foreign c) } })
  /-- The function for samples is called with every sample, wanted as an event or not, and with nothing else. -/
  called : if cfg.callback = true ∧ kind foreign c = 9 then
      ∃ m s, Shown cfg st foreign c m ∧ m.body = .sample s ∧ st'.reported = st.reported ++ [s]
    else st'.reported = st.reported
  /-- A build ID in a mapping is noted once for each name. -/
  ids : (st'.base.info.buildIds = st.base.info.buildIds ∧ st'.named = st.named) ∨
    kind foreign c = 10 ∧ (bits foreign c).testBit 14 = true ∧ cStr (c.drop 72) ∉ st.named ∧
      st'.named = st.named ++ [cStr (c.drop 72)] ∧
      ∃ b, st'.base.info.buildIds = st.base.info.buildIds ++ [b] ∧ b.filename = cStr (c.drop 72) ∧
        b.misc = bits foreign c ∧ num foreign c 40 1 ≤ 20 ∧
        buildIdText b.hash = buildIdText ((c.drop 44).take (num foreign c 40 1))
  /-- None is left out. -/
  noted : kind foreign c = 10 → (bits foreign c).testBit 14 = true → ¬ Passed foreign c → ¬ EmptyKernel st foreign c →
    cStr (c.drop 72) ∈ st'.named
  /-- Nothing else changes. -/
  rest : { st'.base with info := { st'.base.info with buildIds := st.base.info.buildIds } } = st.base

/-- Records one after the other, with the message that each adds. -/
inductive Chain (cfg : Cfg) (foreign : Bool) : St → List (List UInt8 × Option Msg) → St → Prop
  | nil (st : St) : Chain cfg foreign st [] st
  | cons {st st₁ st₂ : St} {c : List UInt8} {out : Option Msg} {l : List (List UInt8 × Option Msg)} :
    Effect cfg foreign st c out st₁ → Chain cfg foreign st₁ l st₂ → Chain cfg foreign st ((c, out) :: l) st₂

end Verif.Data
