import Verif.Buffer.Model

/-!
# Model of the size computations on raw perf events

`/repo/src/quipper/perf_data_utils.cc:22-48,76-85,295-381,383-602,693-720`, with the structures of
`/repo/src/quipper/kernel/perf_internals.h:104-664`.

An event in memory is its header (type, misc, size) followed by the payload; the size field is the
size of the whole event, which is what `ReadPerfEventBlock` and `CallocMemoryForEvent` allocate. Reading
memory outside of the event is the outcome `none`. Log messages are not modelled.
-/

namespace Verif.Event
open Verif.Buffer

/-- An `event_t` of `header.size = 8 + payload.length` bytes. -/
structure RawEvent where
  type : Nat
  misc : Nat := 0
  payload : List UInt8
deriving DecidableEq, Repr

/-- `header.size`. -/
def RawEvent.size (e : RawEvent) : Nat := 8 + e.payload.length

/-- The integer of `n` bytes at offset `off` of the event, in native (little-endian) order. -/
def RawEvent.int (e : RawEvent) (off n : Nat) : Option Nat :=
  if 8 ≤ off then (fetch e.payload (off - 8) n).map leNat else none

/-- `enum perf_event_type`, `kernel/perf_event.h`, and `enum perf_user_event_type`,
`kernel/perf_internals.h:414-440`. -/
abbrev MMAP := 1
abbrev LOST := 2
abbrev COMM := 3
abbrev EXIT := 4
abbrev THROTTLE := 5
abbrev UNTHROTTLE := 6
abbrev FORK := 7
abbrev READ := 8
abbrev SAMPLE := 9
abbrev MMAP2 := 10
abbrev AUX := 11
abbrev ITRACE_START := 12
abbrev LOST_SAMPLES := 13
abbrev SWITCH := 14
abbrev SWITCH_CPU_WIDE := 15
abbrev NAMESPACES := 16
abbrev KSYMBOL := 17
abbrev CGROUP := 19
abbrev FINISHED_ROUND := 68
abbrev ID_INDEX := 69
abbrev AUXTRACE_INFO := 70
abbrev AUXTRACE := 71
abbrev AUXTRACE_ERROR := 72
abbrev THREAD_MAP := 73
abbrev STAT_CONFIG := 75
abbrev STAT := 76
abbrev STAT_ROUND := 77
abbrev TIME_CONV := 79
abbrev BPF_METADATA := 84

/-- `GetEventDataFixedPayloadSize`, `perf_data_utils.cc:295-381`; the numbers are the `offsetof` and
`sizeof` values of `kernel/perf_internals.h:104-634`. -/
def fixedPayloadSize (type : Nat) : Option Nat :=
  if type = MMAP then some 40
  else if type = LOST then some 24
  else if type = COMM then some 16
  else if type = EXIT ∨ type = FORK then some 32
  else if type = THROTTLE ∨ type = UNTHROTTLE then some 32
  else if type = SAMPLE then some 8
  else if type = MMAP2 then some 72
  else if type = AUX then some 32
  else if type = ITRACE_START then some 16
  else if type = LOST_SAMPLES then some 16
  else if type = SWITCH then some 8
  else if type = SWITCH_CPU_WIDE then some 16
  else if type = NAMESPACES then some 24
  else if type = FINISHED_ROUND then some 8
  else if type = AUXTRACE_INFO then some 16
  else if type = AUXTRACE then some 48
  else if type = AUXTRACE_ERROR then some 40
  else if type = ID_INDEX then some 16
  else if type = THREAD_MAP then some 16
  else if type = STAT_CONFIG then some 16
  else if type = STAT then some 48
  else if type = STAT_ROUND then some 24
  else if type = TIME_CONV then some 32
  else if type = CGROUP then some 16
  else if type = KSYMBOL then some 24
  else if type = BPF_METADATA then some 528
  else none

/-- `strnlen(str, max)` with `str` at offset `off` of the event. The model demands that all `max` bytes
are in the event, which is more than `strnlen` touches. -/
def strnlen (e : RawEvent) (off max : Nat) : Option Nat :=
  if 8 ≤ off then (fetch e.payload (off - 8) max).map (fun l => (l.takeWhile (· ≠ 0)).length) else none

/-- `GetUint64AlignedStringLength(str, max_size, ...)`, `perf_data_utils.cc:22-48` with `GetStringLength`,
`perf_data_utils.cc:76-85`. The inner `none` is `false`. -/
def alignedString (e : RawEvent) (off max : Nat) : Option (Option Nat) :=
  match strnlen e off max with
  | none => none
  | some n =>
    if n = max then some none
    else if alignedStringLength n > max then some none
    else some (some (alignedStringLength n))

/-- The loop over thread map entries, `perf_data_utils.cc:523-530`. -/
def checkComms (e : RawEvent) : Nat → Nat → Option Bool
  | _, 0 => some true
  | i, k + 1 =>
    match alignedString e (16 + 24 * i + 8) 16 with
    | none => none
    | some none => some false
    | some (some _) => checkComms e (i + 1) k

/-- The `switch` of `GetEventDataVariablePayloadSize`, `perf_data_utils.cc:386-594`; products are
`size_t`. -/
def variableSize (e : RawEvent) (remaining : Nat) : Option (Option Nat) :=
  if e.type = MMAP then alignedString e 40 (min remaining 4096)
  else if e.type = COMM then alignedString e 16 (min remaining 4096)
  else if e.type = MMAP2 then alignedString e 72 (min remaining 4096)
  else if e.type = NAMESPACES then
    match e.int 16 8 with
    | none => none
    | some nr => if nr > remaining / 16 then some none else some (some (nr * 16 % 2 ^ 64))
  else if e.type = CGROUP then alignedString e 16 (min remaining 4096)
  else if e.type = KSYMBOL then alignedString e 24 (min remaining 512)
  else if e.type = LOST ∨ e.type = EXIT ∨ e.type = FORK ∨ e.type = THROTTLE ∨ e.type = UNTHROTTLE ∨
      e.type = SAMPLE ∨ e.type = AUX ∨ e.type = ITRACE_START ∨ e.type = LOST_SAMPLES ∨
      e.type = SWITCH ∨ e.type = SWITCH_CPU_WIDE then some (some 0)
  else if e.type = AUXTRACE_INFO then some (some remaining)
  else if e.type = AUXTRACE_ERROR then
    match alignedString e 40 (min remaining 64) with
    | none => none
    | some none => some none
    | some (some n) => if n ≠ remaining then some none else some (some n)
  else if e.type = ID_INDEX then
    match e.int 8 8 with
    | none => none
    | some nr =>
      if nr ≠ remaining / 32 then some none
      else if nr * 32 % 2 ^ 64 ≠ remaining then some none
      else some (some (nr * 32 % 2 ^ 64))
  else if e.type = THREAD_MAP then
    match e.int 8 8 with
    | none => none
    | some nr =>
      if nr ≠ remaining / 24 then some none
      else if nr * 24 % 2 ^ 64 ≠ remaining then some none
      else match checkComms e 0 nr with
        | none => none
        | some false => some none
        | some true => some (some (nr * 24 % 2 ^ 64))
  else if e.type = STAT_CONFIG then
    match e.int 8 8 with
    | none => none
    | some nr =>
      if nr ≠ remaining / 16 then some none
      else if nr * 16 % 2 ^ 64 ≠ remaining then some none
      else some (some (nr * 16 % 2 ^ 64))
  else if e.type = BPF_METADATA then
    match e.int 520 8 with
    | none => none
    | some nr =>
      if nr * 320 % 2 ^ 64 > remaining then some none else some (some (nr * 320 % 2 ^ 64))
  else if e.type = TIME_CONV then
    if remaining = 0 ∨ remaining = 24 then some (some remaining) else some none
  else if e.type = FINISHED_ROUND ∨ e.type = AUXTRACE ∨ e.type = STAT ∨ e.type = STAT_ROUND then
    if remaining ≠ 0 then some none else some (some 0)
  else some none

/-- `GetEventDataVariablePayloadSize` for raw events, `perf_data_utils.cc:383-602`. -/
def variablePayloadSize (e : RawEvent) (remaining : Nat) : Option (Option Nat) :=
  match variableSize e remaining with
  | none => none
  | some none => some none
  | some (some n) => if n % 8 ≠ 0 then some none else some (some n)

/-- `GetEventDataSize` for raw events, `perf_data_utils.cc:693-720`: zero on failure. -/
def eventDataSize (e : RawEvent) : Option Nat :=
  match fixedPayloadSize e.type with
  | none => some 0
  | some fixed =>
    if fixed > e.size then some 0
    else match variablePayloadSize e (e.size - fixed) with
      | none => none
      | some none => some 0
      | some (some n) => some (fixed + n)

end Verif.Event
