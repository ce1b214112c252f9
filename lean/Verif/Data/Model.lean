import Verif.Meta.Model
import Verif.Serial.Model

/-!
# Model of reading events from the data section of a recording

`/repo/src/quipper/perf_reader.cc:222-448,1074-1251,1895-1925` and `/repo/src/quipper/perf_serializer.cc:42-82,1206-1214`,
`/repo/src/quipper/perf_serializer.h:283-285`.

Code that reads has the type `P` of the sample reader: the outer `none` is undefined behaviour, an abort or a loop without
end, the inner one `return false`. What `proto_` holds after a failure is not modelled. Memory exhaustion and log messages are
not modelled.
-/

namespace Verif.Data
open Verif.Buffer Verif.Event Verif.Sample Verif.Attr Verif.Names Verif.Text Verif.Util Verif.Meta Verif.Serial

/-- What the caller has chosen: the types of events that are not kept, `perf_reader.h:152-156`, and whether there is a function
to be called for each sample, `perf_reader.h:163-166`. `env` is what the model leaves open. -/
structure Cfg where
  env : Serial.Env
  skip : List Nat := []
  callback : Bool := false

/-- The state of a `PerfReader`: what is known beside the events, `proto_->events()`, `filenames_with_build_id_`, and the
samples that the function was called with so far. -/
structure St where
  base : Meta.St := {}
  events : List Msg := []
  named : List Serial.Bytes := []
  reported : List SampleEvent := []
deriving DecidableEq

/-- The result of code that does not read. -/
def lift {α : Type} (x : Option (Option α)) : P α := fun r =>
  match x with
  | none => none
  | some y => some (y, r)

/-- `IsSupportedKernelEventType` or `IsSupportedUserEventType`, `perf_serializer.cc:67-83`. -/
def known (type : Nat) : Bool :=
  [MMAP, LOST, COMM, EXIT, THROTTLE, UNTHROTTLE, FORK, SAMPLE, MMAP2, AUX, ITRACE_START, LOST_SAMPLES, SWITCH,
    SWITCH_CPU_WIDE, NAMESPACES, CGROUP, KSYMBOL].contains type ||
  [FINISHED_ROUND, AUXTRACE_INFO, AUXTRACE, AUXTRACE_ERROR, ID_INDEX, THREAD_MAP, STAT_CONFIG, STAT, STAT_ROUND, TIME_CONV,
    BPF_METADATA].contains type

/-- `IsProcMapTimeoutMmap`, `perf_reader.cc:222-232`. -/
def timedOut (h : Header) : Bool := (h.type == MMAP || h.type == MMAP2) && h.misc.testBit 12

/-! ## Events of foreign byte order -/

/-- `ByteSwap` of the integer of `n` bytes at offset `off` of the event. -/
def swapAt (e : RawEvent) (off n : Nat) : Option RawEvent :=
  if 8 ≤ off ∧ off + n ≤ e.size then
    some { e with payload :=
      e.payload.take (off - 8) ++ ((e.payload.drop (off - 8)).take n).reverse ++ e.payload.drop (off - 8 + n) }
  else none

/-- `ByteSwap` of one integer after the other. -/
def swapAll : List (Nat × Nat) → RawEvent → Option RawEvent
  | [], e => some e
  | (off, n) :: l, e => (swapAt e off n).bind (swapAll l)

/-- The integers swapped by `ByteSwapEventDataFixedPayloadFields`, `perf_reader.cc:235-356`: offsets and sizes; `none` for a
type that is not supported. -/
def fixedFields (e : RawEvent) : Option (List (Nat × Nat)) :=
  if e.type = MMAP then some [(8, 4), (12, 4), (16, 8), (24, 8), (32, 8)]
  else if e.type = MMAP2 then
    some ([(8, 4), (12, 4), (16, 8), (24, 8), (32, 8)] ++
      (if e.misc.testBit 14 then [] else [(40, 4), (44, 4), (48, 8), (56, 8)]) ++ [(64, 4), (68, 4)])
  else if e.type = KSYMBOL then some [(8, 8), (16, 4), (22, 2)]
  else if e.type = BPF_METADATA then some [(520, 8)]
  else if e.type = FORK ∨ e.type = EXIT then some [(8, 4), (16, 4), (12, 4), (20, 4), (24, 8)]
  else if e.type = COMM then some [(8, 4), (12, 4)]
  else if e.type = LOST then some [(8, 8), (16, 8)]
  else if e.type = THROTTLE ∨ e.type = UNTHROTTLE then some [(8, 8), (16, 8), (24, 8)]
  else if e.type = AUX then some [(8, 8), (16, 8), (24, 8)]
  else if e.type = ITRACE_START then some [(8, 4), (12, 4)]
  else if e.type = LOST_SAMPLES then some [(8, 8)]
  else if e.type = SWITCH_CPU_WIDE then some [(8, 4), (12, 4)]
  else if e.type = NAMESPACES then some [(8, 4), (12, 4), (16, 8)]
  else if e.type = AUXTRACE_INFO then some [(8, 4)]
  else if e.type = AUXTRACE then some [(8, 8), (16, 8), (24, 8), (32, 4), (36, 4), (40, 4)]
  else if e.type = ID_INDEX then some [(8, 8)]
  else if e.type = THREAD_MAP then some [(8, 8)]
  else if e.type = STAT_CONFIG then some [(8, 8)]
  else if e.type = STAT then some [(8, 8), (16, 4), (20, 4), (24, 8), (32, 8), (40, 8)]
  else if e.type = STAT_ROUND then some [(8, 8), (16, 8)]
  else if e.type = AUXTRACE_ERROR then some [(8, 4), (12, 4), (16, 4), (20, 4), (24, 4), (32, 8)]
  else if e.type = TIME_CONV then some [(8, 8), (16, 8), (24, 8)]
  else if e.type = SAMPLE ∨ e.type = SWITCH ∨ e.type = FINISHED_ROUND then some []
  else none

/-- The integers swapped by `ByteSwapEventDataVariablePayloadFields`, `perf_reader.cc:359-448`. The outer `none` is an access
outside of the event, the inner one a type that is not supported. The numbers of entries are not among the integers swapped. -/
def variableFields (e : RawEvent) : Option (Option (List (Nat × Nat))) :=
  if e.type = NAMESPACES then
    (e.int 16 8).map fun nr => some ((List.range nr).flatMap fun i => [(24 + 16 * i, 8), (24 + 16 * i + 8, 8)])
  else if e.type = AUXTRACE_INFO then
    some (some ((List.range ((e.size + 2 ^ 64 - 16) % 2 ^ 64 / 8)).map fun i => (16 + 8 * i, 8)))
  else if e.type = ID_INDEX then
    (e.int 8 8).map fun nr => some ((List.range nr).flatMap fun i =>
      [(16 + 32 * i, 8), (16 + 32 * i + 8, 8), (16 + 32 * i + 16, 8), (16 + 32 * i + 24, 8)])
  else if e.type = THREAD_MAP then
    (e.int 8 8).map fun nr => some ((List.range nr).map fun i => (16 + 24 * i, 8))
  else if e.type = STAT_CONFIG then
    (e.int 8 8).map fun nr => some ((List.range nr).flatMap fun i => [(16 + 16 * i, 8), (16 + 16 * i + 8, 8)])
  else if e.type = CGROUP then some (some [(8, 8)])
  else if e.type = TIME_CONV then some (some (if e.size = 56 then [(32, 8), (40, 8)] else []))
  else if e.type = MMAP ∨ e.type = MMAP2 ∨ e.type = KSYMBOL ∨ e.type = BPF_METADATA ∨ e.type = FORK ∨ e.type = EXIT ∨
      e.type = COMM ∨ e.type = LOST ∨ e.type = THROTTLE ∨ e.type = UNTHROTTLE ∨ e.type = SAMPLE ∨ e.type = AUX ∨
      e.type = ITRACE_START ∨ e.type = LOST_SAMPLES ∨ e.type = SWITCH ∨ e.type = SWITCH_CPU_WIDE ∨
      e.type = FINISHED_ROUND ∨ e.type = AUXTRACE ∨ e.type = STAT ∨ e.type = STAT_ROUND ∨ e.type = AUXTRACE_ERROR then
    some (some [])
  else some none

/-- `ByteSwapEventDataFixedPayloadFields`. -/
def swapFixed (e : RawEvent) : Option (Option RawEvent) :=
  match fixedFields e with
  | none => some none
  | some l => (swapAll l e).map some

/-- `ByteSwapEventDataVariablePayloadFields`. -/
def swapVariable (e : RawEvent) : Option (Option RawEvent) :=
  match variableFields e with
  | none => none
  | some none => some none
  | some (some l) => (swapAll l e).map some

/-! ## One event -/

/-- From the bytes behind the header to the event in memory, `perf_reader.cc:1149-1176`: integers in native order, and the
size of the event is the one its content asks for, unless sample information follows. -/
def decode (ser : Ser) (cross : Bool) (fixed : Nat) (e : RawEvent) : Option (Option RawEvent) :=
  match (if cross then swapFixed e else some (some e)) with
  | none => none
  | some none => some none
  | some (some e) =>
    match variablePayloadSize e (e.size - fixed) with
    | none => none
    | some none => some none
    | some (some var) =>
      match (if cross then swapVariable e else some (some e)) with
      | none => none
      | some none => some none
      | some (some e) => if ¬ containsSampleInfo ser e.type ∧ e.size ≠ fixed + var then some none else some (some e)

/-- The mapping of the kernel with no bytes that some versions of `perf` write, `perf_reader.cc:1178-1195`. `exclude_kernel` is
bit 5 of the flags. -/
def emptyKernel (st : St) (e : RawEvent) : Option Bool :=
  if e.type = MMAP ∨ e.type = MMAP2 then
    match st.base.info.attrs with
    | [] => some false
    | f :: _ =>
      if f.attr.flags.testBit 5 ∧ e.misc.testBit 0 then (e.int 24 8).map (fun len => len = 0) else some false
  else some false

/-- The build ID in a mapping, `perf_reader.cc:1197-1222`. -/
def addBuildId (cfg : Cfg) (st : St) (e : RawEvent) : Option (Option St) :=
  if e.type = MMAP2 ∧ e.misc.testBit 14 then do
    let name ← cstr e 72
    if st.named.contains name then some (some st)
    else do
      let n ← e.int 40 1
      if n > 20 then some none
      else do
        let d ← fetch e.payload 36 n
        match newEntry cfg.env.md5 (rawDataToHexString d) name e.misc with
        | none => some none
        | some b => some (some { st with
            base := { st.base with info := { st.base.info with
              buildIds := st.base.info.buildIds ++ [{ b with injected := false }] } }
            named := st.named ++ [name] })
  else some (some st)

/-- `ReadAuxtraceTraceData`, `perf_reader.cc:1895-1925`, with `SerializeAuxtraceEventTraceData`, `perf_serializer.cc:1206-1214`. -/
def readTrace (m : Msg) : P Msg := do
  let size := m.body.getAuxtrace.size
  let rem ← remaining
  if size > rem then fail
  else do
    let d ← data size
    pure (if size = 0 then m else { m with body := .auxtrace { m.body.getAuxtrace with trace := d } })

/-- The call of the function for samples, `perf_reader.cc:1246-1248`. -/
def report (cfg : Cfg) (st : St) (m : Msg) : St :=
  match m.body with
  | .sample s => if cfg.callback then { st with reported := st.reported ++ [s] } else st
  | _ => st

/-- What becomes of an event in memory, `perf_reader.cc:1178-1251`: the state, and the size of the data that were read in
addition. -/
def keep (cfg : Cfg) (st : St) (e : RawEvent) : P (St × Nat) := do
  let empty ← lift ((emptyKernel st e).map some)
  if empty then pure (st, 0)
  else do
    let st ← lift (addBuildId cfg st e)
    if cfg.skip.contains e.type then
      if e.type = SAMPLE ∧ cfg.callback then do
        let m ← lift (serialize cfg.env st.base.ser e)
        pure ({ st with reported := st.reported ++ [m.body.getSample] }, 0)
      else pure (st, 0)
    else do
      let m ← lift (serialize cfg.env st.base.ser e)
      let m' ← if m.type = AUXTRACE then readTrace m else pure m
      let more := if m.type = AUXTRACE then m'.body.getAuxtrace.size else 0
      pure (report cfg { st with events := st.events ++ [m'] } m', more)

/-- Skip the rest of an event. -/
def skipRest (st : St) (rest : Nat) : P (St × Nat) := do
  let here ← tell
  let _ ← seek (addSz here rest)
  pure (st, rest)

/-- `ReadNonHeaderEventDataWithoutHeader`, `perf_reader.cc:1098-1251`: the state, and `read_size`. -/
def readEvent (cfg : Cfg) (st : St) (h : Header) : P (St × Nat) :=
  let rest := h.size - 8
  if ¬ known h.type then skipRest st rest
  else if st.base.ser.readers = [] then fail
  else match fixedPayloadSize h.type with
    | none => fail
    | some fixed =>
      if h.size < fixed then fail
      else if timedOut h then skipRest st rest
      else do
        let d ← data rest
        let cross ← isCross
        let e ← lift (decode st.base.ser cross fixed ⟨h.type, h.misc, d⟩)
        let (st, more) ← keep cfg st e
        pure (st, addSz rest more)

/-- The loop of `ReadDataSection`, `perf_reader.cc:1074-1096`; `left` is `data_remaining_bytes`. `fuel` is at least the number of
rounds; that it is enough is proved. -/
def readEvents (cfg : Cfg) : Nat → Nat → St → P St
  | 0, left, st => if left = 0 then pure st else abort
  | fuel + 1, left, st =>
    if left = 0 then pure st
    else do
      let h ← readEventHeader
      let (st, size) ← readEvent cfg st h
      readEvents cfg fuel ((left + 2 ^ 64 - addSz 8 size) % 2 ^ 64) st

/-- `ReadDataSection`, `perf_reader.cc:1074-1096`. -/
def readDataSection (cfg : Cfg) (st : St) (offset size : Nat) : P St := fun r =>
  (do
    let _ ← seek offset
    readEvents cfg (r.size + 1) size st : P St) r

end Verif.Data
