import Verif.Whole.StackSpec

/-!
# Specification for C135: what is shown of ARM SPE traces

Told from the records of the recording, and from the decoded traces in them (C14 says what decoding gives).
-/

namespace Verif.Whole
open Verif.Serial (Msg Body)

/-- The records of trace data; `base` is the address of the data in memory, which matters for alignment packets only. -/
def traceRecords (base : Nat) (data : Bytes) : List Spe.Record :=
  ((Spe.decodeAll (data.length + 1) { buf := data, base := base } {}).map (·.1)).getD []

/-- The process of a thread, told by the last record of the recording that names the thread. -/
def threadHome : List Msg → Nat → Option Nat
  | [], _ => none
  | m :: l, tid =>
    match m.body with
    | .fork f => (threadHome l tid).or (if f.tid = tid then some f.pid else none)
    | .comm c => (threadHome l tid).or (if c.tid = tid then some c.pid else none)
    | _ => threadHome l tid

/-- The sample that a record of a trace stands for: the thread is in its context packet, the process is the one of
the thread. Thread 0, and threads whose process is not told, are in process 0. -/
def tracedSample (t : List Msg) (r : Spe.Record) : Serial.SampleEvent :=
  { ip := some r.ip.addr, tid := some r.context.id
    pid := some (if r.context.id = 0 then 0 else (threadHome t r.context.id).getD 0) }

/-- What is sampled by a record `m` of the recording `t`: a sample record has one sample, in the mode its header
tells; trace data of ARM SPE has one for each record in it, all for the first event, in no known mode. -/
inductive Shot (attrs : List Attr.ProtoFileAttr) (base : Nat) (t : List Msg) (m : Msg) : Nat → Serial.SampleEvent → Nat → Prop
  | sample {s : Serial.SampleEvent} {k : Nat} : m.body = .sample s → owner attrs s.id = some k → Shot attrs base t m m.misc s k
  | traced {a : Serial.Auxtrace} {r : Spe.Record} : speTrace t = true → m.body = .auxtrace a → r ∈ traceRecords base a.trace →
      Shot attrs base t m 0 (tracedSample t r) 0

/-- A mapping that an address of a process is shown in after the records `part` of `t` (oldest first), the last of which
is that of a sample: that of a sample of the process with this address in its stack, the last one or one before it, between which
the process has neither mapped anything there nor executed another program. -/
def HeldAny (attrs : List Attr.ProtoFileAttr) (base : Nat) (data : Bool) (t part : List Msg) (pid a : Nat) (o : Option Serial.MMap) : Prop :=
  ∃ pre m misc s k post, part = pre ++ m :: post ∧ Shot attrs base t m misc s k ∧ s.pid.getD 0 = pid ∧
    (a, o) ∈ stackOf data pre.reverse misc s ∧ (∀ x ∈ post, mapsOver pid a x = false) ∧ ∀ x ∈ post, execOf pid x = false

end Verif.Whole
