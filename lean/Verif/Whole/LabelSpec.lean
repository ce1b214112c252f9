import Verif.Whole.StackSpec
import Verif.Converter.Spec

/-!
# Specification: the labels of a sample

Told from the records of the recording alone. A history is a list of records, newest first.
-/

namespace Verif.Whole
open Verif.Serial (Msg Body)
open Verif.Converter (Unmixed LabelText textLabel numLabel modeTable snoopTable byBits levelLabel)

/-- Is there a mapping record of the process? -/
def hadMap (h : List Msg) (pid : Nat) : Bool :=
  h.any (fun m => match m.body with | .mmap b => b.pid == pid | _ => false)

/-- The name of a thread: that of the last comm record for it, forgotten when its process executes a program. A comm record of the main
thread tells of that if it is marked so, or if no event of the recording marks them (`marked`), or if the process has no mapping. -/
def nameAt (marked : Bool) : List Msg → Nat → Nat → Bytes
  | [], _, _ => []
  | m :: h, pid, tid =>
    match m.body with
    | .comm c =>
      if c.pid = pid then
        if c.tid = tid then Normalizer.nameOrMd5 c.comm c.commMd5
        else if c.pid = c.tid ∧ (marked = false ∨ m.misc.testBit 13 = true ∨ hadMap h c.pid = false) then []
        else nameAt marked h pid tid
      else nameAt marked h pid tid
    | _ => nameAt marked h pid tid

/-- The process that executes a program with a record, if it does: see `nameAt`. -/
def executes (marked : Bool) (h : List Msg) (m : Msg) : Option Nat :=
  match m.body with
  | .comm c => if c.pid = c.tid ∧ (marked = false ∨ m.misc.testBit 13 = true ∨ hadMap h c.pid = false) then some c.pid else none
  | _ => none

/-- The path of a cgroup: that of the first record that announced it. -/
def cgroupAt : List Msg → Nat → Option Bytes
  | [], _ => none
  | m :: h, id =>
    match m.body with
    | .cgroup c => (cgroupAt h id).or (if c.id = id then some c.path else none)
    | _ => cgroupAt h id

/-- The latency of a sample: the second weight if there is one, else the weight. -/
def weightOf (s : Serial.SampleEvent) : Nat :=
  match s.weightStruct with
  | some w => w.var2
  | none => s.weight.getD 0

/-- The labels a sample can have, by the bit of `sample_labels` that asks for it, with their contents. -/
def fieldsOf (marked : Bool) (threadTypes : List (Nat × Bytes)) (h : List Msg) (misc : Nat) (s : Serial.SampleEvent) :
    List (Nat × String × Option LabelText) :=
  [ (0, "pid", s.pid.map (fun p => .num p [])),
    (1, "tid", s.tid.map (fun t => .num t [])),
    (4, "comm", s.pid.bind (fun p => textLabel (nameAt marked h p p))),
    (2, "timestamp_ns", s.time.map (fun t => .num t [])),
    (3, "execution_mode", (modeTable.lookup (misc % 8)).map (fun x => .str (ascii x))),
    (5, "thread_type", s.tid.bind (fun t => (threadTypes.lookup t).bind textLabel)),
    (6, "thread_comm", s.pid.bind (fun p => s.tid.bind (fun t => textLabel (nameAt marked h p t)))),
    (7, "cgroup", (s.cgroup.bind (cgroupAt h)).bind textLabel),
    (8, "code_page_size", numLabel (s.codePageSize.getD 0) ""),
    (9, "data_page_size", numLabel (s.dataPageSize.getD 0) ""),
    (10, "cpu", s.cpu.map (fun n => .num n (ascii "cpu"))),
    (11, "cache_latency", numLabel ((s.weightStruct.map (·.var1)).getD 0) "cycles"),
    (12, "data_src", s.dataSrc.bind levelLabel),
    (12, "snoop_status", s.dataSrc.map (fun v => .str (byBits snoopTable v "Unknown Status"))),
    (13, "total_latency", numLabel (weightOf s) "cycles") ]

/-- The labels of a sample: those asked for that it has. -/
def recordLabels (attrs : List Attr.ProtoFileAttr) (labels : Nat) (threadTypes : List (Nat × Bytes)) (h : List Msg) (misc : Nat)
    (s : Serial.SampleEvent) : List (Bytes × LabelText) :=
  (fieldsOf (attrs.any (·.attr.flags.testBit 24)) threadTypes h misc s).filterMap
    (fun f => if labels.testBit f.1 then f.2.2.map (ascii f.2.1, ·) else none)

/-- The samples of a recording are alike: if the label for the process, the thread, the time or the CPU is asked for, no sample leaves out the
number that is zero in another one; the numbers fit the types they are shown in; and no sample is at the address at which lost samples are shown. -/
structure Alike (labels : Nat) (l : List Msg) : Prop where
  same : ∀ m ∈ l, ∀ m' ∈ l, ∀ s s', m.body = .sample s → m'.body = .sample s' →
    (labels.testBit 0 = true → Unmixed s.pid s'.pid) ∧ (labels.testBit 1 = true → Unmixed s.tid s'.tid) ∧
      (labels.testBit 2 = true → Unmixed s.time s'.time) ∧ (labels.testBit 10 = true → Unmixed s.cpu s'.cpu)
  fits : ∀ m ∈ l, ∀ s, m.body = .sample s → (∀ t, s.time = some t → t < 2 ^ 63) ∧ (∀ w, s.weight = some w → w < 2 ^ 32) ∧
    (∀ n, s.codePageSize = some n → n < 2 ^ 63) ∧ (∀ n, s.dataPageSize = some n → n < 2 ^ 63) ∧ (∀ w, s.weightStruct = some w → w.var1 < 2 ^ 63)
  apart : ∀ m ∈ l, ∀ s, m.body = .sample s → s.ip.getD 0 ≠ lostAddress

end Verif.Whole
