import Verif.File.PipeSpec

/-!
# Recordings of the old form, independently of the code

Before the feature that describes the events existed, the names of the events had a section of their own, with 72 bytes for each: the
configuration and 64 bytes for the name. In a pipe there was a record for each of them
(`struct perf_trace_event_type` and `PERF_RECORD_HEADER_EVENT_TYPE` of `tools/perf` of Linux 3).
-/

namespace Verif.File
open Verif.Buffer Verif.Event Verif.Attr Verif.Names Verif.Meta Verif.Serial

/-- The names together with the configurations of the attributes, in the same order. -/
def namesOf (i : Info) (names : List Serial.Bytes) : List (Nat × Serial.Bytes) :=
  (i.attrs.zip names).map fun y => (y.1.attr.config, y.2)

/-- A configuration and its name in `n` bytes. -/
def nameImage (n : Nat) (t : Nat × Serial.Bytes) : Serial.Bytes := Meta.image false [u64F t.1] ++ zeroPad n t.2

/-- The file with the section of names at its end. -/
def oldFile (x : Recording) (names : List Serial.Bytes) : Serial.Bytes :=
  fileWith ((fileImage x).length, 72 * names.length) x ++ (namesOf x.info names).flatMap (nameImage 64)

/-- The bytes that come out of the pipe, with a record with `n` bytes for the name of each event. -/
def oldPipe (n : Nat) (x : Recording) (names : List Serial.Bytes) : Serial.Bytes :=
  Meta.image false [.raw [80, 69, 82, 70, 73, 76, 69, 50], u64F 16] ++
  (pipeFeatures x.info).flatMap (fun t => pipeRecord 80 0 (featureBody x.info t)) ++
  x.info.attrs.flatMap (fun f => pipeRecord 64 0 (attrBody f)) ++
  (if x.info.mask.testBit 1 then tracingRecord x.info else []) ++
  (if x.info.mask.testBit 2 then Meta.image false (x.info.buildIds.flatMap buildIdFlds) else []) ++
  (namesOf x.info names).flatMap (fun t => pipeRecord 65 0 (nameImage n t)) ++
  dataImage x

/-- The same recording with the names in the feature that describes the events. -/
def named (x : Recording) (names : List Serial.Bytes) : Recording :=
  { x with info := { x.info with mask := x.info.mask ||| 2 ^ 12, eventTypes := namesOf x.info names } }

/-- Names for the attributes of a recording without that feature: one for each, without NUL, of at most `n` bytes. -/
structure OldNames (n : Nat) (x : Recording) (names : List Serial.Bytes) : Prop where
  old : x.info.mask.testBit 12 = false
  some : x.info.attrs ≠ []
  one : names.length = x.info.attrs.length
  few : names.length < 2 ^ 31
  text : ∀ s ∈ names, (0 : UInt8) ∉ s ∧ s.length ≤ n

end Verif.File
