import Verif.File.Spec

/-!
# Recordings sent through a pipe, independently of the code

A pipe carries a header of 16 bytes, then records only: one for each feature, one for each attribute, one with the tracing data, one for each
build ID, and the events (`tools/perf/Documentation/perf.data-file-format.txt` of Linux). Tracing data and build IDs have records of their own,
and the feature that says that there are branch stacks is not sent.
-/

namespace Verif.File
open Verif.Buffer Verif.Event Verif.Attr Verif.Names Verif.Meta Verif.Serial

/-- A record: type, bits, size, content. -/
def pipeRecord (type misc : Nat) (body : Serial.Bytes) : Serial.Bytes :=
  Meta.image false [u32F type, u16F misc, u16F (8 + body.length)] ++ body

/-- The content of the record of a feature: its number and its section. -/
def featureBody (i : Info) (t : Nat) : Serial.Bytes := Meta.image false (u64F t :: featureFlds i t)

/-- The content of the record of an attribute: the attribute and its ids. -/
def attrBody (f : ProtoFileAttr) : Serial.Bytes := Meta.image false (attrFlds (attrOf f.attr) ++ f.ids.map u64F)

/-- The record with the tracing data; its size does not count the data. -/
def tracingRecord (i : Info) : Serial.Bytes :=
  Meta.image false [u32F 66, u16F 0, u16F 12, u32F i.tracing.length, .raw i.tracing]

/-- The features that have a record. -/
def pipeFeatures (i : Info) : List Nat := Meta.known.filter fun t => i.mask.testBit t && !([1, 2, 15].contains t)

/-- The bytes that come out of the pipe. -/
def pipeImage (x : Recording) : Serial.Bytes :=
  Meta.image false [.raw [80, 69, 82, 70, 73, 76, 69, 50], u64F 16] ++
  (pipeFeatures x.info).flatMap (fun t => pipeRecord 80 0 (featureBody x.info t)) ++
  x.info.attrs.flatMap (fun f => pipeRecord 64 0 (attrBody f)) ++
  (if x.info.mask.testBit 1 then tracingRecord x.info else []) ++
  (if x.info.mask.testBit 2 then Meta.image false (x.info.buildIds.flatMap buildIdFlds) else []) ++
  dataImage x

/-- Two attributes that are taken for the same one: `g`, which comes later, has the first id of `f`, or no id and the configuration of `f`. -/
def SameAttr (f g : ProtoFileAttr) : Prop :=
  (∃ id, f.ids.head? = some id ∧ g.ids.head? = some id) ∨ (g.ids = [] ∧ g.attr.config = f.attr.config)

/-- What a pipe asks for beyond a file: records have less than 65536 bytes, there are build IDs if their feature is there, there are no branch
stacks, and without the description of the events there is an attribute and no two are taken for the same one. -/
structure Pipeable (x : Recording) : Prop where
  features : ∀ t ∈ pipeFeatures x.info, 8 + (featureBody x.info t).length < 2 ^ 16
  attrs : ∀ f ∈ x.info.attrs, 8 + (attrBody f).length < 2 ^ 16
  tracing : x.info.mask.testBit 1 = true → x.info.tracing.length < 2 ^ 32
  buildIds : x.info.mask.testBit 2 = true → x.info.buildIds ≠ []
  branches : x.info.mask.testBit 15 = false
  different : x.info.mask.testBit 12 = false → x.info.attrs ≠ [] ∧ x.info.attrs.Pairwise (fun f g => ¬ SameAttr f g)
  size : (pipeImage x).length < 2 ^ 63

end Verif.File
