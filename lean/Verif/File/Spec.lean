import Verif.File.Model
import Verif.Meta.Spec
import Verif.Serial.Spec

/-!
# Files with a recording, independently of the code

A file has a header of 104 bytes, the ids of all attributes, the attributes, the records, and the feature sections
(`tools/perf/Documentation/perf.data-file-format.txt` of Linux). All integers have their least significant byte first.
-/

namespace Verif.File
open Verif.Buffer Verif.Event Verif.Attr Verif.Names Verif.Meta Verif.Serial

/-- A recording: what is known beside the events, and the events, each with the attribute that it was recorded with. -/
structure Recording where
  info : Info
  events : List (FileAttr × Msg)

/-- The messages of the events. -/
def Recording.messages (x : Recording) : List Msg := x.events.map (·.2)

/-- The data of a tracing unit that a message holds. -/
def traceOf (m : Msg) : Serial.Bytes :=
  match m.body with
  | .auxtrace a => a.trace
  | _ => []

/-- The size of these data that the event announces. -/
def announced (m : Msg) : Nat :=
  match m.body with
  | .auxtrace a => a.size
  | _ => 0

/-- The message without these data. -/
def bare (m : Msg) : Msg :=
  match m.body with
  | .auxtrace a => { m with body := .auxtrace { a with trace := [] } }
  | _ => m

/-- The bytes of an event in a file: type, bits, size, the event itself, and the data of a tracing unit. -/
def record (a : Sample.Attr) (m : Msg) : Serial.Bytes :=
  Meta.image false [u32F m.type, u16F m.misc, u16F (wire a (bare m)).size] ++ (wire a (bare m)).payload ++ traceOf m

/-- The part of the information that is kept in a file: build IDs are there only if the feature is. -/
def stored (i : Info) : Info := { i with buildIds := if i.mask.testBit 2 then i.buildIds else [] }

/-- The ids of an attribute. -/
def idsImage (f : ProtoFileAttr) : Serial.Bytes := Meta.image false (f.ids.map u64F)

/-- The positions of the attributes and of the records. -/
def attrsAt (x : Recording) : Nat := 104 + (x.info.attrs.flatMap idsImage).length
def dataAt (x : Recording) : Nat := attrsAt x + 112 * x.info.attrs.length

/-- The records. -/
def dataImage (x : Recording) : Serial.Bytes := x.events.flatMap fun e => record e.1.attr.sample e.2

/-- The attributes; each is followed by the position and the size of its ids. -/
def attrsImage (x : Recording) : Serial.Bytes :=
  (x.info.attrs.zip (sectionsFrom 104 (x.info.attrs.map idsImage))).flatMap fun y =>
    Meta.image false (attrFlds (attrOf y.1.attr) ++ [u64F y.2.1, u64F y.2.2])

/-- The header: the text "PERFILE2", its own size, the size of an attribute, position and size of the attributes, of the records and of
the list of event types, and 256 bits for the features. -/
def headerWith (types : Nat × Nat) (x : Recording) : Serial.Bytes :=
  Meta.image false [.raw [80, 69, 82, 70, 73, 76, 69, 50], u64F 104, u64F 112, u64F (attrsAt x), u64F (112 * x.info.attrs.length),
    u64F (dataAt x), u64F (dataImage x).length, u64F types.1, u64F types.2, u64F x.info.mask, .raw (List.replicate 24 0)]

/-- The file with this section of event types. -/
def fileWith (types : Nat × Nat) (x : Recording) : Serial.Bytes :=
  headerWith types x ++ x.info.attrs.flatMap idsImage ++ attrsImage x ++ dataImage x ++
    metadataImage false (stored x.info) (dataAt x + (dataImage x).length)

/-- The header and the file; the list of event types is obsolete and empty. -/
def headerImage (x : Recording) : Serial.Bytes := headerWith (dataAt x, 0) x
def fileImage (x : Recording) : Serial.Bytes := fileWith (dataAt x, 0) x

/-! ## Recordings that a file can hold -/

/-- A mapping of the kernel with no bytes, in a recording whose first attribute excludes the kernel. -/
def EmptyKernelMap (i : Info) (m : Msg) : Prop :=
  (∃ p, m.body = .mmap p ∧ p.len = 0) ∧ m.misc.testBit 0 = true ∧ ∃ a l, i.attrs = a :: l ∧ a.attr.flags.testBit 5 = true

/-- A mapping whose source was cut off by a timeout. -/
def TimedOut (m : Msg) : Prop := (∃ p, m.body = .mmap p) ∧ m.misc.testBit 12 = true

/-- An event of a recording: it is one of the attribute `f` of the recording, its message is in order, it has the data of the tracing unit
that it announces, and it is not one of those that are passed over by a reader. -/
structure EventOk (env : Serial.Env) (i : Info) (f : FileAttr) (m : Msg) : Prop where
  recorded : ∃ ser, Recorded (i.attrs.map deserializeFileAttr) ser f (bare m).body
  message : MsgOk env f.attr.sample (bare m)
  trace : (traceOf m).length = announced m
  kernel : ¬ EmptyKernelMap i m
  timeout : ¬ TimedOut m

/-- A recording that a file can hold. -/
structure Complete (env : Serial.Env) (x : Recording) : Prop where
  info : Faithful env.md5 (stored x.info)
  attrs : ∀ f ∈ x.info.attrs, AttrOk f.attr ∧ ∀ id ∈ f.ids, id < 2 ^ 64
  places : ∀ f ∈ x.info.attrs, ∀ g ∈ x.info.attrs, idPlace f.attr.sampleType = idPlace g.attr.sampleType
  names : x.info.mask.testBit 12 = false → x.info.eventTypes = []
  events : ∀ e ∈ x.events, EventOk env x.info e.1 e.2
  size : (fileImage x).length < 2 ^ 62

/-! ## Build IDs of mappings -/

/-- A build ID of at most 20 bytes, without groups of four zero bytes at its end. -/
def withoutZeros (b : Serial.Bytes) : Nat → Serial.Bytes
  | 0 => []
  | k + 1 => if (b.drop (4 * k)).take 4 = [0, 0, 0, 0] then withoutZeros b k else b.take (4 * (k + 1))

/-- The build ID in a mapping. -/
def mappedId (md5 : Serial.Bytes → Nat) (m : Msg) : Option BuildId :=
  match m.body with
  | .mmap p =>
    match p.buildId with
    | some h => some {
        misc := m.misc, pid := 2 ^ 32 - 1, hash := withoutZeros (zeroPad 20 (unhex h)) 5, filename := p.filename
        md5 := md5 p.filename, size := if m.misc.testBit 15 then some 0 else none }
    | none => none
  | _ => none

/-- The build IDs in the mappings, the first one for each name; `named` are names that came before. -/
def mappedIds (md5 : Serial.Bytes → Nat) : List Serial.Bytes → List Msg → List BuildId
  | _, [] => []
  | named, m :: l =>
    match mappedId md5 m with
    | some b => if b.filename ∈ named then mappedIds md5 named l else b :: mappedIds md5 (named ++ [b.filename]) l
    | none => mappedIds md5 named l

/-- What is known of a recording after it was read from a file: what the file holds, and the build IDs in the mappings. -/
def loaded (md5 : Serial.Bytes → Nat) (x : Recording) : Info :=
  { stored x.info with buildIds := (stored x.info).buildIds ++ mappedIds md5 [] x.messages }

/-! ## Space -/

/-- The space reserved for build IDs that are not stored because the feature is not there. -/
def unstored (i : Info) : Nat :=
  if i.mask.testBit 2 then 0 else (i.buildIds.map fun b => 36 + (b.filename.length / 8 + 1) * 8).sum

/-- The bytes reserved for a file that are not used: the numbers of entries of the lists that are not there, and `unstored`. -/
def spare (i : Info) : Nat :=
  (if i.mask.testBit 13 then 0 else 8) + (if i.mask.testBit 14 then 0 else 4) + (if i.mask.testBit 16 then 0 else 4) +
    (if i.mask.testBit 17 then 0 else 4) + (if i.mask.testBit 30 then 0 else 4) + unstored i

/-- The samples. -/
def samplesOf (l : List Msg) : List SampleEvent := l.filterMap fun m =>
  match m.body with
  | .sample s => some s
  | _ => none

end Verif.File
