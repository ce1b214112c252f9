import Verif.Meta.Model
import Verif.Buffer.Spec
import Verif.Attr.Spec

/-!
# The feature sections of `perf.data`, independently of the code

What a feature section consists of, for each feature (see `tools/perf/Documentation/perf.data-file-format.txt` of
Linux), and which metadata a file can hold.
-/

namespace Verif.Meta
open Verif.Buffer Verif.Event Verif.Sample Verif.Attr Verif.Names Verif.Text Verif.Util

/-- A part of a section: an integer or a text with its length, or plain bytes. -/
inductive Fld where
  | item (i : Item)
  | raw (b : Bytes)
deriving DecidableEq, Repr

/-- Bytes of a part; integers are least significant byte first, or last in a `foreign` file. -/
def Fld.image (foreign : Bool) : Fld → Bytes
  | .item i => i.encode foreign
  | .raw b => b

def image (foreign : Bool) (l : List Fld) : Bytes := l.flatMap (Fld.image foreign)

def u16F (v : Nat) : Fld := .item (.u16 v)
def u32F (v : Nat) : Fld := .item (.u32 v)
def u64F (v : Nat) : Fld := .item (.u64 v)
def strF (s : Bytes) : Fld := .item (.str s)

/-- A list with its length before it. -/
def counted {α : Type} (f : α → List Fld) (l : List α) : List Fld := u32F l.length :: l.flatMap f

/-- `n` bytes: those given, then zeros. -/
def zeroPad (n : Nat) (b : Bytes) : Bytes := b ++ List.replicate (n - b.length) 0

/-- A build ID event (`struct build_id_event`). The name and at least one NUL fill a multiple of 8 bytes. -/
def buildIdFlds (b : BuildId) : List Fld :=
  [u32F 67, u16F b.misc, u16F (36 + fieldSize b.filename.length), u32F b.pid, .raw (zeroPad 20 b.hash),
   .raw [UInt8.ofNat (b.size.getD 0), 0, 0, 0], .raw (zeroPad (fieldSize b.filename.length) b.filename)]

/-- `struct perf_event_attr`. -/
def attrFlds (a : EventAttr) : List Fld :=
  [u32F a.type, u32F a.size, u64F a.config, u64F a.samplePeriod, u64F a.sampleType, u64F a.readFormat, u64F a.flags,
   u32F a.wakeup, u32F a.bpType, u64F a.bpAddr, u64F a.bpLen, u64F a.branchSampleType, u64F a.sampleRegsUser,
   u32F a.sampleStackUser, u32F a.reserved2]

/-- The attribute a message describes. -/
def attrOf (p : ProtoAttr) : EventAttr :=
  { type := p.type, size := p.size, config := p.config, samplePeriod := p.samplePeriod, sampleType := p.sampleType
    readFormat := p.readFormat, flags := p.flags
    wakeup := if p.flags.testBit 14 then p.wakeupWatermark else p.wakeupEvents
    bpType := p.bpType, bpAddr := p.bpAddr, bpLen := p.bpLen, branchSampleType := p.branchSampleType
    sampleRegsUser := p.sampleRegsUser, sampleStackUser := p.sampleStackUser }

/-- One event of the event description: attribute, number of ids, name, ids. -/
def eventFlds (x : ProtoFileAttr × Nat × Bytes) : List Fld :=
  attrFlds (attrOf x.1.attr) ++ [u32F x.1.ids.length, strF x.2.2] ++ x.1.ids.map u64F

/-- The values of a type. -/
def valuesOf (type : Nat) (l : List (Nat × List Nat)) : List Nat := ((l.find? (fun m => m.1 == type)).map (·.2)).getD []

/-- The section of each feature. -/
def featureFlds (i : Info) : Nat → List Fld
  | 1 => [.raw i.tracing]
  | 2 => i.buildIds.flatMap buildIdFlds
  | 3 => [strF (i.hostname.getD [])]
  | 4 => [strF (i.osrelease.getD [])]
  | 5 => [strF (i.version.getD [])]
  | 6 => [strF (i.arch.getD [])]
  | 7 => (valuesOf 7 i.uint32s).map u32F
  | 8 => [strF (i.cpudesc.getD [])]
  | 9 => [strF (i.cpuid.getD [])]
  | 10 => (valuesOf 10 i.uint64s).map u64F
  | 11 => counted (fun s => [strF s]) i.cmdTokens
  | 12 => [u32F i.attrs.length, u32F 96] ++ (i.attrs.zip i.eventTypes).flatMap eventFlds
  | 13 => counted (fun s => [strF s]) i.topology.cores ++ counted (fun s => [strF s]) i.topology.threads ++
      i.topology.cpus.flatMap (fun c => [u32F c.1, u32F c.2])
  | 14 => counted (fun n => [u32F n.id, u64F n.total, u64F n.free, strF n.cpus]) i.numa
  | 16 => counted (fun m => [u32F m.1, strF m.2]) i.pmus
  | 17 => counted (fun g => [strF g.name, u32F g.leader, u32F g.members]) i.groups
  | 30 => counted (fun h => [strF h.pmu, strF (h.cpus.getD [])]) i.hybrids
  | _ => []

/-- The features quipper knows. -/
def known : List Nat := [1, 2, 3, 4, 5, 6, 7, 8, 9, 10, 11, 12, 13, 14, 15, 16, 17, 30]

/-- The features present. -/
def features (mask : Nat) : List Nat := known.filter mask.testBit

/-- The contents of the sections, one after the other. -/
def contents (foreign : Bool) (i : Info) (l : List Nat) : List Bytes := l.map (fun t => image foreign (featureFlds i t))

/-- Positions and sizes of parts that follow each other from `pos`. -/
def sectionsFrom (pos : Nat) : List Bytes → List (Nat × Nat)
  | [] => []
  | b :: l => (pos, b.length) :: sectionsFrom (pos + b.length) l

/-- The metadata of a file: the table of sections, then the sections. `pos` is its position. -/
def metadataImage (foreign : Bool) (i : Info) (pos : Nat) : Bytes :=
  let c := contents foreign i (features i.mask)
  image foreign ((sectionsFrom (pos + c.length * 16) c).flatMap (fun s => [u64F s.1, u64F s.2])) ++ c.flatten

/-! ## Metadata a file can hold -/

/-- A text without NUL, shorter than 4 GB. -/
def Plain (s : Bytes) : Prop := (0 : UInt8) ∉ s ∧ s.length < 2 ^ 32 - 8

/-- A build ID of 4, 8, … 20 bytes whose last four are not all zero. -/
def CanonicalHash (h : Bytes) : Prop :=
  h.length ≤ 20 ∧ h.length % 4 = 0 ∧ h.drop (h.length - 4) ≠ [0, 0, 0, 0]

def BuildIdOk (md5 : Bytes → Nat) (b : BuildId) : Prop :=
  b.misc < 2 ^ 16 ∧ b.pid < 2 ^ 32 ∧ CanonicalHash b.hash ∧ (0 : UInt8) ∉ b.filename ∧ b.filename.length < 4096 ∧
  b.md5 = md5 b.filename ∧ (if b.misc.testBit 15 then ∃ v, b.size = some v ∧ v < 256 else b.size = none) ∧
  b.injected = false

/-- Attributes of the current version, values in range, no flags that messages cannot carry. -/
def AttrOk (p : ProtoAttr) : Prop :=
  p.type < 2 ^ 32 ∧ p.size = 96 ∧ p.config < 2 ^ 64 ∧ p.samplePeriod < 2 ^ 64 ∧ p.sampleFreq = 0 ∧ p.sampleType < 2 ^ 64 ∧
  p.readFormat < 2 ^ 64 ∧ p.flags &&& carried = p.flags ∧ p.wakeupEvents < 2 ^ 32 ∧ p.wakeupWatermark < 2 ^ 32 ∧
  (if p.flags.testBit 14 then p.wakeupEvents = 0 else p.wakeupWatermark = 0) ∧ p.bpType < 2 ^ 32 ∧ p.bpAddr < 2 ^ 64 ∧
  p.bpLen < 2 ^ 64 ∧ p.branchSampleType < 2 ^ 64 ∧ p.sampleRegsUser < 2 ^ 64 ∧ p.sampleStackUser < 2 ^ 32

/-- Attributes and names of events: one name for each attribute, with the attribute's configuration as id. -/
def EventsOk (i : Info) : Prop :=
  i.attrs.length = i.eventTypes.length ∧ i.attrs.length < 2 ^ 31 ∧
  (∀ x ∈ i.attrs.zip i.eventTypes, AttrOk x.1.attr ∧ x.1.attr.config = x.2.1 ∧ Plain x.2.2 ∧ x.1.ids.length < 2 ^ 32 ∧
    ∀ id ∈ x.1.ids, id < 2 ^ 64) ∧
  ∀ f ∈ i.attrs, ∀ g ∈ i.attrs, idPlace f.attr.sampleType = idPlace g.attr.sampleType

/-- What is present may hold any text; what is not is absent. -/
def TextOk (present : Bool) (s : Option Bytes) : Prop := if present then ∃ t, s = some t ∧ Plain t else s = none

/-- One list of values of the given type, not empty. -/
def WordsOk (present : Bool) (type n : Nat) (l : List (Nat × List Nat)) : Prop :=
  if present then ∃ v, l = [(type, v)] ∧ v ≠ [] ∧ ∀ x ∈ v, x < 256 ^ n else l = []

def Texts (l : List Bytes) : Prop := l.length < 2 ^ 32 ∧ ∀ s ∈ l, Plain s

/-- The words of a command line with a space between them; empty words at its start leave no space. -/
def commandLine (l : List Bytes) : Bytes := [32].intercalate (l.dropWhile (· = []))

/-- CPU topology: with cores and sockets of all CPUs or of none. -/
def TopologyOk (i : Info) : Prop :=
  Texts i.topology.cores ∧ Texts i.topology.threads ∧ (∀ c ∈ i.topology.cpus, c.1 < 2 ^ 32 ∧ c.2 < 2 ^ 32) ∧
  (i.topology.cpus ≠ [] → i.mask.testBit 7 = true ∧ (valuesOf 7 i.uint32s).head? = some i.topology.cpus.length)

/-- The list of CPUs is the one the text stands for. -/
def HybridOk (h : Hybrid) : Prop :=
  Plain h.pmu ∧ ∃ t, h.cpus = some t ∧ Plain t ∧
    ((t = [] ∧ h.cpuList = []) ∨ (h.cpuList ≠ [] ∧ parseCPUNumbers t = .ok h.cpuList))

/-- Metadata that a file can hold; what is in no feature present is absent. -/
structure Faithful (md5 : Bytes → Nat) (i : Info) : Prop where
  mask : ∀ b, i.mask.testBit b = true → b ∈ known
  tracing : if i.mask.testBit 1 then i.tracing.length < 2 ^ 63 else i.tracing = []
  buildIds : if i.mask.testBit 2 then ∀ b ∈ i.buildIds, BuildIdOk md5 b else i.buildIds = []
  hostname : TextOk (i.mask.testBit 3) i.hostname
  osrelease : TextOk (i.mask.testBit 4) i.osrelease
  version : TextOk (i.mask.testBit 5) i.version
  arch : TextOk (i.mask.testBit 6) i.arch
  cpudesc : TextOk (i.mask.testBit 8) i.cpudesc
  cpuid : TextOk (i.mask.testBit 9) i.cpuid
  cmdline : if i.mask.testBit 11 then Texts i.cmdTokens ∧ i.cmdWhole = some (commandLine i.cmdTokens)
    else i.cmdTokens = [] ∧ i.cmdWhole = none
  nrcpus : WordsOk (i.mask.testBit 7) 7 4 i.uint32s
  memory : WordsOk (i.mask.testBit 10) 10 8 i.uint64s
  events : i.mask.testBit 12 = true → EventsOk i
  topology : if i.mask.testBit 13 then TopologyOk i else i.topology = {}
  numa : if i.mask.testBit 14 then i.numa.length < 2 ^ 32 ∧
      ∀ n ∈ i.numa, n.id < 2 ^ 32 ∧ n.total < 2 ^ 64 ∧ n.free < 2 ^ 64 ∧ Plain n.cpus
    else i.numa = []
  pmus : if i.mask.testBit 16 then i.pmus ≠ [] ∧ i.pmus.length < 2 ^ 32 ∧ ∀ m ∈ i.pmus, m.1 < 2 ^ 32 ∧ Plain m.2
    else i.pmus = []
  groups : if i.mask.testBit 17 then i.groups.length < 2 ^ 32 ∧
      ∀ g ∈ i.groups, Plain g.name ∧ g.leader < 2 ^ 32 ∧ g.members < 2 ^ 32
    else i.groups = []
  hybrids : if i.mask.testBit 30 then i.hybrids.length < 2 ^ 32 ∧ ∀ h ∈ i.hybrids, HybridOk h else i.hybrids = []

end Verif.Meta
