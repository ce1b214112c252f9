import Verif.Builder.Model

/-! # Specification of the builder -/

namespace Verif.Builder
open Verif.Profile

/-- What `CheckValid` promises about a profile. -/
structure Valid (p : Profile) : Prop where
  /-- ids other than 0 occur once -/
  mappingIds : ((p.mapping.map (·.id)).filter (· ≠ 0)).Nodup
  functionIds : ((p.function.map (·.id)).filter (· ≠ 0)).Nodup
  locationIds : ((p.location.map (·.id)).filter (· ≠ 0)).Nodup
  /-- references other than 0 resolve -/
  mappingRefs : ∀ l ∈ p.location, l.mappingId ≠ 0 → ∃ m ∈ p.mapping, m.id = l.mappingId
  functionRefs : ∀ l ∈ p.location, ∀ ln ∈ l.line, ln.functionId ≠ 0 →
    ∃ f ∈ p.function, f.id = ln.functionId
  /-- every frame of a sample resolves -/
  locationRefs : ∀ s ∈ p.sample, ∀ id ∈ s.locationId, id ≠ 0 ∧ ∃ l ∈ p.location, l.id = id
  /-- there are sample types, and no two of the same type -/
  hasType : p.sampleType ≠ []
  typesNodup : (p.sampleType.map (·.type)).Nodup
  /-- the default sample type is one of them and is a non-empty entry of the string table -/
  defaultIndex : 0 < p.defaultSampleType ∧ p.defaultSampleType < p.stringTable.length
  defaultType : ∃ t ∈ p.sampleType, t.type = p.defaultSampleType
  /-- one value per sample type -/
  values : ∀ s ∈ p.sample, s.value.length = p.sampleType.length
  /-- a label has a text or a number -/
  labels : ∀ s ∈ p.sample, ∀ l ∈ s.label, l.str = 0 ∨ l.num = 0

/-- The `int64` string indices that the check narrows to `int` are in the range of an `int`. -/
def IndicesFit (p : Profile) : Prop :=
  (-(2 ^ 31) ≤ p.defaultSampleType ∧ p.defaultSampleType < 2 ^ 31) ∧
  ∀ t ∈ p.sampleType, -(2 ^ 31) ≤ t.type ∧ t.type < 2 ^ 31

/-- Address of the location with a given id (the first one, should there be several). -/
def addressOf (p : Profile) (id : Nat) : Option Nat := (p.location.find? (·.id == id)).map (·.address)

/-- All addresses of a list of samples, in order of use. -/
def allAddresses (ss : List Sample) : List Nat := (ss.map (·.locationId)).flatten

/-- Mappings that do not overlap, each covering at least one address. -/
def DisjointMappings (ms : List Mapping) : Prop :=
  (∀ m ∈ ms, m.memoryStart < m.memoryLimit) ∧
  ms.Pairwise (fun a b => a.memoryLimit ≤ b.memoryStart ∨ b.memoryLimit ≤ a.memoryStart)

/-- The distinct elements of a list, each at its first occurrence. -/
def firstUses {α : Type} [DecidableEq α] (l : List α) : List α :=
  l.foldl (fun acc x => if x ∈ acc then acc else acc ++ [x]) []

/-- Name, system name, file and line of a function record, its string indices looked up. -/
def resolve (p : Profile) (f : Function) : Option (List UInt8 × List UInt8 × List UInt8 × Int) := do
  let n ← p.stringTable[f.name.toNat]?
  let sn ← p.stringTable[f.systemName.toNat]?
  let fl ← p.stringTable[f.filename.toNat]?
  return (n, sn, fl, f.startLine)

/-- URLs `SetDocURL` accepts. -/
def UrlOk (url : List UInt8) : Prop := url = [] ∨ ascii "http://" <+: url ∨ ascii "https://" <+: url

instance (url : List UInt8) : Decidable (UrlOk url) := by unfold UrlOk; infer_instance

/-- The strings a call asks for. -/
def Op.strings : Op → List (List UInt8)
  | .str s => [s]
  | .fn n sn f _ => [n, sn, f]
  | .doc u => if UrlOk u then [u] else []

/-- The function a call asks for. -/
def Op.function? : Op → Option (List UInt8 × List UInt8 × List UInt8 × Int)
  | .fn n sn f l => some (n, sn, f, l)
  | _ => none

end Verif.Builder
