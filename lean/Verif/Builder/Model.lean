import Verif.Base.Bytes
import Verif.Profile.Types

/-!
# Model of the profile builder (`/repo/src/builder.{h,cc}`)

Hash maps are association lists: only lookups and insertions of new keys happen, never iteration.
Table sizes are unbounded (protobuf limits them to `2^31 - 1`). `Emit` and `Marshal` (serialisation
and compression by protobuf) are not modelled.
-/

namespace Verif.Builder
open Verif.Profile

/-- Lookup in a hash map. -/
def find {α β : Type} [DecidableEq α] (m : List (α × β)) (a : α) : Option β :=
  match m with
  | [] => none
  | (k, v) :: t => if k = a then some v else find t a

/-- The key of a function: name, system name, file and line (`builder.h:28-30`). -/
abbrev FnKey := Int × Int × Int × Int

/-- `Builder`, `builder.h:110-118`. The error text is reduced to whether there is one. -/
structure Builder where
  strings : List (List UInt8 × Nat) := []
  functions : List (FnKey × Nat) := []
  profile : Profile := {}
  error : Bool := false
deriving DecidableEq, Repr

/-- The constructor, `builder.cc:54-57`. -/
def new : Builder := { profile := { stringTable := [[]] } }

/-- `InternalStringId`, `builder.cc:66-75`. -/
def internalStringId (b : Builder) (s : List UInt8) : Nat × Builder :=
  let index := b.profile.stringTable.length
  match find b.strings s with
  | some id => (id, b)
  | none =>
    (index, { b with strings := (s, index) :: b.strings,
                     profile := { b.profile with stringTable := b.profile.stringTable ++ [s] } })

/-- `StringId`, `builder.cc:59-64`; a null pointer is the empty string (`builder.h:50-52`). -/
def stringId (b : Builder) (s : List UInt8) : Nat × Builder :=
  if s = [] then (0, b) else internalStringId b s

/-- The second half of `FunctionId`, `builder.cc:83-100`. -/
def internFunction (b : Builder) (fn : FnKey) : Nat × Builder :=
  let index := b.profile.function.length + 1
  match find b.functions fn with
  | some id => (id, b)
  | none =>
    (index, { b with
      functions := (fn, index) :: b.functions
      profile := { b.profile with
        function := b.profile.function ++
          [{ id := index, name := fn.1, systemName := fn.2.1, filename := fn.2.2.1,
             startLine := fn.2.2.2 }] } })

/-- `FunctionId`, `builder.cc:77-101`. -/
def functionId (b : Builder) (name systemName file : List UInt8) (startLine : Int) : Nat × Builder :=
  let n := stringId b name
  let sn := stringId n.2 systemName
  let f := stringId sn.2 file
  internFunction f.2 (n.1, sn.1, f.1, startLine)

/-- `SetDocURL`, `builder.cc:103-117`. -/
def setDocURL (b : Builder) (url : List UInt8) : Builder :=
  if url ≠ [] ∧ ¬ (ascii "http://").isPrefixOf url ∧ ¬ (ascii "https://").isPrefixOf url then
    { b with error := true }
  else
    let r := internalStringId b url
    { r.2 with profile := { r.2.profile with docUrl := r.1 } }

/-- A call on the builder's tables. -/
inductive Op where
  | str (s : List UInt8)
  | fn (name systemName file : List UInt8) (startLine : Int)
  | doc (url : List UInt8)
deriving DecidableEq, Repr

/-- Execute one call; the result of `SetDocURL` is reported as 0. -/
def step (b : Builder) : Op → Nat × Builder
  | .str s => stringId b s
  | .fn n sn f l => functionId b n sn f l
  | .doc u => (0, setDocURL b u)

/-- Execute a sequence of calls. -/
def run (b : Builder) : List Op → Builder
  | [] => b
  | op :: ops => run (step b op).2 ops

/-- `AddCallstackToSample`, `builder.cc:39-52`, with `stack` holding the `depth` frames (a negative or
zero depth is the empty list). Pointers are 64-bit numbers; `- 1` wraps. -/
def addCallstack (interrupt : Bool) (s : Sample) (stack : List Nat) : Sample :=
  match stack with
  | [] => s
  | a :: rest =>
    { s with locationId := s.locationId ++
        [if interrupt then a else (a + 2 ^ 64 - 1) % 2 ^ 64] ++
        rest.map (fun x => (x + 2 ^ 64 - 1) % 2 ^ 64) }

/-! ## CheckValid -/

/-- Conversion of an `int64_t` to `int`. -/
def toInt32 (x : Int) : Int := Int.bmod x (2 ^ 32)

/-- The id checks for mappings and functions, `builder.cc:165-176,178-189`: the set of non-zero ids,
or `none` when one is repeated. -/
def collectIds : List Nat → List Nat → Option (List Nat)
  | acc, [] => some acc
  | acc, id :: t =>
    if id ≠ 0 then
      if id ∈ acc then none else collectIds (id :: acc) t
    else collectIds acc t

/-- The loop over locations, `builder.cc:191-214`: the set of location ids, or `none`. -/
def checkLocations (mappingIds functionIds : List Nat) : List Nat → List Location → Option (List Nat)
  | acc, [] => some acc
  | acc, l :: t =>
    if l.id ≠ 0 ∧ l.id ∈ acc then none
    else
      let acc := if l.id ≠ 0 then l.id :: acc else acc
      if l.mappingId ≠ 0 ∧ l.mappingId ∉ mappingIds then none
      else if l.line.any (fun ln => ln.functionId ≠ 0 ∧ ln.functionId ∉ functionIds) then none
      else checkLocations mappingIds functionIds acc t

/-- The set of sample types, `builder.cc:229-235`, or `none` when one is repeated. -/
def collectTypes : List Int → List ValueType → Option (List Int)
  | acc, [] => some acc
  | acc, vt :: t =>
    if toInt32 vt.type ∈ acc then none else collectTypes (toInt32 vt.type :: acc) t

/-- The checks of one sample, `builder.cc:242-268`. -/
def checkSample (typeLen : Nat) (locationIds : List Nat) (s : Sample) : Bool :=
  decide (s.value.length = typeLen) &&
  s.locationId.all (fun id => id ≠ 0 && id ∈ locationIds) &&
  s.label.all (fun l => ! (l.str ≠ 0 && l.num ≠ 0))

/-- `CheckValid`, `builder.cc:164-270`. -/
def checkValid (p : Profile) : Bool :=
  match collectIds [] (p.mapping.map (·.id)) with
  | none => false
  | some mappingIds =>
  match collectIds [] (p.function.map (·.id)) with
  | none => false
  | some functionIds =>
  match checkLocations mappingIds functionIds [] p.location with
  | none => false
  | some locationIds =>
  if p.sampleType.length = 0 then false
  else
    let d := toInt32 p.defaultSampleType
    if d ≤ 0 ∨ d ≥ p.stringTable.length then false
    else match collectTypes [] p.sampleType with
      | none => false
      | some types =>
        if d ∉ types then false
        else p.sample.all (checkSample p.sampleType.length locationIds)

/-! ## Finalize -/

/-- State of the loop that turns addresses into locations: `address_to_id` and the created locations
(`builder.cc:282-299`). -/
structure AddrState where
  ids : List (Nat × Nat) := []
  locs : List Location := []
deriving DecidableEq, Repr

/-- One address, `builder.cc:289-298`: its location id. -/
def locate (st : AddrState) (address : Nat) : Nat × AddrState :=
  let index := st.ids.length + 1
  match find st.ids address with
  | some id => (id, st)
  | none => (index, { ids := (address, index) :: st.ids
                      locs := st.locs ++ [{ id := index, address := address }] })

/-- The addresses of one sample. -/
def locateAll (st : AddrState) : List Nat → List Nat × AddrState
  | [] => ([], st)
  | a :: t =>
    let r := locate st a
    let r' := locateAll r.2 t
    (r.1 :: r'.1, r'.2)

/-- All samples, `builder.cc:284-299`. -/
def locateSamples (st : AddrState) : List Sample → List Sample × AddrState
  | [] => ([], st)
  | s :: t =>
    let r := locateAll st s.locationId
    let r' := locateSamples r.2 t
    ({ s with locationId := r.1 } :: r'.1, r'.2)

/-- `mapping_map` in ascending order of its keys: insertion or replacement of one mapping,
`builder.cc:304-308`. -/
def mapInsert (k : Nat) (v : Nat × Nat) : List (Nat × Nat × Nat) → List (Nat × Nat × Nat)
  | [] => [(k, v)]
  | (k', v') :: t =>
    if k < k' then (k, v) :: (k', v') :: t
    else if k = k' then (k, v) :: t
    else (k', v') :: mapInsert k v t

/-- `mapping_map`, `builder.cc:304-308`. -/
def mappingMap (ms : List Mapping) : List (Nat × Nat × Nat) :=
  ms.foldl (fun m x => mapInsert x.memoryStart (x.memoryLimit, x.id) m) []

/-- The mapping of one location, `builder.cc:310-325`. `upper_bound` then `--`: the last entry whose
key is at most the address. -/
def assignMapping (m : List (Nat × Nat × Nat)) (l : Location) : Location :=
  if l.address ≠ 0 ∧ l.mappingId = 0 then
    match (m.takeWhile (fun e => e.1 ≤ l.address)).getLast? with
    | none => l
    | some (_, limit, id) => if l.address ≤ limit then { l with mappingId := id } else l
  else l

/-- The first part of `Finalize`: create locations for a profile without any, `builder.cc:281-300`. -/
def createLocations (p : Profile) : Profile :=
  if p.location.length = 0 then
    let r := locateSamples {} p.sample
    { p with sample := r.1, location := r.2.locs }
  else p

/-- The second part of `Finalize`: attribute locations to mappings, `builder.cc:303-326`. -/
def assignMappings (p : Profile) : Profile :=
  if p.mapping.length > 0 then
    let m := mappingMap p.mapping
    { p with location := p.location.map (assignMapping m) }
  else p

/-- `Finalize`, `builder.cc:275-328`: the verdict and the builder afterwards. -/
def finalize (b : Builder) : Bool × Builder :=
  if b.error then (false, b)
  else
    let p := assignMappings (createLocations b.profile)
    (checkValid p, { b with profile := p })

end Verif.Builder
