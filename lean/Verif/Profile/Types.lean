/-!
# The profile message

The messages of `/repo/src/profile.proto`, field by field. `uint64` fields are natural numbers,
`int64` fields integers, strings lists of bytes, repeated fields lists. A scalar field that is not
set has its proto3 default, zero.
-/

namespace Verif.Profile

/-- `message ValueType`, `profile.proto`. -/
structure ValueType where
  type : Int := 0
  unit : Int := 0
deriving DecidableEq, Repr

/-- `message Label`, `profile.proto`. -/
structure Label where
  key : Int := 0
  str : Int := 0
  num : Int := 0
  numUnit : Int := 0
deriving DecidableEq, Repr

/-- `message Sample`, `profile.proto`. -/
structure Sample where
  locationId : List Nat := []
  value : List Int := []
  label : List Label := []
deriving DecidableEq, Repr

/-- `message Mapping`, `profile.proto`. -/
structure Mapping where
  id : Nat := 0
  memoryStart : Nat := 0
  memoryLimit : Nat := 0
  fileOffset : Nat := 0
  filename : Int := 0
  buildId : Int := 0
deriving DecidableEq, Repr

/-- `message Line`, `profile.proto`. -/
structure Line where
  functionId : Nat := 0
  line : Int := 0
  column : Int := 0
deriving DecidableEq, Repr

/-- `message Location`, `profile.proto`. -/
structure Location where
  id : Nat := 0
  mappingId : Nat := 0
  address : Nat := 0
  line : List Line := []
  isFolded : Bool := false
deriving DecidableEq, Repr

/-- `message Function`, `profile.proto`. -/
structure Function where
  id : Nat := 0
  name : Int := 0
  systemName : Int := 0
  filename : Int := 0
  startLine : Int := 0
deriving DecidableEq, Repr

/-- `message Profile`, `profile.proto`. -/
structure Profile where
  sampleType : List ValueType := []
  sample : List Sample := []
  mapping : List Mapping := []
  location : List Location := []
  function : List Function := []
  stringTable : List (List UInt8) := []
  dropFrames : Int := 0
  keepFrames : Int := 0
  timeNanos : Int := 0
  durationNanos : Int := 0
  periodType : ValueType := {}
  period : Int := 0
  comment : List Int := []
  defaultSampleType : Int := 0
  docUrl : Int := 0
deriving DecidableEq, Repr

end Verif.Profile
