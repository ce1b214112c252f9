import Verif.File.Spec

/-!
# Records of a machine with the other byte order

The integers of a record have their most significant byte first; everything else is as in `Spec.lean`.
-/

namespace Verif.File
open Verif.Buffer Verif.Event Verif.Attr Verif.Names Verif.Meta Verif.Serial

/-- The bytes of a field on a big-endian machine. -/
def foreignBytes : Sample.Piece → Serial.Bytes
  | .u16 v => (toLE 2 v).reverse
  | .u32 v => (toLE 4 v).reverse
  | .u64 v => (toLE 8 v).reverse
  | .bytes l => l
  | .pad n => List.replicate n 0

/-- The bytes of a list of fields on a big-endian machine. -/
def foreignImage (L : List Sample.Piece) : Serial.Bytes := L.flatMap foreignBytes

/-- The bytes of an event in a file of a big-endian machine. -/
def foreignRecord (a : Sample.Attr) (m : Msg) : Serial.Bytes :=
  Meta.image true [u32F m.type, u16F m.misc, u16F (wire a (bare m)).size] ++
    foreignImage (own m.type (bare m).body ++ sampleFields a (bare m).body) ++ traceOf m

/-- An event that is read correctly from such a file: it is one of the only attribute, and does not carry an id; it is not a kernel symbol or
a control group; a sample has no branch entries and no structured weight. The other conditions are those of `EventOk`. -/
structure ForeignOk (env : Serial.Env) (i : Info) (f : FileAttr) (m : Msg) : Prop where
  only : i.attrs.map deserializeFileAttr = [f]
  type : f.attr.sampleType < 2 ^ 64
  noId : f.attr.sampleType.testBit 16 = false ∧ f.attr.sampleType.testBit 6 = false
  sample : ∀ s, (bare m).body = .sample s → Sample.Supported f.attr.sample true ∧ Sample.CrossOk f.attr.sample true (eventSample s)
  info : ∀ j, info (bare m).body = some j → f.attr.flags.testBit 18 = true →
    Sample.Supported f.attr.sample false ∧ Sample.CrossOk f.attr.sample false (infoSample j)
  kind : m.type ≠ KSYMBOL ∧ m.type ≠ CGROUP
  message : MsgOk env f.attr.sample (bare m)
  trace : (traceOf m).length = announced m
  kernel : ¬ EmptyKernelMap i m
  timeout : ¬ TimedOut m

end Verif.File
