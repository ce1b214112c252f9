import Verif.Whole.Model

/-!
# Specification: what the samples of a recording add up to

Told from the events of the recording alone.
-/

namespace Verif.Whole
open Verif.Serial (Msg Body)

/-- The event a sample belongs to: with one event, that one; else the last that lists the ID of the sample. -/
def owner (attrs : List Attr.ProtoFileAttr) (id : Option Nat) : Option Nat :=
  if attrs.length = 1 then some 0
  else id.bind (fun i => (List.range attrs.length).reverse.find? (fun k => ((attrs[k]?).map (fun a => decide (i ∈ a.ids))).getD false))

/-- The number of records in the trace data of ARM SPE. -/
def traced (base : Nat) (data : Bytes) : Nat :=
  ((Spe.decodeAll (data.length + 1) { buf := data, base := base } {}).map (·.1.length)).getD 0

/-- Does the recording contain trace data of ARM SPE? -/
def speTrace (l : List Msg) : Bool := l.any (fun m => match m.body with | .auxtraceInfo a => a.type == 4 | _ => false)

/-- The periods of the samples of an event in a record, zero where none is recorded: of a sample, its own; of trace data of ARM SPE, if
there is any (`spe`), one for each record, for the first event. -/
def periods (attrs : List Attr.ProtoFileAttr) (spe : Bool) (base k : Nat) (m : Msg) : List Nat :=
  match m.body with
  | .sample s => if owner attrs s.id = some k then [s.period.getD 0] else []
  | .auxtrace a => if spe = true ∧ k = 0 then List.replicate (traced base a.trace) 0 else []
  | _ => []

/-- The number of samples of an event that a record reports as lost. Newer versions of perf (`new`) report them in one kind of record, older
ones in another. -/
def losses (new : Bool) (attrs : List Attr.ProtoFileAttr) (k : Nat) (m : Msg) : Nat :=
  match m.body with
  | .lostSamples l => if new = true ∧ owner attrs (some (l.info.id.getD 0)) = some k then l.lost else 0
  | .lost l => if new = false ∧ owner attrs (some l.id) = some k then l.lost else 0
  | _ => 0

/-- The weight of a sample of an event: its period, else the period of the event, else one. -/
def weightIn (attrs : List Attr.ProtoFileAttr) (k period : Nat) : Nat :=
  if 0 < period then period
  else if 0 < ((attrs[k]?).map (·.attr.samplePeriod)).getD 0 then ((attrs[k]?).map (·.attr.samplePeriod)).getD 0 else 1

end Verif.Whole
