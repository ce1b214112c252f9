import Verif.Whole.LabelSpec

/-!
# Specification: the samples of the profiles and the records of the recording
-/

namespace Verif.Whole
open Verif.Serial (Msg Body)

/-- A sample of a profile: the number of the profile and the number of the sample in it. -/
abbrev Place := Nat × Nat

/-- The event of the samples that a record holds: a sample, or samples reported as lost, which newer versions of perf (`new`) report in one kind
of record and older ones in another. -/
def eventOf (new : Bool) (attrs : List Attr.ProtoFileAttr) (m : Msg) : Option Nat :=
  match m.body with
  | .sample s => owner attrs s.id
  | .lostSamples l => if new then owner attrs (some (l.info.id.getD 0)) else none
  | .lost l => if new then none else owner attrs (some l.id)
  | _ => none

/-- The number of samples that a record holds; those reported as lost can be left out (`options`). -/
def heldIn (options : Nat) (m : Msg) : Nat :=
  match m.body with
  | .sample _ => 1
  | .lostSamples l => if options.testBit 4 then 0 else l.lost
  | .lost l => if options.testBit 4 then 0 else l.lost
  | _ => 0

/-- The period of the samples that a record holds, zero if none is recorded. -/
def periodIn (m : Msg) : Nat :=
  match m.body with
  | .sample s => s.period.getD 0
  | _ => 0

/-- The process of the samples that a record holds. -/
def pidIn (m : Msg) : Nat :=
  match m.body with
  | .sample s => s.pid.getD 0
  | .lostSamples l => l.info.pid.getD 0
  | .lost l => l.info.pid.getD 0
  | _ => 0

/-- The number of samples of an event that are counted in a place; each record comes with the places of its samples. -/
def countedAt (new : Bool) (attrs : List Attr.ProtoFileAttr) (k : Nat) (at_ : Place) (l : List (Msg × List Place)) : Nat :=
  (l.map (fun x => if eventOf new attrs x.1 = some k then x.2.count at_ else 0)).sum

/-- The sum of the weights of these samples. -/
def weightAt (new : Bool) (attrs : List Attr.ProtoFileAttr) (k : Nat) (at_ : Place) (l : List (Msg × List Place)) : Nat :=
  (l.map (fun x => if eventOf new attrs x.1 = some k then x.2.count at_ * weightIn attrs k (periodIn x.1) else 0)).sum

/-- The locations of a profile sample have these addresses. -/
def AtAddresses (p : Profile.Profile) : List Nat → List Nat → Prop :=
  All₂ (fun a id => 0 < id ∧ ∃ l, p.location[id - 1]? = some l ∧ l.address = a)

/-- The process executes no program with the records between two. -/
def NoExec (marked : Bool) (t : List Msg) (i j pid : Nat) : Prop :=
  ∀ (n : Nat) x, i < n → n < j → t[n]? = some x → executes marked (t.take n).reverse x ≠ some pid

/-- Profiles tell of the records `t` of a recording if each record has places in them (`places`): -/
structure Tells (new : Bool) (attrs : List Attr.ProtoFileAttr) (labels options : Nat) (threadTypes : List (Nat × Bytes)) (t : List Msg)
    (ps : List Converter.ProcessProfile) (places : List (List Place)) : Prop where
  /-- Each record has a list of places, -/
  same : places.length = t.length
  /-- one for each sample of an event of the recording that it holds. -/
  each : ∀ (i : Nat) (m : Msg) (w : List Place), t[i]? = some m → places[i]? = some w →
    w.length = if (eventOf new attrs m).isSome then heldIn options m else 0
  /-- They are in the profile of the process of the record, or in the only one. -/
  process : ∀ (i : Nat) (m : Msg) (w : List Place), t[i]? = some m → places[i]? = some w → ∀ q ∈ w,
    ∃ p smp, ps[q.1]? = some p ∧ p.data.sample[q.2]? = some smp ∧ p.pid = if options.testBit 0 then pidIn m else 0
  /-- The place of a sample shows its stack and its labels, -/
  shows : ∀ (i : Nat) (m : Msg) (w : List Place) (s : Serial.SampleEvent), t[i]? = some m → places[i]? = some w → m.body = .sample s → ∀ q ∈ w,
    ∃ p smp, ps[q.1]? = some p ∧ p.data.sample[q.2]? = some smp ∧
      All₂ (ShowsSpot ShowsArea (Held attrs (options.testBit 3) (t.take (i + 1)) (s.pid.getD 0)) p.data)
        (stackOf (options.testBit 3) (t.take i).reverse m.misc s) smp.locationId ∧
      smp.label.map (Converter.readLabel p.data) = (recordLabels attrs labels threadTypes (t.take i).reverse m.misc s).map some
  /-- and that of lost samples the address kept for them. -/
  lost : ∀ (i : Nat) (m : Msg) (w : List Place), t[i]? = some m → places[i]? = some w → (∀ s, m.body ≠ .sample s) → ∀ q ∈ w,
    ∃ p smp, ps[q.1]? = some p ∧ p.data.sample[q.2]? = some smp ∧
      AtAddresses p.data ((if options.testBit 3 then [0] else []) ++ [lostAddress]) smp.locationId
  /-- Every sample of every profile is a place of a record, -/
  used : ∀ (a : Nat) p (j : Nat) smp, ps[a]? = some p → p.data.sample[j]? = some smp → ∃ w ∈ places, (a, j) ∈ w
  /-- and its values are, for each event, the number of samples with this place, and their weight. -/
  values : ∀ (a : Nat) p (j : Nat) smp, ps[a]? = some p → p.data.sample[j]? = some smp → smp.value.length = 2 * attrs.length ∧
    ∀ k, k < attrs.length → smp.value[2 * k]? = some (countedAt new attrs k (a, j) (t.zip places) : Int) ∧
      ((∀ m ∈ t, periodIn m < 2 ^ 63) → (∀ a ∈ attrs, a.attr.samplePeriod < 2 ^ 63) →
        smp.value[2 * k + 1]? = some (weightAt new attrs k (a, j) (t.zip places) : Int))
  /-- Samples have the same place only if their process executes no program between them, -/
  apart : ∀ (i j : Nat) (m m' : Msg) (w w' : List Place) (s s' : Serial.SampleEvent), i < j → t[i]? = some m → t[j]? = some m' → places[i]? = some w →
    places[j]? = some w' → m.body = .sample s → m'.body = .sample s' → ∀ q ∈ w, q ∈ w' →
      s.pid.getD 0 = s'.pid.getD 0 ∧ NoExec (attrs.any (·.attr.flags.testBit 24)) t i j (s.pid.getD 0)
  /-- and samples of a process that executes no program between them, with the same stack and labels, have the same place, if there is no new
  mapping over the stack between them. -/
  together : ∀ (i j : Nat) (m m' : Msg) (w w' : List Place) (s s' : Serial.SampleEvent), i < j → t[i]? = some m → t[j]? = some m' →
    places[i]? = some w → places[j]? = some w' → m.body = .sample s → m'.body = .sample s' → s.pid.getD 0 = s'.pid.getD 0 →
    NoExec (attrs.any (·.attr.flags.testBit 24)) t i j (s.pid.getD 0) →
    (∀ f ∈ stackOf (options.testBit 3) (t.take i).reverse m.misc s, ∀ (n : Nat) x, i < n → n < j → t[n]? = some x →
      mapsOver (s.pid.getD 0) f.1 x = false) →
    (stackOf (options.testBit 3) (t.take i).reverse m.misc s).map (·.1) = (stackOf (options.testBit 3) (t.take j).reverse m'.misc s').map (·.1) →
    recordLabels attrs labels threadTypes (t.take i).reverse m.misc s = recordLabels attrs labels threadTypes (t.take j).reverse m'.misc s' →
    ∀ q ∈ w, ∀ q' ∈ w', q = q'

end Verif.Whole
