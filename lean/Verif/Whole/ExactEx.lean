import Verif.Whole.Exact
import Verif.Whole.GapsEx

/-!
# Samples that share a place

Examples for `Whole/Exact.lean`, and what it does not hold for.
-/

namespace Verif.Whole
open Verif.Serial (Msg Body)
open Verif.File (fileImage)
open Verif.Serial (exEnv)

/-- Three samples, two of them with the same stack, and three lost ones. -/
def exTold : List Msg :=
  [areaMsg 0x4000 0 (ascii "/bin/x") 1, sampleMsg 2 0x4100 3, sampleMsg 2 0x4200 4, sampleMsg 2 0x4100 5, lostMsg 3 6]

/-- The addresses of the samples of profiles. -/
def addressesShown (ps : List Converter.ProcessProfile) : List (List (List Nat)) :=
  ps.map fun p => p.data.sample.map fun s => s.locationId.map (fun i => ((p.data.location[i - 1]?).map (·.address)).getD 0)

/-- The values of the samples of profiles. -/
def valuesShown (ps : List Converter.ProcessProfile) : List (List (List Int)) := ps.map fun p => p.data.sample.map (·.value)

/-- The label that all samples of the examples have. -/
def exPid : List (Option (Bytes × Converter.LabelText)) := [some (ascii "pid", .num 10 [])]

/-- The conditions of C131 are met by the bytes of a recording of three samples and three lost ones: the samples with the same stack share a place. -/
example : (∀ l, (exMachine.order l).Perm l) ∧ ∃ st, File.readBytes { env := exEnv } (fileImage (recordingOf exTold)) = some (some st) ∧
    (Calm 1 st.events ∧ NamedProcs st.events ∧ speTrace st.events = false ∧ Timeline st.base.info.attrs st.events st.events) ∧ Alike 1 st.events ∧
    st.events.map (eventOf false st.base.info.attrs) = [none, some 0, some 0, some 0, some 0] ∧
    st.events.map (heldIn 1) = [0, 1, 1, 1, 3] ∧
    (rawToProfiles exMachine [] 1 1 [] (fileImage (recordingOf exTold))).map (fun ps => (addressesShown ps, valuesShown ps, (labelsIn ps).all (· == exPid))) =
      some ([[[0x4100], [0x4200], [lostAddress]]], [[[2, 2000, 0, 0], [1, 1000, 0, 0], [3, 3000, 0, 0]]], true) := by
  have h1 : ((File.readBytes { env := exEnv } (fileImage (recordingOf exTold))).bind id).map
      (fun st => (hugeB 1 st, alikeB st.events, st.events.map (eventOf false st.base.info.attrs), st.events.map (heldIn 1))) =
      some (true, true, [none, some 0, some 0, some 0, some 0], [0, 1, 1, 1, 3]) := by decide +kernel
  have h2 : (rawToProfiles exMachine [] 1 1 [] (fileImage (recordingOf exTold))).map (fun ps => (addressesShown ps, valuesShown ps, (labelsIn ps).all (· == exPid))) =
      some ([[[0x4100], [0x4200], [lostAddress]]], [[[2, 2000, 0, 0], [1, 1000, 0, 0], [3, 3000, 0, 0]]], true) := by
    decide +kernel
  refine ⟨fun l => .refl l, ?_⟩
  cases hr : File.readBytes { env := exEnv } (fileImage (recordingOf exTold)) with
  | none => rw [hr] at h1; cases h1
  | some o =>
    cases o with
    | none => rw [hr] at h1; cases h1
    | some st =>
      rw [hr] at h1
      simp only [Option.bind_some, id, Option.map_some, Option.some.injEq, Prod.mk.injEq] at h1
      exact ⟨st, rfl, huge_of h1.1, alike_of h1.2.1, h1.2.2.1, h1.2.2.2, h2⟩

/-- C131: samples with the same addresses and labels do not share a place if another file is mapped there between them. -/
theorem tell_remapped_apart :
    (rawToProfiles exMachine [] 1 1 [] (fileImage (recordingOf [areaMsg 0x4000 0 (ascii "/bin/x") 1, sampleMsg 2 0x4100 3,
      areaMsg 0x4000 0 (ascii "/bin/y") 4, sampleMsg 2 0x4100 5]))).map (fun ps => (addressesShown ps, valuesShown ps, (labelsIn ps).all (· == exPid))) =
      some ([[[0x4100], [0x4100]]], [[[1, 1000, 0, 0], [1, 1000, 0, 0]]], true) := by decide +kernel

/-- C131: nor if the process executes a program between them: they are in two profiles. -/
theorem tell_executed_apart :
    (rawToProfiles exMachine [] 1 1 [] (fileImage (recordingOf [areaMsg 0x4000 0 (ascii "/bin/x") 1, sampleMsg 2 0x4100 3,
      commMsg 10 4 (ascii "sh"), sampleMsg 2 0x4100 5]))).map (fun ps => (addressesShown ps, valuesShown ps, (labelsIn ps).all (· == exPid))) =
      some ([[[0x4100]], [[0x4100]]], [[[1, 1000, 0, 0]], [[1, 1000, 0, 0]]], true) := by decide +kernel

end Verif.Whole
