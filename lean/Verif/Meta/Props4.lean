import Verif.Meta.Props3
import Verif.Meta.Safe

/-! # C28, C46: what is not read back, and files that are not read in finite time -/

namespace Verif.Meta
open Verif.Buffer Verif.Event Verif.Sample Verif.Attr Verif.Names Verif.Text Verif.Util

/-- The metadata written at position 8 of `n` bytes, and then read by a fresh reader; `none` if something fails or does not
end. -/
def trip (n : Nat) (i : Info) : Option Info :=
  match writeMetadata i i.mask 8 ⟨List.replicate n 0, n, 8⟩ with
  | some (some (), w) =>
    match readMetadata (fun _ => 0) { info := { mask := i.mask } } 8 ⟨w.buf, n, 0, false⟩ with
    | some (some st, _) => some st.info
    | _ => none
  | _ => none

/-- A trip that changes nothing. -/
example : trip 100 { mask := 2 ^ 3, hostname := some [104, 105] } = some { mask := 2 ^ 3, hostname := some [104, 105] } := by
  decide +kernel

/-- C28, violated: a text is cut at its first NUL. -/
theorem nul_violated : trip 100 { mask := 2 ^ 3, hostname := some [104, 0, 105] } =
    some { mask := 2 ^ 3, hostname := some [104] } := by decide +kernel

def shortId : BuildId where
  misc := 2
  pid := 5
  hash := [1, 2, 3]
  filename := [47]
  md5 := 0
  size := none

/-- C28, violated: a build ID of three bytes is read with four. -/
theorem build_id_violated : trip 100 { mask := 2 ^ 2, buildIds := [shortId] } =
    some { mask := 2 ^ 2, buildIds := [{ shortId with hash := [1, 2, 3, 0] }] } := by decide +kernel

/-- C28, violated: an empty list of PMUs is written but cannot be read. -/
theorem no_pmus_violated : (∃ w, writeMetadata { mask := 2 ^ 16 } (2 ^ 16) 8 ⟨List.replicate 100 0, 100, 8⟩ = some (some (), w)) ∧
    trip 100 { mask := 2 ^ 16 } = none := by
  refine ⟨?_, by decide +kernel⟩
  have h : ((writeMetadata { mask := 2 ^ 16 } (2 ^ 16) 8 ⟨List.replicate 100 0, 100, 8⟩).bind Prod.fst).isSome = true := by
    decide +kernel
  cases e : writeMetadata { mask := 2 ^ 16 } (2 ^ 16) 8 ⟨List.replicate 100 0, 100, 8⟩ with
  | none => rw [e] at h; cases h
  | some x =>
    obtain ⟨x, w⟩ := x
    rw [e] at h
    cases x with
    | none => cases h
    | some u => exact ⟨w, rfl⟩

/-- C28, violated: of several entries with numbers of CPUs only the first one is written. -/
theorem entries_violated : trip 100 { mask := 2 ^ 7, uint32s := [(7, [4, 8]), (7, [1, 2])] } =
    some { mask := 2 ^ 7, uint32s := [(7, [4, 8])] } := by decide +kernel

/-- C28, violated: cores and sockets cannot be read if the number of CPUs is not in the file. -/
theorem topology_violated : trip 100 { mask := 2 ^ 13, topology := ⟨[], [], [(0, 0), (1, 0)]⟩ } = none := by decide +kernel

/-- C28, violated: of the CPUs of a hybrid topology, given as text and as numbers, only the text is written. -/
theorem hybrid_violated : trip 100 { mask := 2 ^ 30, hybrids := [⟨[99], some [48, 45, 50], []⟩] } =
    some { mask := 2 ^ 30, hybrids := [⟨[99], some [48, 45, 50], [0, 1, 2]⟩] } := by decide +kernel

/-- The features with lists, and a host name that is missing. -/
def noName : Info where
  mask := 2 ^ 3 + 2 ^ 13 + 2 ^ 14 + 2 ^ 16 + 2 ^ 17 + 2 ^ 30

/-- C48, violated: a string that is marked as present but is missing takes 12 bytes that are not counted, so that the
metadata do not fit into the space reserved for them. -/
theorem missing_string_violated : metadataSize noName = 6 * 16 + 24 ∧
    (writeMetadata noName noName.mask 8 ⟨List.replicate 128 0, 128, 8⟩).map (fun x => x.1) = some none ∧
    (writeMetadata noName noName.mask 8 ⟨List.replicate 140 0, 140, 8⟩).map (fun x => (x.1, x.2.off)) = some (some (), 140) := by
  decide +kernel

/-- A file that says that one kind of CPU has the numbers `0-4294967295`. -/
def endless : Bytes :=
  toLE 8 16 ++ toLE 8 24 ++ toLE 4 1 ++ toLE 4 1 ++ [99] ++ toLE 4 12 ++
    [48, 45, 52, 50, 57, 52, 57, 54, 55, 50, 57, 53]

/-- C46, violated: such a file is read without end. -/
theorem endless_violated : readMetadata (fun _ => 0) { info := { mask := 2 ^ 30 } } 0 ⟨endless, endless.length, 0, false⟩ = none := by
  decide +kernel

/-- Two sections: a host name in 8 bytes that has 12, and a release. -/
def overrun : Bytes :=
  toLE 8 32 ++ toLE 8 8 ++ toLE 8 40 ++ toLE 8 8 ++ toLE 4 12 ++ [97, 98, 99, 100] ++ toLE 4 4 ++ [101, 102, 103, 104]

/-- C46, a stronger reading, violated: what is read for a feature can be outside of its section, though never outside of the
file. The name takes its last eight bytes from the next section. -/
theorem overrun_violated : (readMetadata (fun _ => 0) { info := { mask := 2 ^ 3 + 2 ^ 4 } } 0 ⟨overrun, overrun.length, 0, false⟩).map
    (fun x => x.1.map fun st => (st.info.hostname, st.info.osrelease)) =
    some (some (some [97, 98, 99, 100, 4], some [101, 102, 103, 104])) := by
  decide +kernel

/-- Beside `read_metadata_safe_partial` and `sections_inside`: a file with one section, and the same with a section that ends
behind the file. -/
example : (readMetadata (fun _ => 0) { info := { mask := 2 ^ 3 } } 0 ⟨toLE 8 16 ++ toLE 8 8 ++ toLE 4 4 ++ [97, 0, 0, 0], 24, 0, false⟩).map
    (fun x => x.1.map fun st => st.info.hostname) = some (some (some [97])) := by decide +kernel
example : (readMetadata (fun _ => 0) { info := { mask := 2 ^ 3 } } 0 ⟨toLE 8 16 ++ toLE 8 9 ++ toLE 4 4 ++ [97, 0, 0, 0], 24, 0, false⟩).map
    (fun x => x.1.map fun st => st.info.hostname) = some none := by decide +kernel

end Verif.Meta
