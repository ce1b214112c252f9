import Verif.Whole.Gaps
import Verif.Whole.PiecesEx

/-!
# Recordings of huge pages

Examples for `Whole/Gaps.lean`, and what it does not hold for.
-/

namespace Verif.Whole
open Verif.Serial (Msg Body)
open Verif.File (exFile exMetadata fileImage)
open Verif.Serial (exMsg exMap exSample exInfo exEnv)

/-- A mapping of a page. -/
def areaMsg (start pgoff : Nat) (name : Serial.Bytes) (time : Nat) : Msg :=
  exMsg 10 (2 + 2 ^ 14) (.mmap { exMap with
    start := start, pgoff := pgoff, filename := name, filenameMd5 := exEnv.md5 name, info := { exInfo with time := some time } })

/-- A file the middle of which is in a huge page. -/
def exHuge (time : Nat) : List Msg :=
  [areaMsg 0x4000 0 (ascii "/bin/x") time, areaMsg 0x5000 0 (ascii "//anon") time, areaMsg 0x6000 0x2000 (ascii "/bin/x") time,
   commMsg 10 7 (ascii "sh"), sampleMsg 2 0x5100 8]

/-- The files of mappings. -/
def filesShown (ps : List Converter.ProcessProfile) : List (List (Option Serial.Bytes)) :=
  ps.map fun p => p.data.mapping.map (fun m => p.data.stringTable[m.filename.toNat]?)

/-- A recording that meets the conditions, and whose records are in order of time. -/
def hugeB (options : Nat) (st : Data.St) : Bool :=
  calmB options st.events && st.events.all (fun m => st.events.all (fun m' => match areaOf m, areaOf m' with
    | some b, some b' => decide (b.pid = b'.pid → b.filename ≠ [] ∨ b'.start ≠ 0x400000)
    | _, _ => true)) && !speTrace st.events &&
    inOrderB st.base.info.attrs st.events

theorem huge_of {options : Nat} {st : Data.St} (h : hugeB options st = true) :
    Calm options st.events ∧ NamedProcs st.events ∧ speTrace st.events = false ∧ Timeline st.base.info.attrs st.events st.events := by
  unfold hugeB at h
  simp only [Bool.and_eq_true, Bool.not_eq_true'] at h
  obtain ⟨⟨⟨h1, h2⟩, h3⟩, h4⟩ := h
  refine ⟨calm_of h1, fun m hm m' hm' b b' hb hb' => ?_, h3, inOrder_of h4⟩
  have := List.all_eq_true.1 (List.all_eq_true.1 h2 m hm) m' hm'
  rw [hb, hb'] at this
  exact of_decide_eq_true this

/-- The mappings of a recording, each with its process, address, end, offset and the length of its name. -/
def areasIn (l : List Msg) : List (List Nat) :=
  l.filterMap (fun m => match m.body with | .mmap b => some [b.pid, b.start, b.start + b.len, b.pgoff, b.filename.length] | _ => none)

/-- The conditions of C129 are met by the bytes of a recording of a file the middle of which is in a huge page: a sample there is shown in one mapping
of the whole file. -/
example : (∀ l, (exMachine.order l).Perm l) ∧ ∃ st, File.readBytes { env := exEnv } (fileImage (recordingOf (exHuge 0))) = some (some st) ∧
    (Calm 1 st.events ∧ NamedProcs st.events ∧ speTrace st.events = false ∧ Timeline st.base.info.attrs st.events st.events) ∧
    areasIn st.events = [[10, 0x4000, 0x5000, 0, 6], [10, 0x5000, 0x6000, 0, 6], [10, 0x6000, 0x7000, 0x2000, 6]] ∧
    (rawToProfiles exMachine [] 0 1 [] (fileImage (recordingOf (exHuge 0)))).map (fun ps => (layout ps, filesShown ps)) =
      some ([[[[1, 2, 0x5100]], [[1, 0, 1], [2, 0x4000, 0x7000]], [[1]]]], [[some [], some (ascii "/bin/x")]]) := by
  have h1 : ((File.readBytes { env := exEnv } (fileImage (recordingOf (exHuge 0)))).bind id).map (fun st => (hugeB 1 st, areasIn st.events)) =
      some (true, [[10, 0x4000, 0x5000, 0, 6], [10, 0x5000, 0x6000, 0, 6], [10, 0x6000, 0x7000, 0x2000, 6]]) := by decide +kernel
  have h2 : (rawToProfiles exMachine [] 0 1 [] (fileImage (recordingOf (exHuge 0)))).map (fun ps => (layout ps, filesShown ps)) =
      some ([[[[1, 2, 0x5100]], [[1, 0, 1], [2, 0x4000, 0x7000]], [[1]]]], [[some [], some (ascii "/bin/x")]]) := by decide +kernel
  refine ⟨fun l => .refl l, ?_⟩
  cases hr : File.readBytes { env := exEnv } (fileImage (recordingOf (exHuge 0))) with
  | none => rw [hr] at h1; cases h1
  | some o =>
    cases o with
    | none => rw [hr] at h1; cases h1
    | some st =>
      rw [hr] at h1
      simp only [Option.bind_some, id, Option.map_some, Option.some.injEq, Prod.mk.injEq] at h1
      exact ⟨st, rfl, huge_of h1.1, h1.2, h2⟩

/-- A gap that a huge page fills, as `Closed` has it. -/
example : FillsGap { exMap with start := 0x4000, pgoff := 0, filename := ascii "/bin/x" } { exMap with start := 0x6000, pgoff := 0x2000, filename := ascii "/bin/x" }
    [{ exMap with start := 0x5000, pgoff := 0, filename := ascii "//anon" }] :=
  ⟨rfl, by decide, ⟨ascii "//anon", by decide, by simp⟩, by simp, by simp, by unfold Gapless Gapless; decide, rfl⟩

/-- C129: what a huge page of a file is shown as depends on when it was mapped. If the same mappings are made while perf runs, the profile does not
show the file. -/
theorem huge_later_violated :
    (rawToProfiles exMachine [] 0 1 [] (fileImage (recordingOf (exHuge 2)))).map (fun ps => (layout ps, filesShown ps)) =
      some ([[[[1, 2, 0x5100]], [[1, 0, 1], [2, 0x5000, 0x6000]], [[1]]]], [[some [], some (ascii "//anon")]]) := by
  decide +kernel

/-- C129: a huge page may be shown as the start of a file although no other mapping says that it is: that before a mapping of a file whose offset is
the size of the huge page. -/
theorem huge_start_violated :
    (rawToProfiles exMachine [] 0 1 [] (fileImage (recordingOf [areaMsg 0x5000 0 (ascii "//anon") 0, areaMsg 0x6000 0x1000 (ascii "/bin/x") 0,
      sampleMsg 2 0x5100 8]))).map (fun ps => (layout ps, filesShown ps)) =
      some ([[[[1, 1, 0x5100]], [[1, 0x5000, 0x7000]], [[1]]]], [[some (ascii "/bin/x")]]) := by
  decide +kernel

/-- A mapping without a name. -/
def exUnnamed (start : Nat) : List Msg :=
  [areaMsg start 0 [] 0, areaMsg (start + 0x2000) 0x2000 (ascii "/bin/x") 1, sampleMsg 2 (start + 0x100) 8]

/-- The conditions of C129 are met by the bytes of a recording with a mapping without a name: it is shown under the digits of the hash of its name. -/
example : ∃ st, File.readBytes { env := exEnv } (fileImage (recordingOf (exUnnamed 0x4000))) = some (some st) ∧
    (Calm 1 st.events ∧ NamedProcs st.events ∧ speTrace st.events = false ∧ Timeline st.base.info.attrs st.events st.events) ∧
    areasIn st.events = [[10, 0x4000, 0x5000, 0, 0], [10, 0x6000, 0x7000, 0x2000, 6]] ∧
    (rawToProfiles exMachine [] 0 1 [] (fileImage (recordingOf (exUnnamed 0x4000)))).map (fun ps => (layout ps, filesShown ps)) =
      some ([[[[1, 1, 0x4100]], [[1, 0x4000, 0x5000]], [[1]]]], [[some (Normalizer.hexDigits 16 (exEnv.md5 []))]]) := by
  have h1 : ((File.readBytes { env := exEnv } (fileImage (recordingOf (exUnnamed 0x4000)))).bind id).map (fun st => (hugeB 1 st, areasIn st.events)) =
      some (true, [[10, 0x4000, 0x5000, 0, 0], [10, 0x6000, 0x7000, 0x2000, 6]]) := by decide +kernel
  have h2 : (rawToProfiles exMachine [] 0 1 [] (fileImage (recordingOf (exUnnamed 0x4000)))).map (fun ps => (layout ps, filesShown ps)) =
      some ([[[[1, 1, 0x4100]], [[1, 0x4000, 0x5000]], [[1]]]], [[some (Normalizer.hexDigits 16 (exEnv.md5 []))]]) := by decide +kernel
  cases hr : File.readBytes { env := exEnv } (fileImage (recordingOf (exUnnamed 0x4000))) with
  | none => rw [hr] at h1; cases h1
  | some o =>
    cases o with
    | none => rw [hr] at h1; cases h1
    | some st =>
      rw [hr] at h1
      simp only [Option.bind_some, id, Option.map_some, Option.some.injEq, Prod.mk.injEq] at h1
      exact ⟨st, rfl, huge_of h1.1, h1.2, h2⟩

/-- C129: where programs used to be loaded a mapping without a name is shown under that of a file which is mapped behind it. -/
theorem unnamed_load_violated :
    (rawToProfiles exMachine [] 0 1 [] (fileImage (recordingOf (exUnnamed 0x400000)))).map (fun ps => (layout ps, filesShown ps)) =
      some ([[[[1, 1, 0x400100]], [[1, 0x400000, 0x401000]], [[1]]]], [[some (ascii "/bin/x")]]) := by
  decide +kernel

end Verif.Whole
