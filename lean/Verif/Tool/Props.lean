import Verif.Tool.Args
import Verif.Tool.Start
import Verif.Whole.Number
import Verif.Whole.Props5

/-!
# What `perf_to_profile` does to files
-/

namespace Verif.Tool

variable {M : Whole.Machine} {L : Library} {P : Place} {f : Files} {words : List Bytes}

/-- The options of the conversion that the arguments ask for. -/
def Args.options (a : Args) : Nat := if a.jit then 4 else 0

/-- The program succeeds with profile `p` of the input `b`. -/
structure Succeeds (M : Whole.Machine) (L : Library) (P : Place) (f : Files) (words : List Bytes) (a : Args) (b : Bytes)
    (p : Converter.ProcessProfile) : Prop where
  arguments : parseArguments words = some a
  input : P.readable (P.file a.input) = true ∧ f (P.file a.input) = some b
  profile : stringToProfiles M L 0 a.options b = some [p]
  output : P.writable (P.file a.output) = true ∧ (a.overwrite = true ∨ f (P.file a.output) = none)

/-- The program reports success if and only if the arguments are accepted, the input can be read, it gives exactly one profile, and the
output can be written and is not there or is to be overwritten. All other files are as before, and the output has what was stored of the
bytes of the profile. -/
theorem tool_succeeds : (perfToProfile M L P f words).1 = .success ↔ ∃ a b p, Succeeds M L P f words a b p := by
  unfold perfToProfile
  constructor
  · intro h
    split at h
    · cases h
    · rename_i a ha
      split at h
      · cases h
      · rename_i b hb
        split at h
        · cases h
        · rename_i p hp
          split at h
          · cases h
          · rename_i f' hf'
            unfold readFile at hb
            unfold createFile at hf'
            split at hb
            · rename_i hr
              refine ⟨a, b, p, ha, ⟨hr, hb⟩, hp, ?_⟩
              split at hf'
              · cases hf'
              · rename_i hn
                split at hf'
                · rename_i hw
                  refine ⟨hw, ?_⟩
                  cases ho : a.overwrite with
                  | true => exact .inl rfl
                  | false =>
                    refine .inr ?_
                    cases hfo : f (P.file a.output) with
                    | none => rfl
                    | some x => exact absurd ⟨ho, by rw [hfo]; rfl⟩ hn
                · cases hf'
            · cases hb
        · cases h
  · rintro ⟨a, b, p, h⟩
    have hr : readFile P f a.input = some b := by
      unfold readFile; rw [if_pos h.input.1]; exact h.input.2
    have hp : stringToProfiles M L 0 (if a.jit then 4 else 0) b = some [p] := h.profile
    have hc : createFile P f a.output a.overwrite = some (f.put (P.file a.output) []) := by
      unfold createFile
      rw [if_neg, if_pos h.output.1]
      rintro ⟨h1, h2⟩
      rcases h.output.2 with h3 | h3
      · rw [h1] at h3; cases h3
      · rw [h3] at h2; cases h2
    simp only [h.arguments, hr, hp, hc]

/-- C116: the files after a success. -/
theorem tool_output {a : Args} {b : Bytes} {p : Converter.ProcessProfile} (h : Succeeds M L P f words a b p) (n : Nat) :
    (perfToProfile M L P f words).2 n =
      if n = P.file a.output then some (stored P n (L.profileBytes p.data)) else f n := by
  have hr : readFile P f a.input = some b := by
    unfold readFile; rw [if_pos h.input.1]; exact h.input.2
  have hp : stringToProfiles M L 0 (if a.jit then 4 else 0) b = some [p] := h.profile
  have hc : createFile P f a.output a.overwrite = some (f.put (P.file a.output) []) := by
    unfold createFile
    rw [if_neg, if_pos h.output.1]
    rintro ⟨h1, h2⟩
    rcases h.output.2 with h3 | h3
    · rw [h1] at h3; cases h3
    · rw [h3] at h2; cases h2
  unfold perfToProfile
  simp only [h.arguments, hr, hp, hc, Files.put]
  split
  · rename_i he; rw [he]
  · rfl

/-- C116: if the program does not report success, all files are as before. -/
theorem tool_failure_keeps (h : (perfToProfile M L P f words).1 ≠ .success) : (perfToProfile M L P f words).2 = f := by
  unfold perfToProfile at h ⊢
  split
  · rfl
  · rename_i a ha
    simp only [ha] at h
    split
    · rfl
    · rename_i b hb
      simp only [hb] at h
      split
      · rfl
      · rename_i p hp
        simp only [hp] at h
        split
        · rfl
        · rename_i f' hf'
          simp only [hf'] at h
          exact absurd rfl h
      · rfl

/-- C116: no file other than the output is changed. -/
theorem tool_only_output {n : Nat} (h : (perfToProfile M L P f words).2 n ≠ f n) : ∃ a, parseArguments words = some a ∧ n = P.file a.output := by
  by_cases hs : (perfToProfile M L P f words).1 = .success
  · obtain ⟨a, b, p, hs⟩ := tool_succeeds.1 hs
    rw [tool_output hs] at h
    refine ⟨a, hs.arguments, ?_⟩
    by_cases he : n = P.file a.output
    · exact he
    · rw [if_neg he] at h; exact absurd rfl h
  · rw [tool_failure_keeps hs] at h; exact absurd rfl h

/-- C116: without `-f`, a file that exists is not changed, even if its name is given as the output. -/
theorem tool_keeps_existing {n : Nat} {b : Bytes} (hn : f n = some b) (hw : ∀ a, parseArguments words = some a → a.overwrite = false) :
    (perfToProfile M L P f words).2 n = some b := by
  rw [← hn]
  by_cases hs : (perfToProfile M L P f words).1 = .success
  · obtain ⟨a, b', p, hs⟩ := tool_succeeds.1 hs
    rw [tool_output hs]
    by_cases he : n = P.file a.output
    · rcases hs.output.2 with h | h
      · rw [hw a hs.arguments] at h; cases h
      · rw [← he, hn] at h; cases h
    · rw [if_neg he]
  · rw [tool_failure_keeps hs]

/-- C116: a recording of a machine that stores the lowest byte first is converted as a recording, with any labels and options. -/
theorem recording_converted {labels options : Nat} {b : Bytes} {st : Data.St} (h : File.readBytes { env := M.env } b = some (some st))
    (hm : b.take 8 = mark) : stringToProfiles M L labels options b = Whole.rawToProfiles M [] labels options [] b := by
  unfold stringToProfiles
  rw [recording_not_message h hm]
  rfl

open Whole (Convertible Timeline sampledIn) in
/-- C116: the output for a recording that has a sample: the profile of the recording. The recording is one that the converter does
not abort on (C110), from a machine that stores the lowest byte first; there is room for the output. -/
theorem tool_converts_partial {a : Args} {b : Bytes} {st : Data.St} (hM : ∀ l, (M.order l).Perm l) (hp : ∃ k, k ≤ 60 ∧ M.page = 2 ^ k)
    (ha : parseArguments words = some a) (hi : P.readable (P.file a.input) = true ∧ f (P.file a.input) = some b)
    (ho : P.writable (P.file a.output) = true ∧ (a.overwrite = true ∨ f (P.file a.output) = none))
    (hm : b.take 8 = mark) (hr : File.readBytes { env := M.env } b = some (some st)) (hc : Convertible M a.options st)
    {t : List Serial.Msg} (ht : Timeline st.base.info.attrs st.events t)
    (hs : ∃ new, Normalizer.useLostSample st.base.info.version = some new ∧ ∃ m ∈ st.events, sampledIn new st.base.info.attrs M.traceBase a.options t m ≠ [])
    (hroom : ∀ p, (L.profileBytes p).length < 2 ^ 31 ∧ (L.profileBytes p).length ≤ P.room (P.file a.output)) :
    (perfToProfile M L P f words).1 = .success ∧
      ∃ p, Whole.rawToProfiles M [] 0 a.options [] b = some [p] ∧ p.data.sample ≠ [] ∧
        (perfToProfile M L P f words).2 (P.file a.output) = some (L.profileBytes p.data) := by
  have hb1 : a.options.testBit 1 = false := by unfold Args.options; cases a.jit <;> rfl
  have hb0 : a.options.testBit 0 = false := by unfold Args.options; cases a.jit <;> rfl
  obtain ⟨ps, hps⟩ := Whole.converts_partial (ids := []) (labels := 0) (threadTypes := []) hM hp hb1 (fun x hx => by cases hx) hr hc
  obtain ⟨new, hnew, hne, -, hlen⟩ := Whole.profiles_made_partial hr hc.calm hps ht
  obtain ⟨new', hnew', m', hmm, hm'⟩ := hs
  rw [hnew] at hnew'
  cases hnew'
  have hlen := hlen hb0
  rw [if_pos (List.any_eq_true.2 ⟨m', hmm, by simpa using hm'⟩)] at hlen
  match ps, hlen with
  | [p], _ =>
    have hS : Succeeds M L P f words a b p := ⟨ha, hi, by rw [recording_converted hr hm]; exact hps, ho⟩
    refine ⟨tool_succeeds.2 ⟨a, b, p, hS⟩, p, hps, hne p List.mem_cons_self, ?_⟩
    rw [tool_output hS, if_pos rfl]
    unfold stored
    rw [if_pos (hroom _).1, List.take_of_length_le (hroom _).2]

open Whole (Convertible Timeline sampledIn) in
/-- C116: a recording without samples ends in failure, and no file is written. -/
theorem tool_no_samples {a : Args} {b : Bytes} {st : Data.St} (hM : ∀ l, (M.order l).Perm l) (hp : ∃ k, k ≤ 60 ∧ M.page = 2 ^ k)
    (ha : parseArguments words = some a) (hi : P.readable (P.file a.input) = true ∧ f (P.file a.input) = some b)
    (hm : b.take 8 = mark) (hr : File.readBytes { env := M.env } b = some (some st)) (hc : Convertible M a.options st)
    {t : List Serial.Msg} (ht : Timeline st.base.info.attrs st.events t)
    (hs : ∀ new, Normalizer.useLostSample st.base.info.version = some new → ∀ m ∈ st.events,
      sampledIn new st.base.info.attrs M.traceBase a.options t m = []) :
    perfToProfile M L P f words = (.failure, f) := by
  have hb1 : a.options.testBit 1 = false := by unfold Args.options; cases a.jit <;> rfl
  have hb0 : a.options.testBit 0 = false := by unfold Args.options; cases a.jit <;> rfl
  obtain ⟨ps, hps⟩ := Whole.converts_partial (ids := []) (labels := 0) (threadTypes := []) hM hp hb1 (fun x hx => by cases hx) hr hc
  obtain ⟨new, hnew, -, -, hlen⟩ := Whole.profiles_made_partial hr hc.calm hps ht
  have hlen := hlen hb0
  rw [if_neg (by
    intro h
    obtain ⟨m, hm, h⟩ := List.any_eq_true.1 h
    rw [hs new hnew m hm] at h
    cases h)] at hlen
  have : ps = [] := List.eq_nil_of_length_eq_zero hlen
  subst this
  have hrf : readFile P f a.input = some b := by
    unfold readFile; rw [if_pos hi.1]; exact hi.2
  have hsp : stringToProfiles M L 0 (if a.jit then 4 else 0) b = some [] := by
    rw [recording_converted hr hm]; exact hps
  unfold perfToProfile
  simp only [ha, hrf, hsp]

/-- C116: bytes that are neither a message nor a recording end in failure, and no file is written. -/
theorem tool_unreadable {a : Args} {b : Bytes} (ha : parseArguments words = some a)
    (hi : P.readable (P.file a.input) = true ∧ f (P.file a.input) = some b) (hm : isMessage b = false)
    (hr : File.readBytes { env := M.env } b = some none) : perfToProfile M L P f words = (.failure, f) := by
  have hrf : readFile P f a.input = some b := by
    unfold readFile; rw [if_pos hi.1]; exact hi.2
  have hsp : stringToProfiles M L 0 (if a.jit then 4 else 0) b = some [] := by
    unfold stringToProfiles
    rw [hm]
    exact Whole.unreadable_none hr
  unfold perfToProfile
  simp only [ha, hrf, hsp]

/-! ## Cases -/

section
open Verif.File (fileImage)
open Verif.Whole (recordingOf exProcs exMachine exPlaces convertibleB convertible_of inOrderB inOrder_of sampledIn)
open Verif.Serial (exEnv)

/-- A library whose profiles are written in three bytes. -/
def exLibrary : Library := ⟨fun _ _ _ => some [], fun _ => [1, 2, 3]⟩

/-- Names lead to the file of their length; there is room for `n` bytes. -/
def exPlace (n : Nat) : Place := ⟨List.length, fun _ => true, fun _ => true, fun _ => n⟩

/-- A file with a recording, under the names of two letters. -/
def exFiles (b : Bytes) : Files := fun n => if n = 2 then some b else if n = 4 then some [7] else none

/-- C116 fails if the disk is full: the program reports success, and the output is not the profile. -/
theorem tool_full_violated :
    (perfToProfile exMachine exLibrary (exPlace 1) (exFiles (fileImage (recordingOf exProcs))) [ascii "-iin", ascii "-oout"]).1 = .success ∧
    (perfToProfile exMachine exLibrary (exPlace 1) (exFiles (fileImage (recordingOf exProcs))) [ascii "-iin", ascii "-oout"]).2 3 = some [1] :=
  ⟨by decide +kernel, by decide +kernel⟩

/-- The conditions of `tool_converts_partial` on a recording. -/
def goodB (options : Nat) (st : Data.St) : Bool :=
  convertibleB exMachine options st && inOrderB st.base.info.attrs st.events &&
    match Normalizer.useLostSample st.base.info.version with
    | some new => st.events.any (fun m => decide (sampledIn new st.base.info.attrs exMachine.traceBase options st.events m ≠ []))
    | none => false

example : ∃ p, Whole.rawToProfiles exMachine [] 0 0 [] (fileImage (recordingOf exProcs)) = some [p] ∧ p.data.sample ≠ [] ∧
    (perfToProfile exMachine exLibrary (exPlace 3) (exFiles (fileImage (recordingOf exProcs))) [ascii "-iin", ascii "-oout"]).2 3 =
      some [1, 2, 3] := by
  have h : ((File.readBytes { env := exEnv } (fileImage (recordingOf exProcs))).bind id).map (goodB 0) = some true := by decide +kernel
  have hm : (fileImage (recordingOf exProcs)).take 8 = mark := by decide +kernel
  generalize fileImage (recordingOf exProcs) = b at *
  cases hr : File.readBytes { env := exEnv } b with
  | none => rw [hr] at h; cases h
  | some o =>
    cases o with
    | none => rw [hr] at h; cases h
    | some st =>
      rw [hr] at h
      have h : goodB 0 st = true := Option.some.inj h
      unfold goodB at h
      simp only [Bool.and_eq_true] at h
      obtain ⟨⟨h1, h2⟩, h3⟩ := h
      split at h3
      · rename_i new hn
        simp only [List.any_eq_true, decide_eq_true_eq] at h3
        exact (tool_converts_partial (M := exMachine) (a := { input := ascii "in", output := ascii "out" }) (fun _ => .refl _)
          ⟨12, by decide, rfl⟩ (by decide) ⟨rfl, rfl⟩ ⟨rfl, .inr rfl⟩ hm hr (convertible_of h1) (inOrder_of h2)
          ⟨new, hn, h3⟩ (fun p => by show 3 < 2 ^ 31 ∧ 3 ≤ 3; decide)).2
      · cases h3

/-- An output that exists is kept without `-f`, and written with it. -/
example : (perfToProfile exMachine exLibrary (exPlace 3) (exFiles (fileImage (recordingOf exProcs))) [ascii "-iin", ascii "-oout1"]).2 4 = some [7] ∧
    (perfToProfile exMachine exLibrary (exPlace 3) (exFiles (fileImage (recordingOf exProcs))) [ascii "-fiin", ascii "-oout1"]).2 4 = some [1, 2, 3] ∧
    (perfToProfile exMachine exLibrary (exPlace 3) (exFiles (fileImage (recordingOf exProcs))) [ascii "-fiin", ascii "-oin"]).2 2 = some [1, 2, 3] :=
  ⟨tool_keeps_existing rfl (fun a h => by
    have : parseArguments [ascii "-iin", ascii "-oout1"] = some { input := ascii "in", output := ascii "out1" } := by decide
    rw [this] at h; cases h; rfl), by decide +kernel, by decide +kernel⟩

/-- A recording without samples. -/
example : perfToProfile exMachine exLibrary (exPlace 3) (exFiles (fileImage (recordingOf (exProcs.take 2)))) [ascii "-iin", ascii "-oout"] =
    (.failure, exFiles (fileImage (recordingOf (exProcs.take 2)))) := by
  have h : ((File.readBytes { env := exEnv } (fileImage (recordingOf (exProcs.take 2)))).bind id).map (fun st =>
      convertibleB exMachine 0 st && inOrderB st.base.info.attrs st.events && (st.events.all (fun m =>
        (sampledIn true st.base.info.attrs exMachine.traceBase 0 st.events m).isEmpty &&
        (sampledIn false st.base.info.attrs exMachine.traceBase 0 st.events m).isEmpty))) = some true := by decide +kernel
  have hm : (fileImage (recordingOf (exProcs.take 2))).take 8 = mark := by decide +kernel
  generalize fileImage (recordingOf (exProcs.take 2)) = b at *
  cases hr : File.readBytes { env := exEnv } b with
  | none => rw [hr] at h; cases h
  | some o =>
    cases o with
    | none => rw [hr] at h; cases h
    | some st =>
      rw [hr] at h
      have h := Option.some.inj h
      simp only [Bool.and_eq_true, List.all_eq_true, List.isEmpty_iff] at h
      exact tool_no_samples (M := exMachine) (a := { input := ascii "in", output := ascii "out" }) (fun _ => .refl _)
        ⟨12, by decide, rfl⟩ (by decide) ⟨rfl, rfl⟩ hm hr (convertible_of h.1.1) (inOrder_of h.1.2) (fun new _ m hm => by
          cases new
          · exact (h.2 m hm).2
          · exact (h.2 m hm).1)

/-- Bytes that are nothing. -/
example : isMessage (ascii "PERFILE") = false ∧ File.readBytes { env := exEnv } (ascii "PERFILE") = some none :=
  ⟨by decide +kernel, by decide +kernel⟩

end

end Verif.Tool
