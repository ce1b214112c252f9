import Verif.File.Pipe2
import Verif.File.Props
import Verif.File.Safe2
import Verif.Data.Props

/-! # Properties of reading from pipes and of reading any bytes -/

namespace Verif.File
open Verif.Buffer Verif.Event Verif.Sample Verif.Attr Verif.Names Verif.Text Verif.Util Verif.Meta Verif.Serial Verif.Data

/-- C100: a recording is the same whether it comes from a file or from a pipe: the same events, the same attributes and the same metadata. -/
theorem pipe_as_file {cfg : Cfg} {x : Recording} (h : Complete cfg.env x) (hp : Pipeable x) (hskip : cfg.skip = []) :
    ∃ s t, readBytes cfg (fileImage x) = some (some s) ∧ readBytes cfg (pipeImage x) = some (some t) ∧
      t.events = s.events ∧ t.base.info = s.base.info ∧ t.base.ser = s.base.ser ∧ t.reported = s.reported ∧
      t.events = x.messages ∧ t.base.info = loaded cfg.env.md5 x := by
  obtain ⟨s, h1, h2, h3, h4, h5⟩ := read_image (tail := []) h hskip (by rw [List.append_nil]; have := h.size; omega)
  obtain ⟨t, k1, k2, k3, k4, k5⟩ := read_pipe h hp hskip
  rw [List.append_nil] at h1
  rw [h5] at k5
  exact ⟨s, t, h1, k1, by rw [k2, h2], by rw [k3, h3], (Option.some.inj k5).symm, by rw [k4, h4], k2, k3⟩

/-! ## The claims are not empty -/

theorem ex_pipeable : Pipeable exRecording where
  features := by decide +kernel
  attrs := by decide +kernel
  tracing := fun h => absurd h (by decide)
  buildIds := fun _ => by decide
  branches := by decide
  different := fun h => absurd h (by decide)
  size := by decide +kernel

example : ∃ s t, readBytes { env := exEnv, callback := true } (fileImage exRecording) = some (some s) ∧
    readBytes { env := exEnv, callback := true } (pipeImage exRecording) = some (some t) ∧
    t.events = s.events ∧ t.base.info = s.base.info ∧ t.base.ser = s.base.ser ∧ t.reported = s.reported ∧
    t.events = exRecording.messages ∧ t.base.info = loaded exEnv.md5 exRecording :=
  pipe_as_file (cfg := { env := exEnv, callback := true }) ex_complete ex_pipeable rfl

/-- Five of the features have records, and so have the attributes, the build IDs and the events. -/
example : (pipeFeatures exRecording.info, exRecording.info.attrs.length, exRecording.info.buildIds.length, exRecording.events.length) =
    ([3, 7, 11, 12, 14], 2, 2, 3) := by decide

/-- A recording without the description of events. -/
def exPlain : Recording := { exRecording with info := { exMetadata with mask := exMetadata.mask - 2 ^ 12, eventTypes := [] } }

theorem ex_plain_pipeable : Pipeable exPlain where
  features := by decide +kernel
  attrs := by decide +kernel
  tracing := fun h => absurd h (by decide)
  buildIds := fun _ => by decide
  branches := by decide
  different := fun _ => ⟨by decide, by
    show exAttrs.Pairwise _
    unfold exAttrs SameAttr
    simp⟩
  size := by decide +kernel

theorem ex_plain_faithful : Faithful exEnv.md5 exPlain.info where
  mask := fun b hb => ex_faithful.mask b (by
    have e : exPlain.info.mask = exPlain.info.mask &&& exMetadata.mask := by decide
    rw [e, Nat.testBit_and, Bool.and_eq_true] at hb
    exact hb.2)
  tracing := ex_faithful.tracing
  buildIds := ex_faithful.buildIds
  hostname := ex_faithful.hostname
  osrelease := ex_faithful.osrelease
  version := ex_faithful.version
  arch := ex_faithful.arch
  cpudesc := ex_faithful.cpudesc
  cpuid := ex_faithful.cpuid
  cmdline := ex_faithful.cmdline
  nrcpus := ex_faithful.nrcpus
  memory := ex_faithful.memory
  events := fun h => absurd h (by decide)
  topology := ex_faithful.topology
  numa := ex_faithful.numa
  pmus := ex_faithful.pmus
  groups := ex_faithful.groups
  hybrids := ex_faithful.hybrids

theorem ex_plain_complete : Complete exEnv exPlain where
  info := ex_plain_faithful
  attrs := ex_complete.attrs
  places := ex_complete.places
  names := fun _ => rfl
  events := fun e he =>
    have h := ex_complete.events e he
    ⟨h.recorded, h.message, h.trace, h.kernel, h.timeout⟩
  size := by decide +kernel

example : ∃ s t, readBytes { env := exEnv } (fileImage exPlain) = some (some s) ∧
    readBytes { env := exEnv } (pipeImage exPlain) = some (some t) ∧
    t.events = s.events ∧ t.base.info = s.base.info ∧ t.base.ser = s.base.ser ∧ t.reported = s.reported ∧
    t.events = exPlain.messages ∧ t.base.info = loaded exEnv.md5 exPlain :=
  pipe_as_file (cfg := { env := exEnv }) ex_plain_complete ex_plain_pipeable rfl

/-- Any text that is not a recording, bytes that end early, and a recording with another byte order meet the conditions of `read_safe_partial`. -/
example : ([1, 2, 3] : Serial.Bytes).length < 2 ^ 63 ∧ readBytes { env := exEnv } [1, 2, 3] = some none := by
  refine ⟨by decide, ?_⟩
  have h : ∀ y : Option (Option Data.St), y.map (·.isSome) = some false → y = some none := by
    intro y
    match y with
    | none => intro h; cases h
    | some none => intro _; rfl
    | some (some _) => intro h; cases h
  exact h _ (by decide +kernel)

/-! ## Where it fails -/

/-- The head of a pipe. -/
def pipeHead : Serial.Bytes := toLE 8 magic ++ toLE 8 16

/-- One feature: a kind of CPU with the numbers `0-4294967295`. -/
def endlessPipe : Serial.Bytes := pipeHead ++ pipeRecord 80 0 (toLE 8 30 ++ toLE 4 1 ++ toLE 4 1 ++ [99] ++ toLE 4 12 ++
    [48, 45, 52, 50, 57, 52, 57, 54, 55, 50, 57, 53])

/-- C101 fails: 57 bytes whose reading does not end. -/
theorem read_endless_violated : endlessPipe.length = 57 ∧ readBytes { env := exEnv } endlessPipe = none := by decide +kernel

/-- An attribute, and the metadata of a program whose number of entries is larger than the record. -/
def outsidePipe : Serial.Bytes := pipeHead ++ (exAttrs.take 1).flatMap (fun f => pipeRecord 64 0 (attrBody f)) ++ recordBytes hugeBpf

/-- C101 fails: a recording whose reading leaves the memory of an event. -/
theorem read_outside_violated : readBytes { env := exEnv } outsidePipe = none := by
  have h : ∀ y : Option (Option Data.St), y.isNone = true → y = none := by intro y; cases y <;> simp
  exact h _ (by decide +kernel)

/-- Two records, an attribute with 4 bytes behind its ids, and an event of finished rounds. -/
def oddPipe (rest : Serial.Bytes) : Serial.Bytes :=
  pipeHead ++ (exAttrs.take 1).flatMap (fun f => pipeRecord 64 0 (attrBody f ++ rest)) ++ [68, 0, 0, 0, 0, 0, 8, 0]

/-- C100 fails for attributes with bytes behind them that are not a multiple of 8: they are not passed over, although the size of the record
counts them, and what follows is not understood. -/
theorem pipe_rest_violated : (readBytes { env := exEnv } (oddPipe [])).map (fun s => s.map (fun s => s.events.map (·.type))) = some (some [68]) ∧
    (readBytes { env := exEnv } (oddPipe [0, 0, 0, 0])).map (fun s => s.map (fun s => s.events.map (·.type))) = some none := by
  decide +kernel

/-- C100 fails for a pipe with nothing in it: the reader says that it has descriptions of events. -/
theorem pipe_empty_violated : (readBytes { env := exEnv } pipeHead).map (fun s => s.map (fun s =>
    (s.base.info.mask.testBit 12, s.base.info.eventTypes.length, s.base.info.attrs.length))) = some (some (true, 0, 0)) := by decide +kernel

end Verif.File
