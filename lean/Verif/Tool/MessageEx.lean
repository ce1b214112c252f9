import Verif.Tool.Messages
import Verif.Tool.Props

/-!
# Messages: examples, counters and options
-/

namespace Verif.Tool
open Verif.Serial (Msg)
open Verif.Whole (Machine)

section
open Verif.File (fileImage exRecording exMetadata)
open Verif.Whole (exMachine recordingOf exProcs steadyB steady_of)
open Verif.Serial (exEnv exMsg exSample exInfo)

/-- The round trip of a recording with metadata, a mapping, a sample and the data of a tracing unit. -/
example (now : Nat) : ∃ m b st, serializeFrom exMachine {} now (fileImage exRecording) = some (some m) ∧ deserializeTo exMachine m = some (some b) ∧
    File.readBytes { env := exEnv } b = some (some st) ∧ Whole.Timeline exMetadata.attrs exRecording.messages st.events ∧
    ∃ y : File.Recording, y.info = File.loaded exEnv.md5 exRecording ∧ y.messages = st.events ∧ st.base.info = File.loaded exEnv.md5 y :=
  message_round_trip (M := exMachine) (fun _ => .refl _) ⟨12, by decide, rfl⟩ now File.ex_complete (steady_of (by decide +kernel))
    (show Whole.Tidy 4096 exRecording.messages by decide +kernel)
    (fun m hm s hs => by
      simp only [File.Recording.messages, exRecording, List.map_cons, List.map_nil, List.mem_cons, List.not_mem_nil, or_false] at hm
      rcases hm with rfl | rfl | rfl
      · cases hs
      · cases hs; decide
      · cases hs)
    (fun _ => by decide) (by decide +kernel) (by decide +kernel)

/-- What the message counts, and the order of its events: the data of the tracing unit has no time and comes first. -/
example : ((serializeFrom exMachine {} 5 (fileImage exRecording)).bind id).map (fun m => (m.stats, m.time, m.events.map (·.type))) =
    some (some { samples := 1, mmaps := 1, forks := 0, exits := 0, remapped := false, mapped := 0 }, some 5, [71, 10, 9]) := by decide +kernel

/-- Bytes that are no recording. -/
example : serializeFrom exMachine {} 5 (ascii "PERFILE") = some none := message_refused (by decide +kernel)

/-! ## Counters -/

/-- C117: the counters of a message are those of the parser, as far as a message has them: they come back with `DeserializeParserStats`. -/
theorem counters_kept_partial (s s' : Parser.Stats) (remapped : Bool) (m : Message) :
    let r := deserializeStats (serializeStats s remapped m) s'
    r.1.samples = s.samples ∧ r.1.mmaps = s.mmaps ∧ r.1.forks = s.forks ∧ r.1.exits = s.exits ∧ r.1.mapped = s.mapped ∧ r.2 = remapped :=
  ⟨rfl, rfl, rfl, rfl, rfl, rfl⟩

/-- C117 fails for the other counters: names, symbols of the kernel and data addresses that were counted are not in the message, and what was
counted before it stays. -/
theorem counters_lost_violated (s s' : Parser.Stats) (remapped : Bool) (m : Message) :
    let r := deserializeStats (serializeStats s remapped m) s'
    r.1.comms = s'.comms ∧ r.1.ksymbols = s'.ksymbols ∧ r.1.dataSamples = s'.dataSamples ∧ r.1.dataMapped = s'.dataMapped :=
  ⟨rfl, rfl, rfl, rfl⟩

/-! ## Options -/

/-- The options that a message gives are those it names. -/
theorem options_meaning (o : OptsMessage) : (∀ b, o.remap = some b → o.options.remap = b) ∧ (∀ b, o.discard = some b → o.options.discard = b) ∧
    (∀ b, o.sort = some b → o.options.sort = b) ∧ (∀ b, o.huge = some b → o.options.huge = b) ∧ (∀ b, o.combine = some b → o.options.combine = b) ∧
    o.options.jit = false := by
  refine ⟨?_, ?_, ?_, ?_, ?_, rfl⟩ <;> intro b hb <;> unfold OptsMessage.options <;> simp [hb]

/-- C117 fails for options that are not named: they should be the usual ones, but a message of options that names none asks for the events not to be
put in order, and the message that is made is another. -/
theorem options_default_violated : ({} : OptsMessage).options = { ({} : ParseOpts) with sort := false } ∧
    ((serializeFrom exMachine {} 5 (fileImage exRecording)).bind id).map (fun m => m.events.map (·.type)) = some [71, 10, 9] ∧
    ((serializeFrom exMachine ({} : OptsMessage).options 5 (fileImage exRecording)).bind id).map (fun m => m.events.map (·.type)) = some [10, 9, 71] :=
  ⟨by decide, by decide +kernel, by decide +kernel⟩

/-! ## Samples without addresses -/

/-- An event whose samples tell process and time only. -/
def exBare : File.Recording where
  info := { mask := 0, attrs := [⟨{ size := 96, sampleType := 2 + 4 }, [5]⟩] }
  events := [(⟨{ size := 96, sampleType := 2 + 4 }, [5]⟩, { type := 9, misc := 2, size := 24, body := .sample { pid := some 10, tid := some 11, time := some 7 }, timestamp := 7 })]

/-- The addresses of the samples. -/
def addresses (l : List Msg) : List (Option Nat) := l.filterMap fun m => match m.body with | .sample s => some s.ip | _ => none

/-- C117 fails for a sample without an address: in the message it has one, 0. -/
theorem address_invented_violated :
    ((File.readBytes { env := exEnv } (fileImage exBare)).bind id).map (fun st => addresses st.events) = some [none] ∧
    ((serializeFrom exMachine {} 5 (fileImage exBare)).bind id).map (fun m => addresses m.events) = some [some 0] :=
  ⟨by decide +kernel, by decide +kernel⟩

end
end Verif.Tool
