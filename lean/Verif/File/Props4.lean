import Verif.File.Match
import Verif.File.Props3

/-! # Properties of recordings of the old form -/

namespace Verif.File
open Verif.Buffer Verif.Event Verif.Sample Verif.Attr Verif.Names Verif.Text Verif.Util Verif.Meta Verif.Serial Verif.Data

/-- C103: a file in which the names of the events have a section of their own is the same as a file with a description of the events. -/
theorem old_as_new {cfg : Cfg} {x : Recording} {names : List Serial.Bytes} (h : Complete cfg.env x) (hn : OldNames 64 x names)
    (hnew : Complete cfg.env (named x names)) (hskip : cfg.skip = []) :
    ∃ s t, readBytes cfg (fileImage (named x names)) = some (some s) ∧ readBytes cfg (oldFile x names) = some (some t) ∧
      t.events = s.events ∧ t.base.info = s.base.info ∧ t.base.ser = s.base.ser ∧ t.reported = s.reported ∧
      t.events = x.messages ∧ t.base.info = loaded cfg.env.md5 (named x names) := by
  obtain ⟨s, h1, h2, h3, h4, h5⟩ := read_image (tail := []) hnew hskip (by rw [List.append_nil]; have := hnew.size; omega)
  obtain ⟨t, k1, k2, k3, k4, k5⟩ := read_old h hn hskip
  rw [List.append_nil] at h1
  have k5 : registerAll {} false ((named x names).info.attrs.map deserializeFileAttr) = some t.base.ser := k5
  rw [h5] at k5
  exact ⟨s, t, h1, k1, by rw [k2, h2]; rfl, by rw [k3, h3], (Option.some.inj k5).symm, by rw [k4, h4]; rfl, k2, k3⟩

/-- C103: so is a pipe in which each name has a record of its own. -/
theorem old_pipe_as_new {cfg : Cfg} {x : Recording} {names : List Serial.Bytes} {n : Nat} (h : Complete cfg.env x) (hp : Pipeable x)
    (hn : OldNames n x names) (hr : 16 + n < 2 ^ 16) (hsz : (oldPipe n x names).length < 2 ^ 63)
    (hnew : Complete cfg.env (named x names)) (hskip : cfg.skip = []) :
    ∃ s t, readBytes cfg (fileImage (named x names)) = some (some s) ∧ readBytes cfg (oldPipe n x names) = some (some t) ∧
      t.events = s.events ∧ t.base.info = s.base.info ∧ t.base.ser = s.base.ser ∧ t.reported = s.reported ∧
      t.events = x.messages ∧ t.base.info = loaded cfg.env.md5 (named x names) := by
  obtain ⟨s, h1, h2, h3, h4, h5⟩ := read_image (tail := []) hnew hskip (by rw [List.append_nil]; have := hnew.size; omega)
  obtain ⟨t, k1, k2, k3, k4, k5⟩ := read_old_pipe h hp hn hr hsz hskip
  rw [List.append_nil] at h1
  have k5 : registerAll {} false ((named x names).info.attrs.map deserializeFileAttr) = some t.base.ser := k5
  rw [h5] at k5
  exact ⟨s, t, h1, k1, by rw [k2, h2]; rfl, by rw [k3, h3], (Option.some.inj k5).symm, by rw [k4, h4]; rfl, k2, k3⟩

/-- C104: after any file was read (its second word, the size of the header, is not that of a pipe), the names of the events are those of the
attributes: the name at each place carries the configuration of the attribute at this place; or there are no names. If there are names, the
feature that describes the events is there. -/
theorem file_names_match {cfg : Cfg} {b : Serial.Bytes} {st : Data.St} (hb : b.length < 2 ^ 63)
    (hfile : ∀ foreign, decodeInt foreign ((b.drop 8).take 8) ≠ 16) (h : readBytes cfg b = some (some st)) :
    (st.base.info.eventTypes = [] ∨ st.base.info.eventTypes.map (·.1) = st.base.info.attrs.map (·.attr.config)) ∧
    (st.base.info.eventTypes ≠ [] → st.base.info.mask.testBit 12 = true) := file_names hb hfile h

/-- C101: in a pipe, a record of a feature that is too small for its header and the number of the feature is refused: reading fails, whatever
the bytes and the state are. -/
theorem short_feature_refused {cfg : Cfg} {st : Data.St} {n : Nat} {r r' : Reader} {h : Header}
    (hh : readEventHeader r = some (some h, r')) (ht : h.type = 80) (hs : h.size < 16) :
    ∃ r'', readPipedRecord cfg st n r = some (none, r'') := by
  unfold readPipedRecord
  rw [bind_of hh]
  simp only [ht]
  rw [if_neg (by decide), if_neg (by decide), if_neg (by decide), if_neg (by decide), if_pos True.intro]
  unfold readHeaderFeature
  rw [if_pos hs]
  exact ⟨_, rfl⟩

/-- C99: the header of a file that is written names those features of the recording that are written, and no other, whatever the features
of the recording are. -/
theorem features_named (i : Info) (events : List Msg) (b : Nat) :
    (generateHeader i events).mask.testBit b = true ↔ i.mask.testBit b = true ∧ (1 ≤ b ∧ b ≤ 17 ∨ b = 30) := by
  unfold generateHeader
  simp only
  rw [Nat.testBit_and, Bool.and_eq_true, supported_bit, decide_eq_true_iff]
  have : b ∈ Meta.known ↔ (1 ≤ b ∧ b ≤ 17 ∨ b = 30) := by
    unfold Meta.known
    simp only [List.mem_cons, List.not_mem_nil, or_false]
    omega
  rw [this]

/-! ## The claims are not empty -/

/-- A record of 12 bytes. -/
example : ∃ h r', readEventHeader ⟨[80, 0, 0, 0, 0, 0, 12, 0, 1, 2, 3, 4], 12, 0, false⟩ = some (some h, r') ∧ h.type = 80 ∧ h.size < 16 :=
  ⟨⟨80, 0, 12⟩, _, rfl, rfl, by decide⟩

/-- A feature that is known and one that is not. -/
example : (generateHeader { exMetadata with mask := 2 ^ 3 + 2 ^ 40 } []).mask = 2 ^ 3 := by decide

def exNames : List Serial.Bytes := [ascii "cycles", ascii "faults"]

theorem ex_named : named exPlain exNames = exRecording := by
  have e1 : exPlain.info.mask ||| 2 ^ 12 = exMetadata.mask := by decide
  unfold named
  rw [e1]
  rfl

theorem ex_old : OldNames 64 exPlain exNames where
  old := by decide
  some := by decide
  one := rfl
  few := by decide
  text := by decide

example : ∃ s t, readBytes { env := exEnv } (fileImage exRecording) = some (some s) ∧
    readBytes { env := exEnv } (oldFile exPlain exNames) = some (some t) ∧
    t.events = s.events ∧ t.base.info = s.base.info ∧ t.base.ser = s.base.ser ∧ t.reported = s.reported ∧
    t.events = exPlain.messages ∧ t.base.info = loaded exEnv.md5 exRecording := by
  have := old_as_new (cfg := { env := exEnv }) ex_plain_complete ex_old (by rw [ex_named]; exact ex_complete) rfl
  rw [ex_named] at this
  exact this

example : ∃ s t, readBytes { env := exEnv } (fileImage exRecording) = some (some s) ∧
    readBytes { env := exEnv } (oldPipe 64 exPlain exNames) = some (some t) ∧
    t.events = s.events ∧ t.base.info = s.base.info ∧ t.base.ser = s.base.ser ∧ t.reported = s.reported ∧
    t.events = exPlain.messages ∧ t.base.info = loaded exEnv.md5 exRecording := by
  have := old_pipe_as_new (cfg := { env := exEnv }) (n := 64) ex_plain_complete ex_plain_pipeable ex_old (by decide) (by decide +kernel)
    (by rw [ex_named]; exact ex_complete) rfl
  rw [ex_named] at this
  exact this

/-- A file with two names. -/
example : ∃ st, readBytes { env := exEnv } (oldFile exPlain exNames) = some (some st) ∧ st.base.info.eventTypes.length = 2 ∧
    (oldFile exPlain exNames).length < 2 ^ 63 ∧ ∀ foreign, decodeInt foreign (((oldFile exPlain exNames).drop 8).take 8) ≠ 16 := by
  obtain ⟨st, h1, -, h2, -⟩ := read_old (cfg := { env := exEnv }) ex_plain_complete ex_old rfl
  rw [ex_named] at h2
  refine ⟨st, h1, by rw [h2]; rfl, by decide +kernel, ?_⟩
  intro foreign
  cases foreign <;> decide +kernel

/-! ## Where it fails -/

/-- A pipe with a description of the events, and the name of the first event once more. -/
def twicePipe : Serial.Bytes :=
  pipeHead ++ pipeRecord 80 0 (featureBody exMetadata 12) ++ pipeRecord 65 0 (nameImage 8 (1, ascii "cycles"))

/-- C104 fails for pipes: there are three names for two attributes, and the third has the configuration of the first attribute. -/
theorem pipe_names_violated : (readBytes { env := exEnv } twicePipe).map (fun s => s.map (fun s =>
    (s.base.info.attrs.map (·.attr.config), s.base.info.eventTypes.map (·.1)))) = some (some ([1, 2], [1, 2, 1])) := by
  decide +kernel

end Verif.File
