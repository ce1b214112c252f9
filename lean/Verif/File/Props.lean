import Verif.File.Read2
import Verif.Serial.Props

/-! # Properties of reading and writing whole recordings -/

namespace Verif.File
open Verif.Buffer Verif.Event Verif.Sample Verif.Attr Verif.Names Verif.Text Verif.Util Verif.Meta Verif.Serial Verif.Data

theorem le_sum {α : Type} {f : α → Nat} : ∀ {l : List α} {a : α}, a ∈ l → f a ≤ (l.map f).sum
  | b :: l, a, h => by
    rw [List.map_cons, List.sum_cons]
    rcases List.mem_cons.mp h with rfl | h
    · omega
    · have := le_sum (f := f) h; omega

theorem unstored_eq {i : Info} (h : unstored i < 2 ^ 62) : (if i.mask.testBit 2 then 0 else buildIdSize i) = unstored i := by
  unfold unstored at *
  split
  · rfl
  · rename_i h2
    rw [if_neg h2] at h
    unfold buildIdSize
    congr 1
    apply List.map_congr_left
    intro b hb
    have := le_sum (f := fun b : BuildId => 36 + (b.filename.length / 8 + 1) * 8) hb
    rw [padded_eq (by omega)]

/-- The space reserved. -/
theorem spare_eq {env : Serial.Env} {x : Recording} (h : Complete env x) (hcmd : x.info.mask.testBit 11 = true → x.info.cmdTokens ≠ [])
    (hsp : spare x.info < 2 ^ 62) :
    metadataSize x.info = (metadataImage false (stored x.info) (dataAt x + (dataImage x).length)).length + spare x.info := by
  have h1 := metadata_size env.md5 (stored x.info) (dataAt x + (dataImage x).length) h.info hcmd
  have h2 := metadataSize_stored x.info
  have hu : unstored x.info < 2 ^ 62 := by unfold spare at hsp; omega
  rw [unstored_eq hu] at h2
  unfold spare
  change metadataSize (stored x.info) = _ + (if x.info.mask.testBit 13 then 0 else 8) +
      (if x.info.mask.testBit 14 then 0 else 4) + (if x.info.mask.testBit 16 then 0 else 4) + (if x.info.mask.testBit 17 then 0 else 4) +
      (if x.info.mask.testBit 30 then 0 else 4) at h1
  omega

/-- C48: the size announced for a file is the size of the file plus the bytes that are not used. -/
theorem file_size {env : Serial.Env} {x : Recording} (h : Complete env x) (hcmd : x.info.mask.testBit 11 = true → x.info.cmdTokens ≠ [])
    (hsp : spare x.info < 2 ^ 62) : fileSize x.info x.messages = (fileImage x).length + spare x.info := by
  obtain ⟨h1, h2, h3, h4, h5, h6⟩ := image_lengths x
  have hsz := h.size
  have hm := spare_eq h hcmd hsp
  unfold fileSize
  rw [header_fields h]
  simp only
  omega

theorem overwrite_front {a b : Serial.Bytes} : overwrite (b) 0 a = a ++ b.drop a.length := by
  simp [overwrite]

/-- C48: writing a recording to a vector or a string yields exactly the bytes of the recording, followed by the unused bytes. -/
theorem write_file {env : Serial.Env} {x : Recording} (h : Complete env x) {ser : Ser}
    (hs : registerAll {} false (x.info.attrs.map deserializeFileAttr) = some ser)
    (hcmd : x.info.mask.testBit 11 = true → x.info.cmdTokens ≠ []) (hsp : spare x.info < 2 ^ 62) :
    writeBytes env ser x.info x.messages = some (some (fileImage x ++ List.replicate (spare x.info) 0)) := by
  obtain ⟨h1, h2, h3, h4, h5, h6⟩ := image_lengths x
  have hsz := h.size
  have hf := file_size h hcmd hsp
  have hm := spare_eq h hcmd hsp
  unfold writeBytes
  rw [hf, if_neg (by omega), write_all h hs hcmd (by rw [List.length_replicate]; omega) (by rw [List.length_replicate]; omega)]
  unfold outcomeOf
  simp only [Option.map_some]
  rw [overwrite_front, List.drop_replicate, Nat.add_sub_cancel_left]

/-- C48: memory that is too small for the announced size is refused before anything is written; otherwise the bytes of the recording are
written to its front, and the rest of the memory is unchanged. -/
theorem write_pointer {env : Serial.Env} {x : Recording} (h : Complete env x) {ser : Ser}
    (hs : registerAll {} false (x.info.attrs.map deserializeFileAttr) = some ser)
    (hcmd : x.info.mask.testBit 11 = true → x.info.cmdTokens ≠ []) (hsp : spare x.info < 2 ^ 62) (buf : Serial.Bytes)
    (hb : buf.length < 2 ^ 63) :
    writePointer env ser x.info x.messages buf =
      if buf.length < (fileImage x).length + spare x.info then some none
      else some (some (fileImage x ++ buf.drop (fileImage x).length)) := by
  obtain ⟨h1, h2, h3, h4, h5, h6⟩ := image_lengths x
  have hf := file_size h hcmd hsp
  have hm := spare_eq h hcmd hsp
  unfold writePointer
  rw [hf]
  split
  · rfl
  · rw [write_all h hs hcmd hb (by omega)]
    unfold outcomeOf
    simp only [Option.map_some]
    rw [overwrite_front]

/-- C48, C28, C44: a recording that is written and read again has the same events in the same order, the same samples are reported, and the
same is known beside the events: only build IDs that the file does not hold are missing, and the build IDs in the mappings are added. -/
theorem file_round_trip {cfg : Cfg} {x : Recording} (h : Complete cfg.env x) (hskip : cfg.skip = []) {ser : Ser}
    (hs : registerAll {} false (x.info.attrs.map deserializeFileAttr) = some ser)
    (hcmd : x.info.mask.testBit 11 = true → x.info.cmdTokens ≠ []) (hsp : spare x.info < 2 ^ 62) :
    ∃ b st, writeBytes cfg.env ser x.info x.messages = some (some b) ∧ readBytes cfg b = some (some st) ∧
      st.events = x.messages ∧ st.base.info = loaded cfg.env.md5 x ∧
      st.reported = (if cfg.callback then samplesOf x.messages else []) ∧ st.base.ser = ser := by
  have hsz := h.size
  obtain ⟨st, h1, h2, h3, h4, h5⟩ := read_image h hskip (tail := List.replicate (spare x.info) 0)
    (by rw [List.length_append, List.length_replicate]; omega)
  refine ⟨_, st, write_file h hs hcmd hsp, h1, h2, h3, h4, ?_⟩
  rw [hs] at h5
  exact (Option.some.inj h5).symm

/-- C48: nothing at all changes if the file holds the build IDs and no mapping has one. -/
theorem file_round_trip_exact {cfg : Cfg} {x : Recording} (h : Complete cfg.env x) (hskip : cfg.skip = []) {ser : Ser}
    (hs : registerAll {} false (x.info.attrs.map deserializeFileAttr) = some ser)
    (hcmd : x.info.mask.testBit 11 = true → x.info.cmdTokens ≠ []) (hsp : spare x.info < 2 ^ 62)
    (hids : x.info.mask.testBit 2 = false → x.info.buildIds = [])
    (hno : ∀ m ∈ x.messages, ∀ p, m.body = .mmap p → p.buildId = none) :
    ∃ b st, writeBytes cfg.env ser x.info x.messages = some (some b) ∧ readBytes cfg b = some (some st) ∧
      st.events = x.messages ∧ st.base.info = x.info := by
  obtain ⟨b, st, h1, h2, h3, h4, -⟩ := file_round_trip h hskip hs hcmd hsp
  refine ⟨b, st, h1, h2, h3, h4.trans ?_⟩
  have hm : ∀ (l : List Msg) named, (∀ m ∈ l, ∀ p, m.body = .mmap p → p.buildId = none) → mappedIds cfg.env.md5 named l = [] := by
    intro l
    induction l with
    | nil => intro named _; rfl
    | cons m l ih =>
      intro named hl
      have : mappedId cfg.env.md5 m = none := by
        unfold mappedId
        split
        · rename_i p hp
          rw [hl m (List.mem_cons_self ..) p hp]
        · rfl
      rw [mappedIds, this]
      exact ih named fun m hm => hl m (List.mem_cons_of_mem _ hm)
  have hst : stored x.info = x.info := by
    unfold stored
    split
    · rfl
    · rename_i h2
      rw [← hids (by simpa using h2)]
  unfold loaded
  rw [hm _ _ hno, List.append_nil, hst]

/-! ## Again and again -/

theorem mappedId_ok {env : Serial.Env} {i : Info} {f : FileAttr} {m : Msg} {b : BuildId} (h : EventOk env i f m)
    (hb : mappedId env.md5 m = some b) : BuildIdOk env.md5 b := by
  unfold mappedId at hb
  split at hb
  · rename_i p hp
    split at hb
    · rename_i hx hi
      simp only [Option.some.injEq] at hb
      have hbody := h.message.body
      rw [bare_body.mpr hp] at hbody
      have hmisc : m.misc < 2 ^ 16 := by rw [← (bare_same m).2.1]; exact h.message.misc
      obtain ⟨-, -, -, -, -, ⟨⟨hn1, hn2⟩, -⟩, hc⟩ := hbody
      rcases hc with ⟨-, -, -, -, -, -, -, hno⟩ | ⟨-, -, -, -, hs⟩
      · rw [hi] at hno; cases hno
      · rw [hi] at hs
        obtain ⟨-, -, -, -, id, hl, rfl⟩ := hs
        subst hb
        refine ⟨hmisc, (show 2 ^ 32 - 1 < 2 ^ 32 by decide), ?_, hn1, hn2, rfl, ?_, rfl⟩
        · rw [unhex_hex]
          exact (withoutZeros_length _ (zeroPad_length hl) 5 (by omega)).2.1
        · simp only
          split
          · exact ⟨0, rfl, by decide⟩
          · rfl
    · cases hb
  · cases hb

theorem mappedIds_mem {md5 : Serial.Bytes → Nat} : ∀ {l : List Msg} {named : List Serial.Bytes} {b : BuildId},
    b ∈ mappedIds md5 named l → ∃ m ∈ l, mappedId md5 m = some b
  | m :: l, named, b, h => by
    rw [mappedIds] at h
    have ih : ∀ named', b ∈ mappedIds md5 named' l → ∃ m' ∈ m :: l, mappedId md5 m' = some b := fun named' h => by
      obtain ⟨m', h1, h2⟩ := mappedIds_mem h
      exact ⟨m', List.mem_cons_of_mem _ h1, h2⟩
    split at h
    · rename_i b' hb'
      split at h
      · exact ih _ h
      · rcases List.mem_cons.mp h with rfl | h
        · exact ⟨m, List.mem_cons_self .., hb'⟩
        · exact ih _ h
    · exact ih _ h

/-- The recording that was read. -/
def again (md5 : Serial.Bytes → Nat) (x : Recording) : Recording := ⟨loaded md5 x, x.events⟩

/-- C48: what was read can be written again, as long as it is not too big. -/
theorem complete_again {env : Serial.Env} {x : Recording} (h : Complete env x) (hsz : (fileImage (again env.md5 x)).length < 2 ^ 62) :
    Complete env (again env.md5 x) where
  info := by
    have hi := h.info
    refine ⟨hi.mask, hi.tracing, ?_, hi.hostname, hi.osrelease, hi.version, hi.arch, hi.cpudesc, hi.cpuid, hi.cmdline, hi.nrcpus, hi.memory,
      hi.events, hi.topology, hi.numa, hi.pmus, hi.groups, hi.hybrids⟩
    have hb := hi.buildIds
    show if x.info.mask.testBit 2 then _ else _
    change (if x.info.mask.testBit 2 then _ else _) at hb
    split
    · rename_i h2
      rw [if_pos h2] at hb
      intro b hmem
      have e : (stored (again env.md5 x).info).buildIds = (stored x.info).buildIds ++ mappedIds env.md5 [] x.messages := by
        show (if x.info.mask.testBit 2 then _ else _) = _
        rw [if_pos h2]; rfl
      rw [e, List.mem_append] at hmem
      rcases hmem with hmem | hmem
      · exact hb b hmem
      · obtain ⟨m, hm1, hm2⟩ := mappedIds_mem hmem
        obtain ⟨e, he, rfl⟩ := List.mem_map.mp hm1
        exact mappedId_ok (h.events e he) hm2
    · rename_i h2
      show (if x.info.mask.testBit 2 then _ else _) = _
      rw [if_neg h2]
  attrs := h.attrs
  places := h.places
  names := h.names
  events := fun e he => by
    obtain ⟨a, b, c, d, f⟩ := h.events e he
    exact ⟨a, b, c, d, f⟩
  size := hsz

/-- C48: without the feature of build IDs, reading and writing again changes nothing more. -/
theorem again_stable {md5 : Serial.Bytes → Nat} {x : Recording} (h2 : x.info.mask.testBit 2 = false) : loaded md5 (again md5 x) = loaded md5 x := by
  have h2' : (loaded md5 x).mask.testBit 2 = false := h2
  unfold loaded at *
  unfold stored again loaded stored Recording.messages
  simp only [h2, Bool.false_eq_true, if_false, List.nil_append]

/-- C48 fails with it: each time a recording is written and read, the build IDs in its mappings are added once more. -/
theorem again_grows_violated {md5 : Serial.Bytes → Nat} {x : Recording} (h2 : x.info.mask.testBit 2 = true) :
    (loaded md5 x).buildIds = x.info.buildIds ++ mappedIds md5 [] x.messages ∧
    (loaded md5 (again md5 x)).buildIds = x.info.buildIds ++ mappedIds md5 [] x.messages ++ mappedIds md5 [] x.messages := by
  have e : (loaded md5 x).buildIds = x.info.buildIds ++ mappedIds md5 [] x.messages := by
    unfold loaded stored
    simp only [h2, if_true]
  refine ⟨e, ?_⟩
  unfold loaded stored
  simp only [show (again md5 x).info.mask.testBit 2 = true from h2, if_true]
  rw [show (again md5 x).info.buildIds = (loaded md5 x).buildIds from rfl, e]
  rfl

/-! ## Example -/

/-- Two attributes: `cycles` with the ids 5 and 6, and `faults` with the id 7. -/
def exAttrs : List ProtoFileAttr :=
  [⟨{ type := 0, size := 96, config := 1, samplePeriod := 1000, readFormat := 1 + 2 + 4 + 8, branchSampleType := 2 ^ 17, flags := 2 ^ 18,
      sampleType := 1 + 2 + 4 + 8 + 16 + 32 + 64 + 128 + 256 + 512 + 1024 + 2048 + 16384 + 2 ^ 19 }, [5, 6]⟩,
   ⟨{ type := 1, size := 96, config := 2, sampleType := 1 + 2 + 4 + 8 + 64 + 128 + 512, flags := 2 ^ 18 }, [7]⟩]
def exFileSer : Ser := (registerAll {} false (exAttrs.map deserializeFileAttr)).getD {}
def exFile : FileAttr := (exAttrs.map deserializeFileAttr).headD ⟨{}, []⟩

/-- Build IDs, host name, number of CPUs, command line, names of the events, NUMA nodes. -/
def exMetadata : Info where
  mask := 2 ^ 2 + 2 ^ 3 + 2 ^ 7 + 2 ^ 11 + 2 ^ 12 + 2 ^ 14
  buildIds := [⟨2, 7, [1, 2, 3, 4, 5, 6, 7, 8], ascii "/bin/ls", 7, none, false⟩,
    ⟨1 + 2 ^ 15, 2 ^ 32 - 1, [0xde, 0xad, 0xbe, 0xef], ascii "[kernel]", 8, some 4, false⟩]
  hostname := some (ascii "host")
  cmdTokens := [ascii "perf", ascii "record", [], ascii "-a"]
  cmdWhole := some (ascii "perf record  -a")
  uint32s := [(7, [2, 4])]
  attrs := exAttrs
  eventTypes := [(1, ascii "cycles"), (2, ascii "faults")]
  numa := [⟨0, 2 ^ 34, 2 ^ 33, ascii "0-1"⟩]

/-- A mapping with a build ID, a sample, and the data of a tracing unit. -/
def exRecording : Recording where
  info := exMetadata
  events := [(exFile, exMsg MMAP2 (2 + 2 ^ 14) (.mmap exMap)), (exFile, exMsg SAMPLE 2 (.sample exSample)),
    (exFile, exMsg AUXTRACE 0 (.auxtrace { size := 3, idx := 1, trace := [7, 8, 9] }))]

theorem ex_file_recorded {b : Body}
    (h : (match b with | .sample s => s.id | b => (info b).bind (·.id)) = some 6 ∨ info b = none ∧ ∀ s, b ≠ .sample s) :
    Recorded (exAttrs.map deserializeFileAttr) exFileSer exFile b where
  reg := by decide +kernel
  mem := by decide
  all := by decide
  type := by decide
  sample := fun s hs => by
    subst hs
    rcases h with h | h
    · simp only at h
      rw [h]
      exact ⟨ex_supported true, by unfold Owned; decide⟩
    · exact absurd rfl (h.2 s)
  info := fun i hi _ => by
    rcases h with h | h
    · have : i.id = some 6 := by
        cases b <;> simp only [info, Option.some.injEq, reduceCtorEq] at hi <;> subst hi <;> exact h
      rw [this]
      exact ⟨ex_supported false, by unfold Owned; decide⟩
    · rw [h.1] at hi; cases hi

theorem ex_faithful : Faithful exEnv.md5 exMetadata where
  mask := by
    intro b hb
    have h : supported.testBit b = true := by
      have e : exMetadata.mask = exMetadata.mask &&& supported := by decide
      rw [e, Nat.testBit_and, Bool.and_eq_true] at hb
      exact hb.2
    rw [supported_bit] at h
    exact of_decide_eq_true h
  tracing := rfl
  buildIds := by
    show ∀ b ∈ exMetadata.buildIds, BuildIdOk exEnv.md5 b
    intro b hb
    simp only [exMetadata, List.mem_cons, List.not_mem_nil, or_false] at hb
    rcases hb with rfl | rfl
    · refine ⟨by decide, by decide, ⟨by decide, by decide, by decide⟩, by decide, by decide, rfl, ?_, rfl⟩
      rw [if_neg (by decide)]
    · refine ⟨by decide, by decide, ⟨by decide, by decide, by decide⟩, by decide, by decide, rfl, ?_, rfl⟩
      rw [if_pos (by decide)]
      exact ⟨4, rfl, by decide⟩
  hostname := ⟨_, rfl, by unfold Plain; decide⟩
  osrelease := rfl
  version := rfl
  arch := rfl
  cpudesc := rfl
  cpuid := rfl
  cmdline := ⟨by unfold Texts Plain; decide, by decide⟩
  nrcpus := ⟨_, rfl, by decide, by decide⟩
  memory := rfl
  events := fun _ => by
    refine ⟨rfl, by decide, ?_, by decide⟩
    unfold AttrOk Plain
    decide
  topology := rfl
  numa := by
    show _ ∧ _
    unfold Plain
    decide
  pmus := rfl
  groups := rfl
  hybrids := rfl

theorem ex_complete : Complete exEnv exRecording where
  info := ex_faithful
  attrs := by
    show ∀ f ∈ exAttrs, _
    unfold AttrOk
    decide
  places := by
    show ∀ f ∈ exAttrs, ∀ g ∈ exAttrs, _
    decide
  names := fun h => absurd h (by decide)
  events := by
    intro e he
    simp only [exRecording, List.mem_cons, List.not_mem_nil, or_false] at he
    rcases he with rfl | rfl | rfl
    · exact ⟨⟨exFileSer, ex_file_recorded (Or.inl rfl)⟩, (ex_ok ⟨by decide, by decide, by decide, by decide, by decide,
          ⟨⟨by decide +kernel, by decide +kernel⟩, by decide +kernel, by rw [ex_root]; decide +kernel, by rw [ex_root]; decide +kernel⟩,
          Or.inr ⟨rfl, by decide, by decide, by decide, rfl, rfl, rfl, rfl, _, by decide, rfl⟩⟩ (fun _ h => by cases h) (Or.inl rfl)
          (by decide) (by decide +kernel)), rfl, fun h => absurd h.2.1 (by decide), fun h => absurd h.2 (by decide)⟩
    · exact ⟨⟨exFileSer, ex_file_recorded (Or.inl rfl)⟩, ex_ok rfl (fun s h => by cases h; exact ex_sample) (Or.inr rfl) (by decide)
        (by decide +kernel), rfl, fun h => absurd h.2.1 (by decide), fun h => absurd h.2 (by decide)⟩
    · exact ⟨⟨exFileSer, ex_file_recorded (Or.inr ⟨rfl, fun _ h => by cases h⟩)⟩, ex_ok (b := .auxtrace { size := 3, idx := 1 })
        ⟨rfl, by decide, by decide, by decide, by decide, by decide, by decide, rfl⟩ (fun _ h => by cases h) (Or.inr rfl) (by decide)
        (by decide +kernel), rfl, fun h => absurd h.2.1 (by decide), fun h => absurd h.2 (by decide)⟩
  size := by decide +kernel

example : ∃ b st, writeBytes exEnv exFileSer exRecording.info exRecording.messages = some (some b) ∧
    readBytes { env := exEnv, callback := true } b = some (some st) ∧ st.events = exRecording.messages ∧
    st.base.info = loaded exEnv.md5 exRecording ∧ st.reported = [Serial.exSample] ∧ st.base.ser = exFileSer :=
  file_round_trip (cfg := { env := exEnv, callback := true }) (ser := exFileSer) ex_complete rfl (by decide +kernel) (fun _ => by decide) (by decide)

/-- The build ID of the mapping is there twice after the second time. -/
example : (loaded exEnv.md5 (again exEnv.md5 exRecording)).buildIds =
    exMetadata.buildIds ++ [⟨2 + 2 ^ 14, 2 ^ 32 - 1, [0xab, 0xcd, 1, 2], exMap.filename, 16, none, false⟩,
      ⟨2 + 2 ^ 14, 2 ^ 32 - 1, [0xab, 0xcd, 1, 2], exMap.filename, 16, none, false⟩] := by
  rw [(again_grows_violated (by decide)).2]
  decide +kernel

/-! ## Where it fails -/

/-- C48 fails: a recording whose event announces data of a tracing unit that are not in the message (they are optional) makes the program
end instead of being refused. -/
theorem missing_trace_violated :
    let m := exMsg AUXTRACE 0 (.auxtrace { size := 3, idx := 1, trace := [] })
    announced m = 3 ∧ traceOf m = [] ∧ MsgOk exEnv exFile.attr.sample m ∧ writeBytes exEnv exFileSer exMetadata [m] = none := by
  refine ⟨rfl, rfl, ex_ok (b := .auxtrace { size := 3, idx := 1 })
        ⟨rfl, by decide, by decide, by decide, by decide, by decide, by decide, rfl⟩ (fun _ h => by cases h) (Or.inr rfl) (by decide)
        (by decide +kernel), by decide +kernel⟩

theorem trip_of {cfg : Cfg} {ser : Ser} {i : Info} {l : List Msg} {α : Type} {f : Data.St → α} {v : α}
    (h : ((writeBytes cfg.env ser i l).join.bind fun b => (readBytes cfg b).join.map f) = some v) :
    ∃ b st, writeBytes cfg.env ser i l = some (some b) ∧ readBytes cfg b = some (some st) ∧ f st = v := by
  match hw : writeBytes cfg.env ser i l with
  | none => rw [hw] at h; cases h
  | some none => rw [hw] at h; cases h
  | some (some b) =>
    rw [hw] at h
    match hr : readBytes cfg b with
    | none => simp [hr] at h
    | some none => simp [hr] at h
    | some (some st) => exact ⟨b, st, rfl, hr, by simpa [hr] using h⟩

/-- C48 fails: a mapping whose source was cut off by a timeout is written, but passed over by the reader. -/
theorem timed_out_violated :
    let m := exMsg MMAP2 (2 + 2 ^ 12 + 2 ^ 14) (.mmap exMap)
    MsgOk exEnv exFile.attr.sample m ∧ ∃ b st, writeBytes exEnv exFileSer exMetadata [m] = some (some b) ∧
      readBytes { env := exEnv } b = some (some st) ∧ st.events = [] := by
  refine ⟨ex_ok ⟨by decide, by decide, by decide, by decide, by decide,
          ⟨⟨by decide +kernel, by decide +kernel⟩, by decide +kernel, by rw [ex_root]; decide +kernel, by rw [ex_root]; decide +kernel⟩,
          Or.inr ⟨rfl, by decide, by decide, by decide, rfl, rfl, rfl, rfl, _, by decide, rfl⟩⟩ (fun _ h => by cases h) (Or.inl rfl)
          (by decide) (by decide +kernel), trip_of (cfg := { env := exEnv }) (f := (·.events)) (by decide +kernel)⟩

/-- C48 fails: without the feature of event descriptions, the names of the events are lost. -/
theorem names_lost_violated :
    let i := { exMetadata with mask := exMetadata.mask - 2 ^ 12 }
    i.eventTypes ≠ [] ∧ ∃ b st, writeBytes exEnv exFileSer i [] = some (some b) ∧
      readBytes { env := exEnv } b = some (some st) ∧ st.base.info.eventTypes = [] ∧ st.base.info.attrs = i.attrs := by
  have h := trip_of (cfg := { env := exEnv }) (ser := exFileSer) (i := { exMetadata with mask := exMetadata.mask - 2 ^ 12 }) (l := [])
    (f := fun st => (st.base.info.eventTypes, st.base.info.attrs)) (v := ([], exAttrs)) (by decide +kernel)
  obtain ⟨b, st, h1, h2, h3⟩ := h
  simp only [Prod.mk.injEq] at h3
  exact ⟨by decide, b, st, h1, h2, h3.1, h3.2⟩

end Verif.File
