import Verif.Serial.Deser
import Verif.Text.Props

/-!
# Events and their messages (C44, C45)

`wire a m` is the event that the message `m` describes (`Serial/Spec.lean`), for an event recorded with the attribute `a`.
-/

namespace Verif.Serial
open Verif.Buffer Verif.Event Verif.Sample Verif.Attr Verif.Util Verif.Text

/-- C44: an event of any supported type is read as the message that describes it, whatever the attributes of the file are, as long as
the event belongs to one of them. Missing: events that no message describes, see the violations in `Props2`. -/
theorem serialize_partial {env : Env} {fs : List FileAttr} {ser : Ser} {f : FileAttr} {m : Msg}
    (hr : Recorded fs ser f m.body) (hm : MsgOk env f.attr.sample m) : serialize env ser (wire f.attr.sample m) = some (some m) :=
  serialize_wire hr hm

/-- C44: a message is written as the event it describes, byte by byte. -/
theorem deserialize_partial {env : Env} {fs : List FileAttr} {ser : Ser} {f : FileAttr} {m : Msg}
    (hr : Recorded fs ser f m.body) (hm : MsgOk env f.attr.sample m) : deserialize env ser m = some (some (wire f.attr.sample m)) :=
  deserialize_wire hr hm

/-- C44: writing the message that was read from an event gives back the event. -/
theorem event_round_trip_partial {env : Env} {fs : List FileAttr} {ser : Ser} {f : FileAttr} {m : Msg}
    (hr : Recorded fs ser f m.body) (hm : MsgOk env f.attr.sample m) (e : RawEvent) (he : e = wire f.attr.sample m) :
    ∃ m', serialize env ser e = some (some m') ∧ deserialize env ser m' = some (some e) := by
  subst he
  exact ⟨m, serialize_wire hr hm, deserialize_wire hr hm⟩

/-- C44: reading the event that was written from a message gives back the message. -/
theorem message_round_trip_partial {env : Env} {fs : List FileAttr} {ser : Ser} {f : FileAttr} {m : Msg}
    (hr : Recorded fs ser f m.body) (hm : MsgOk env f.attr.sample m) :
    ∃ e, deserialize env ser m = some (some e) ∧ serialize env ser e = some (some m) :=
  ⟨_, deserialize_wire hr hm, serialize_wire hr hm⟩

/-- C44: different messages are different events. -/
theorem wire_injective {env : Env} {fs : List FileAttr} {ser : Ser} {f : FileAttr} {m m' : Msg}
    (hr : Recorded fs ser f m.body) (hm : MsgOk env f.attr.sample m) (hr' : Recorded fs ser f m'.body)
    (hm' : MsgOk env f.attr.sample m') (h : wire f.attr.sample m = wire f.attr.sample m') : m = m' := by
  have h1 := serialize_wire hr hm
  rw [h, serialize_wire hr' hm'] at h1
  simp only [Option.some.injEq] at h1
  exact h1.symm

/-! ## Sizes -/

theorem total_own_aligned {env : Env} {type misc : Nat} {b : Body} (hb : BodyOk env type misc b) : total (own type b) % 8 = 0 := by
  cases b <;> simp only [BodyOk] at hb
  case none => rfl
  case mmap m =>
    simp only [own]
    split
    · rw [total_append, total_append, total_append, total_text]
      obtain ⟨-, -, -, -, -, -, h | ⟨-, -, -, -, h⟩⟩ := hb
      · rename_i ht; rw [h.1] at ht; exact absurd ht (by decide)
      · cases hi : m.buildId with
        | none =>
          simp only [total_cons, total_nil, Piece.len]
          omega
        | some x =>
          rw [hi] at h
          obtain ⟨-, -, -, -, id, hl, rfl⟩ := h
          simp only
          rw [unhex_hex, total_buildId hl]
          simp only [total_cons, total_nil, Piece.len]
          omega
    · rw [total_append, total_text]
      simp only [total_cons, total_nil, Piece.len]
      omega
  case switch m => simp only [own]; split <;> simp [total_cons, total_nil, Piece.len]
  case timeConv m => simp only [own]; cases m.cycles <;> simp [total_cons, total_nil, Piece.len]
  case namespaces m =>
    unfold own
    rw [total_append, total_flatMap (sz := 16) _ fun x _ => rfl]
    simp only [total_cons, total_nil, Piece.len]; omega
  case bpf m =>
    unfold own
    rw [total_append, total_append, total_array (by have := hb.2.1.2; omega), total_flatMap (sz := 320) _ fun x hx => by
      rw [total_append, total_array (by have := (hb.2.2.1 x hx).1.2; omega), total_array (by have := (hb.2.2.1 x hx).2.2; omega)]]
    simp only [total_cons, total_nil, Piece.len]; omega
  case auxtraceInfo m =>
    unfold own
    rw [total_append, total_flatMap (sz := 8) _ fun x _ => rfl]
    simp only [total_cons, total_nil, Piece.len]; omega
  case idIndex m =>
    unfold own
    rw [total_append, total_flatMap (sz := 32) _ fun x _ => rfl]
    simp only [total_cons, total_nil, Piece.len]; omega
  case threadMap m =>
    unfold own
    rw [total_append, total_flatMap (sz := 24) _ fun x hx => by
      rw [total_append, total_array (by have := (hb.2 x hx).2.1.2; omega)]; rfl]
    simp only [total_cons, total_nil, Piece.len]; omega
  case statConfig m =>
    unfold own
    rw [total_append, total_flatMap (sz := 16) _ fun x _ => rfl]
    simp only [total_cons, total_nil, Piece.len]; omega
  all_goals
    simp only [own, total_append, total_text, total_cons, total_nil, Piece.len]
    try omega

/-- C45: the size computed for a message is that of the event it describes. -/
theorem event_size_partial {env : Env} {fs : List FileAttr} {ser : Ser} {f : FileAttr} {m : Msg}
    (hr : Recorded fs ser f m.body) (hm : MsgOk env f.attr.sample m) :
    ∃ e, deserialize env ser m = some (some e) ∧ eventSize env ser m = some e.size ∧ m.size = e.size ∧ e.size % 8 = 0 ∧ 8 ≤ e.size := by
  refine ⟨_, deserialize_wire hr hm, eventSize_wire hr hm, hm.size, ?_, by rw [wire_size]; omega⟩
  rw [wire_size]
  have h1 := total_own_aligned hm.body
  have h2 : total (sampleFields f.attr.sample m.body) % 8 = 0 := by
    have key : ∀ b s, total (layout f.attr.sample b s) % 8 = 0 := fun b s => m8_layout (.u64 s.id) (.u64 s.id) rfl rfl f.attr.sample b s
    unfold sampleFields
    split
    · exact key _ _
    · split
      · exact key _ _
      · rfl
  omega

/-- C45: the size of the part of an event in front of its sample fields is computed alike for the message and for the event. -/
theorem data_size_partial {env : Env} {a : Sample.Attr} {m : Msg} (hm : MsgOk env a m) :
    eventDataSize (wire a m) = some (msgDataSize m) ∧ msgDataSize m = 8 + total (own m.type m.body) := by
  rw [wire_dataSize hm, msgDataSize_own hm.body (own_small hm), image_length]
  exact ⟨rfl, rfl⟩

/-- C45: what is computed for a message is a multiple of eight, whatever the message is. -/
theorem msg_size_aligned (m : Msg) : msgDataSize m % 8 = 0 := by
  unfold msgDataSize
  cases hf : fixedPayloadSize m.type with
  | none => rfl
  | some f =>
    simp only
    cases hv : msgVariableSize m with
    | none => rfl
    | some n =>
      simp only
      have h1 := (fixed_facts hf).1
      have h2 : n % 8 = 0 := by
        unfold msgVariableSize at hv
        simp only at hv
        split at hv
        · cases hv
        · split at hv
          · cases hv
          · cases hv; omega
      split <;> omega

/-- C45: the size is zero only for an unsupported type or for an event that is too large for its header. -/
theorem msg_size_zero {env : Env} {m : Msg} (hb : BodyOk env m.type m.misc m.body) :
    msgDataSize m = 0 ↔ 2 ^ 16 ≤ 8 + total (own m.type m.body) := by
  rw [msgDataSize_cases hb]
  split <;> omega

/-! ## Examples -/

/-- A file with two events: `cycles` with the ids 5 and 6, sampled with nearly everything, and `faults` with the id 7. -/
def exFiles : List FileAttr :=
  [⟨{ type := 0, sampleType := 1 + 2 + 4 + 8 + 16 + 32 + 64 + 128 + 256 + 512 + 1024 + 2048 + 16384 + 2 ^ 19, readFormat := 1 + 2 + 4 + 8,
      branchSampleType := 2 ^ 17, flags := 2 ^ 18 }, [5, 6]⟩,
   ⟨{ type := 1, sampleType := 1 + 2 + 4 + 8 + 64 + 128 + 512, flags := 2 ^ 18 }, [7]⟩]
def exF : FileAttr := exFiles.headD ⟨{}, []⟩
def exSer : Ser := (registerAll {} false exFiles).getD {}
def exEnv : Env := ⟨fun s => s.length, fun l => l, 77⟩

/-- A sample with a group of two values, a call chain, two branches, and raw data. -/
def exSample : SampleEvent :=
  { ip := some 0x4000, pid := some 10, tid := some 11, time := some 123456, addr := some 9, id := some 6, streamId := some 3, period := some 1000
    cpu := some 2, raw := [1, 2, 3, 4], rawSize := 4, read := some ⟨100, 90, [⟨5, 6, 0⟩, ⟨8, 7, 0⟩]⟩, callchain := [0xFFFFFFFFFFFFFE00, 0x4000, 0x5000]
    branches := [⟨1, 2, true, false, false, true, 17, 3, 1⟩, ⟨3, 4, false, true, false, false, 65535, 15, 3⟩], weight := some 5
    physAddr := some (2 ^ 40), noHwIdx := some false, hwIdx := some 4 }
def exMsg (type misc : Nat) (b : Body) : Msg := ⟨type, misc, (wire exF.attr.sample ⟨type, misc, 0, b, 0⟩).size, b, stamp b⟩

theorem ex_supported (b : Bool) : Supported exF.attr.sample b := by
  refine ⟨?_, ?_, ?_, ?_, ?_⟩
  · cases b <;> decide
  · cases b <;> decide
  · cases b <;> decide
  · cases b <;> decide
  · intro i hi
    simp only [has]
    rw [Nat.testBit_lt_two_pow (Nat.lt_of_lt_of_le (show Sample.Attr.sampleType _ < 2 ^ 25 by decide) (Nat.pow_le_pow_right (by decide) hi))]
    rfl

theorem ex_recorded {b : Body} (h : (match b with | .sample s => s.id | b => (info b).bind (·.id)) = some 6 ∨ info b = none ∧ ∀ s, b ≠ .sample s) :
    Recorded exFiles exSer exF b where
  reg := by decide +kernel
  mem := by decide
  all := by decide
  type := by decide
  sample := fun s hs => by
    subst hs
    rcases h with h | h
    · simp only at h
      rw [h]
      exact ⟨ex_supported true, by unfold Owned; decide⟩
    · exact absurd rfl (h.2 s)
  info := fun i hi _ => by
    rcases h with h | h
    · have : i.id = some 6 := by
        cases b <;> simp only [info, Option.some.injEq, reduceCtorEq] at hi <;> subst hi <;> exact h
      rw [this]
      exact ⟨ex_supported false, by unfold Owned; decide⟩
    · rw [h.1] at hi; cases hi

def exInfo : SampleInfo := { pid := some 10, tid := some 11, time := some 123456, id := some 6, cpu := some 2, streamId := some 3 }

theorem ex_info : InfoOk exF.attr.sample exInfo := by
  unfold InfoOk
  rw [if_pos (by decide)]
  refine ⟨by decide, by decide, by decide, by decide, by decide, by decide, ?_⟩
  constructor <;> decide

theorem ex_ok {type misc : Nat} {b : Body} (hb : BodyOk exEnv type misc b) (hs : ∀ s, b = .sample s → SampleOk exF.attr.sample s) (hi : info b = some exInfo ∨ info b = none)
    (hm : misc < 2 ^ 16) (hf : (exMsg type misc b).size < 2 ^ 16) : MsgOk exEnv exF.attr.sample (exMsg type misc b) where
  body := hb
  sample := hs
  info := fun i h => by
    have h' : info b = some i := h
    rcases hi with e | e
    · rw [e] at h'; cases h'; exact ex_info
    · rw [e] at h'; cases h'
  misc := hm
  size := rfl
  fits := hf
  stamp := rfl

theorem ex_sample : SampleOk exF.attr.sample exSample where
  ip := by decide
  pid := by decide
  tid := by decide
  time := by decide
  addr := by decide
  read := by decide
  callchain := by decide
  id := by decide
  cpu := by decide
  period := by decide
  streamId := by decide
  raw := by decide
  rawSize := by decide
  branches := by decide
  noHwIdx := by decide
  hwIdx := by decide
  hwIdx0 := by decide
  weight := by decide
  dataSrc := by decide
  transaction := by decide
  physAddr := by decide
  cgroup := by decide
  dataPageSize := by decide
  codePageSize := by decide
  weightStruct := by decide
  readOk := fun r hr => by
    cases hr
    exact ⟨by decide, by decide, by decide, fun h => absurd h (by decide)⟩
  branchOk := by decide
  weightOk := fun w hw => by cases hw
  fits := by constructor <;> decide

/-- The sample event. -/
example : ∃ m', serialize exEnv exSer (wire exF.attr.sample (exMsg SAMPLE 2 (.sample exSample))) = some (some m') ∧
    deserialize exEnv exSer m' = some (some (wire exF.attr.sample (exMsg SAMPLE 2 (.sample exSample)))) :=
  event_round_trip_partial (ex_recorded (Or.inl rfl)) (m := exMsg SAMPLE 2 (.sample exSample))
    (ex_ok rfl (fun s h => by cases h; exact ex_sample) (Or.inr rfl) (by decide) (by decide +kernel)) _ rfl

/-- A mapping with a build ID. -/
def exMap : MMap :=
  { pid := 10, tid := 11, start := 0x4000, len := 0x1000, pgoff := 0x2000, prot := 5, flags := 2, filename := ascii "/usr/lib/libc.so"
    filenameMd5 := 16, buildId := some (rawDataToHexString [0xab, 0xcd, 1, 2]), info := exInfo, rootPath := some (ascii "/usr/lib")
    rootPathMd5 := 8 }

theorem ex_root : rootPath exMap.filename = ascii "/usr/lib" :=
  C53_two_levels (ascii "/") (ascii "usr") (ascii "/") (ascii "lib") (ascii "libc.so")
    ⟨by decide +kernel, by decide +kernel⟩ ⟨by decide +kernel, by decide +kernel⟩
    ⟨by decide +kernel, by decide +kernel⟩ ⟨by decide +kernel, by decide +kernel⟩
    (by unfold SpecialName; decide +kernel)

example : ∃ e, deserialize exEnv exSer (exMsg MMAP2 (2 + 2 ^ 14) (.mmap exMap)) = some (some e) ∧
    serialize exEnv exSer e = some (some (exMsg MMAP2 (2 + 2 ^ 14) (.mmap exMap))) :=
  message_round_trip_partial (ex_recorded (Or.inl rfl)) (ex_ok ⟨by decide, by decide, by decide, by decide, by decide,
    ⟨⟨by decide +kernel, by decide +kernel⟩, by decide +kernel, by rw [ex_root]; decide +kernel, by rw [ex_root]; decide +kernel⟩,
    Or.inr ⟨rfl, by decide, by decide, by decide, rfl, rfl, rfl, rfl, _, by decide, rfl⟩⟩ (fun _ h => by cases h) (Or.inl rfl) (by decide)
    (by decide +kernel))

/-- A program with two values. -/
def exBpf : Bpf := { progName := [112], metadata := [([97], [49]), ([98], [50, 51])], info := exInfo }

example : ∃ e, deserialize exEnv exSer (exMsg BPF_METADATA 0 (.bpf exBpf)) = some (some e) ∧
    serialize exEnv exSer e = some (some (exMsg BPF_METADATA 0 (.bpf exBpf))) :=
  message_round_trip_partial (ex_recorded (Or.inl rfl)) (ex_ok ⟨rfl, ⟨by decide, by decide⟩, (by
    intro x hx
    simp only [exBpf, List.mem_cons, List.not_mem_nil, or_false] at hx
    rcases hx with rfl | rfl <;> exact ⟨⟨by decide, by decide⟩, ⟨by decide, by decide⟩⟩), by decide, rfl⟩ (fun _ h => by cases h) (Or.inl rfl)
    (by decide) (by decide +kernel))

/-- A thread map; such events have no sample information. -/
example : ∃ e, deserialize exEnv exSer (exMsg THREAD_MAP 0 (.threadMap [⟨1, [97, 98], 2⟩, ⟨2, [], 0⟩])) = some (some e) ∧
    eventSize exEnv exSer (exMsg THREAD_MAP 0 (.threadMap [⟨1, [97, 98], 2⟩, ⟨2, [], 0⟩])) = some e.size ∧
    (exMsg THREAD_MAP 0 (.threadMap [⟨1, [97, 98], 2⟩, ⟨2, [], 0⟩])).size = e.size ∧ e.size % 8 = 0 ∧ 8 ≤ e.size :=
  event_size_partial (ex_recorded (Or.inr ⟨rfl, fun _ h => by cases h⟩)) (ex_ok ⟨rfl, by
    intro x hx
    simp only [List.mem_cons, List.not_mem_nil, or_false] at hx
    rcases hx with rfl | rfl <;> exact ⟨by decide, ⟨by decide, by decide⟩, by decide⟩⟩ (fun _ h => by cases h) (Or.inr rfl) (by decide)
    (by decide +kernel))

/-- An event that is too large. -/
example : msgDataSize { type := STAT_CONFIG, body := .statConfig (List.replicate 5000 (1, 2)) } = 0 :=
  (msg_size_zero (env := exEnv) (m := { type := STAT_CONFIG, body := .statConfig (List.replicate 5000 (1, 2)) }) ⟨rfl, fun x hx => by
    have hx : x ∈ List.replicate 5000 (1, 2) := hx
    rw [List.eq_of_mem_replicate hx]; decide⟩).mpr (by
      simp only [own]
      rw [total_append, total_flatMap (sz := 16) _ fun x _ => rfl, List.length_replicate]
      simp only [total_cons, total_nil, Piece.len]
      omega)

end Verif.Serial
