import Verif.Data.Safe3
import Verif.Data.Skip
import Verif.Serial.Props2

/-! Properties of reading the data section of a recording: C27, C98 and part of C46. -/

namespace Verif.Data
open Verif.Buffer Verif.Event Verif.Sample Verif.Attr Verif.Names Verif.Text Verif.Util Verif.Meta Verif.Serial

theorem Chain.events {cfg : Cfg} {x : Bool} {st st' : St} {L : List (List UInt8 × Option Msg)} (h : Chain cfg x st L st') :
    st'.events = st.events ++ L.filterMap Prod.snd := by
  induction h with
  | nil => simp
  | cons e _ ih =>
    rename_i out l _
    rw [ih, e.events, List.append_assoc]
    cases out <;> simp

theorem Chain.pieces {cfg : Cfg} {x : Bool} {st st' : St} {L : List (List UInt8 × Option Msg)} (h : Chain cfg x st L st') :
    ∀ p ∈ L, 8 ≤ extent x p.1 ∧ p.1.length = extent x p.1 + following cfg x p.1 := by
  induction h with
  | nil => intro p hp; cases hp
  | cons e _ ih =>
    intro p hp
    cases hp with
    | head => exact e.size
    | tail _ hp => exact ih p hp

/-! ## C27 -/

/-- C27, tiling. When reading the data section succeeds, the section lies inside the file, reading ends exactly at its end, and the
section is a row of records without gaps: each as long as its header says (at least the 8 bytes of the header), with the data of a
tracing unit behind it. The events are those of these records, in this order, and `Effect` says what each record adds. -/
theorem section_tiled {cfg : Cfg} {st st' : St} {offset size : Nat} {r r' : Reader} (hr : r.Ok) (hs : size < 2 ^ 64)
    (h : readDataSection cfg st offset size r = some (some st', r')) :
    offset + size ≤ r.buf.length ∧ r' = { r with off := offset + size } ∧
    ∃ L : List (List UInt8 × Option Msg),
      (L.map Prod.fst).flatten = (r.buf.drop offset).take size ∧ Chain cfg r.cross st L st' ∧
      (∀ p ∈ L, 8 ≤ extent r.cross p.1 ∧ p.1.length = extent r.cross p.1 + following cfg r.cross p.1) ∧
      st'.events = st.events ++ L.filterMap Prod.snd := by
  obtain ⟨c, L, h1, h2, h3, h4, _⟩ := section_takes hr hs h
  obtain ⟨h5, h6⟩ := slice_some_iff.mp h1
  exact ⟨h5, h2, L, h3.trans h6, h4, h4.pieces, h4.events⟩

/-- C27. What the section is read as depends on its bytes (and the state before) only: neither on where the section is, nor on
what else is in the file. -/
theorem section_alone {cfg : Cfg} {st st' : St} {offset size : Nat} {r r' : Reader} (hr : r.Ok) (hs : size < 2 ^ 64)
    (h : readDataSection cfg st offset size r = some (some st', r')) {q : Reader} (hq : q.Ok) (hx : q.cross = r.cross) {o : Nat}
    (ho : o + size ≤ q.buf.length) (hb : (q.buf.drop o).take size = (r.buf.drop offset).take size) :
    readDataSection cfg st o size q = some (some st', { q with off := o + size }) := by
  obtain ⟨c, L, h1, _, _, _, h5⟩ := section_takes hr hs h
  refine h5 q hq hx o (slice_some_iff.mpr ⟨ho, ?_⟩)
  rw [hb]
  exact (slice_some_iff.mp h1).2

theorem readEvents_append {cfg : Cfg} : ∀ {fuel a b fuel' : Nat} {st st1 st2 : St} {r r1 r2 : Reader}, r.Ok → a < 2 ^ 64 → a + b < 2 ^ 64 →
    readEvents cfg fuel a st r = some (some st1, r1) → readEvents cfg fuel' b st1 r1 = some (some st2, r2) →
    readEvents cfg (fuel + fuel') (a + b) st r = some (some st2, r2) := by
  intro fuel
  induction fuel with
  | zero =>
    intro a b fuel' st st1 st2 r r1 r2 hr ha hab h h'
    unfold readEvents at h
    by_cases h0 : a = 0
    · rw [if_pos h0, pure_eq, Option.some.injEq, Prod.mk.injEq, Option.some.injEq] at h
      rw [h0, Nat.zero_add, Nat.zero_add, h.1, h.2]
      exact h'
    · rw [if_neg h0] at h; cases h
  | succ fuel ih =>
    intro a b fuel' st st1 st2 r r1 r2 hr ha hab h h'
    by_cases h0 : a = 0
    · unfold readEvents at h
      rw [if_pos h0, pure_eq, Option.some.injEq, Prod.mk.injEq, Option.some.injEq] at h
      rw [← h.1, ← h.2] at h'
      rw [h0, Nat.zero_add]
      exact fuel_mono h' (by omega)
    · rw [readEvents_step h0] at h
      obtain ⟨y, q, h1, h2⟩ := bind_ok h
      obtain ⟨c, ⟨hc, _⟩, hc63, hsl, hq, _⟩ := takes_one _ _ _ hr rfl h1
      have okq : q.Ok := by
        rw [hq]
        exact ⟨hr.1, by rw [hr.1]; exact (slice_some_iff.mp hsl).1, hr.2.2⟩
      have hadd : addSz 8 y.2 = c.length := by unfold addSz; omega
      obtain ⟨c', ⟨hc', _⟩, hc63', _⟩ := takes_readEvents (Nat.mod_lt _ (by decide)) _ _ _ okq rfl h2
      rw [hadd] at h2 hc'
      have hle : c.length ≤ a := by
        by_cases hle : c.length ≤ a
        · exact hle
        · omega
      have e1 : (a + 2 ^ 64 - c.length) % 2 ^ 64 = a - c.length := by omega
      have e2 : (a + b + 2 ^ 64 - c.length) % 2 ^ 64 = a - c.length + b := by omega
      rw [e1] at h2
      rw [show fuel + 1 + fuel' = fuel + fuel' + 1 by omega, readEvents_step (by omega), bind_run h1, hadd, e2]
      exact ih okq (by omega) (by omega) h2 h'

/-- C27. Two sections in a row are read like one: no state but the one that is shown is carried from event to event. -/
theorem section_append {cfg : Cfg} {st st1 st2 : St} {offset a b : Nat} {r r1 r2 : Reader} (hr : r.Ok) (hs : a + b < 2 ^ 64)
    (h1 : readDataSection cfg st offset a r = some (some st1, r1))
    (h2 : readDataSection cfg st1 (offset + a) b r1 = some (some st2, r2)) :
    readDataSection cfg st offset (a + b) r = some (some st2, r2) := by
  obtain ⟨_, _, _, hr1, _⟩ := section_takes hr (by omega) h1
  obtain ⟨hle, hr1', _⟩ := section_tiled hr (by omega) h1
  have ok1 : r1.Ok := by rw [hr1]; exact ⟨hr.1, by rw [hr.1]; exact hle, hr.2.2⟩
  obtain ⟨ho, oko, e1⟩ := section_some hr h1
  obtain ⟨_, _, e2⟩ := section_some ok1 h2
  have := readEvents_append oko (by omega) hs e1 (r1 := r1) (r2 := r2) (fuel' := r.size + 1) (by
    rw [hr1] at e2 ⊢; exact e2)
  unfold readDataSection
  rw [bind_run (seek_ok (by rw [hr.1]; exact ho))]
  rw [← fuel_eq (fuel := r.size + 1 + (r.size + 1)) oko (by show r.size - offset < _; omega) (by show r.size - offset < _; omega)]
  exact this

/-- C27 and C46, termination and safety. If the attributes of the recording were accepted by the reader, then reading the data
section ends and neither aborts nor reads outside the memory of an event, unless it comes to a record of type 84 (metadata of BPF
programs). For those the claim is false: `section_safe_violated`. -/
theorem section_safe_partial {cfg : Cfg} {fs : List FileAttr} {st : St} (hacc : Accepted fs st.base.ser) {offset size : Nat} {r : Reader}
    (hr : r.Ok) (h : readDataSection cfg st offset size r = none) :
    ∃ (L : List (List UInt8 × Option Msg)) (st₁ : St) (at_ : Nat), Chain cfg r.cross st L st₁ ∧
      (L.map Prod.fst).flatten = (r.buf.drop offset).take at_ ∧ offset + at_ + 8 ≤ r.buf.length ∧
      kind r.cross (r.buf.drop (offset + at_)) = 84 := by
  obtain ⟨L, st₁, c, h1, h2, h3, h4⟩ := section_none hr h
  obtain ⟨h5, h6⟩ := slice_some_iff.mp h2
  have hok : ({ r with off := offset + c.length } : Reader).Ok := ⟨hr.1, by rw [hr.1]; exact h5, hr.2.2⟩
  obtain ⟨h7, h8⟩ := one_safe (by rw [h3.ser]; exact hacc) hok h4
  refine ⟨L, st₁, c.length, h3, h1.trans h6, h7, ?_⟩
  exact h8

/-- Without such records there is no exception. -/
theorem section_safe {cfg : Cfg} {fs : List FileAttr} {st : St} (hacc : Accepted fs st.base.ser) {offset size : Nat} {r : Reader}
    (hr : r.Ok) (h84 : ∀ i, offset ≤ i → i + 8 ≤ r.buf.length → kind r.cross (r.buf.drop i) ≠ 84) :
    readDataSection cfg st offset size r ≠ none := fun h => by
  obtain ⟨_, _, n, _, _, h1, h2⟩ := section_safe_partial hacc hr h
  exact h84 _ (by omega) h1 h2

/-! ## C98 -/

/-- C98. Leaving out types of events (other than data of tracing units, type 71) removes the events of these types and changes
nothing else: not the other events nor their order, not what is learnt from the events beside, and not the samples that the
function of the caller is called with. -/
theorem skipping_filters_partial {env : Env} {callback : Bool} {types : List Nat} (h71 : 71 ∉ types) {offset size : Nat} {st st' : St} {r r' : Reader}
    (hst : ∀ m ∈ st.events, m.type ∉ types)
    (h : readDataSection ⟨env, [], callback⟩ st offset size r = some (some st', r')) :
    readDataSection ⟨env, types, callback⟩ st offset size r =
      some (some { st' with events := st'.events.filter fun m => ! types.contains m.type }, r') := by
  have hw : Without types st st := ⟨rfl, rfl, rfl, (List.filter_eq_self.mpr fun m hm => by simpa using hst m hm).symm⟩
  obtain ⟨s', hs', hw'⟩ := section_without (cfg := ⟨env, [], callback⟩) rfl h71 hw h
  rw [← hw'.eq]
  exact hs'

/-- The function of the caller is called with the samples among the events, in their order. -/
theorem callback_samples {env : Env} {offset size : Nat} {st st' : St} {r r' : Reader}
    (h : readDataSection ⟨env, [], true⟩ st offset size r = some (some st', r')) :
    ∃ ms : List Msg, st'.events = st.events ++ ms ∧
      st'.reported = st.reported ++ ms.filterMap sampleOf := by
  unfold readDataSection at h
  obtain ⟨u, r1, h1, h⟩ := bind_ok h
  exact readEvents_sync (cfg := ⟨env, [], true⟩) rfl rfl ⟨[], by simp⟩ h

/-! ## Examples and violations -/

/-- The bytes of an event. -/
def recordBytes (e : RawEvent) : List UInt8 := toLE 4 e.type ++ toLE 2 e.misc ++ toLE 2 e.size ++ e.payload

/-- A sample, a record of an unknown type, data of a tracing unit (48 bytes, and 8 bytes behind), a map of threads. -/
def exSection : List UInt8 :=
  recordBytes (wire exF.attr.sample (exMsg SAMPLE 2 (.sample exSample))) ++
  recordBytes ⟨200, 0, [1, 2, 3, 4]⟩ ++
  (recordBytes ⟨AUXTRACE, 0, toLE 8 8 ++ List.replicate 32 0⟩ ++ [68, 0, 0, 0, 0, 0, 8, 0]) ++
  recordBytes (wire exF.attr.sample (exMsg THREAD_MAP 0 (.threadMap [⟨1, [97, 98], 2⟩, ⟨2, [], 0⟩])))

def exState : St := { base := { ser := Serial.exSer } }

/-- The section with other bytes around it. -/
def exReader : Reader := Reader.new ([1, 2, 3, 4, 5] ++ exSection ++ [6, 7, 8]) false

/-- What is shown of a result: the types of the events, the number of samples reported, and the position. -/
def outcome (y : Option (Option St × Reader)) : Option (Option (List Nat × Nat) × Nat) :=
  y.map fun y => (y.1.map fun st => (st.events.map (·.type), st.reported.length), y.2.off)

theorem ex_accepted : Accepted exFiles exState.base.ser :=
  ⟨⟨false, by
    show registerAll {} false exFiles = some ((registerAll {} false exFiles).getD {})
    cases h : registerAll {} false exFiles with
    | none => exact absurd h (by decide +kernel)
    | some s => rfl⟩, by decide⟩

theorem ex_read : outcome (readDataSection ⟨exEnv, [], true⟩ exState 5 exSection.length exReader) =
    some (some ([9, 71, 73], 1), 5 + exSection.length) := by decide +kernel

theorem outcome_some {y : Option (Option St × Reader)} {l : List Nat} {n o : Nat} (h : outcome y = some (some (l, n), o)) :
    ∃ st r, y = some (some st, r) ∧ st.events.map (·.type) = l ∧ st.reported.length = n ∧ r.off = o := by
  unfold outcome at h
  cases y with
  | none => cases h
  | some y =>
    obtain ⟨st, r⟩ := y
    cases st with
    | none => cases h
    | some st =>
      simp only [Option.map_some, Option.some.injEq, Prod.mk.injEq] at h
      exact ⟨st, r, rfl, h.1.1, h.1.2, h.2⟩

theorem exReader_ok : exReader.Ok := by unfold Reader.Ok; decide +kernel

/-- The hypotheses of `section_tiled`, `section_alone` and `callback_samples` are met. -/
example : exReader.Ok ∧ exSection.length < 2 ^ 64 ∧ ∃ st' r', readDataSection ⟨exEnv, [], true⟩ exState 5 exSection.length exReader = some (some st', r') := by
  obtain ⟨st, r, h, _⟩ := outcome_some ex_read
  exact ⟨exReader_ok, by decide +kernel, st, r, h⟩

/-- Those of `skipping_filters_partial` are met, and a sample that is not wanted is reported all the same. -/
example : ∃ r', (readDataSection ⟨exEnv, [9], true⟩ exState 5 exSection.length exReader).map (fun y => (y.1.map fun st => (st.events.map (·.type), st.reported.length), y.2)) =
    some (some ([71, 73], 1), r') := by
  obtain ⟨st, r, h, h1, h2, _⟩ := outcome_some ex_read
  rw [skipping_filters_partial (by decide) (by intro m hm; cases hm) h]
  refine ⟨r, ?_⟩
  simp only [Option.map_some, Option.some.injEq, Prod.mk.injEq, and_true]
  refine ⟨?_, h2⟩
  have : ∀ l : List Msg, (l.filter fun m => ! [9].contains m.type).map (·.type) = (l.map (·.type)).filter fun t => ! [9].contains t := by
    intro l; rw [List.filter_map]; rfl
  rw [this, h1]; rfl

/-- Those of `section_append` are met: the example is read in two parts. -/
example : ∃ st1 r1 st2 r2, readDataSection ⟨exEnv, [], true⟩ exState 5 (recordBytes (wire exF.attr.sample (exMsg SAMPLE 2 (.sample exSample)))).length exReader =
      some (some st1, r1) ∧
    readDataSection ⟨exEnv, [], true⟩ st1 (5 + (recordBytes (wire exF.attr.sample (exMsg SAMPLE 2 (.sample exSample)))).length) 12 r1 = some (some st2, r2) := by
  have h1 : outcome (readDataSection ⟨exEnv, [], true⟩ exState 5 (recordBytes (wire exF.attr.sample (exMsg SAMPLE 2 (.sample exSample)))).length exReader) =
    some (some ([9], 1), 5 + (recordBytes (wire exF.attr.sample (exMsg SAMPLE 2 (.sample exSample)))).length) := by decide +kernel
  have h2 : ((readDataSection ⟨exEnv, [], true⟩ exState 5 (recordBytes (wire exF.attr.sample (exMsg SAMPLE 2 (.sample exSample)))).length exReader).bind fun y =>
      y.1.bind fun st1 => outcome (readDataSection ⟨exEnv, [], true⟩ st1 (5 + (recordBytes (wire exF.attr.sample (exMsg SAMPLE 2 (.sample exSample)))).length) 12 y.2)) =
    some (some ([9], 1), 5 + (recordBytes (wire exF.attr.sample (exMsg SAMPLE 2 (.sample exSample)))).length + 12) := by decide +kernel
  obtain ⟨st1, r1, e1, _⟩ := outcome_some h1
  rw [e1, Option.bind_some, Option.bind_some] at h2
  obtain ⟨st2, r2, e2, _⟩ := outcome_some h2
  exact ⟨st1, r1, st2, r2, e1, e2⟩

/-- The safety claim of C27 and C46 fails for metadata of BPF programs: the record announces `2^58` entries, the check of the size
wraps around, and entries are read behind the end of the event. -/
theorem section_safe_violated :
    Accepted exFiles exState.base.ser ∧ (Reader.new (recordBytes hugeBpf) false).Ok ∧
    readDataSection ⟨exEnv, [], false⟩ exState 0 (recordBytes hugeBpf).length (Reader.new (recordBytes hugeBpf) false) = none := by
  refine ⟨ex_accepted, by unfold Reader.Ok; decide +kernel, ?_⟩
  have h : ∀ y : Option (Option St × Reader), y.isNone = true → y = none := by intro y; cases y <;> simp
  exact h _ (by decide +kernel)

/-- Data of a tracing unit, 8 bytes that look like a record. -/
def exTrace : List UInt8 := recordBytes ⟨AUXTRACE, 0, toLE 8 8 ++ List.replicate 32 0⟩ ++ [68, 0, 0, 0, 0, 0, 8, 0]

/-- C98 fails for data of tracing units: when they are not wanted, the data behind the record are not passed over but read as
records, and events appear that are not in the recording. -/
theorem skipping_filters_violated : ∃ st' r' s' q',
    readDataSection ⟨exEnv, [], false⟩ exState 0 exTrace.length (Reader.new exTrace false) = some (some st', r') ∧
    readDataSection ⟨exEnv, [71], false⟩ exState 0 exTrace.length (Reader.new exTrace false) = some (some s', q') ∧
    st'.events.map (·.type) = [71] ∧ s'.events.map (·.type) = [68] := by
  obtain ⟨st, r, h1, h2, _⟩ := outcome_some (show outcome (readDataSection ⟨exEnv, [], false⟩ exState 0 exTrace.length (Reader.new exTrace false)) =
    some (some ([71], 0), exTrace.length) by decide +kernel)
  obtain ⟨s, q, h3, h4, _⟩ := outcome_some (show outcome (readDataSection ⟨exEnv, [71], false⟩ exState 0 exTrace.length (Reader.new exTrace false)) =
    some (some ([68], 0), exTrace.length) by decide +kernel)
  exact ⟨st, r, s, q, h1, h3, h2, h4⟩

end Verif.Data
