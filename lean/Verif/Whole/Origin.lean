import Verif.Whole.Model
import Verif.File.Match
import Verif.Meta.Safe
import Verif.Data.Record

/-! What any message looks like that was read from bytes. -/

namespace Verif.Whole
open Verif.Buffer Verif.Event Verif.Sample Verif.Attr Verif.Names Verif.Text Verif.Util Verif.Meta Verif.Serial Verif.Data Verif.File

/-- The members of the message are in the range of their types, and mappings are in events of the types of mappings. -/
structure Shaped (m : Msg) : Prop where
  mmap : m.type = 1 ∨ m.type = 10 → ∃ b, m.body = .mmap b
  range : ∀ b, m.body = .mmap b → b.pid < 2 ^ 32 ∧ b.start < 2 ^ 64 ∧ b.len < 2 ^ 64 ∧ b.pgoff < 2 ^ 64
  ksymbol : ∀ k, m.body = .ksymbol k → k.addr < 2 ^ 64 ∧ k.len < 2 ^ 32
  buildId : ∀ b, m.body = .mmap b → ∀ x, b.buildId = some x → ∃ d, x = rawDataToHexString d

theorem int_lt {e : RawEvent} {off n v : Nat} (h : e.int off n = some v) : v < 256 ^ n := by
  unfold RawEvent.int at h
  split at h
  · obtain ⟨d, h1, h2⟩ := Option.map_eq_some_iff.1 h
    unfold fetch at h1
    split at h1
    · cases h1
      have := leNat_lt ((e.payload.drop (off - 8)).take n)
      rw [List.length_take, List.length_drop, Nat.min_eq_left (by omega), h2] at this
      exact this
    · cases h1
  · cases h

/-- What the body of a message satisfies. -/
structure BodyOk (type : Nat) (b : Body) : Prop where
  mmap : type = 1 ∨ type = 10 → ∃ m, b = .mmap m
  range : ∀ m, b = .mmap m → m.pid < 2 ^ 32 ∧ m.start < 2 ^ 64 ∧ m.len < 2 ^ 64 ∧ m.pgoff < 2 ^ 64
  ksymbol : ∀ k, b = .ksymbol k → k.addr < 2 ^ 64 ∧ k.len < 2 ^ 32
  buildId : ∀ m, b = .mmap m → ∀ x, m.buildId = some x → ∃ d, x = rawDataToHexString d

theorem BodyOk.other {type : Nat} {b : Body} (h1 : type ≠ 1) (h10 : type ≠ 10) (hm : ∀ m, b ≠ .mmap m) (hk : ∀ k, b ≠ .ksymbol k) :
    BodyOk type b :=
  ⟨fun h => absurd h (by omega), fun m h => absurd h (hm m), fun k h => absurd h (hk k), fun m h => absurd h (hm m)⟩

theorem withInfo_ok {α : Type} {ser : Ser} {e : RawEvent} {x : Option α} {f : α → SampleInfo → Body} {b : Body}
    (h : withInfo ser e x f = some (some b)) : ∃ a i, x = some a ∧ b = f a i := by
  unfold withInfo at h
  split at h
  · cases h
  · rename_i a
    split at h
    · cases h
    · cases h
    · cases h; exact ⟨a, _, rfl, rfl⟩

theorem plain_ok {α : Type} {x : Option α} {f : α → Body} {b : Body} (h : plain x f = some (some b)) : ∃ a, x = some a ∧ b = f a := by
  unfold plain at h
  obtain ⟨a, h1, h2⟩ := Option.map_eq_some_iff.1 h
  exact ⟨a, h1, (Option.some.inj h2).symm⟩

theorem readMMap_ok {env : Serial.Env} {e : RawEvent} {m : Serial.MMap} (h : readMMap env e = some m) :
    m.pid < 2 ^ 32 ∧ m.start < 2 ^ 64 ∧ m.len < 2 ^ 64 ∧ m.pgoff < 2 ^ 64 ∧ m.buildId = none := by
  unfold readMMap at h
  simp only [Option.bind_eq_bind, Option.bind_eq_some_iff] at h
  obtain ⟨a, h1, b, -, c, h3, d, h4, f, h5, g, -, h⟩ := h
  cases h
  exact ⟨int_lt h1, int_lt h3, int_lt h4, int_lt h5, rfl⟩

theorem readMMap2_ok {env : Serial.Env} {e : RawEvent} {m : Serial.MMap} (h : readMMap2 env e = some (some m)) :
    (m.pid < 2 ^ 32 ∧ m.start < 2 ^ 64 ∧ m.len < 2 ^ 64 ∧ m.pgoff < 2 ^ 64) ∧ ∀ x, m.buildId = some x → ∃ d, x = rawDataToHexString d := by
  unfold readMMap2 at h
  simp only [Option.bind_eq_bind, Option.bind_eq_some_iff] at h
  obtain ⟨a, h1, b, -, c, h3, d, h4, f, h5, h⟩ := h
  split at h
  · rw [Option.bind_eq_some_iff] at h
    obtain ⟨n, -, h⟩ := h
    split at h
    · cases h
    · simp only [Option.bind_eq_some_iff] at h
      obtain ⟨x, -, p, -, q, -, r, -, h⟩ := h
      cases h
      exact ⟨⟨int_lt h1, int_lt h3, int_lt h4, int_lt h5⟩, fun y hy => ⟨x, (Option.some.inj hy).symm⟩⟩
  · simp only [Option.bind_eq_some_iff] at h
    obtain ⟨_, -, _, -, _, -, _, -, p, -, q, -, r, -, h⟩ := h
    cases h
    exact ⟨⟨int_lt h1, int_lt h3, int_lt h4, int_lt h5⟩, fun y hy => by cases hy⟩

theorem readKsymbol_ok {e : RawEvent} {k : Serial.Ksymbol} (h : readKsymbol e = some k) : k.addr < 2 ^ 64 ∧ k.len < 2 ^ 32 := by
  unfold readKsymbol at h
  simp only [Option.bind_eq_bind, Option.bind_eq_some_iff] at h
  obtain ⟨a, h1, b, h2, c, -, d, -, f, -, h⟩ := h
  cases h
  exact ⟨int_lt h1, int_lt h2⟩

theorem either {α : Type} {c : Prop} [Decidable c] {x y z : α} (h : (if c then x else y) = z) : (c ∧ x = z) ∨ (¬ c ∧ y = z) := by
  by_cases hc : c
  · rw [if_pos hc] at h; exact .inl ⟨hc, h⟩
  · rw [if_neg hc] at h; exact .inr ⟨hc, h⟩

theorem readBody_ok {env : Serial.Env} {ser : Ser} {e : RawEvent} {b : Body} (h : readBody env ser e = some (some b)) : BodyOk e.type b := by
  have hw : ∀ {α : Type} {x : Option α} {f : α → SampleInfo → Body}, e.type ≠ 1 → e.type ≠ 10 → withInfo ser e x f = some (some b) →
      (∀ a i m, f a i ≠ .mmap m) → (∀ a i k, f a i ≠ .ksymbol k) → BodyOk e.type b := by
    intro α x f h1 h10 h hm hk
    obtain ⟨a, i, -, rfl⟩ := withInfo_ok h
    exact .other h1 h10 (hm a i) (hk a i)
  have hp : ∀ {α : Type} {x : Option α} {f : α → Body}, e.type ≠ 1 → e.type ≠ 10 → plain x f = some (some b) →
      (∀ a m, f a ≠ .mmap m) → (∀ a k, f a ≠ .ksymbol k) → BodyOk e.type b := by
    intro α x f h1 h10 h hm hk
    obtain ⟨a, -, rfl⟩ := plain_ok h
    exact .other h1 h10 (hm a) (hk a)
  unfold readBody at h
  rcases either h with ⟨ht, h⟩ | ⟨-, h⟩
  · have ht : e.type = 9 := ht
    obtain ⟨s, -, h2⟩ := Option.map_eq_some_iff.1 h
    obtain ⟨s', -, h3⟩ := Option.map_eq_some_iff.1 h2
    subst h3
    exact .other (by omega) (by omega) (fun _ h => by cases h) (fun _ h => by cases h)
  rcases either h with ⟨-, h⟩ | ⟨h1, h⟩
  · obtain ⟨a, i, hx, rfl⟩ := withInfo_ok h
    obtain ⟨k1, k2, k3, k4, k5⟩ := readMMap_ok hx
    refine ⟨fun _ => ⟨_, rfl⟩, fun m hm => (by cases hm; exact ⟨k1, k2, k3, k4⟩), fun _ h => (by cases h), fun m hm x hx => ?_⟩
    cases hm
    simp only [k5] at hx
    cases hx
  rcases either h with ⟨-, h⟩ | ⟨h10, h⟩
  · cases hx : readMMap2 env e with
    | none => rw [hx] at h; cases h
    | some y =>
      cases y with
      | none => rw [hx] at h; cases h
      | some m =>
        rw [hx] at h
        obtain ⟨a, i, ha, rfl⟩ := withInfo_ok h
        cases ha
        obtain ⟨k1, k2⟩ := readMMap2_ok hx
        exact ⟨fun _ => ⟨_, rfl⟩, fun m hm => (by cases hm; exact k1), fun _ h => (by cases h), fun m hm x hx => by cases hm; exact k2 x hx⟩
  rcases either h with ⟨-, h⟩ | ⟨-, h⟩
  · exact hw h1 h10 h (fun _ _ _ h => by cases h) (fun _ _ _ h => by cases h)
  rcases either h with ⟨-, h⟩ | ⟨-, h⟩
  · exact hw h1 h10 h (fun _ _ _ h => by cases h) (fun _ _ _ h => by cases h)
  rcases either h with ⟨-, h⟩ | ⟨-, h⟩
  · exact hw h1 h10 h (fun _ _ _ h => by cases h) (fun _ _ _ h => by cases h)
  rcases either h with ⟨-, h⟩ | ⟨-, h⟩
  · exact hw h1 h10 h (fun _ _ _ h => by cases h) (fun _ _ _ h => by cases h)
  rcases either h with ⟨-, h⟩ | ⟨-, h⟩
  · exact hw h1 h10 h (fun _ _ _ h => by cases h) (fun _ _ _ h => by cases h)
  rcases either h with ⟨-, h⟩ | ⟨-, h⟩
  · exact hw h1 h10 h (fun _ _ _ h => by cases h) (fun _ _ _ h => by cases h)
  rcases either h with ⟨-, h⟩ | ⟨-, h⟩
  · exact hw h1 h10 h (fun _ _ _ h => by cases h) (fun _ _ _ h => by cases h)
  rcases either h with ⟨-, h⟩ | ⟨-, h⟩
  · exact hw h1 h10 h (fun _ _ _ h => by cases h) (fun _ _ _ h => by cases h)
  rcases either h with ⟨-, h⟩ | ⟨-, h⟩
  · exact hw h1 h10 h (fun _ _ _ h => by cases h) (fun _ _ _ h => by cases h)
  rcases either h with ⟨-, h⟩ | ⟨-, h⟩
  · exact hw h1 h10 h (fun _ _ _ h => by cases h) (fun _ _ _ h => by cases h)
  rcases either h with ⟨-, h⟩ | ⟨-, h⟩
  · exact hw h1 h10 h (fun _ _ _ h => by cases h) (fun _ _ _ h => by cases h)
  rcases either h with ⟨-, h⟩ | ⟨-, h⟩
  · obtain ⟨a, i, hx, rfl⟩ := withInfo_ok h
    have hks := readKsymbol_ok hx
    exact ⟨fun h => absurd (show e.type = 1 ∨ e.type = 10 from h) (fun h => h.elim h1 h10), fun m hm => (by cases hm), fun k hk => (by cases hk; exact hks), fun m hm => by cases hm⟩
  rcases either h with ⟨-, h⟩ | ⟨-, h⟩
  · exact hw h1 h10 h (fun _ _ _ h => by cases h) (fun _ _ _ h => by cases h)
  rcases either h with ⟨-, h⟩ | ⟨-, h⟩
  · exact hp h1 h10 h (fun _ _ h => by cases h) (fun _ _ h => by cases h)
  rcases either h with ⟨-, h⟩ | ⟨-, h⟩
  · exact hp h1 h10 h (fun _ _ h => by cases h) (fun _ _ h => by cases h)
  rcases either h with ⟨-, h⟩ | ⟨-, h⟩
  · exact hp h1 h10 h (fun _ _ h => by cases h) (fun _ _ h => by cases h)
  rcases either h with ⟨-, h⟩ | ⟨-, h⟩
  · exact hp h1 h10 h (fun _ _ h => by cases h) (fun _ _ h => by cases h)
  rcases either h with ⟨-, h⟩ | ⟨-, h⟩
  · exact hp h1 h10 h (fun _ _ h => by cases h) (fun _ _ h => by cases h)
  rcases either h with ⟨-, h⟩ | ⟨-, h⟩
  · exact hp h1 h10 h (fun _ _ h => by cases h) (fun _ _ h => by cases h)
  rcases either h with ⟨-, h⟩ | ⟨-, h⟩
  · exact hp h1 h10 h (fun _ _ h => by cases h) (fun _ _ h => by cases h)
  rcases either h with ⟨-, h⟩ | ⟨-, h⟩
  · exact hp h1 h10 h (fun _ _ h => by cases h) (fun _ _ h => by cases h)
  rcases either h with ⟨-, h⟩ | ⟨-, h⟩
  · exact hp h1 h10 h (fun _ _ h => by cases h) (fun _ _ h => by cases h)
  cases h
  exact .other h1 h10 (fun _ h => by cases h) (fun _ h => by cases h)

theorem serialize_ok {env : Serial.Env} {ser : Ser} {e : RawEvent} {m : Msg} (h : serialize env ser e = some (some m)) : Shaped m := by
  unfold serialize at h
  split at h
  · cases h
  · cases h
  · rename_i hb
    obtain ⟨k1, k2, k3, k4⟩ := readBody_ok hb
    cases h
    exact ⟨k1, k2, k3, k4⟩

/-! ## The events -/

/-- All events have a property. -/
abbrev AllHave (Q : Msg → Prop) (st : Data.St) : Prop := ∀ m ∈ st.events, Q m

/-- A property that every message has that is made from an event, and that does not depend on trace data. -/
structure FromEvents (Q : Msg → Prop) : Prop where
  made : ∀ {env : Serial.Env} {ser : Ser} {e : RawEvent} {m : Msg}, e.size < 2 ^ 16 → Data.known e.type = true →
    serialize env ser e = some (some m) → Q m
  trace : ∀ {m : Msg} (a : Serial.Auxtrace), m.type = 71 → Q m → Q { m with body := .auxtrace a }

variable {Q : Msg → Prop}

theorem fetch_length {b d : List UInt8} {off n : Nat} (h : fetch b off n = some d) : d.length = n := by
  unfold fetch at h
  split at h
  · rename_i hl; cases h; rw [List.length_take, List.length_drop]; omega
  · cases h

theorem ends_data (n : Nat) : Ends (data n) fun d => d.length = n := by
  intro r a r' h
  unfold data Reader.readData at h
  split at h
  · cases h
  · split at h
    · cases h
    · rename_i d hd
      cases h
      exact fetch_length hd

theorem shaped_keep {cfg : Cfg} (hQ : FromEvents Q) {st : Data.St} {e : RawEvent} (he : e.size < 2 ^ 16) (hkn : Data.known e.type = true)
    (hs : AllHave Q st) : Ends (keep cfg st e) fun y => AllHave Q y.1 := by
  unfold keep
  refine Ends.next fun empty => Ends.ite (fun _ => Ends.pure hs) fun _ => ?_
  refine Ends.bind (Q := AllHave Q) (Ends.lift fun a ha => ?_) fun st' hs => ?_
  · unfold addBuildId at ha
    split at ha
    · rw [Option.bind_eq_bind, Option.bind_eq_some_iff] at ha
      obtain ⟨name, -, ha⟩ := ha
      split at ha
      · cases ha; exact hs
      · rw [Option.bind_eq_bind, Option.bind_eq_some_iff] at ha
        obtain ⟨n, -, ha⟩ := ha
        split at ha
        · cases ha
        · rw [Option.bind_eq_some_iff] at ha
          obtain ⟨d, -, ha⟩ := ha
          split at ha
          · cases ha
          · cases ha; exact hs
    · cases ha; exact hs
  · refine Ends.ite (fun _ => Ends.ite (fun _ => Ends.next fun _ => Ends.pure hs) fun _ => Ends.pure hs) fun _ => ?_
    refine Ends.bind (Q := Q) (Ends.lift fun m hm => hQ.made he hkn hm) fun m hm => ?_
    have hr : ∀ m', Q m' → AllHave Q (report cfg { st' with events := st'.events ++ [m'] } m') := by
      intro m' hm'
      have : AllHave Q { st' with events := st'.events ++ [m'] } := by
        intro x hx
        rcases List.mem_append.1 hx with h | h
        · exact hs x h
        · rw [List.mem_singleton.1 h]; exact hm'
      unfold report
      split
      · split <;> exact this
      · exact this
    refine Ends.ite (fun ht => Ends.bind (Q := Q) ?_ fun m' hm' => Ends.pure (hr m' hm')) fun _ =>
      Ends.bind (Q := Q) (Ends.pure hm) fun m' hm' => Ends.pure (hr m' hm')
    unfold readTrace
    refine Ends.next fun _ => Ends.ite (fun _ => Ends.fail) fun _ => Ends.next fun d => Ends.pure ?_
    split
    · exact hm
    · exact hQ.trace _ ht hm

theorem ends_header : Ends readEventHeader fun h => h.size < 2 ^ 16 := by
  unfold readEventHeader
  refine Ends.bind (ends_data 8) fun d hd => Ends.next fun cross => Ends.ite (fun _ => Ends.fail) fun _ => Ends.next fun rem =>
    Ends.ite (fun _ => Ends.fail) fun _ => Ends.pure ?_
  simp only
  rw [field_decode (by omega) (by omega)]
  have := decodeInt_lt cross ((d.drop 6).take 2)
  rwa [show ((d.drop 6).take 2).length = 2 by rw [List.length_take, List.length_drop]; omega] at this

theorem shaped_event {cfg : Cfg} (hQ : FromEvents Q) {st : Data.St} {h : Header} (hh : h.size < 2 ^ 16) (hs : AllHave Q st) : Ends (readEvent cfg st h) fun y => AllHave Q y.1 := by
  have skip : ∀ n, Ends (skipRest st n) fun y => AllHave Q y.1 := fun n => Ends.next fun _ => Ends.next fun _ => Ends.pure hs
  unfold readEvent
  refine Ends.ite (fun _ => skip _) fun hkn => Ends.ite (fun _ => Ends.fail) fun _ => ?_
  split
  · exact Ends.fail
  · exact Ends.ite (fun _ => Ends.fail) fun _ => Ends.ite (fun _ => skip _) fun _ => Ends.bind (ends_data _) fun d hd => Ends.next fun cross =>
      Ends.bind (Q := fun e : RawEvent => e.size < 2 ^ 16 ∧ Data.known e.type = true) (Ends.lift fun e he => by
        have h3 := (decode_same he).2.2
        have h4 : e.type = h.type := (decode_same he).1
        refine ⟨?_, by rw [h4]; exact Classical.not_not.1 hkn⟩
        unfold RawEvent.size
        simp only at h3
        omega) fun e he => Ends.bind (shaped_keep hQ he.1 he.2 hs) fun y hy => Ends.pure hy

theorem shaped_events {cfg : Cfg} (hQ : FromEvents Q) : ∀ (fuel left : Nat) (st : Data.St), AllHave Q st → Ends (readEvents cfg fuel left st) (AllHave Q)
  | 0, left, st, hs => by
    unfold readEvents
    exact Ends.ite (fun _ => Ends.pure hs) fun _ => Ends.abort
  | fuel + 1, left, st, hs => by
    unfold readEvents
    exact Ends.ite (fun _ => Ends.pure hs) fun _ => Ends.bind ends_header fun h hh => Ends.bind (shaped_event hQ hh hs) fun y hy => shaped_events hQ fuel _ _ hy

theorem shaped_file {cfg : Cfg} (hQ : FromEvents Q) {h : FileHeader} {st : Data.St} (hs : AllHave Q st) : Ends (readFileData cfg h st) (AllHave Q) := by
  unfold readFileData
  refine Ends.next fun total => Ends.ite (fun _ => Ends.fail) fun _ => ?_
  have rest : ∀ b : Meta.St, Ends (do
        let b ← readMetadata cfg.env.md5 b (addSz h.data.1 h.data.2)
        let st ← readDataSection cfg { st with base := b } h.data.1 h.data.2
        Pure.pure (if st.base.info.eventTypes ≠ [] then setBit st 12 else st) : P Data.St) (AllHave Q) := by
    intro b
    refine Ends.next fun b' => Ends.bind (Q := AllHave Q) ?_ fun st' hst' => Ends.pure ?_
    · intro r a r' e
      obtain ⟨-, r1, -, e'⟩ := bind_ok e
      exact shaped_events hQ _ _ _ (by exact hs) r1 a r' e'
    · split <;> exact hst'
  exact Ends.ite (fun _ => Ends.next fun b => rest b) fun _ => Ends.next fun b => rest b

theorem shaped_record {cfg : Cfg} (hQ : FromEvents Q) {st : Data.St} {n : Nat} (hs : AllHave Q st) : Ends (readPipedRecord cfg st n) fun y => AllHave Q y.1 := by
  unfold readPipedRecord
  refine Ends.bind ends_header fun h hh => ?_
  refine Ends.ite (fun _ => Ends.next fun b => Ends.pure hs) fun _ => ?_
  refine Ends.ite (fun _ => Ends.next fun b => Ends.pure hs) fun _ => ?_
  refine Ends.ite (fun _ => Ends.next fun _ => Ends.next fun b => Ends.pure hs) fun _ => ?_
  refine Ends.ite (fun _ => Ends.next fun b => Ends.pure hs) fun _ => ?_
  refine Ends.ite (fun _ => Ends.next fun b => Ends.pure hs) fun _ => ?_
  exact Ends.bind (shaped_event hQ hh hs) fun y hy => Ends.pure hy

theorem shaped_records {cfg : Cfg} (hQ : FromEvents Q) : ∀ (fuel : Nat) (st : Data.St) (n : Nat), AllHave Q st →
    Ends (readPipedRecords cfg fuel st n) fun y => AllHave Q y.1
  | 0, st, n, hs => by
    unfold readPipedRecords
    exact Ends.next fun _ => Ends.next fun _ => Ends.ite (fun _ => Ends.abort) fun _ => Ends.pure hs
  | fuel + 1, st, n, hs => by
    unfold readPipedRecords
    exact Ends.next fun _ => Ends.next fun _ => Ends.ite
      (fun _ => Ends.bind (shaped_record hQ hs) fun y hy => shaped_records hQ fuel _ _ hy) fun _ => Ends.pure hs

theorem shaped_piped {cfg : Cfg} (hQ : FromEvents Q) {st : Data.St} (hs : AllHave Q st) : Ends (readPiped cfg st) (AllHave Q) := by
  intro r a r' e
  unfold readPiped at e
  refine (Ends.next fun _ => Ends.next fun _ => Ends.bind (shaped_records hQ (r.size + 1) st 0 hs) fun y hy => Ends.pure ?_ :
    Ends (do
      let here ← tell
      let _ ← check (here = 16)
      let (st, n) ← readPipedRecords cfg (r.size + 1) st 0
      Pure.pure (if st.base.info.mask.testBit 12 = false ∧ n = st.base.info.attrs.length then setBit st 12 else st) : P Data.St) (AllHave Q)) r a r' e
  split <;> exact hy

/-- Every message read from any bytes has a property of messages made from events. -/
theorem read_all (hQ : FromEvents Q) {cfg : Cfg} {b : Serial.Bytes} {st : Data.St} (h : readBytes cfg b = some (some st)) : AllHave Q st := by
  unfold readBytes at h
  rw [Option.map_eq_some_iff] at h
  obtain ⟨⟨o, r⟩, h, ho⟩ := h
  simp only at ho
  subst ho
  have h0 : ∀ b : Meta.St, AllHave Q { base := b } := fun b m hm => by cases hm
  have : Ends (readFromData cfg) (AllHave Q) := by
    unfold readFromData
    exact Ends.next fun _ => Ends.ite (fun _ => Ends.fail) fun _ => Ends.next fun hd => Ends.ite (fun _ => shaped_file hQ (h0 _)) fun _ =>
      Ends.ite (fun _ => Ends.fail) fun _ => shaped_piped hQ (h0 _)
  exact this _ _ _ h

theorem shaped_from : FromEvents Shaped :=
  ⟨fun _ _ h => serialize_ok h, fun _ ht _ =>
    ⟨fun h => absurd h (by simp only; omega), fun _ h => (by cases h), fun _ h => (by cases h), fun _ h => (by cases h)⟩⟩

/-- All events are shaped. -/
abbrev AllShaped (st : Data.St) : Prop := AllHave Shaped st

/-- Every message read from any bytes is shaped. -/
theorem read_shaped {cfg : Cfg} {b : Serial.Bytes} {st : Data.St} (h : readBytes cfg b = some (some st)) : AllShaped st :=
  read_all shaped_from h

end Verif.Whole
