import Verif.Whole.Props
import Verif.Converter.Props5

/-!
# Where the frames of a recording are shown
-/

namespace Verif.Whole
open Verif.Serial (Msg Body)

/-- A conversion as one of the stages after the other. -/
theorem staged {M : Machine} {ids : List (Bytes × Bytes)} {labels options : Nat} {threadTypes : List (Nat × Bytes)} {i : Meta.Info}
    {l : List Msg} {ps : List Converter.ProcessProfile} (h : convertRead M ids labels options threadTypes i l = some ps) :
    ∃ r L, parseEvents M (rawOpts M options) true true true (withBuildIds M.env.md5 ids i l) l = some r ∧
      Converter.protoToProfiles (normInput M (withBuildIds M.env.md5 ids i l) r.1) (i.eventTypes.map (fun t => some t.2)) i.cmdWhole
        labels options threadTypes = some (ps, L) := by
  unfold convertRead at h
  simp only [Option.bind_eq_bind] at h
  obtain ⟨r, h1, h⟩ := Option.bind_eq_some_iff.1 h
  unfold toProfiles at h
  obtain ⟨⟨p, L⟩, h2, rfl⟩ := Option.map_eq_some_iff.1 h
  exact ⟨r, L, h1, h2⟩

/-- Nothing in the recording is mistaken for something of the converter: no process has the name of the mapping of lost samples, and with
one profile for all processes the one that runs when there is nothing to do is not named. -/
structure Calm (options : Nat) (l : List Msg) : Prop where
  name : ∀ m ∈ l, ∀ c, m.body = .comm c → c.comm ≠ ascii "[lost]"
  idle : options.testBit 0 = true ∨ ∀ m ∈ l, ∀ c, m.body = .comm c → c.pid ≠ 0

/-- The mappings that an event tells of are in range. -/
theorem typed_view {m : Msg} (h : Shaped m) : (normView m).Typed := by
  unfold Normalizer.Ev.Typed
  intro x hx
  unfold normView at hx
  cases hb : m.body with
  | mmap b =>
    rw [hb] at hx
    cases hx
    obtain ⟨h1, h2, h3, h4⟩ := h.range b hb
    exact ⟨h1, h2, h3, h4⟩
  | ksymbol k =>
    rw [hb] at hx
    obtain ⟨h1, h2⟩ := h.ksymbol k hb
    simp only [Normalizer.Ev.mapping] at hx
    split at hx
    · cases hx
      exact ⟨(by decide : 2 ^ 32 - 1 < 2 ^ 32), h1, by simp only; omega, (by decide : 0 < 2 ^ 64)⟩
    · cases hx
  | _ => rw [hb] at hx; cases hx

/-- The comm events that the converter sees are those of the recording. -/
theorem comm_origin {M : Machine} {options : Nat} {i : Meta.Info} {l : List Msg} (hl : ∀ m ∈ l, Shaped m) {r : List Msg × Parser.Stats}
    (h : parseEvents M (rawOpts M options) true true true i l = some r) {misc : Nat} {c : Normalizer.CommEv}
    (hc : .comm misc c ∈ r.1.map normView) : ∃ m ∈ l, ∃ d, m.body = .comm d ∧ d.comm = c.comm ∧ d.pid = c.pid := by
  obtain ⟨k1, -⟩ := prep_spec rfl rfl hl h
  obtain ⟨m, hm, he⟩ := List.mem_map.1 hc
  have hn : notMap m = true := by
    cases hb : m.body with
    | mmap b => unfold normView at he; rw [hb] at he; cases he
    | _ => unfold notMap; rw [hb]
  have hm' : .comm misc c ∈ (r.1.filter notMap).map normView := List.mem_map.2 ⟨m, List.mem_filter.2 ⟨hm, hn⟩, he⟩
  rw [k1, if_pos rfl] at hm'
  obtain ⟨m', hm', he'⟩ := List.mem_map.1 hm'
  refine ⟨m', (sort_perm i l).mem_iff.1 (List.mem_filter.1 hm').1, ?_⟩
  unfold normView at he'
  cases hb : m'.body with
  | comm d =>
    rw [hb] at he'
    cases he'
    exact ⟨d, rfl, rfl, rfl⟩
  | ksymbol k => rw [hb] at he'; cases he'
  | _ => rw [hb] at he'; cases he'

/-- The calls for comm events are those of the recording. -/
theorem comm_called {cfg : Normalizer.Config} (es : List Normalizer.Ev) : ∀ {past : List Normalizer.Ev} {cbs : List Normalizer.Callback}
    {c : Normalizer.CommEv} {b : Bool}, Normalizer.ReportsAll cfg past es cbs → .comm c b ∈ cbs → ∃ misc, .comm misc c ∈ es := by
  induction es with
  | nil => intro past cbs c b h hc; rw [show cbs = [] from h] at hc; cases hc
  | cons e es ih =>
    intro past cbs c b h hc
    obtain ⟨x, xs, rfl, h1, h2⟩ := h
    rcases List.mem_append.1 hc with hc | hc
    · have lost : ∀ l, Normalizer.ReportsLost cfg l x → False := by
        intro l hl
        unfold Normalizer.ReportsLost at hl
        split at hl
        · rw [hl] at hc; cases hc
        · obtain ⟨r, rfl, -⟩ := hl
          cases List.eq_of_mem_replicate hc
      have mm : ∀ m, Normalizer.ReportsMmap cfg m x → False := by
        intro m hm
        unfold Normalizer.ReportsMmap at hm
        split at hm
        · rw [hm] at hc; cases hc
        · obtain ⟨r, rfl, -⟩ := hm
          cases List.mem_singleton.1 hc
      cases e with
      | mmap m => exact (mm m h1).elim
      | ksymbol t f a n nm =>
        unfold Normalizer.Reports at h1
        simp only at h1
        split at h1
        · exact (mm _ h1).elim
        · rw [h1] at hc; cases hc
      | comm misc d =>
        obtain ⟨b', rfl, -⟩ := h1
        cases List.mem_singleton.1 hc
        exact ⟨misc, List.mem_cons_self⟩
      | lostSamples l =>
        unfold Normalizer.Reports at h1
        simp only at h1
        split at h1
        · exact (lost _ h1).elim
        · rw [h1] at hc; cases hc
      | lost l =>
        unfold Normalizer.Reports at h1
        simp only at h1
        split at h1
        · rw [h1] at hc; cases hc
        · exact (lost _ h1).elim
      | sample misc s =>
        have h1 : Normalizer.ReportsSample cfg past misc s x := h1
        unfold Normalizer.ReportsSample at h1
        split at h1
        · rw [h1] at hc; cases hc
        · obtain ⟨r, rfl, -⟩ := h1
          cases List.mem_singleton.1 hc
      | auxtrace d =>
        unfold Normalizer.Reports at h1
        simp only at h1
        split at h1
        · cases d with
          | none => rw [show x = [] from h1] at hc; cases hc
          | some d =>
            obtain ⟨rs, e, -, ha⟩ := h1
            obtain ⟨r, -, q, hq, -⟩ := All₂.left ha _ hc
            cases hq
        · rw [h1] at hc; cases hc
      | fork a b t => rw [show x = [] from h1] at hc; cases hc
      | cgroup a b => rw [show x = [] from h1] at hc; cases hc
      | auxtraceInfo a => rw [show x = [] from h1] at hc; cases hc
      | other => rw [show x = [] from h1] at hc; cases hc
    · obtain ⟨misc, hm⟩ := ih h2 hc
      exact ⟨misc, List.mem_cons_of_mem _ hm⟩

/-- What the converter is given is in order. -/
theorem given {M : Machine} {options : Nat} {i : Meta.Info} {l : List Msg} (hl : ∀ m ∈ l, Shaped m) (hc : Calm options l)
    {r : List Msg × Parser.Stats} (h : parseEvents M (rawOpts M options) true true true i l = some r) :
    Converter.Recording (normInput M i r.1) ∧ ∀ cbs, Normalizer.process (normInput M i r.1) = some cbs → ∀ S : Converter.Setup,
      S.options = options → Converter.Sane S cbs := by
  have ht : ∀ e ∈ (normInput M i r.1).events, e.Typed := by
    intro e he
    obtain ⟨m, hm, rfl⟩ := List.mem_map.1 he
    exact typed_view ((prep_spec rfl rfl hl h).2 m hm)
  refine ⟨⟨ht, ?_⟩, ?_⟩
  · intro misc c hm hn
    obtain ⟨m, hm, d, h1, h2, -⟩ := comm_origin hl h hm
    exact hc.name m hm d h1 (h2.trans hn.1)
  · intro cbs hp S hS
    unfold Converter.Sane
    rw [hS]
    refine hc.idle.imp (fun h => h) fun hi => ?_
    obtain ⟨cfg, -, hrep⟩ := Normalizer.process_reports _ cbs ht hp
    unfold Converter.execs
    rw [List.any_eq_false]
    intro cb hcb
    cases cb with
    | comm c b =>
      obtain ⟨misc, hm⟩ := comm_called _ hrep hcb
      obtain ⟨m, hm, d, h1, -, h3⟩ := comm_origin hl h hm
      have := hi m hm d h1
      simp only [Bool.and_eq_true, beq_iff_eq, not_and]
      intro _
      rw [← h3]; exact this
    | mmap p m => simp
    | sample c => simp

/-- C108. In the profiles made from the bytes of a recording the ids are in order, and each frame of a sample has a location whose address
is 0 or lies within the mapping shown for it. Whatever the bytes are, if no process is called `[lost]` and, with one profile for all, process 0 gets no
name. The full property has no such conditions: see `frames_located_violated` and `lost_name_aborts_violated`. -/
theorem frames_located_partial {M : Machine} {ids : List (Bytes × Bytes)} {labels options : Nat} {threadTypes : List (Nat × Bytes)} {b : Bytes}
    {ps : List Converter.ProcessProfile} {st : Data.St} (hb : File.readBytes { env := M.env } b = some (some st))
    (hc : Calm options st.events) (h : rawToProfiles M ids labels options threadTypes b = some ps) :
    ∀ p ∈ ps, Converter.InOrder p.data ∧ ∀ s ∈ p.data.sample, ∀ id ∈ s.locationId, ∃ l ∈ p.data.location, l.id = id ∧
      (l.mappingId = 0 → l.address = 0) ∧
      (l.mappingId ≠ 0 → ∃ m ∈ p.data.mapping, m.id = l.mappingId ∧
        (l.address ≠ 0 → m.memoryStart ≤ l.address ∧ l.address < m.memoryLimit)) := by
  unfold rawToProfiles at h
  rw [hb] at h
  obtain ⟨r, L, h1, h2⟩ := staged h
  obtain ⟨g1, g2⟩ := given (read_shaped hb) hc h1
  have hconv := h2
  unfold Converter.protoToProfiles at hconv
  cases hp : Normalizer.process (normInput M (withBuildIds M.env.md5 ids st.base.info st.events) r.1) with
  | none => rw [hp] at hconv; cases hconv
  | some cbs =>
    rw [hp] at hconv
    simp only at hconv
    have hs := g2 cbs hp (Converter.setupOf (normInput M (withBuildIds M.env.md5 ids st.base.info st.events) r.1)
      (st.base.info.eventTypes.map (fun t => some t.2)) st.base.info.cmdWhole labels options threadTypes) rfl
    change Converter.convert (Converter.setupOf (normInput M (withBuildIds M.env.md5 ids st.base.info st.events) r.1)
      (st.base.info.eventTypes.map (fun t => some t.2)) st.base.info.cmdWhole labels options threadTypes) cbs = _ at hconv
    intro p hpm
    have ho := (Converter.profiles_in_order_partial hconv hs hpm).1
    refine ⟨ho, ?_⟩
    intro s hsm id hid
    obtain ⟨bi, hbi⟩ := List.getElem?_of_mem hpm
    obtain ⟨si, hsi⟩ := List.getElem?_of_mem hsm
    obtain ⟨a1, a2, a3, a4⟩ := Converter.accepted_samples_placed hconv
    obtain ⟨q, hq, hq2⟩ := a4 bi si p s hbi hsi
    obtain ⟨A, B, hL⟩ := Converter.mem_placed.1 hq
    subst hL
    obtain ⟨p', s', k1, k2, k3⟩ := Converter.addresses_in_mappings _ _ _ _ _ _ g1 h2 (by
      rw [a2]; exact hs.reverse)
    rw [hq2] at k1 k2
    rw [hbi] at k1
    cases k1
    rw [hsi] at k2
    cases k2
    obtain ⟨f, -, l, l0, l1, l2, l3, l4⟩ := Converter.All₂.right k3 _ hid
    have hidOf : ∀ {α : Type} (g : α → Nat) (xs : List α), xs.map g = List.range' 1 xs.length → ∀ (j : Nat) x, xs[j]? = some x → g x = j + 1 := by
      intro α g xs hx j x hj
      have := congrArg (fun y => y[j]?) hx
      simp only [List.getElem?_map, hj, Option.map_some] at this
      have hlt := (List.getElem?_eq_some_iff.1 hj).1
      rw [List.getElem?_range' hlt] at this
      have := Option.some.inj this
      omega
    refine ⟨l, List.mem_of_getElem? l1, ?_, fun hz => l2.trans (l3 hz), fun hz => ?_⟩
    · rw [hidOf _ _ ho.locIds _ _ l1]; omega
    · obtain ⟨m, m1, m2⟩ := l4 hz
      refine ⟨m, List.mem_of_getElem? m1, ?_, fun hne => ?_⟩
      · rw [hidOf _ _ ho.mapIds _ _ m1]; omega
      · rw [l2] at hne ⊢; exact m2 hne

/-! ### Examples -/

section
open Verif.File (exFile exMetadata fileImage)
open Verif.Serial (exMsg exMap exSample exInfo exEnv)

def sampleMsg (misc ip time : Nat) : Msg :=
  exMsg 9 misc (.sample { exSample with ip := some ip, time := some time, callchain := [ip], branches := [], addr := some 0 })

def commMsg (pid time : Nat) (name : Serial.Bytes) : Msg :=
  exMsg 3 0 (.comm { pid := pid, tid := pid, comm := name, commMd5 := exEnv.md5 name, info := { exInfo with time := some time } })

def lostMsg (n time : Nat) : Msg :=
  exMsg 2 0 (.lost { id := 6, lost := n, info := { exInfo with pid := some 10, tid := some 10, time := some time } })

def mapMsg (time : Nat) : Msg := exMsg 10 (2 + 2 ^ 14) (.mmap { exMap with info := { exInfo with time := some time } })

def recordingOf (l : List Msg) : File.Recording where
  info := exMetadata
  events := l.map (fun m => (exFile, m))

/-- The locations (id, mapping, address), mappings (id, start, end) and samples of profiles. -/
def layout (ps : List Converter.ProcessProfile) : List (List (List (List Nat))) :=
  ps.map fun p => [p.data.location.map (fun l => [l.id, l.mappingId, l.address]),
    p.data.mapping.map (fun m => [m.id, m.memoryStart, m.memoryLimit]), p.data.sample.map (·.locationId)]

def exNamed : List Msg := [commMsg 10 1 (ascii "sh"), mapMsg 2, sampleMsg 1 0x4100 3, sampleMsg 2 0x4200 4, lostMsg 1 5]

def calmB (options : Nat) (l : List Msg) : Bool :=
  l.all (fun m => match m.body with | .comm c => c.comm != ascii "[lost]" && (options.testBit 0 || c.pid != 0) | _ => true)

theorem calm_of {options : Nat} {l : List Msg} (h : calmB options l = true) : Calm options l := by
  have h := List.all_eq_true.1 h
  constructor
  · intro m hm c hc
    have := h m hm
    rw [hc] at this
    simp only [Bool.and_eq_true, bne_iff_ne, ne_eq] at this
    exact this.1
  · cases ho : options.testBit 0 with
    | true => exact .inl rfl
    | false =>
      refine .inr fun m hm c hc => ?_
      have := h m hm
      rw [hc, ho] at this
      simp only [Bool.and_eq_true, bne_iff_ne, ne_eq, Bool.false_or] at this
      exact this.2

/-- The bytes of the example are read and converted, and nothing in them is mistaken. -/
example : ∃ st, File.readBytes { env := exEnv } (fileImage (recordingOf exNamed)) = some (some st) ∧ Calm 0 st.events ∧
    (rawToProfiles exMachine [] 0 0 [] (fileImage (recordingOf exNamed))).map layout =
      some [[[[1, 2, 0x4100], [2, 2, 0x4200], [3, 3, 0x9000000000000000]],
        [[1, 0, 1], [2, 0x4000, 0x5000], [3, 0x9000000000000000, 0x9000000000000001]], [[1], [2], [3]]]] := by
  have h : ((File.readBytes { env := exEnv } (fileImage (recordingOf exNamed))).bind id).map (fun st => calmB 0 st.events) = some true ∧
      (rawToProfiles exMachine [] 0 0 [] (fileImage (recordingOf exNamed))).map layout =
      some [[[[1, 2, 0x4100], [2, 2, 0x4200], [3, 3, 0x9000000000000000]],
        [[1, 0, 1], [2, 0x4000, 0x5000], [3, 0x9000000000000000, 0x9000000000000001]], [[1], [2], [3]]]] := by decide +kernel
  obtain ⟨h1, h2⟩ := h
  cases hr : File.readBytes { env := exEnv } (fileImage (recordingOf exNamed)) with
  | none => rw [hr] at h1; cases h1
  | some o =>
    cases o with
    | none => rw [hr] at h1; cases h1
    | some st =>
      rw [hr] at h1
      exact ⟨st, rfl, calm_of (Option.some.inj h1), h2⟩

/-- C108 fails with one profile for all processes if process 0 gets a name: a second profile is started, with a sample whose location is
in the first only, and a location whose mapping is. -/
theorem frames_located_violated :
    (rawToProfiles exMachine [] 8 0 [] (fileImage (recordingOf [mapMsg 2, sampleMsg 2 0x4100 3, sampleMsg 2 0x4200 4,
        commMsg 0 5 (ascii "swapper"), sampleMsg 2 0x4300 6, sampleMsg 1 0x4200 7]))).map layout =
      some [[[[1, 2, 0x4100], [2, 2, 0x4200]], [[1, 0, 1], [2, 0x4000, 0x5000]], [[1], [2]]],
        [[[1, 2, 0x4300]], [[1, 0, 1]], [[2]]]] := by decide +kernel

/-- The bytes of a recording with a process called `[lost]` are read, but converting them aborts at the first lost sample. -/
theorem lost_name_aborts_violated :
    ((File.readBytes { env := exEnv } (fileImage (recordingOf [commMsg 10 1 (ascii "[lost]"), sampleMsg 1 0x4100 3, lostMsg 1 5]))).bind id).map
      (fun st => st.events.map (·.type)) = some [3, 9, 2] ∧
    rawToProfiles exMachine [] 0 0 [] (fileImage (recordingOf [commMsg 10 1 (ascii "[lost]"), sampleMsg 1 0x4100 3, lostMsg 1 5])) = none := by
  have h : ((File.readBytes { env := exEnv } (fileImage (recordingOf [commMsg 10 1 (ascii "[lost]"), sampleMsg 1 0x4100 3, lostMsg 1 5]))).bind id).map
      (fun st => st.events.map (·.type)) = some [3, 9, 2] ∧
    (rawToProfiles exMachine [] 0 0 [] (fileImage (recordingOf [commMsg 10 1 (ascii "[lost]"), sampleMsg 1 0x4100 3, lostMsg 1 5]))).isNone = true := by
    decide +kernel
  exact ⟨h.1, Option.isNone_iff_eq_none.1 h.2⟩

end

end Verif.Whole
