import Verif.Whole.Finish

/-!
# Which recordings are converted at all
-/

namespace Verif.Whole
open Verif.Serial (Msg Body)

/-- What the converter does not abort on: the mappings are in order, programs in the kernel end below `2^64`, nothing is mistaken for
something of the converter, the version of perf can be read, and all weights together are below `2^63`. -/
structure Convertible (M : Machine) (options : Nat) (st : Data.St) : Prop where
  maps : Tidy M.page st.events
  kernel : ∀ m ∈ st.events, ∀ k, m.body = .ksymbol k → k.addr + k.len < 2 ^ 64
  calm : Calm options st.events
  weights : ∃ new, Normalizer.useLostSample st.base.info.version = some new ∧
    allWeights (options.testBit 4) new st.base.info.attrs M.traceBase st.events < 2 ^ 63
  hashes : ∀ x ∈ st.base.info.buildIds, x.hash.length < 2 ^ 63

/-- The mappings of the events that the converter gets. -/
theorem maps_fit {M : Machine} {options : Nat} {i : Meta.Info} {l : List Msg} (hl : ∀ m ∈ l, Shaped m) {r : List Msg × Parser.Stats}
    (h : parseEvents M (rawOpts M options) true true true i l = some r) {R : List (Nat × Nat)} (hk : ∀ m ∈ r.1, MsgKept M.page R m)
    (hks : ∀ m ∈ l, ∀ k, m.body = .ksymbol k → k.addr + k.len < 2 ^ 64) {e : Normalizer.Ev} (he : e ∈ r.1.map normView) {x : Normalizer.MMapEv}
    (hx : e.mapping = some x) : x.Fits ∧ (0 : UInt8) ∉ x.buildId.getD [] ∧ (x.buildId.getD []).length < 2 ^ 64 := by
  obtain ⟨p1, p2⟩ := prep_spec rfl rfl hl h
  obtain ⟨m, hm, rfl⟩ := List.mem_map.1 he
  cases hb : m.body with
  | mmap b =>
    unfold normView at hx
    rw [hb] at hx
    cases hx
    have k := hk m hm b hb
    have hs := k.stop
    have hh := k.half
    have hp := k.pos
    rw [show (hugeMap true b).start = b.start from rfl, show (hugeMap true b).len = b.len from rfl] at hs hh
    rw [show (hugeMap true b).len = b.len from rfl] at hp
    refine ⟨.inr ⟨hs, ?_⟩, ?_, ?_⟩
    · unfold Normalizer.MMapEv.first
      rw [if_neg (by simp only; omega)]
      simp only; omega
    · cases hx : b.buildId with
      | none => exact List.not_mem_nil
      | some y =>
        obtain ⟨d, rfl⟩ := (p2 m hm).buildId b hb y hx
        exact hex_no_nul d
    · cases hx : b.buildId with
      | none => exact (by decide : 0 < 2 ^ 64)
      | some y =>
        have := k.buildId y hx
        exact Nat.lt_of_le_of_lt this (by decide)
  | ksymbol s =>
    have hn : notMap m = true := by unfold notMap; rw [hb]
    have hm' : normView m ∈ (r.1.filter notMap).map normView := List.mem_map.2 ⟨m, List.mem_filter.2 ⟨hm, hn⟩, rfl⟩
    rw [p1, if_pos rfl] at hm'
    obtain ⟨m', hm', he'⟩ := List.mem_map.1 hm'
    have hm'l := (sort_perm i l).mem_iff.1 (List.mem_filter.1 hm').1
    rw [← he'] at hx
    cases hb' : m'.body with
    | ksymbol s' =>
      have := hks m' hm'l s' hb'
      unfold normView at hx
      rw [hb'] at hx
      simp only [Normalizer.Ev.mapping] at hx
      split at hx
      · cases hx
        refine ⟨?_, List.not_mem_nil, (by decide : 0 < 2 ^ 64)⟩
        unfold Normalizer.MMapEv.Fits Normalizer.MMapEv.first
        rw [if_neg (by simp)]
        simp only; omega
      · cases hx
    | _ => unfold normView at he'; rw [hb, hb'] at he'; cases he'
  | _ => unfold normView at hx; rw [hb] at hx; cases hx

/-- C110. The conversion of the bytes of a recording finishes, for all build IDs, labels and thread types that are given, if the recording has nothing
that the converter aborts on and the option to fail when the main mapping of a process changes is not set. The full property has no such conditions:
see the violations below. -/
theorem converts_partial {M : Machine} {ids : List (Bytes × Bytes)} {labels options : Nat} {threadTypes : List (Nat × Bytes)} {b : Bytes}
    {st : Data.St} (hM : ∀ l, (M.order l).Perm l) (hp : ∃ k, k ≤ 60 ∧ M.page = 2 ^ k) (ho : options.testBit 1 = false)
    (hids : ∀ x ∈ ids, x.2.length < 2 ^ 63) (hb : File.readBytes { env := M.env } b = some (some st)) (hc : Convertible M options st) :
    ∃ ps, rawToProfiles M ids labels options threadTypes b = some ps := by
  have hsh : ∀ m ∈ st.events, Shaped m := read_shaped hb
  have hsz : ∀ m ∈ st.events, Sized m := read_sized hb
  unfold rawToProfiles
  rw [hb]
  simp only
  obtain ⟨h1, h2, h3, h4, h5⟩ := hc
  generalize st.base.info = i at *
  generalize st.events = l at *
  obtain ⟨r, R, hr, hk⟩ := prep_total hM hp options (withBuildIds M.env.md5 ids i l) hsh hsz h1
  obtain ⟨g1, g2⟩ := given hsh h3 hr
  obtain ⟨new, n1, n2⟩ := h4
  have hver : (normInput M (withBuildIds M.env.md5 ids i l) r.1).perfVersion = i.version := rfl
  obtain ⟨ps, L, hps⟩ := Converter.proto_converts_partial (normInput M (withBuildIds M.env.md5 ids i l) r.1) (i.eventTypes.map (fun t => some t.2))
    i.cmdWhole labels options threadTypes g1 (by rw [hver, n1]; exact Option.some_ne_none _) (fun e he m hm => by
      obtain ⟨-, f2, f3⟩ := maps_fit hsh hr hk h2 he hm
      refine ⟨f2, f3, fun x hx => ?_⟩
      obtain ⟨y, hy, rfl⟩ := List.mem_map.1 hx
      exact hashes_short h5 hids y hy) (fun e he m hm => (maps_fit hsh hr hk h2 he hm).1) ho (fun cbs hcbs => by
      refine ⟨g2 cbs hcbs _ rfl, ?_⟩
      unfold Normalizer.process at hcbs
      simp only [Option.bind_eq_bind] at hcbs
      obtain ⟨cfg, hcfg, hcbs⟩ := Option.bind_eq_some_iff.1 hcbs
      obtain ⟨⟨nst, cbs'⟩, hrun, hcbs⟩ := Option.bind_eq_some_iff.1 hcbs
      cases hcbs
      have := accepted_weights (labels := labels) (threadTypes := threadTypes) hsh hr hcfg hrun
      have hn := (config_parts hcfg).1
      rw [hver, n1] at hn
      rw [← Option.some.inj hn] at this
      exact Nat.lt_of_le_of_lt (Nat.le_of_eq this) n2)
  unfold convertRead
  simp only [hr, Option.bind_eq_bind, Option.bind_some]
  unfold toProfiles
  exact ⟨ps, by rw [show (withBuildIds M.env.md5 ids i l).eventTypes = i.eventTypes from rfl,
    show (withBuildIds M.env.md5 ids i l).cmdWhole = i.cmdWhole from rfl, hps]; rfl⟩

/-! ### Examples -/

instance (page : Nat) (l : List Msg) : Decidable (Tidy page l) :=
  decidable_of_iff ((∀ m ∈ mapsIn l, 0 < m.len ∧ m.start + m.len < 2 ^ 64 ∧ (m.start + m.len ≤ 2 ^ 63 ∨ 2 ^ 63 < m.start)) ∧
    (∀ m ∈ mapsIn l, page ∣ m.start ∧ page ∣ m.pgoff) ∧
    (∀ m ∈ mapsIn l, page ∣ m.len ∨ ∀ o ∈ mapsIn l, (o.start = m.start ∧ o.len = m.len) ∨ (o.start + o.len < m.start ∨ m.start + m.len < o.start)) ∧
    (mapsIn l).length * (((mapsIn l).map (·.len)).sum + 6 * page) < 2 ^ 64)
    ⟨fun h => ⟨h.1, h.2.1, h.2.2.1, h.2.2.2⟩, fun h => ⟨h.1, h.2, h.3, h.4⟩⟩

def kernelB (l : List Msg) : Bool := l.all (fun m => match m.body with | .ksymbol k => decide (k.addr + k.len < 2 ^ 64) | _ => true)

def convertibleB (M : Machine) (options : Nat) (st : Data.St) : Bool :=
  decide (Tidy M.page st.events) && kernelB st.events && calmB options st.events && (match Normalizer.useLostSample st.base.info.version with
    | none => false
    | some new => decide (allWeights (options.testBit 4) new st.base.info.attrs M.traceBase st.events < 2 ^ 63)) &&
    st.base.info.buildIds.all (fun x => decide (x.hash.length < 2 ^ 63))

theorem convertible_of {M : Machine} {options : Nat} {st : Data.St} (h : convertibleB M options st = true) : Convertible M options st := by
  unfold convertibleB at h
  simp only [Bool.and_eq_true, decide_eq_true_eq, List.all_eq_true] at h
  obtain ⟨⟨⟨⟨h1, h2⟩, h3⟩, h4⟩, h5⟩ := h
  refine ⟨h1, fun m hm k hk => ?_, calm_of h3, ?_, h5⟩
  · have := List.all_eq_true.1 h2 m hm
    rw [hk] at this
    exact of_decide_eq_true this
  · split at h4
    · cases h4
    · rename_i new hn
      exact ⟨new, hn, of_decide_eq_true h4⟩

section
open Verif.File (exFile exMetadata fileImage)
open Verif.Serial (exMsg exMap exSample exInfo exEnv)

/-- A mapping of process 10. -/
def placeMsg (start len pgoff time : Nat) : Msg :=
  exMsg 10 (2 + 2 ^ 14) (.mmap { exMap with start := start, len := len, pgoff := pgoff, info := { exInfo with time := some time } })

/-- Mappings one of which covers part of another, one that ends within a page, samples in them and two lost ones. -/
def exPlaces : List Msg := [commMsg 10 1 (ascii "sh"), placeMsg 0x4000 0x3000 0 2, placeMsg 0x5000 0x1000 0 3, placeMsg 0x9000 0x801 0 4,
  sampleMsg 2 0x4100 5, sampleMsg 2 0x9800 6, lostMsg 2 7]

/-- `converts_partial` applies to the bytes of the example, with any build IDs that are given and any labels. -/
example (s : Bytes) (hs : s.length < 2 ^ 63) (labels : Nat) :
    ∃ ps, rawToProfiles exMachine [(ascii "/usr/lib/libc.so", s)] labels 0 [] (fileImage (recordingOf exPlaces)) = some ps := by
  have h : ((File.readBytes { env := exEnv } (fileImage (recordingOf exPlaces))).bind id).map (convertibleB exMachine 0) = some true := by
    decide +kernel
  cases hr : File.readBytes { env := exEnv } (fileImage (recordingOf exPlaces)) with
  | none => rw [hr] at h; cases h
  | some o =>
    cases o with
    | none => rw [hr] at h; cases h
    | some st =>
      rw [hr] at h
      refine converts_partial (fun _ => .refl _) ⟨12, by decide, rfl⟩ rfl (fun x hx => ?_) hr (convertible_of (Option.some.inj h))
      rw [List.mem_singleton.1 hx]
      exact hs

/-- The types of the events that are read, and whether there is an outcome. -/
def outcome (options : Nat) (l : List Msg) : Option (List Nat) × Bool :=
  (((File.readBytes { env := exEnv } (fileImage (recordingOf l))).bind id).map (fun st => st.events.map (·.type)),
    (rawToProfiles exMachine [] 0 options [] (fileImage (recordingOf l))).isSome)

/-- C110 fails for a mapping of length 0: the recording is read, but there is no outcome. -/
theorem converts_empty_violated : outcome 0 [placeMsg 0x4000 0 0 2, sampleMsg 2 0x4100 3] = (some [10, 9], false) := by decide +kernel

/-- C110 fails for a mapping that covers another up to an address within a page. -/
theorem converts_cut_violated : outcome 0 [placeMsg 0x4000 0x3000 0 2, placeMsg 0x5000 0x800 0 3, sampleMsg 2 0x4100 4] =
    (some [10, 10, 9], false) := by decide +kernel

/-- C110 fails for a mapping that ends at the end of memory. -/
theorem converts_end_violated : outcome 0 [placeMsg 0x4000 (2 ^ 64 - 0x4000) 0 2, sampleMsg 2 0x4100 4] = (some [10, 9], false) := by decide +kernel

/-- A mapping of a file. -/
def fileMsg (name : Bytes) (time : Nat) : Msg :=
  exMsg 10 (2 + 2 ^ 14) (.mmap { exMap with filename := name, filenameMd5 := exEnv.md5 name, info := { exInfo with time := some time } })

/-- C110 fails with the option to fail when the main mapping of a process changes: a sample before the first mapping is enough. -/
theorem converts_option_violated : outcome 3 [sampleMsg 2 0x4100 1, fileMsg (ascii "/bin/a") 2, sampleMsg 2 0x4100 3] = (some [9, 10, 9], false) ∧
    outcome 1 [sampleMsg 2 0x4100 1, fileMsg (ascii "/bin/a") 2, sampleMsg 2 0x4100 3] = (some [9, 10, 9], true) := by decide +kernel

/-- A mapping of a file at a given place. -/
def namedMsg (name : Bytes) (start len time : Nat) : Msg :=
  exMsg 10 (2 + 2 ^ 14) (.mmap { exMap with start := start, len := len, pgoff := 0, filename := name, filenameMd5 := exEnv.md5 name, info := { exInfo with time := some time } })

/-- C110: a mapping that covers another up to an address within a page makes no failure exactly if the option for such mappings
(4) is given and it is one of code made at run time, by its name. -/
theorem converts_jit :
    (∀ options ∈ [0, 1, 2, 8, 16, 4, 5], outcome options [placeMsg 0x4000 0x3000 0 2, namedMsg (ascii "/tmp/jitted-1.so") 0x5000 0x800 3, sampleMsg 2 0x4100 4] =
      (some [10, 10, 9], decide (options = 4 ∨ options = 5))) ∧
    outcome 4 [placeMsg 0x4000 0x3000 0 2, namedMsg (ascii "/tmp/jit-1.so") 0x5000 0x800 3, sampleMsg 2 0x4100 4] = (some [10, 10, 9], false) := by
  decide +kernel

/-- What identifies the file of a mapping when pieces of it are combined (C22): device and inode count only for events of type
`PERF_RECORD_MMAP2` (10) that do not have a build ID in their place, bit 14 of the flags. -/
theorem identity_seen (i : Nat) (m : Msg) (b : Serial.MMap) (hb : m.body = .mmap b) :
    (hugeView i m).mmap.map (fun x => (x.maj, x.min, x.ino, x.inoGen)) =
      some (if m.type = 10 ∧ m.misc / 2 ^ 14 % 2 = 0 then (some b.maj, some b.min, some b.ino, some b.inoGeneration)
        else (none, none, none, none)) := by
  have hi : hasInode m = decide (m.type = 10 ∧ m.misc / 2 ^ 14 % 2 = 0) := by
    unfold hasInode
    rw [Nat.testBit_eq_decide_div_mod_eq]
    by_cases h : m.type = 10 <;> rcases Nat.mod_two_eq_zero_or_one (m.misc / 2 ^ 14) with h2 | h2 <;> simp [h, h2]
  simp only [hugeView, hb, Option.map_some, hugeMap, hi]
  by_cases h : m.type = 10 ∧ m.misc / 2 ^ 14 % 2 = 0
  · simp [h]
  · simp only [decide_eq_false h, if_neg h, Bool.false_eq_true, if_false]

example : (hugeView 0 (exMsg 10 2 (.mmap { exMap with ino := 7 }))).mmap.bind (·.ino) = some 7 ∧
    (hugeView 0 (exMsg 10 (2 + 2 ^ 14) (.mmap { exMap with ino := 7 }))).mmap.bind (·.ino) = none ∧
    (hugeView 0 (exMsg 1 2 (.mmap { exMap with ino := 7 }))).mmap.bind (·.ino) = none := by decide +kernel

end

end Verif.Whole
