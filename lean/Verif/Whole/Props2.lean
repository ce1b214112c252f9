import Verif.Whole.Props
import Verif.Whole.Order

/-!
# The forms of a recording and the order of its records
-/

namespace Verif.Whole
open Verif.Serial (Msg Body)
open Verif.File (Complete Pipeable OldNames fileImage pipeImage oldFile oldPipe named)

theorem same_read {M : Machine} {ids : List (Bytes × Bytes)} {labels options : Nat} {threadTypes : List (Nat × Bytes)} {b b' : Bytes}
    {s t : Data.St} (h : File.readBytes { env := M.env } b = some (some s)) (h' : File.readBytes { env := M.env } b' = some (some t))
    (he : t.events = s.events) (hi : t.base.info = s.base.info) :
    rawToProfiles M ids labels options threadTypes b' = rawToProfiles M ids labels options threadTypes b := by
  unfold rawToProfiles
  rw [h, h']
  simp only [he, hi]

/-- C106. A recording leads to the same profiles whether its bytes come from a file or from a pipe. -/
theorem pipe_profiles {M : Machine} {ids : List (Bytes × Bytes)} {labels options : Nat} {threadTypes : List (Nat × Bytes)}
    {x : File.Recording} (h : Complete M.env x) (hp : Pipeable x) :
    rawToProfiles M ids labels options threadTypes (pipeImage x) = rawToProfiles M ids labels options threadTypes (fileImage x) := by
  obtain ⟨s, t, h1, h2, h3, h4, -⟩ := File.pipe_as_file (cfg := { env := M.env }) h hp rfl
  exact same_read h1 h2 h3 h4

/-- C106. So it does if the names of the events have a section of their own, as in old files, … -/
theorem old_profiles {M : Machine} {ids : List (Bytes × Bytes)} {labels options : Nat} {threadTypes : List (Nat × Bytes)}
    {x : File.Recording} {names : List Serial.Bytes} (h : Complete M.env x) (hn : OldNames 64 x names) (hnew : Complete M.env (named x names)) :
    rawToProfiles M ids labels options threadTypes (oldFile x names) =
      rawToProfiles M ids labels options threadTypes (fileImage (named x names)) := by
  obtain ⟨s, t, h1, h2, h3, h4, -⟩ := File.old_as_new (cfg := { env := M.env }) h hn hnew rfl
  exact same_read h1 h2 h3 h4

/-- C106. … or records of their own in a pipe. -/
theorem old_pipe_profiles {M : Machine} {ids : List (Bytes × Bytes)} {labels options : Nat} {threadTypes : List (Nat × Bytes)}
    {x : File.Recording} {names : List Serial.Bytes} {n : Nat} (h : Complete M.env x) (hp : Pipeable x) (hn : OldNames n x names)
    (hr : 16 + n < 2 ^ 16) (hsz : (oldPipe n x names).length < 2 ^ 63) (hnew : Complete M.env (named x names)) :
    rawToProfiles M ids labels options threadTypes (oldPipe n x names) =
      rawToProfiles M ids labels options threadTypes (fileImage (named x names)) := by
  obtain ⟨s, t, h1, h2, h3, h4, -⟩ := File.old_pipe_as_new (cfg := { env := M.env }) h hp hn hr hsz hnew rfl
  exact same_read h1 h2 h3 h4

/-- C106. Writing a recording and reading it again does not change its profiles, if the file holds the build IDs and no mapping has one. -/
theorem written_profiles {M : Machine} {ids : List (Bytes × Bytes)} {labels options : Nat} {threadTypes : List (Nat × Bytes)}
    {x : File.Recording} (h : Complete M.env x) {ser : Attr.Ser}
    (hs : Attr.registerAll {} false (x.info.attrs.map Attr.deserializeFileAttr) = some ser)
    (hcmd : x.info.mask.testBit 11 = true → x.info.cmdTokens ≠ []) (hsp : File.spare x.info < 2 ^ 62)
    (hids : x.info.mask.testBit 2 = false → x.info.buildIds = [])
    (hno : ∀ m ∈ x.messages, ∀ p, m.body = .mmap p → p.buildId = none) :
    ∃ b, File.writeBytes M.env ser x.info x.messages = some (some b) ∧
      rawToProfiles M ids labels options threadTypes b = convertRead M ids labels options threadTypes x.info x.messages := by
  obtain ⟨b, st, h1, h2, h3, h4⟩ := File.file_round_trip_exact (cfg := { env := M.env }) h rfl hs hcmd hsp hids hno
  refine ⟨b, h1, ?_⟩
  unfold rawToProfiles
  rw [h2]
  simp only [h3, h4]

/-! ## C107 -/

/-- C107. If all events record the time, the order in which records of different times stand in a file does not matter: two recordings that
for each time have the same records in the same order lead to the same profiles. This holds if the mappings have no build IDs and none are
given, or the mappings stand in the same order in both. The full property has no such condition: see `order_matters_violated`. -/
theorem order_irrelevant_partial {M : Machine} {ids : List (Bytes × Bytes)} {labels options : Nat} {threadTypes : List (Nat × Bytes)}
    {x y : File.Recording} (hx : Complete M.env x) (hy : Complete M.env y) (hi : x.info = y.info)
    (ht : ∀ a ∈ x.info.attrs, a.attr.sampleType.testBit 2 = true)
    (hs : ∀ t, x.messages.filter (fun m => m.timestamp = t) = y.messages.filter (fun m => m.timestamp = t))
    (hm : (ids = [] ∧ ∀ m ∈ x.messages, ∀ p, m.body = .mmap p → p.buildId = none) ∨
      x.messages.filter isMapping = y.messages.filter isMapping) :
    rawToProfiles M ids labels options threadTypes (fileImage x) = rawToProfiles M ids labels options threadTypes (fileImage y) := by
  have hsx := hx.size
  have hsy := hy.size
  obtain ⟨s, h1, h2, h3, -⟩ := File.read_image (cfg := { env := M.env }) (tail := []) hx rfl (by rw [List.append_nil]; omega)
  obtain ⟨t, k1, k2, k3, -⟩ := File.read_image (cfg := { env := M.env }) (tail := []) hy rfl (by rw [List.append_nil]; omega)
  rw [List.append_nil] at h1 k1
  have hinfo : t.base.info = s.base.info := by
    rw [h3, k3]
    unfold File.loaded
    rw [← hi]
    have : File.mappedIds M.env.md5 [] y.messages = File.mappedIds M.env.md5 [] x.messages := by
      rcases hm with ⟨-, hm⟩ | hm
      · rw [mappedIds_none _ _ _ hm, mappedIds_none]
        intro m hmem p hp
        have : m ∈ x.messages.filter (fun z => z.timestamp = m.timestamp) := by
          rw [hs]
          exact List.mem_filter.2 ⟨hmem, by simp⟩
        exact hm m (List.mem_filter.1 this).1 p hp
      · rw [mappedIds_filter _ _ _ (mapping_type hx), mappedIds_filter _ _ _ (mapping_type hy), hm]
    simp only [this]
  unfold rawToProfiles
  rw [h1, k1]
  simp only [hinfo, h2, k2]
  refine convert_same (fun a ha => ?_) hs (hm.imp (·.1) (fun h => h))
  rw [h3] at ha
  exact ht a ha

/-! ### Examples -/

section
open Verif.File (exFile exRecording exPlain exNames exMetadata ex_complete ex_pipeable ex_plain_complete ex_plain_pipeable ex_old ex_named)
open Verif.Serial (exMsg exMap exSample exInfo exEnv)

example : rawToProfiles exMachine [] 0 0 [] (pipeImage exRecording) = rawToProfiles exMachine [] 0 0 [] (fileImage exRecording) :=
  pipe_profiles (M := exMachine) ex_complete ex_pipeable

example : rawToProfiles exMachine [] 0 0 [] (oldFile exPlain exNames) = rawToProfiles exMachine [] 0 0 [] (fileImage exRecording) := by
  have := old_profiles (M := exMachine) (ids := []) (labels := 0) (options := 0) (threadTypes := []) ex_plain_complete ex_old
    (by rw [ex_named]; exact ex_complete)
  rw [ex_named] at this
  exact this

example : rawToProfiles exMachine [] 0 0 [] (oldPipe 64 exPlain exNames) = rawToProfiles exMachine [] 0 0 [] (fileImage exRecording) := by
  have := old_pipe_profiles (M := exMachine) (ids := []) (labels := 0) (options := 0) (threadTypes := []) (n := 64) ex_plain_complete
    ex_plain_pipeable ex_old (by decide) (by decide +kernel) (by rw [ex_named]; exact ex_complete)
  rw [ex_named] at this
  exact this

/-- These profiles are not empty. -/
example : (rawToProfiles exMachine [] 0 0 [] (fileImage exRecording)).map valuesOf = some [[1, 1000, 0, 0]] := by decide +kernel

/-- The records of the example in another order. -/
def exTurned : File.Recording := { exRecording with events := exRecording.events.drop 2 ++ exRecording.events.take 2 }

theorem ex_turned_complete : Complete exEnv exTurned where
  info := ex_complete.info
  attrs := ex_complete.attrs
  places := ex_complete.places
  names := ex_complete.names
  events := by
    intro e he
    refine ex_complete.events e ?_
    rcases List.mem_append.1 he with h | h
    · exact List.mem_of_mem_drop h
    · exact List.mem_of_mem_take h
  size := by decide +kernel

theorem turned {a b : List Msg} (hb : ∀ m ∈ b, m.timestamp = 0) (ha : ∀ m ∈ a, m.timestamp ≠ 0) (t : Nat) :
    (b ++ a).filter (fun m => m.timestamp = t) = (a ++ b).filter (fun m => m.timestamp = t) := by
  rw [List.filter_append, List.filter_append]
  by_cases h : t = 0
  · have : a.filter (fun m => m.timestamp = t) = [] := List.filter_eq_nil_iff.2 (fun m hm => by simpa [h] using ha m hm)
    rw [this, List.append_nil, List.nil_append]
  · have : b.filter (fun m => m.timestamp = t) = [] := List.filter_eq_nil_iff.2 (fun m hm => by
      rw [hb m hm]; simpa using fun h' => h h'.symm)
    rw [this, List.append_nil, List.nil_append]

example : fileImage exTurned ≠ fileImage exRecording ∧
    rawToProfiles exMachine [] 0 0 [] (fileImage exTurned) = rawToProfiles exMachine [] 0 0 [] (fileImage exRecording) := by
  refine ⟨by decide +kernel, order_irrelevant_partial (M := exMachine) ex_turned_complete ex_complete rfl (by decide) ?_ (.inr (by decide +kernel))⟩
  have h := turned (a := exRecording.messages.take 2) (b := exRecording.messages.drop 2) (by decide +kernel) (by decide +kernel)
  rw [List.take_append_drop] at h
  exact h

/-! ### Where it fails -/

/-- A mapping of the same file. -/
def sharedMap (pid time : Nat) (id : Option Bytes) : Body :=
  .mmap { exMap with
    pid := pid, tid := pid, buildId := id.map Util.rawDataToHexString, info := { exInfo with pid := some pid, time := some time } }

/-- Two processes have mapped two builds of a file; a third has mapped the file, and its mapping has no build ID. A sample of the third. -/
def buildOne : Attr.FileAttr × Msg := (exFile, exMsg 10 (2 + 2 ^ 14) (sharedMap 10 100 (some [0xaa, 1, 2, 3])))
def buildTwo : Attr.FileAttr × Msg := (exFile, exMsg 10 (2 + 2 ^ 14) (sharedMap 20 200 (some [0xbb, 1, 2, 3])))
def noBuild : Attr.FileAttr × Msg := (exFile, exMsg 10 2 (sharedMap 30 300 none))
def sampleOfThird : Attr.FileAttr × Msg := (exFile, exMsg 9 2 (.sample { exSample with pid := some 30, time := some 400 }))

/-- The build IDs of the mappings in the profiles. -/
def idsOf (ps : List Converter.ProcessProfile) : List Bytes :=
  ps.flatMap (fun p => p.data.mapping.map (fun m => p.data.stringTable.getD m.buildId.toNat []))

/-- C107 fails: two files with the same records, all of different times, in two orders. The mapping without a build ID gets the build ID that
stands first in the file. -/
theorem order_matters_violated :
    ∃ x y : File.Recording, x.info = y.info ∧ (∀ a ∈ x.info.attrs, a.attr.sampleType.testBit 2 = true) ∧ x.messages.Perm y.messages ∧
      (x.messages.map (·.timestamp)).Nodup ∧
      (rawToProfiles exMachine [] 0 0 [] (fileImage x)).map idsOf = some [[], ascii "aa010203"] ∧
      (rawToProfiles exMachine [] 0 0 [] (fileImage y)).map idsOf = some [[], ascii "bb010203"] := by
  refine ⟨{ info := exMetadata, events := [buildOne, buildTwo, noBuild, sampleOfThird] },
    { info := exMetadata, events := [buildTwo, buildOne, noBuild, sampleOfThird] }, rfl, by decide, .swap _ _ _, by decide +kernel,
    by decide +kernel, by decide +kernel⟩

end

end Verif.Whole
