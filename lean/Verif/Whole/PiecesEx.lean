import Verif.Whole.Pieces

/-!
# Recordings of mappings in pieces

Examples for `Whole/Pieces.lean`, and what joining pieces does to recordings in which other records stand between them.
-/

namespace Verif.Whole
open Verif.Serial (Msg Body)
open Verif.File (exFile exMetadata fileImage)
open Verif.Serial (exMsg exMap exSample exInfo exEnv)

def regularB (l : List Msg) : Bool :=
  l.all (fun m => match areaOf m with | some b => decide (Nameable b) | none => true) &&
  l.all (fun m => match m.body with | .mmap b => !HugePages.isHugePage (hugeMap false b) | _ => true)

theorem regular_of {l : List Msg} (h : regularB l = true) : Regular l := by
  unfold regularB at h
  simp only [Bool.and_eq_true, List.all_eq_true] at h
  obtain ⟨h1, h2⟩ := h
  refine ⟨fun m hm b hb => ?_, fun m hm b hb hh => ?_⟩
  · have := h1 m hm
    rw [hb] at this
    simpa using this
  · have := h2 m hm
    rw [hb] at this
    simp only at this
    rw [(HugePages.isHugePage_iff (hugeMap false b)).2 hh] at this
    cases this

/-- What follows the record of a mapping, up to the next one of the process. -/
def followB (a : Serial.MMap) (maps : Bool) : List Msg → Bool
  | [] => true
  | m :: l =>
    match m.body with
    | .mmap b => if b.pid = a.pid then maps || !decide (Continues a b) else followB a maps l
    | _ => followB a false l

def togetherB : List Msg → Bool
  | [] => true
  | m :: l => (match m.body with | .mmap a => followB a true l | _ => true) && togetherB l

theorem follow_of {a b : Serial.MMap} {mb : Msg} {w : List Msg} (hb : mb.body = .mmap b) (hc : Continues a b) : ∀ {v : List Msg} {maps : Bool},
    followB a maps (v ++ mb :: w) = true → (∀ x ∈ v, ∀ c, x.body = .mmap c → c.pid ≠ a.pid) → maps = true ∧ ∀ x ∈ v, ∃ c, x.body = .mmap c
  | [], maps, h, _ => by
    simp only [List.nil_append, followB, hb, if_pos hc.1.symm, hc, decide_true, Bool.not_true, Bool.or_false] at h
    exact ⟨h, fun x hx => by cases hx⟩
  | x :: v, maps, h, hv => by
    change followB a maps (x :: (v ++ mb :: w)) = true at h
    have hv' : ∀ y ∈ v, ∀ c, y.body = .mmap c → c.pid ≠ a.pid := fun y hy => hv y (List.mem_cons_of_mem _ hy)
    by_cases hx : ∃ c, x.body = .mmap c
    · obtain ⟨c, hx⟩ := hx
      simp only [followB, hx, if_neg (hv x List.mem_cons_self c hx)] at h
      obtain ⟨h1, h2⟩ := follow_of hb hc h hv'
      refine ⟨h1, fun y hy => ?_⟩
      rcases List.mem_cons.1 hy with rfl | hy
      · exact ⟨c, hx⟩
      · exact h2 y hy
    · have : followB a maps (x :: (v ++ mb :: w)) = followB a false (v ++ mb :: w) := by
        cases hbx : x.body with
        | mmap c => exact absurd ⟨c, hbx⟩ hx
        | _ => simp only [followB, hbx]
      rw [this] at h
      exact absurd (follow_of hb hc h hv').1 (by decide)

theorem together_of : ∀ {t : List Msg}, togetherB t = true → Together t
  | [], _ => fun u ma v mb w a b h => by simp at h
  | m :: l, h => by
    intro u ma v mb w a b ht ha hb hc hv
    simp only [togetherB, Bool.and_eq_true] at h
    cases u with
    | nil =>
      rw [List.nil_append] at ht
      cases ht
      rw [ha] at h
      exact (follow_of hb hc h.1 hv).2
    | cons y u =>
      rw [List.cons_append] at ht
      cases ht
      exact together_of h.2 u ma v mb w a b rfl ha hb hc hv

def ordinaryB (l : List Msg) : Bool :=
  l.all (fun m => l.all (fun m' => match m.body, m'.body with
    | .mmap a, .mmap b => !decide (Continues a b) || decide (a.start + a.len < 2 ^ 64 ∧ a.pgoff + a.len < 2 ^ 63 ∧ b.start + b.len < 2 ^ 64 ∧ b.pgoff + b.len < 2 ^ 63)
    | _, _ => true))

theorem ordinary_of {l : List Msg} (h : ordinaryB l = true) : Ordinary l := by
  intro m hm m' hm' a b ha hb hc
  unfold ordinaryB at h
  simp only [List.all_eq_true] at h
  have := h m hm m' hm'
  rw [ha, hb] at this
  simp only [hc, decide_true, Bool.not_true, Bool.false_or, decide_eq_true_eq] at this
  exact this

/-- The mappings of a recording after joining. -/
def joinedRanges (l : List Msg) : List (List Nat) :=
  (joined l.reverse).reverse.filterMap (fun m => match m.body with | .mmap b => some [b.pid, b.start, b.start + b.len, b.pgoff] | _ => none)

/-- A recording that meets the conditions, and whose records are in order of time. -/
def piecesB (options : Nat) (st : Data.St) : Bool :=
  calmB options st.events && regularB st.events && !speTrace st.events && inOrderB st.base.info.attrs st.events && togetherB st.events &&
    ordinaryB st.events

theorem pieces_of {options : Nat} {st : Data.St} (h : piecesB options st = true) :
    Calm options st.events ∧ Regular st.events ∧ speTrace st.events = false ∧ Timeline st.base.info.attrs st.events st.events ∧ Together st.events ∧
      Ordinary st.events := by
  unfold piecesB at h
  simp only [Bool.and_eq_true, Bool.not_eq_true'] at h
  obtain ⟨⟨⟨⟨⟨h1, h2⟩, h3⟩, h4⟩, h5⟩, h6⟩ := h
  exact ⟨calm_of h1, regular_of h2, h3, inOrder_of h4, together_of h5, ordinary_of h6⟩

/-- A mapping of another process between two pieces. -/
def otherMsg (time : Nat) : Msg :=
  exMsg 10 (2 + 2 ^ 14) (.mmap { exMap with pid := 20, tid := 20, start := 0x8000, info := { exInfo with time := some time } })

def exPieces : List Msg := [commMsg 10 1 (ascii "sh"), mapMsg 2, otherMsg 3, nextMsg 4, sampleMsg 2 0x4200 5, sampleMsg 2 0x5100 6]

/-- The conditions of C128 are met by the bytes of a recording of a mapping in two pieces with that of another process between them: both samples
are shown in one mapping. -/
example : ∃ st, File.readBytes { env := exEnv } (fileImage (recordingOf exPieces)) = some (some st) ∧
    (Calm 1 st.events ∧ Regular st.events ∧ speTrace st.events = false ∧ Timeline st.base.info.attrs st.events st.events ∧ Together st.events ∧
      Ordinary st.events) ∧ joinedRanges st.events = [[10, 0x4000, 0x6000, 0x2000], [20, 0x8000, 0x9000, 0x2000]] ∧
    (rawToProfiles exMachine [] 0 1 [] (fileImage (recordingOf exPieces))).map layout =
      some [[[[1, 2, 0x4200], [2, 2, 0x5100]], [[1, 0, 1], [2, 0x4000, 0x6000]], [[1], [2]]]] := by
  have h1 : ((File.readBytes { env := exEnv } (fileImage (recordingOf exPieces))).bind id).map (fun st => (piecesB 1 st, joinedRanges st.events)) =
      some (true, [[10, 0x4000, 0x6000, 0x2000], [20, 0x8000, 0x9000, 0x2000]]) := by decide +kernel
  have h2 : (rawToProfiles exMachine [] 0 1 [] (fileImage (recordingOf exPieces))).map layout =
      some [[[[1, 2, 0x4200], [2, 2, 0x5100]], [[1, 0, 1], [2, 0x4000, 0x6000]], [[1], [2]]]] := by decide +kernel
  cases hr : File.readBytes { env := exEnv } (fileImage (recordingOf exPieces)) with
  | none => rw [hr] at h1; cases h1
  | some o =>
    cases o with
    | none => rw [hr] at h1; cases h1
    | some st =>
      rw [hr] at h1
      simp only [Option.bind_some, id, Option.map_some, Option.some.injEq, Prod.mk.injEq] at h1
      exact ⟨st, rfl, pieces_of h1.1, h1.2, h2⟩

/-- A new process. -/
def bornMsg (child parent time : Nat) : Msg :=
  exMsg 7 0 (.fork { pid := child, tid := child, ppid := parent, ptid := parent, time := time, info := { exInfo with time := some time } })

/-- A sample of a process. -/
def procSample (pid ip time : Nat) : Msg :=
  exMsg 9 2 (.sample { exSample with pid := some pid, tid := some pid, ip := some ip, time := some time, callchain := [ip], branches := [], addr := some 0 })

def exBorn : List Msg := [mapMsg 2, bornMsg 12 10 3, nextMsg 4, procSample 12 0x5100 5]

/-- C128 fails if a new process starts between two pieces of a mapping of its parent: an address that it has not mapped is shown in the mapping, the
second piece of which came later. -/
theorem pieces_fork_violated : areaAt exBorn.reverse.tail 12 0x5100 = none ∧
    (rawToProfiles exMachine [] 0 1 [] (fileImage (recordingOf exBorn))).map (fun ps => (ps.map (·.pid), layout ps)) =
      some ([12], [[[[1, 2, 0x5100]], [[1, 0, 1], [2, 0x4000, 0x6000]], [[1]]]]) := by
  constructor <;> decide +kernel

/-- Nor is it the mapping at the time of a sample that is shown, if the next piece comes later. -/
theorem pieces_later_violated : areaAt [mapMsg 2] 10 0x4200 = some { exMap with info := { exInfo with time := some 2 } } ∧
    (rawToProfiles exMachine [] 0 1 [] (fileImage (recordingOf [mapMsg 2, sampleMsg 2 0x4200 3, nextMsg 4]))).map layout =
      some [[[[1, 2, 0x4200]], [[1, 0, 1], [2, 0x4000, 0x6000]], [[1]]]] := by
  constructor <;> decide +kernel

end Verif.Whole
