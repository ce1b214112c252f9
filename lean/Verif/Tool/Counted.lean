import Verif.Whole.Tally
import Verif.Tool.MessageEx

/-!
# The counters of a message
-/

namespace Verif.Tool
open Verif.Serial (Msg)
open Verif.Whole (Machine Steady Tidy Timeline coveredIn sampleRecord mapRecord forkRecord exitRecord)

/-- C118: the counters in the message of a recording are the numbers of samples, mappings, forks and exits among its records, and the number
 of samples all of whose addresses of code belong to mappings of their processes at that time. -/
theorem message_counts {M : Machine} (hM : ∀ l, (M.order l).Perm l) (hk : ∃ k, k ≤ 60 ∧ M.page = 2 ^ k) {o : ParseOpts} (hd : o.discard = false)
    (now : Nat) {b : Bytes} {st : Data.St} (hb : File.readBytes { env := M.env } b = some (some st)) (ht : Tidy M.page st.events)
    (hs : (o.huge = false ∧ o.combine = false) ∨ Steady st.events) :
    ∃ m t, serializeFrom M o now b = some (some m) ∧ (o.sort = true → Timeline st.base.info.attrs st.events t) ∧
      (o.sort = false → t = st.events) ∧
      m.stats = some
        { samples := t.countP sampleRecord
          mmaps := t.countP mapRecord
          forks := t.countP forkRecord
          exits := t.countP exitRecord
          remapped := o.remap
          mapped := coveredIn t.reverse } := by
  have hki := Whole.read_kind hb
  obtain ⟨l3, P, S, h1, h2, h3, h4, -, h6, -⟩ := Whole.prep_any hM hk (O := o.parser M.page) rfl hd o.sort o.huge o.combine st.base.info
    (Whole.read_shaped hb) (Whole.read_sized hb) ht
  have h6 := h6 (hs.imp id fun h => ⟨h, hki⟩)
  have hp := Whole.ordered_perm o.sort st.base.info st.events
  rw [← h6] at hp
  have hc := Whole.parser_tally h3 hd h2 (fun m hm => ⟨(hki m (hp.mem_iff.1 hm)).cls, fun b hb' => by
    have hm' : m ∈ st.events := hp.mem_iff.1 hm
    have := ht.range b (List.mem_filterMap.2 ⟨m, hm', by rw [hb']⟩)
    exact ⟨this.2.1, ((Whole.read_shaped hb m hm').range b hb').2.2.2⟩⟩)
  refine ⟨_, l3, by rw [serialize_of hb, h1]; rfl, fun h => ?_, fun h => ?_, ?_⟩
  · rw [h6, h]; exact Whole.sort_timeline _ _
  · rw [h6, h]; rfl
  · show some (MsgStats.mk P.stats.samples P.stats.mmaps P.stats.forks P.stats.exits o.remap P.stats.mapped) = _
    rw [hc, Whole.count_seen (fun m hm => Whole.read_looked hb m (hp.mem_iff.1 hm)) (fun m hm => (hki m (hp.mem_iff.1 hm)).cls)]
    unfold Whole.countAll
    simp only [List.countP_reverse]

theorem covered_le : ∀ h : List Msg, coveredIn h ≤ h.countP sampleRecord
  | [] => Nat.le_refl _
  | m :: h => by
    have := covered_le h
    rw [coveredIn, List.countP_cons]
    cases hb : m.body with
    | sample s =>
      have e : sampleRecord m = true := by unfold sampleRecord; rw [hb]
      rw [e, if_pos rfl]
      simp only
      split <;> omega
    | _ => simp only; omega

/-- C118: no more samples are mapped than there are. -/
theorem mapped_le {M : Machine} (hM : ∀ l, (M.order l).Perm l) (hk : ∃ k, k ≤ 60 ∧ M.page = 2 ^ k) {o : ParseOpts} (hd : o.discard = false)
    {now : Nat} {b : Bytes} {st : Data.St} (hb : File.readBytes { env := M.env } b = some (some st)) (ht : Tidy M.page st.events)
    (hs : (o.huge = false ∧ o.combine = false) ∨ Steady st.events) {m : Message} (hm : serializeFrom M o now b = some (some m)) :
    ∃ s, m.stats = some s ∧ s.mapped ≤ s.samples := by
  obtain ⟨m', t, h1, -, -, h4⟩ := message_counts hM hk hd now hb ht hs
  rw [hm] at h1
  cases h1
  refine ⟨_, h4, ?_⟩
  have := covered_le t.reverse
  rw [List.countP_reverse] at this
  exact this

section
open Verif.File (fileImage)
open Verif.Whole (exMachine recordingOf placeMsg procMsg steadyB steady_of covered)
open Verif.Serial (exEnv exMsg exInfo)

/-- The birth of a process. -/
def forkMsg (child parent time : Nat) : Msg :=
  exMsg 7 0 (.fork { pid := child, tid := child, ppid := parent, ptid := parent, time := time, info := { exInfo with time := some time } })

/-- A mapping of process 10, a sample in it, a fork, a sample of the child in the mapping of its parent, and one of a process without mappings; then the
mapping is replaced by a larger one, and a third one covers the end of that. -/
def exForked : List Msg := [placeMsg 0x4000 0x1000 0 1, procMsg 10 2, forkMsg 12 10 3, procMsg 12 4, procMsg 13 5, placeMsg 0x4000 0x3000 0 6,
  procMsg 10 7, placeMsg 0x6000 0x4000 0 8, procMsg 10 9]

def exPlaceOf (m : Msg) : Nat × Nat × Nat :=
  match m.body with
  | .mmap b => (b.pid, b.start, b.start + b.len)
  | .sample s => (s.pid.getD 0, s.ip.getD 0, 0)
  | _ => (0, 0, 0)

/-- The addresses of the example: the last sample is at 0x4200, in the second mapping, of which nothing is left. -/
example : exForked.map exPlaceOf =
    [(10, 0x4000, 0x5000), (10, 0x4200, 0), (0, 0, 0), (12, 0x4200, 0), (13, 0x4200, 0), (10, 0x4000, 0x7000), (10, 0x4200, 0), (10, 0x6000, 0xa000),
      (10, 0x4200, 0)] ∧ coveredIn exForked.reverse = 3 ∧ Whole.places exForked.reverse 12 = [(0x4000, 0x5000)] := by decide +kernel

def tidyB (st : Data.St) : Bool := decide (Tidy 4096 st.events) && steadyB st.events

/-- `message_counts` applies to the example. -/
example (now : Nat) : ∃ m t st, File.readBytes { env := exEnv } (fileImage (recordingOf exForked)) = some (some st) ∧
    serializeFrom exMachine {} now (fileImage (recordingOf exForked)) = some (some m) ∧ Timeline st.base.info.attrs st.events t ∧
    m.stats = some ⟨t.countP sampleRecord, t.countP mapRecord, t.countP forkRecord, t.countP exitRecord, false, coveredIn t.reverse⟩ := by
  have h : ((File.readBytes { env := exEnv } (fileImage (recordingOf exForked))).bind id).map tidyB = some true := by decide +kernel
  generalize fileImage (recordingOf exForked) = b at *
  cases hr : File.readBytes { env := exEnv } b with
  | none => rw [hr] at h; cases h
  | some o =>
    cases o with
    | none => rw [hr] at h; cases h
    | some st =>
      rw [hr] at h
      have h := Option.some.inj h
      unfold tidyB at h
      simp only [Bool.and_eq_true, decide_eq_true_eq] at h
      obtain ⟨m, t, h1, h2, -, h4⟩ := message_counts (M := exMachine) (o := {}) (fun _ => .refl _) ⟨12, by decide, rfl⟩ rfl now hr h.1 (.inr (steady_of h.2))
      exact ⟨m, t, st, rfl, h1, h2 rfl, h4⟩

/-- C118 fails for addresses of a mapping whose end another one covers: its other addresses count as not mapped. Three of five samples are mapped, but four
are in the newest mapping of their process at their address. -/
theorem mapped_cut_violated :
    ((serializeFrom exMachine {} 5 (fileImage (recordingOf exForked))).bind id).map (·.stats) = some (some ⟨5, 3, 1, 0, false, 3⟩) := by decide +kernel

end

end Verif.Tool
