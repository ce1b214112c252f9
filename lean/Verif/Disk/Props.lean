import Verif.Disk.Spec
import Verif.Buffer.Lemmas

/-!
# Reading files
-/

namespace Verif.Disk
open Verif.Buffer (ROp RRes slice specRead specReads slice_some_iff slice_length decodeInt decodeInt_lt maybeSwap_decode addSz Reader)

/-- A reader at a position of an open file. -/
def at' (b : Bytes) (pos : Nat) (cross : Bool) : FReader := ⟨some (.file b), b.length, pos, cross⟩

section
variable {b : Bytes} {pos : Nat} {cross : Bool}

theorem data_spec (hb : b.length < 2 ^ 63) (hp : pos ≤ b.length) {n : Nat} (hn : n < 2 ^ 64) :
    (at' b pos cross).readData n = match slice b pos n with
      | some d => some (some d, at' b (pos + n) cross)
      | none => some (none, at' b pos cross) := by
  unfold FReader.readData at' slice
  simp only
  by_cases hf : pos + n ≤ b.length
  · have ha : addSz pos n = pos + n := by unfold addSz; omega
    have hd : ((b.drop pos).take n).length = n := by simp; omega
    rw [if_neg (by rw [ha]; omega), if_neg (by omega), if_pos hf, hd]
  · rw [if_neg hf, if_pos]
    by_cases hs : pos + n < 2 ^ 64
    · right; unfold addSz; rw [Nat.mod_eq_of_lt hs]; omega
    · left; omega

theorem dataString_spec (hb : b.length < 2 ^ 63) (hp : pos ≤ b.length) {n : Nat} (hn : n < 2 ^ 64) {dest : Bytes} (hd : dest.length < 2 ^ 63) :
    (at' b pos cross).readDataString n dest = match slice b pos n with
      | some d => some ((true, d), at' b (pos + n) cross)
      | none => some ((false, dest), at' b pos cross) := by
  unfold FReader.readDataString
  by_cases hz : n = 0
  · subst hz
    have : slice b pos 0 = some [] := by simp [slice]; omega
    rw [if_pos rfl, this]
    rfl
  · rw [if_neg hz]
    by_cases hm : max n dest.length > 2 ^ 63 - 1
    · have hs : slice b pos n = none := by unfold slice; rw [if_neg (by omega)]
      rw [if_pos hm, hs]
    · rw [if_neg hm, data_spec hb hp hn]
      cases slice b pos n <;> rfl

theorem string_spec (hb : b.length < 2 ^ 63) (hp : pos ≤ b.length) {n : Nat} (hn : n < 2 ^ 64) {dest : Bytes} (hd : dest.length < 2 ^ 63) :
    (at' b pos cross).readString n dest = match slice b pos n with
      | some d => some ((true, d.takeWhile (· ≠ 0)), at' b (pos + n) cross)
      | none => some ((false, dest), at' b pos cross) := by
  unfold FReader.readString
  rw [dataString_spec hb hp hn hd]
  cases slice b pos n <;> rfl

theorem int_spec (hb : b.length < 2 ^ 63) (hp : pos ≤ b.length) {n : Nat} (hn : n = 2 ∨ n = 4 ∨ n = 8) :
    (at' b pos cross).readInt n = match slice b pos n with
      | some d => some (some (decodeInt cross d), at' b (pos + n) cross)
      | none => some (none, at' b pos cross) := by
  unfold FReader.readInt
  rw [data_spec hb hp (by omega)]
  cases hs : slice b pos n with
  | none => rfl
  | some d =>
    have hl := slice_length hs
    have := maybeSwap_decode (d := d) (by omega) cross
    rw [hl] at this
    show (match Util.maybeSwap n (leNat d) cross with | none => none | some v => some (some v, at' b (pos + n) cross)) = _
    rw [this]

theorem step_file (hb : b.length < 2 ^ 63) (hp : pos ≤ b.length) {op : ROp} (hop : op.wf) {dest : Bytes} (hd : dest.length < 2 ^ 63) :
    (at' b pos cross).step dest op = some ((specRead b cross pos op).1, at' b (specRead b cross pos op).2 cross) ∧
    (specRead b cross pos op).2 ≤ b.length := by
  cases op with
  | seek o =>
    simp only [FReader.step, FReader.seekSet, specRead]
    by_cases hh : o ≤ b.length
    · have h1 : ¬ o > (at' b pos cross).size := by simpa [at'] using hh
      rw [if_neg h1, if_pos hh]
      show Option.map _ (if o ≥ 2 ^ 63 then some (false, at' b pos cross) else some (true, at' b o cross)) = _ ∧ _
      rw [if_neg (by omega)]
      exact ⟨rfl, hh⟩
    · have h1 : o > (at' b pos cross).size := by simpa [at'] using hh
      rw [if_pos h1, if_neg hh]
      exact ⟨rfl, hp⟩
  | data n =>
    simp only [FReader.step, specRead, data_spec hb hp hop]
    cases hs : slice b pos n with
    | none => exact ⟨rfl, hp⟩
    | some d => exact ⟨rfl, (slice_some_iff.mp hs).1⟩
  | str n =>
    simp only [FReader.step, specRead, string_spec hb hp hop hd]
    cases hs : slice b pos n with
    | none => exact ⟨rfl, hp⟩
    | some d => exact ⟨rfl, (slice_some_iff.mp hs).1⟩
  | dataStr n dest =>
    simp only [FReader.step, specRead, dataString_spec hb hp hop.1 hop.2]
    cases hs : slice b pos n with
    | none => exact ⟨rfl, hp⟩
    | some d => exact ⟨rfl, (slice_some_iff.mp hs).1⟩
  | u16 =>
    simp only [FReader.step, specRead, int_spec hb hp (Or.inl rfl)]
    cases hs : slice b pos 2 with
    | none => exact ⟨rfl, hp⟩
    | some d => exact ⟨rfl, (slice_some_iff.mp hs).1⟩
  | u32 =>
    simp only [FReader.step, specRead, int_spec hb hp (Or.inr (Or.inl rfl))]
    cases hs : slice b pos 4 with
    | none => exact ⟨rfl, hp⟩
    | some d => exact ⟨rfl, (slice_some_iff.mp hs).1⟩
  | u64 =>
    simp only [FReader.step, specRead, int_spec hb hp (Or.inr (Or.inr rfl))]
    cases hs : slice b pos 8 with
    | none => exact ⟨rfl, hp⟩
    | some d => exact ⟨rfl, (slice_some_iff.mp hs).1⟩
  | sizedStr =>
    simp only [FReader.step, specRead, FReader.readStringWithSize, int_spec hb hp (Or.inr (Or.inl rfl))]
    cases hs : slice b pos 4 with
    | none => exact ⟨rfl, hp⟩
    | some d =>
      have h4 := (slice_some_iff.mp hs).1
      have hl := slice_length hs
      have hlt := decodeInt_lt cross d
      rw [hl] at hlt
      simp only [string_spec hb h4 (show decodeInt cross d < 2 ^ 64 by omega) hd]
      cases hs2 : slice b (pos + 4) (decodeInt cross d) with
      | none => exact ⟨rfl, h4⟩
      | some s => exact ⟨rfl, (slice_some_iff.mp hs2).1⟩

theorem run_file (hb : b.length < 2 ^ 63) : ∀ {ops : List (ROp × Bytes)} {pos : Nat}, pos ≤ b.length → (∀ o ∈ ops, o.1.wf ∧ o.2.length < 2 ^ 63) →
    (at' b pos cross).run ops = some ((specReads b cross pos (ops.map (·.1))).1, at' b (specReads b cross pos (ops.map (·.1))).2 cross)
  | [], _, _, _ => rfl
  | (op, dest) :: ops, pos, hp, h => by
    obtain ⟨h1, h2⟩ := h (op, dest) List.mem_cons_self
    obtain ⟨h3, h4⟩ := step_file (cross := cross) hb hp h1 h2
    have ih := run_file hb (ops := ops) h4 (fun o ho => h o (List.mem_cons_of_mem _ ho))
    rw [FReader.run, h3]
    simp only
    rw [ih]
    rfl

end

/-- C121: every sequence of calls on a file gives what the same calls give on a buffer with its bytes, whatever the strings held before. -/
theorem file_as_buffer {b : Bytes} (hb : b.length < 2 ^ 63) (cross : Bool) {ops : List (ROp × Bytes)}
    (hops : ∀ o ∈ ops, o.1.wf ∧ o.2.length < 2 ^ 63) :
    ∃ res r r', (FReader.new (some (.file b)) cross).run ops = some (res, r) ∧ (Reader.new b cross).run (ops.map (·.1)) = some (res, r') ∧
      r.pos = r'.off := by
  obtain ⟨h1, -⟩ := Buffer.run_spec (r := Reader.new b cross) ⟨rfl, by simp [Reader.new], hb⟩ (ops.map (·.1)) (by
    intro o ho
    obtain ⟨x, hx, rfl⟩ := List.mem_map.1 ho
    exact (hops x hx).1)
  have h2 := run_file (cross := cross) hb (pos := 0) (Nat.zero_le _) hops
  exact ⟨_, _, _, h2, h1, rfl⟩

/-- A number, a string, a seek, and a read over the end. -/
example : (FReader.new (some (.file [1, 2, 65, 66, 0, 67])) true).run [(.u16, []), (.str 4, [7, 7, 7, 7, 7]), (.seek 5, []), (.dataStr 2 [9], []), (.data 1, [])] =
    some ([.num 258, .bytes [65, 66], .ok, .fail, .bytes [67]], ⟨some (.file [1, 2, 65, 66, 0, 67]), 6, 6, true⟩) := by decide +kernel

/-- C121: `FileToBuffer` gives the contents of the file. -/
theorem whole_file {b : Bytes} (hb : b.length < 2 ^ 63) : fileToBuffer (some (.file b)) = some (some b) ∧ fileToBuffer none = some none := by
  refine ⟨?_, rfl⟩
  unfold fileToBuffer
  show (if (true = false) then some none else if b.length > 2 ^ 63 - 1 then none else if b.length > 0 then
    ((at' b 0 false).readData b.length).map (·.1) else some (some [])) = _
  rw [if_neg (by simp), if_neg (by omega)]
  by_cases h0 : b.length > 0
  · have hs : slice b 0 b.length = some b := by simp [slice]
    rw [if_pos h0, data_spec hb (Nat.zero_le _) (by omega), hs]
    rfl
  · have : b = [] := List.length_eq_zero_iff.1 (by omega)
    rw [if_neg h0, this]

example : fileToBuffer (some (.file [80, 69, 82, 70])) = some (some [80, 69, 82, 70]) := (whole_file (by decide)).1

/-- C121 fails for an input without positions, like the standard input at the end of a pipe: the program ends. -/
theorem pipe_violated : fileToBuffer (some .stream) = none := by decide

/-! ## Build IDs -/

theorem align_two {n : Nat} (hn : n < 2 ^ 32) : Util.align 2 n = n + (4 - n % 4) % 4 := by
  rw [Util.align_eq_of_fits 2 n (by omega)]
  omega

theorem padded_length (b : Bytes) : (padded b).length = b.length + (4 - b.length % 4) % 4 := by simp [padded]

theorem padded_name (b : Bytes) : (padded b).takeWhile (fun x => decide (x ≠ 0)) = b.takeWhile (fun x => decide (x ≠ 0)) := by
  unfold padded
  rw [List.takeWhile_append]
  split
  · rename_i h
    have : ∀ n, (List.replicate n (0 : UInt8)).takeWhile (fun x => decide (x ≠ 0)) = [] := by
      intro n
      cases n <;> rfl
    rw [this, List.append_nil]
    exact ((List.takeWhile_sublist _).eq_of_length h).symm
  · rfl

theorem stored_length {n : Note} : n.stored.length = 12 + (padded n.name).length + (padded n.desc).length := by
  simp [Note.stored]
  omega

theorem slice_append (a b c : Bytes) : slice (a ++ (b ++ c)) a.length b.length = some b := by
  rw [slice_some_iff]
  constructor
  · simp
  · simp

/-- One note. -/
theorem note_step {n : Note} (hn : n.Fits) {pre post : Bytes} (hb : (pre ++ (n.stored ++ post)).length < 2 ^ 63) (fuel : Nat) :
    readBuildIdNote (fuel + 1) (at' (pre ++ (n.stored ++ post)) pre.length false) =
      if isBuildId n then some (some (padded n.desc))
      else readBuildIdNote fuel (at' (pre ++ (n.stored ++ post)) (pre.length + n.stored.length) false) := by
  obtain ⟨h1, h2, h3⟩ := hn
  obtain ⟨b, hbb⟩ : ∃ b, b = pre ++ (n.stored ++ post) := ⟨_, rfl⟩
  obtain ⟨h, hh⟩ : ∃ h : Bytes, h = toLE 4 n.name.length ++ toLE 4 n.desc.length ++ toLE 4 n.type := ⟨_, rfl⟩
  have hl : h.length = 12 := by rw [hh]; simp
  have e1 : b = pre ++ (h ++ (padded n.name ++ (padded n.desc ++ post))) := by rw [hbb, hh]; simp [Note.stored]
  have e2 : b = (pre ++ h) ++ (padded n.name ++ (padded n.desc ++ post)) := by rw [e1]; simp
  have e3 : b = (pre ++ h ++ padded n.name) ++ (padded n.desc ++ post) := by rw [e1]; simp
  have hlen := congrArg List.length e1
  simp only [List.length_append] at hlen
  rw [← hbb] at hb ⊢
  have s1 : slice b pre.length 12 = some h := by have := slice_append pre h (padded n.name ++ (padded n.desc ++ post)); rw [← e1, hl] at this; exact this
  have p1 := padded_length n.name
  have p2 := padded_length n.desc
  have w1 : leNat (h.take 4) = n.name.length := by
    rw [hh, List.append_assoc, List.take_left' (by simp)]
    exact leNat_toLE_of_lt (by omega)
  have w2 : leNat ((h.drop 4).take 4) = n.desc.length := by
    rw [hh, List.append_assoc, List.drop_left' (by simp), List.take_left' (by simp)]
    exact leNat_toLE_of_lt (by omega)
  have w3 : leNat (h.drop 8) = n.type := by
    rw [hh, List.drop_left' (by simp)]
    exact leNat_toLE_of_lt (by omega)
  have a1 : Util.align 2 (leNat (h.take 4)) = (padded n.name).length := by rw [w1, align_two h1, p1]
  have a2 : Util.align 2 (leNat ((h.drop 4).take 4)) = (padded n.desc).length := by rw [w2, align_two h2, p2]
  have s2 : slice b (pre.length + 12) (padded n.name).length = some (padded n.name) := by
    have := slice_append (pre ++ h) (padded n.name) (padded n.desc ++ post)
    rw [← e2, List.length_append, hl] at this
    exact this
  have s3 : slice b (pre.length + 12 + (padded n.name).length) (padded n.desc).length = some (padded n.desc) := by
    have := slice_append (pre ++ h ++ padded n.name) (padded n.desc) post
    rw [← e3, List.length_append, List.length_append, hl] at this
    exact this
  rw [readBuildIdNote, data_spec hb (by omega) (by omega), s1]
  simp only
  rw [a1, string_spec hb (by omega) (by omega) (by simp), s2]
  simp only
  rw [a2, dataString_spec hb (by omega) (by omega) (by simp), s3]
  simp only
  rw [w3]
  have hi : (n.type = 3 ∧ (padded n.name).takeWhile (fun x => decide (x ≠ 0)) = ascii "GNU") ↔ isBuildId n = true := by
    rw [padded_name]
    unfold isBuildId
    simp
  by_cases hg : isBuildId n = true
  · rw [if_pos (hi.2 hg), if_pos hg]
  · rw [if_neg (fun h => hg (hi.1 h)), if_neg hg]
    congr 1
    rw [stored_length]
    congr 1
    omega

/-- The end of the notes. -/
theorem note_end {pre tail : Bytes} (hb : (pre ++ tail).length < 2 ^ 63) (ht : tail.length < 12) (fuel : Nat) :
    readBuildIdNote fuel (at' (pre ++ tail) pre.length false) = some none := by
  cases fuel with
  | zero => rfl
  | succ fuel =>
    have : slice (pre ++ tail) pre.length 12 = none := by
      unfold slice
      rw [if_neg (by rw [List.length_append]; omega)]
    rw [readBuildIdNote, data_spec hb (by simp) (by omega), this]

theorem notes_found {tail : Bytes} (ht : tail.length < 12) : ∀ {l : List Note} (_ : ∀ n ∈ l, n.Fits) (pre : Bytes) (fuel : Nat),
    (pre ++ (l.flatMap Note.stored ++ tail)).length < 2 ^ 63 → l.length < fuel →
    readBuildIdNote fuel (at' (pre ++ (l.flatMap Note.stored ++ tail)) pre.length false) = some ((l.find? isBuildId).map (fun n => padded n.desc))
  | [], _, pre, fuel, hb, _ => note_end hb ht fuel
  | n :: l, hn, pre, fuel, hb, hf => by
    cases fuel with
    | zero => omega
    | succ fuel =>
      have e : pre ++ ((n :: l).flatMap Note.stored ++ tail) = pre ++ (n.stored ++ (l.flatMap Note.stored ++ tail)) := by simp
      rw [e] at hb ⊢
      rw [note_step (hn n List.mem_cons_self) hb, List.find?_cons]
      cases hg : isBuildId n with
      | true => rfl
      | false =>
        have e' : pre ++ (n.stored ++ (l.flatMap Note.stored ++ tail)) = (pre ++ n.stored) ++ (l.flatMap Note.stored ++ tail) := by simp
        have ih := notes_found ht (l := l) (fun m hm => hn m (List.mem_cons_of_mem _ hm)) (pre ++ n.stored) fuel (by rw [← e']; exact hb)
          (by simpa using hf)
        rw [List.length_append] at ih
        rw [e']
        exact ih

/-- C122: the build ID of a module is the description of the first note of its file that is named GNU and has type 3, filled up to a multiple of four
bytes; there is none if there is no such note. -/
theorem module_build_id {l : List Note} (hl : ∀ n ∈ l, n.Fits) {tail : Bytes} (ht : tail.length < 12)
    (hb : (l.flatMap Note.stored ++ tail).length < 2 ^ 63) :
    readModuleBuildId (some (.file (l.flatMap Note.stored ++ tail))) = some ((l.find? isBuildId).map (fun n => padded n.desc)) := by
  have := notes_found ht hl [] ((l.flatMap Note.stored ++ tail).length + 1) hb (by
    rw [List.length_append, List.length_flatMap]
    have : ∀ l : List Note, l.length ≤ (l.map (fun n => n.stored.length)).sum := by
      intro l
      induction l with
      | nil => simp
      | cons n l ih =>
        have := @stored_length n
        simp only [List.length_cons, List.map_cons, List.sum_cons]
        omega
    have := this l
    omega)
  exact this

/-- C122: so it is the description itself, if that has a multiple of four bytes, as all usual build IDs have. -/
theorem module_build_id_partial {l : List Note} (hl : ∀ n ∈ l, n.Fits) {tail : Bytes} (ht : tail.length < 12)
    (hb : (l.flatMap Note.stored ++ tail).length < 2 ^ 63) (h4 : ∀ n ∈ l, isBuildId n = true → 4 ∣ n.desc.length) :
    readModuleBuildId (some (.file (l.flatMap Note.stored ++ tail))) = some ((l.find? isBuildId).map (·.desc)) := by
  rw [module_build_id hl ht hb]
  cases hf : l.find? isBuildId with
  | none => rfl
  | some n =>
    have h := h4 n (List.mem_of_find?_eq_some hf) (List.find?_some hf)
    have : padded n.desc = n.desc := by
      unfold padded
      rw [Nat.mod_eq_zero_of_dvd h]
      simp
    simp [this]

/-- A property note, and the build ID. -/
def exNotes (id : Bytes) : List Note := [⟨5, ascii "GNU" ++ [0], [1, 2, 3, 4]⟩, ⟨3, ascii "Xen" ++ [0], [5]⟩, ⟨3, ascii "GNU" ++ [0], id⟩]

example : readModuleBuildId (some (.file ((exNotes [171, 205, 1, 2]).flatMap Note.stored))) = some (some [171, 205, 1, 2]) := by
  have h := module_build_id_partial (l := exNotes [171, 205, 1, 2]) (tail := []) (by
    intro n hn
    simp only [exNotes, List.mem_cons, List.not_mem_nil, or_false] at hn
    rcases hn with rfl | rfl | rfl <;> exact ⟨by decide, by decide, by decide⟩) (by decide) (by decide +kernel) (by
    intro n hn hg
    simp only [exNotes, List.mem_cons, List.not_mem_nil, or_false] at hn
    rcases hn with rfl | rfl | rfl
    · decide
    · exact absurd hg (by decide)
    · decide)
  rw [List.append_nil] at h
  exact h

/-- C122 fails for other sizes: the build ID of a module gets zeros at its end, while that of the same note in a program does not. -/
theorem module_padding_violated :
    readModuleBuildId (some (.file ((exNotes [171, 205, 1, 2, 3]).flatMap Note.stored))) = some (some [171, 205, 1, 2, 3, 0, 0, 0]) ∧
    getBuildID ⟨true, true, [⟨some (ascii ".note.gnu.build-id"), some (exNotes [171, 205, 1, 2, 3])⟩]⟩ = some [171, 205, 1, 2, 3] := by
  constructor <;> decide +kernel

/-- What is read makes no difference to safety: whatever the file holds, reading a build ID comes to an end within its bounds. -/
theorem note_safe {b : Bytes} (hb : b.length < 2 ^ 63) : ∀ (fuel : Nat) {pos : Nat}, pos ≤ b.length →
    (∃ x, readBuildIdNote fuel (at' b pos false) = some x) ∧
    (b.length - pos < fuel → readBuildIdNote (fuel + 1) (at' b pos false) = readBuildIdNote fuel (at' b pos false))
  | 0, pos, hp => ⟨⟨_, rfl⟩, by omega⟩
  | fuel + 1, pos, hp => by
    have key : ∀ fuel, readBuildIdNote (fuel + 1) (at' b pos false) =
        match slice b pos 12 with
        | none => some none
        | some h =>
          match slice b (pos + 12) (Util.align 2 (leNat (h.take 4))) with
          | none => some none
          | some name =>
            match slice b (pos + 12 + Util.align 2 (leNat (h.take 4))) (Util.align 2 (leNat ((h.drop 4).take 4))) with
            | none => some none
            | some desc =>
              if leNat (h.drop 8) = 3 ∧ name.takeWhile (fun x => decide (x ≠ 0)) = ascii "GNU" then some (some desc)
              else readBuildIdNote fuel (at' b (pos + 12 + Util.align 2 (leNat (h.take 4)) + Util.align 2 (leNat ((h.drop 4).take 4))) false) := by
      intro fuel
      rw [readBuildIdNote, data_spec hb hp (by omega)]
      cases hs : slice b pos 12 with
      | none => rfl
      | some h =>
        have h1 := (slice_some_iff.mp hs).1
        have hl := slice_length hs
        have b1 : leNat (h.take 4) < 2 ^ 32 := by
          have := leNat_lt (h.take 4)
          rw [show (h.take 4).length = 4 by simp; omega] at this
          omega
        have b2 : leNat ((h.drop 4).take 4) < 2 ^ 32 := by
          have := leNat_lt ((h.drop 4).take 4)
          rw [show ((h.drop 4).take 4).length = 4 by simp; omega] at this
          omega
        simp only
        rw [string_spec hb h1 (by rw [align_two b1]; omega) (by simp)]
        cases hs2 : slice b (pos + 12) (Util.align 2 (leNat (h.take 4))) with
        | none => rfl
        | some name =>
          have h2 := (slice_some_iff.mp hs2).1
          simp only
          rw [dataString_spec hb h2 (by rw [align_two b2]; omega) (by simp)]
          cases slice b (pos + 12 + Util.align 2 (leNat (h.take 4))) (Util.align 2 (leNat ((h.drop 4).take 4))) <;> rfl
    rw [key fuel, key (fuel + 1)]
    cases hs : slice b pos 12 with
    | none => exact ⟨⟨_, rfl⟩, fun _ => rfl⟩
    | some h =>
      simp only
      cases hs2 : slice b (pos + 12) (Util.align 2 (leNat (h.take 4))) with
      | none => exact ⟨⟨_, rfl⟩, fun _ => rfl⟩
      | some name =>
        simp only
        cases hs3 : slice b (pos + 12 + Util.align 2 (leNat (h.take 4))) (Util.align 2 (leNat ((h.drop 4).take 4))) with
        | none => exact ⟨⟨_, rfl⟩, fun _ => rfl⟩
        | some desc =>
          simp only
          obtain ⟨i1, i2⟩ := note_safe hb fuel (slice_some_iff.mp hs3).1
          have hin := (slice_some_iff.mp hs).1
          split
          · exact ⟨⟨_, rfl⟩, fun _ => rfl⟩
          · exact ⟨i1, fun h => i2 (by omega)⟩

/-- C122: whatever the file of notes holds, reading a build ID from it comes to an end, and reads nothing outside. More rounds than the model allows for
change nothing. -/
theorem module_safe {b : Bytes} (hb : b.length < 2 ^ 63) : (∃ x, readModuleBuildId (some (.file b)) = some x) ∧
    ∀ n, readBuildIdNote (b.length + 1 + n) (at' b 0 false) = readBuildIdNote (b.length + 1) (at' b 0 false) := by
  refine ⟨(note_safe hb (b.length + 1) (Nat.zero_le _)).1, fun n => ?_⟩
  induction n with
  | zero => rfl
  | succ n ih => rw [← Nat.add_assoc, (note_safe hb (b.length + 1 + n) (Nat.zero_le _)).2 (by omega), ih]

/-! ## ELF files -/

section
variable {n0 n1 n2 : Bytes}

theorem first_cons (n : Bytes) (s : Section) (l : List Section) : firstNamed n (s :: l) = if s.name = some n then some s else firstNamed n l := by
  unfold firstNamed
  rw [List.find?_cons]
  by_cases h : s.name = some n
  · rw [if_pos h]; simp [h]
  · rw [if_neg h]; simp [h]

theorem index_of (h01 : n0 ≠ n1) (h02 : n0 ≠ n2) (h12 : n1 ≠ n2) (n : Bytes) : ([n0, n1, n2].takeWhile (fun x => decide (x ≠ n))).length =
    if n = n0 then 0 else if n = n1 then 1 else if n = n2 then 2 else 3 := by
  simp only [List.takeWhile_cons, List.takeWhile_nil]
  by_cases e0 : n = n0
  · simp [e0]
  · rw [if_neg e0]
    by_cases e1 : n = n1
    · simp [e1, h01]
    · rw [if_neg e1]
      by_cases e2 : n = n2
      · simp [e2, h02, h12]
      · rw [if_neg e2]
        simp [Ne.symm e0, Ne.symm e1, Ne.symm e2]

theorem find1 (h01 : n0 ≠ n1) (h02 : n0 ≠ n2) (h12 : n1 ≠ n2) : ∀ {l : List Section} (sec : Option Section), (∀ s ∈ l, s.name ≠ none) →
    findIn [n0, n1, n2] 1 sec l = (firstNamed n0 l).or sec
  | [], sec, _ => rfl
  | s :: l, sec, h => by
    have ih := fun sec => find1 h01 h02 h12 (l := l) sec (fun s hs => h s (List.mem_cons_of_mem _ hs))
    rw [findIn, first_cons]
    cases hn : s.name with
    | none => exact absurd hn (h s List.mem_cons_self)
    | some n =>
      simp only [index_of h01 h02 h12, Option.some.injEq]
      by_cases e0 : n = n0
      · simp [e0]
      · simp only [if_neg e0]
        rw [if_neg (by split <;> (try split) <;> omega)]
        exact ih sec

theorem find2 (h01 : n0 ≠ n1) (h02 : n0 ≠ n2) (h12 : n1 ≠ n2) : ∀ {l : List Section} (sec : Option Section), (∀ s ∈ l, s.name ≠ none) →
    findIn [n0, n1, n2] 2 sec l = (firstNamed n0 l).or ((firstNamed n1 l).or sec)
  | [], sec, _ => rfl
  | s :: l, sec, h => by
    have hl : ∀ s ∈ l, s.name ≠ none := fun s hs => h s (List.mem_cons_of_mem _ hs)
    rw [findIn, first_cons, first_cons]
    cases hn : s.name with
    | none => exact absurd hn (h s List.mem_cons_self)
    | some n =>
      simp only [index_of h01 h02 h12, Option.some.injEq]
      by_cases e0 : n = n0
      · simp [e0]
      · simp only [if_neg e0]
        by_cases e1 : n = n1
        · simp only [if_pos e1]
          rw [if_pos (by omega), if_neg (by omega), find1 h01 h02 h12 _ hl]
          rfl
        · simp only [if_neg e1]
          rw [if_neg (by split <;> omega)]
          exact find2 h01 h02 h12 sec hl

theorem find3 (h01 : n0 ≠ n1) (h02 : n0 ≠ n2) (h12 : n1 ≠ n2) : ∀ {l : List Section} (sec : Option Section), (∀ s ∈ l, s.name ≠ none) →
    findIn [n0, n1, n2] 3 sec l = (firstNamed n0 l).or ((firstNamed n1 l).or ((firstNamed n2 l).or sec))
  | [], sec, _ => rfl
  | s :: l, sec, h => by
    have hl : ∀ s ∈ l, s.name ≠ none := fun s hs => h s (List.mem_cons_of_mem _ hs)
    rw [findIn, first_cons, first_cons, first_cons]
    cases hn : s.name with
    | none => exact absurd hn (h s List.mem_cons_self)
    | some n =>
      simp only [index_of h01 h02 h12, Option.some.injEq]
      by_cases e0 : n = n0
      · simp [e0]
      · simp only [if_neg e0]
        by_cases e1 : n = n1
        · simp only [if_pos e1]
          rw [if_pos (by omega), if_neg (by omega), find1 h01 h02 h12 _ hl]
          rfl
        · simp only [if_neg e1]
          by_cases e2 : n = n2
          · simp only [if_pos e2]
            rw [if_pos (by omega), if_neg (by omega), find2 h01 h02 h12 _ hl]
            rfl
          · simp only [if_neg e2]
            rw [if_neg (by omega)]
            exact find3 h01 h02 h12 sec hl

end

/-- C122: the build ID of an ELF file is the description of the first note in the section that is to hold it, `.note.gnu.build-id` before `.notes` before
`.note`, wherever they are, that is named GNU and has type 3. -/
theorem elf_build_id {e : Elf} (he : e.elf = true) (hn : e.names = true) (hs : ∀ s ∈ e.sections, s.name ≠ none) :
    getBuildID e = ((noteSection e.sections).bind (·.notes)).bind (fun l => (l.find? isBuildId).map (·.desc)) := by
  unfold getBuildID findElfSection
  rw [if_neg (by rw [he]; decide), if_neg (by rw [hn]; decide)]
  rw [show [ascii ".note.gnu.build-id", ascii ".notes", ascii ".note"].length = 3 from rfl,
    find3 (by decide) (by decide) (by decide) none hs, Option.or_none]
  show (match noteSection e.sections with | none => none | some s => _) = _
  cases noteSection e.sections with
  | none => rfl
  | some s =>
    simp only [Option.bind_some]
    cases s.notes with
    | none => rfl
    | some l => rfl

/-- A file whose sections `.note` and `.notes` come first. -/
example : getBuildID ⟨true, true, [⟨some (ascii ".note"), some [⟨3, ascii "GNU", [9]⟩]⟩, ⟨some (ascii ".text"), none⟩,
    ⟨some (ascii ".notes"), some [⟨3, ascii "GNU", [8]⟩]⟩, ⟨some (ascii ".note.gnu.build-id"), some (exNotes [7])⟩]⟩ = some [7] := by
  rw [elf_build_id rfl rfl (by
    intro s hs
    simp only [List.mem_cons, List.not_mem_nil, or_false] at hs
    rcases hs with rfl | rfl | rfl | rfl <;> simp)]
  decide

/-! ### Descriptors -/

theorem lowest_free (d : Descriptors) : lowest d ∉ d := by
  unfold lowest
  cases h : (List.range (d.length + 1)).find? (· ∉ d) with
  | some x =>
    have := List.find?_some h
    simpa using this
  | none =>
    exfalso
    rw [List.find?_eq_none] at h
    have hsub : List.range (d.length + 1) ⊆ d := by
      intro x hx
      have := h x hx
      simpa using this
    have := (List.nodup_range (n := d.length + 1)).length_le_of_subset hsub
    rw [List.length_range] at this
    omega

theorem close_other {fd x : Nat} {d : Descriptors} (h : x ≠ fd) : x ∈ closeFile fd d ↔ x ∈ d := by
  simp [closeFile, h]

theorem not_closed (fd : Nat) (d : Descriptors) : fd ∉ closeFile fd d := by
  simp [closeFile]

/-- C123: reading the build ID of a file that can be opened and is read by libelf leaves the descriptors as they are but for those opened by other
threads meanwhile. -/
theorem descriptors_partial (e : Elf) (other1 other2 : Bool) (d : Descriptors) (x : Nat) :
    let fd := (openFile d).1
    x ∈ (readElfBuildId (some (some e)) other1 other2 d).2 ↔ x ∈ meanwhile other2 (meanwhile other1 (openFile d).2) ∧ x ≠ fd := by
  intro fd
  show x ∈ closeFile fd (meanwhile other2 (meanwhile other1 (openFile d).2)) ↔ _
  by_cases h : x = fd
  · subst h
    constructor
    · intro h; exact absurd h (not_closed _ _)
    · rintro ⟨-, h⟩; exact absurd rfl h
  · rw [close_other h]
    exact ⟨fun h' => ⟨h', h⟩, fun h' => h'.1⟩

/-- C123: and what was open before is still open. -/
theorem descriptors_stay (e : Elf) (other1 other2 : Bool) {d : Descriptors} {x : Nat} (h : x ∈ d) :
    x ∈ (readElfBuildId (some (some e)) other1 other2 d).2 := by
  have hm : ∀ o (d : Descriptors), x ∈ d → x ∈ meanwhile o d := by
    intro o d hd
    unfold meanwhile
    split
    · exact List.mem_cons_of_mem _ hd
    · exact hd
  refine (descriptors_partial e other1 other2 d x).2 ⟨hm _ _ (hm _ _ (List.mem_cons_of_mem _ h)), ?_⟩
  rintro rfl
  exact lowest_free d h

/-- Descriptors 0 to 2 are open; another thread opens one meanwhile, and keeps it. -/
example : (readElfBuildId (some (some ⟨true, true, []⟩)) false true [0, 1, 2]).2 = [4, 0, 1, 2] := by decide

/-- C123 fails if libelf cannot read the file: the descriptor is closed twice, and if another thread has opened a file in between, that one is closed. -/
theorem descriptors_violated : (readElfBuildId (some none) false false [0, 1, 2]).2 = [0, 1, 2] ∧
    (meanwhile true [0, 1, 2] = [3, 0, 1, 2] ∧ (readElfBuildId (some none) false true [0, 1, 2]).2 = [0, 1, 2]) := by decide

end Verif.Disk
