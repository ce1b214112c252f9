import Verif.Command.Props
import Verif.Tool.Convert
import Verif.Text.Model

/-!
# The program quipper

`/repo/src/quipper/quipper.cc` and `quipper_lib.cc`. gflags is an input (`Site.flags`), and so are the commands that are run, and what is made of their
files.
-/

namespace Verif.Run
open Verif.Tool (Exit Place Files bufferToFile)
open Verif.Command (Outcome record fullCommand validate)
open Verif.Command.Spec (Safe)

abbrev Words := List (List UInt8)

/-! ## Model -/

/-- `std::isspace` in the "C" locale. -/
def isSpace (c : UInt8) : Bool := c = 32 ∨ (9 ≤ c ∧ c ≤ 13)

/-- A decimal digit. -/
def isDigit (c : UInt8) : Bool := 48 ≤ c ∧ c ≤ 57

/-- The number that digits stand for. -/
def digitsValue (l : List UInt8) : Nat := l.foldl (fun v c => v * 10 + (c.toNat - 48)) 0

/-- `StringToInt`, `quipper_lib.cc:10-16`: `operator>>` of libstdc++. Without digits the result is 0; what an `int` cannot hold is replaced by the nearest that it
can. -/
def stringToInt (s : List UInt8) : Int :=
  let s := s.dropWhile isSpace
  let neg := s.head? = some 45
  let s := if s.head? = some 45 ∨ s.head? = some 43 then s.drop 1 else s
  let v : Int := digitsValue (s.takeWhile isDigit)
  if neg then max (-v) (-2 ^ 31) else min v (2 ^ 31 - 1)

/-- `ParseOldPerfArguments`, `quipper_lib.cc:20-33`, of the words after the name of the program. -/
def parseOld (words : Words) : Option (Int × Words) :=
  if words.length + 1 < 3 then none
  else if validate (words.drop 1) then some (stringToInt ((words[0]?).getD []), words.drop 1) else none

/-- The flags, `quipper.cc:20-29`. `duration` is an `int64`. -/
structure Flags where
  duration : Int := 0
  perfPath : List UInt8 := []
  outputFile : List UInt8 := ascii "/dev/stdout"
  runInject : Bool := false
  injectArgs : List UInt8 := []
deriving DecidableEq, Repr

/-- What `quipper` is to do. -/
structure Job where
  duration : Int
  args : Words
  inject : Words
  output : List UInt8
deriving DecidableEq, Repr

/-- The value of an `int64` as an `int`. -/
def toInt32 (d : Int) : Int := (d + 2 ^ 31) % 2 ^ 32 - 2 ^ 31

/-- `ParsePerfArguments`, `quipper.cc:31-64`, with the flags and the words that are left. -/
def parseNew (fl : Flags) (rest : Words) : Option Job :=
  if rest.length + 1 < 2 then none
  else if toInt32 fl.duration ≤ 0 then none
  else
    let path := if fl.perfPath = [] then ascii "perf" else fl.perfPath
    if fl.outputFile = [] then none
    else if fl.runInject = false ∧ fl.injectArgs ≠ [] then none
    else some ⟨toInt32 fl.duration, path :: rest, if fl.runInject then path :: Text.splitString 59 fl.injectArgs else [], fl.outputFile⟩

/-- The machine: what gflags makes of the words (`none` if it ends the program), which commands end with status 0, the names of temporary files, how a number of seconds with more
than six digits is printed, and what is made of the files that are recorded (`none` if that does not return, `none` inside for false). -/
structure Site where
  flags : Words → Option (Flags × Words)
  ok : Words → Bool
  temp : List UInt8
  temp' : List UInt8
  big : Int → List UInt8
  made : Outcome → Option (Option (List UInt8))
  place : Place
  block : Nat

/-- A number of seconds as it is printed, `perf_recorder.cc:121-122`: with six digits it is written out. -/
def timeText (W : Site) (d : Int) : List UInt8 :=
  if d.natAbs < 10 ^ 6 then (if d < 0 then [45] else []) ++ Converter.decimal d.natAbs else W.big d

/-- The trusted program, `perf_recorder.cc:96`. -/
def perf : Words := [ascii "/usr/bin/perf"]

/-- `RunCommandAndGetSerializedOutput` on this machine. -/
def recorded (W : Site) (j : Job) : List Words × Outcome :=
  record perf j.args (timeText W j.duration) j.inject W.temp W.temp' (W.ok (fullCommand perf j.args (timeText W j.duration) W.temp))
    (W.ok (fullCommand perf j.inject (ascii "0") W.temp' ++ [ascii "-i", W.temp]))

/-- `RecordPerf`, `quipper.cc:66-81`, and the exit of `main`: how the program ends, the files then, and the commands that were run. -/
def recordPerf (W : Site) (f : Files) (j : Job) : Exit × Files × List Words :=
  match recorded W j with
  | (cmds, .failed) => (.failure, f, cmds)
  | (cmds, o) =>
    match W.made o with
    | none => (.lost, f, cmds)
    | some none => (.failure, f, cmds)
    | some (some b) => ((bufferToFile W.place W.block f j.output b).1.exit, (bufferToFile W.place W.block f j.output b).2, cmds)

/-- `main`, `quipper.cc:97-132`. -/
def quipper (W : Site) (f : Files) (words : Words) : Exit × Files × List Words :=
  match parseOld words with
  | some (d, args) => recordPerf W f ⟨d, args, [], ascii "/dev/stdout"⟩
  | none =>
    match W.flags words with
    | none => (.failure, f, [])
    | some (fl, rest) =>
      match parseNew fl rest with
      | none => (.failure, f, [])
      | some j => recordPerf W f j

/-! ## Specification -/

/-- What the words ask for: either a number of seconds and a safe line, or flags and a line, to which `perf` or the path given is put in front. -/
inductive Asked (W : Site) (words : Words) : Job → Prop where
  | old (seconds : List UInt8) (line : Words) (h : words = seconds :: line) (hs : Safe line) : Asked W words ⟨stringToInt seconds, line, [], ascii "/dev/stdout"⟩
  | new (fl : Flags) (rest : Words) (path : List UInt8) (ho : ∀ s line, words = s :: line → ¬ Safe line) (hf : W.flags words = some (fl, rest)) (hr : rest ≠ [])
      (hd : 0 < toInt32 fl.duration) (ho : fl.outputFile ≠ []) (hi : fl.injectArgs ≠ [] → fl.runInject = true)
      (hp : path = if fl.perfPath = [] then ascii "perf" else fl.perfPath) :
      Asked W words ⟨toInt32 fl.duration, path :: rest, if fl.runInject then path :: Text.splitString 59 fl.injectArgs else [], fl.outputFile⟩

/-! ## Theorems -/

theorem old_iff {words : Words} {d : Int} {args : Words} : parseOld words = some (d, args) ↔ ∃ s, words = s :: args ∧ Safe args ∧ d = stringToInt s := by
  unfold parseOld
  match words with
  | [] => simp
  | [s] =>
    simp only [List.length_cons, List.length_nil]
    rw [if_pos (by omega)]
    constructor
    · intro h; cases h
    · rintro ⟨s', h, hs, -⟩
      cases h
      obtain ⟨c, r, h⟩ := Command.safe_len hs
      cases h
  | s :: a :: l =>
    rw [if_neg (by simp)]
    simp only [List.drop_succ_cons, List.drop_zero, List.getElem?_cons_zero, Option.getD_some]
    constructor
    · intro h
      split at h
      · rename_i hv
        cases h
        exact ⟨s, rfl, (Command.accepted_iff _).1 hv, rfl⟩
      · cases h
    · rintro ⟨s', h, hs, rfl⟩
      cases h
      rw [if_pos ((Command.accepted_iff _).2 hs)]

theorem old_none {words : Words} : parseOld words = none ↔ ∀ s line, words = s :: line → ¬ Safe line := by
  constructor
  · intro h s line hw hs
    have := old_iff.2 ⟨s, hw, hs, rfl⟩
    rw [h] at this
    cases this
  · intro h
    cases hp : parseOld words with
    | none => rfl
    | some x =>
      obtain ⟨s, hw, hs, -⟩ := old_iff.1 hp
      exact absurd hs (h s _ hw)

theorem new_iff {fl : Flags} {rest : Words} {j : Job} : parseNew fl rest = some j ↔ rest ≠ [] ∧ 0 < toInt32 fl.duration ∧ fl.outputFile ≠ [] ∧
    (fl.injectArgs ≠ [] → fl.runInject = true) ∧ j = ⟨toInt32 fl.duration, (if fl.perfPath = [] then ascii "perf" else fl.perfPath) :: rest,
      if fl.runInject then (if fl.perfPath = [] then ascii "perf" else fl.perfPath) :: Text.splitString 59 fl.injectArgs else [], fl.outputFile⟩ := by
  unfold parseNew
  by_cases h1 : rest = []
  · rw [if_pos (by simp [h1])]
    simp [h1]
  rw [if_neg (by have := List.length_pos_iff.2 h1; omega)]
  by_cases h2 : toInt32 fl.duration ≤ 0
  · rw [if_pos h2]
    constructor
    · intro h; cases h
    · intro h; omega
  rw [if_neg h2]
  simp only
  by_cases h3 : fl.outputFile = []
  · rw [if_pos h3]
    constructor
    · intro h; cases h
    · intro h; exact absurd h3 h.2.2.1
  rw [if_neg h3]
  by_cases h4 : fl.runInject = false ∧ fl.injectArgs ≠ []
  · rw [if_pos h4]
    constructor
    · intro h; cases h
    · intro h
      have := h.2.2.2.1 h4.2
      rw [h4.1] at this
      cases this
  · rw [if_neg h4]
    constructor
    · intro h
      cases h
      exact ⟨h1, by omega, h3, fun hi => by
        cases hr : fl.runInject with
        | true => rfl
        | false => exact absurd ⟨hr, hi⟩ h4, rfl⟩
    · rintro ⟨-, -, -, -, rfl⟩
      rfl

/-- C126: quipper does what the words ask for, and if they ask for nothing it fails, runs nothing and changes no file. -/
theorem quipper_asked (W : Site) (f : Files) (words : Words) :
    (∃ j, Asked W words j ∧ quipper W f words = recordPerf W f j) ∨ ((∀ j, ¬ Asked W words j) ∧ quipper W f words = (.failure, f, [])) := by
  unfold quipper
  cases hp : parseOld words with
  | some x =>
    obtain ⟨d, args⟩ := x
    obtain ⟨s, hw, hs, rfl⟩ := old_iff.1 hp
    exact Or.inl ⟨_, .old s args hw hs, rfl⟩
  | none =>
    have hn := old_none.1 hp
    simp only
    cases hf : W.flags words with
    | none =>
      refine Or.inr ⟨?_, rfl⟩
      intro j hj
      cases hj with
      | old s line h hs => exact hn s line h hs
      | new fl rest path _ h => rw [hf] at h; cases h
    | some x =>
      obtain ⟨fl, rest⟩ := x
      simp only
      cases hnw : parseNew fl rest with
      | some j =>
        obtain ⟨a, b, c, d, rfl⟩ := new_iff.1 hnw
        exact Or.inl ⟨_, .new fl rest _ hn hf a b c d rfl, rfl⟩
      | none =>
        refine Or.inr ⟨?_, rfl⟩
        intro j hj
        cases hj with
        | old s line h hs => exact hn s line h hs
        | new fl' rest' path ho h hr hd ho' hi hpath =>
          rw [hf] at h
          cases h
          have := new_iff.2 ⟨hr, hd, ho', hi, rfl⟩
          rw [hnw] at this
          cases this

/-- C126: whatever the words are, every command that is run is the trusted program with a safe line, with a file of quipper's own to write to; it measures nothing but `sleep`, and
what is injected is what was recorded. -/
theorem quipper_commands (W : Site) (f : Files) (words : Words) : ∀ c ∈ (quipper W f words).2.2, ∃ j, Asked W words j ∧
    ((Safe j.args ∧ ∃ command rest, j.args = ascii "perf" :: command :: rest ∧ c = ascii "/usr/bin/perf" :: command :: rest ++ [ascii "-o", W.temp] ++
        (if command = ascii "stat" then [ascii "-v"] else []) ++ [ascii "--", ascii "sleep", timeText W j.duration]) ∨
      (Safe j.inject ∧ ∃ rest, j.inject = ascii "perf" :: ascii "inject" :: rest ∧
        c = ascii "/usr/bin/perf" :: ascii "inject" :: rest ++ [ascii "-o", W.temp', ascii "-f", ascii "-i", W.temp])) := by
  intro c hc
  rcases quipper_asked W f words with ⟨j, hj, h⟩ | ⟨-, h⟩
  · rw [h] at hc
    have hc' : c ∈ (recorded W j).1 := by
      unfold recordPerf at hc
      split at hc
      · rename_i e; rw [e]; exact hc
      · rename_i e
        rw [e]
        split at hc
        · exact hc
        · exact hc
        · exact hc
    rcases Command.runs _ _ _ _ _ _ _ _ c hc' with ⟨hs, command, rest, h1, -, h2⟩ | ⟨-, hs, -, rest, h1, h2⟩
    · exact ⟨j, hj, Or.inl ⟨hs, command, rest, h1, h2⟩⟩
    · exact ⟨j, hj, Or.inr ⟨hs, rest, h1, h2⟩⟩
  · rw [h] at hc
    cases hc

/-- C126: success is reported exactly if the words ask for something, the commands succeed, something is made of what they leave, and the output can be written; then the
output holds that. -/
theorem quipper_success (W : Site) (f g : Files) (words : Words) : (∃ cmds, quipper W f words = (.success, g, cmds)) ↔
    ∃ j b, Asked W words j ∧ (recorded W j).2 ≠ .failed ∧ W.made (recorded W j).2 = some (some b) ∧ W.place.writable (W.place.file j.output) = true ∧
      b.length / W.block * W.block ≤ W.place.room (W.place.file j.output) ∧ g = f.put (W.place.file j.output) (b.take (W.place.room (W.place.file j.output))) := by
  have step : ∀ j, (∃ cmds, recordPerf W f j = (.success, g, cmds)) ↔ ∃ b, (recorded W j).2 ≠ .failed ∧ W.made (recorded W j).2 = some (some b) ∧
      W.place.writable (W.place.file j.output) = true ∧ b.length / W.block * W.block ≤ W.place.room (W.place.file j.output) ∧
      g = f.put (W.place.file j.output) (b.take (W.place.room (W.place.file j.output))) := by
    intro j
    have hr : recordPerf W f j = match recorded W j with
      | (cmds, .failed) => (.failure, f, cmds)
      | (cmds, o) => match W.made o with
        | none => (.lost, f, cmds)
        | some none => (.failure, f, cmds)
        | some (some b) => ((bufferToFile W.place W.block f j.output b).1.exit, (bufferToFile W.place W.block f j.output b).2, cmds) := rfl
    have other : ∀ (cmds : List Words) (o : Outcome), recorded W j = (cmds, o) → o ≠ .failed → recordPerf W f j = match W.made o with
        | none => (.lost, f, cmds)
        | some none => (.failure, f, cmds)
        | some (some b) => ((bufferToFile W.place W.block f j.output b).1.exit, (bufferToFile W.place W.block f j.output b).2, cmds) := by
      intro cmds o ho hne
      rw [hr, ho]
      cases o with
      | failed => exact absurd rfl hne
      | data _ => rfl
      | stat _ _ => rfl
    cases hrec : recorded W j with
    | mk cmds o =>
      by_cases hne : o = .failed
      · subst hne
        rw [hr, hrec]
        constructor
        · rintro ⟨c, h⟩; cases h
        · rintro ⟨b, h, -⟩; exact absurd rfl h
      · rw [other cmds o hrec hne]
        simp only [ne_eq, hne, not_false_eq_true, true_and]
        cases hm : W.made o with
        | none =>
          constructor
          · rintro ⟨c, h⟩; cases h
          · rintro ⟨b, h, -⟩; cases h
        | some x =>
          cases x with
          | none =>
            constructor
            · rintro ⟨c, h⟩; cases h
            · rintro ⟨b, h, -⟩; cases h
          | some b =>
            simp only [Option.some.injEq]
            constructor
            · rintro ⟨c, h⟩
              have h1 := congrArg Prod.fst h
              have h2 := congrArg (fun x => x.2.1) h
              exact ⟨b, rfl, Tool.buffer_yes.1 (Prod.ext h1 h2)⟩
            · rintro ⟨b', rfl, h⟩
              have := Tool.buffer_yes.2 h
              exact ⟨cmds, by rw [Prod.mk.injEq] at this; rw [this.1, this.2]⟩
  -- what is asked for is determined by the words
  have det : ∀ j j', Asked W words j → Asked W words j' → j = j' := by
    intro j j' h h'
    cases h with
    | old s line hw hs =>
      cases h' with
      | old s' line' hw' hs' => rw [hw] at hw'; cases hw'; rfl
      | new _ _ _ ho' => exact absurd hs (ho' s line hw)
    | new fl rest path ho hf hr hd ho1 hi hp =>
      cases h' with
      | old s' line' hw' hs' => exact absurd hs' (ho s' line' hw')
      | new fl' rest' path' ho' hf' hr' hd' ho1' hi' hp' =>
        rw [hf] at hf'
        cases hf'
        rw [hp, hp']
  rcases quipper_asked W f words with ⟨j, hj, h⟩ | ⟨hn, h⟩
  · rw [h, step j]
    constructor
    · rintro ⟨b, hb⟩; exact ⟨j, b, hj, hb⟩
    · rintro ⟨j', b, hj', hb⟩
      rw [det j' j hj' hj] at hb
      exact ⟨b, hb⟩
  · rw [h]
    constructor
    · rintro ⟨c, hc⟩; cases hc
    · rintro ⟨j, b, hj, -⟩; exact absurd hj (hn j)

/-- C126: if a failure is reported, no file is changed; and in no case another one than the output. -/
theorem quipper_keeps (W : Site) (f : Files) (words : Words) : ((quipper W f words).1 = .failure → (quipper W f words).2.1 = f) ∧
    ∀ n, (∀ j, Asked W words j → n ≠ W.place.file j.output) → (quipper W f words).2.1 n = f n := by
  have cases' : ∀ j, (∃ e cmds, recordPerf W f j = (e, f, cmds)) ∨
      ∃ b cmds, recordPerf W f j = ((bufferToFile W.place W.block f j.output b).1.exit, (bufferToFile W.place W.block f j.output b).2, cmds) := by
    intro j
    unfold recordPerf
    split
    · exact Or.inl ⟨_, _, rfl⟩
    · split
      · exact Or.inl ⟨_, _, rfl⟩
      · exact Or.inl ⟨_, _, rfl⟩
      · exact Or.inr ⟨_, _, rfl⟩
  rcases quipper_asked W f words with ⟨j, hj, h⟩ | ⟨-, h⟩
  · rw [h]
    rcases cases' j with ⟨e, cmds, hc⟩ | ⟨b, cmds, hc⟩
    · rw [hc]
      exact ⟨fun _ => rfl, fun _ _ => rfl⟩
    · rw [hc]
      exact ⟨fun hf => Tool.buffer_no _ _ _ _ _ hf, fun n hn => Tool.buffer_only _ _ _ _ _ (hn j hj)⟩
  · rw [h]
    exact ⟨fun _ => rfl, fun _ _ => rfl⟩

theorem digits_append (l : List UInt8) (c : UInt8) : digitsValue (l ++ [c]) = digitsValue l * 10 + (c.toNat - 48) := by
  simp [digitsValue]

/-- C126: a number of seconds in digits, with spaces before it, is what it says, up to what an `int` can hold. -/
theorem seconds_read {sp ds : List UInt8} (hsp : ∀ c ∈ sp, isSpace c = true) (hds : ∀ c ∈ ds, isDigit c = true) (hne : ds ≠ []) :
    stringToInt (sp ++ ds) = min (digitsValue ds : Int) (2 ^ 31 - 1) := by
  have hdrop : (sp ++ ds).dropWhile isSpace = ds := by
    induction sp with
    | nil =>
      cases ds with
      | nil => rfl
      | cons d t =>
        have := hds d List.mem_cons_self
        simp only [List.nil_append]
        rw [List.dropWhile_cons_of_neg]
        simp only [isDigit, isSpace, decide_eq_true_eq] at this ⊢
        rintro (rfl | ⟨-, h⟩)
        · exact absurd this.1 (by decide)
        · exact absurd (UInt8.le_trans this.1 h) (by decide)
    | cons c t ih =>
      rw [List.cons_append, List.dropWhile_cons_of_pos (hsp c List.mem_cons_self)]
      exact ih (fun c hc => hsp c (List.mem_cons_of_mem _ hc))
  unfold stringToInt
  simp only [hdrop]
  have hhead : ds.head? ≠ some 45 ∧ ds.head? ≠ some 43 := by
    cases ds with
    | nil => exact absurd rfl hne
    | cons d t =>
      have := hds d List.mem_cons_self
      simp only [isDigit, decide_eq_true_eq] at this
      constructor
      · intro h
        cases h
        exact absurd this.1 (by decide)
      · intro h
        cases h
        exact absurd this.1 (by decide)
  have htake : ds.takeWhile isDigit = ds := by
    clear hdrop hhead hne
    induction ds with
    | nil => rfl
    | cons d t ih =>
      rw [List.takeWhile_cons_of_pos (hds d List.mem_cons_self), ih (fun c hc => hds c (List.mem_cons_of_mem _ hc))]
  have hn : ¬ (ds.head? = some 45 ∨ ds.head? = some 43) := by
    intro h
    rcases h with h | h
    · exact hhead.1 h
    · exact hhead.2 h
  rw [if_neg hn, if_neg (by simpa using hhead.1), htake]

/-! ## Examples -/

/-- A machine on which perf works and something is made of what it records. -/
def exSite (fl : Flags) (rest : Words) : Site :=
  { flags := fun _ => some (fl, rest), ok := fun _ => true, temp := ascii "/tmp/quipper.a", temp' := ascii "/tmp/quipper.b", big := fun _ => [],
    made := fun o => some (match o with | .failed => none | .data _ => some [1, 2, 3] | .stat _ _ => some [4]),
    place := ⟨fun n => n.length, fun _ => true, fun _ => true, fun _ => 100⟩, block := 4096 }

/-- The old way: the number of seconds, and perf. -/
example : (quipper (exSite {} []) (fun _ => none) [ascii "5", ascii "perf", ascii "record", ascii "-a"]).2.2 =
    [["/usr/bin/perf", "record", "-a", "-o", "/tmp/quipper.a", "--", "sleep", "5"].map ascii] := by decide +kernel

/-- With flags. -/
example : let r := (quipper (exSite { duration := 7, outputFile := ascii "out", runInject := true, injectArgs := ascii "inject;-b" } [ascii "record", ascii "-a"]) (fun _ => none)
      [ascii "--duration=7", ascii "--", ascii "record", ascii "-a"])
    r.1 = .success ∧ r.2.1 3 = some [1, 2, 3] ∧ r.2.2 = [["/usr/bin/perf", "record", "-a", "-o", "/tmp/quipper.a", "--", "sleep", "7"].map ascii,
      ["/usr/bin/perf", "inject", "-b", "-o", "/tmp/quipper.b", "-f", "-i", "/tmp/quipper.a"].map ascii] := by decide +kernel

example : stringToInt (ascii " 120") = 120 := by
  have := seconds_read (sp := [32]) (ds := ascii "120") (by decide) (by decide) (by decide)
  rw [show ascii " 120" = [32] ++ ascii "120" by decide, this]
  decide

/-- C126: the seconds of the flag that an `int` can hold are the ones asked for, and up to six digits they are written out. -/
theorem seconds_kept (W : Site) {d : Int} (h0 : 0 ≤ d) (h1 : d < 2 ^ 31) : toInt32 d = d ∧ (d < 1000000 → timeText W (toInt32 d) = Converter.decimal d.toNat) := by
  have he : toInt32 d = d := by
    unfold toInt32
    omega
  refine ⟨he, fun h2 => ?_⟩
  rw [he]
  unfold timeText
  have e10 : (10 : Nat) ^ 6 = 1000000 := by decide
  rw [e10, if_pos (by omega), if_neg (by omega)]
  have : d.natAbs = d.toNat := by omega
  rw [this]
  rfl

/-- C126 fails for the number of seconds: in the old way anything goes for it, and is 0 or what its beginning says; with flags it is cut to 32 bits. So nothing is measured, or not for the
time given, where the line should be refused. -/
theorem seconds_violated :
    (quipper (exSite {} []) (fun _ => none) [ascii "five", ascii "perf", ascii "record", ascii "-a"]).2.2 =
      [["/usr/bin/perf", "record", "-a", "-o", "/tmp/quipper.a", "--", "sleep", "0"].map ascii] ∧
    (quipper (exSite {} []) (fun _ => none) [ascii "1e3", ascii "perf", ascii "stat", ascii "-a"]).2.2 =
      [["/usr/bin/perf", "stat", "-a", "-o", "/tmp/quipper.a", "-v", "--", "sleep", "1"].map ascii] ∧
    (quipper (exSite { duration := 2 ^ 32 + 3 } [ascii "record"]) (fun _ => none) [ascii "--duration=4294967299", ascii "record"]).2.2 =
      [["/usr/bin/perf", "record", "-o", "/tmp/quipper.a", "--", "sleep", "3"].map ascii] := by
  refine ⟨?_, ?_, ?_⟩ <;> decide +kernel

/-- C126 fails for the flags if the line has `perf` in it: the flags are taken for a number of seconds, which is 0. -/
theorem flags_violated : (quipper (exSite { duration := 5, outputFile := ascii "out" } [ascii "perf", ascii "record"]) (fun _ => none)
      [ascii "--duration=5", ascii "perf", ascii "record"]).2.2 = [["/usr/bin/perf", "record", "-o", "/tmp/quipper.a", "--", "sleep", "0"].map ascii] := by decide +kernel

/-- With a path of perf other than `perf` nothing is ever run. -/
theorem path_refused (W : Site) (f : Files) (words : Words) {fl : Flags} {rest : Words} (hf : W.flags words = some (fl, rest)) (h0 : fl.perfPath ≠ []) (h1 : fl.perfPath ≠ ascii "perf")
    (ho : ∀ s line, words = s :: line → ¬ Safe line) : (quipper W f words).2.2 = [] := by
  cases hq : (quipper W f words).2.2 with
  | nil => rfl
  | cons c l =>
    obtain ⟨j, hj, hc⟩ := quipper_commands W f words c (by rw [hq]; exact List.mem_cons_self)
    cases hj with
    | old s line h hs => exact absurd hs (ho s line h)
    | new fl' rest' path ho' hf' hr hd ho1 hi hp =>
      rw [hf] at hf'
      cases hf'
      rw [if_neg h0] at hp
      have : ∃ r, path :: rest = ascii "perf" :: r := by
        rcases hc with ⟨-, command, r, h, -⟩ | ⟨hs, r, h, -⟩
        · exact ⟨_, h⟩
        · simp only at h
          split at h
          · exact ⟨rest, by rw [(List.cons.inj h).1]⟩
          · cases h
      obtain ⟨r, hr⟩ := this
      cases hr
      exact absurd hp.symm h1

end Verif.Run
