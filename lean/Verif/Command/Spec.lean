import Verif.Command.Model

/-!
# What may be given to perf

Three things, independent of the code that checks: the options listed for each command of perf, the words of a line
that are options, and how perf itself reads a line.
-/

namespace Verif.Command.Spec
open Verif.Command (Bytes)

/-- The options of a command: those that take a value and those that do not. -/
structure Allowed where
  valued : List Bytes
  plain : List Bytes

/-- The options of `perf record` an outsider may ask for. -/
def forRecord : Allowed :=
  { valued := ["-e", "--event", "--filter", "-p", "--pid", "-t", "--tid", "-r", "--realtime", "-C", "--cpu", "-c",
      "--count", "-F", "--freq", "--call-graph", "-G", "--cgroup", "-u", "--uid", "-j", "--branch-filter", "-k",
      "--clockid", "-S", "--snapshot", "--pfm-events"].map ascii
    plain := ["-R", "--raw-samples", "-a", "--all-cpus", "--code-page-size", "--data-page-size", "-i", "--no-inherit",
      "--group", "-g", "-s", "--stat", "-d", "--data", "-T", "--timestamp", "-P", "--period", "-n", "--no-samples",
      "-N", "--no-buildid-cache", "-B", "--no-buildid", "-b", "--branch-any", "-W", "--weight", "--transaction",
      "--running-time"].map ascii }

/-- The options of `perf stat` an outsider may ask for. -/
def forStat : Allowed :=
  { valued := ["-e", "--event", "--filter", "-p", "--pid", "-t", "--tid", "-C", "--cpu", "-G", "--cgroup", "-D",
      "--delay"].map ascii
    plain := ["-T", "--transaction", "-i", "--no-inherit", "-a", "--all-cpus", "-g", "--group", "-c", "--scale", "-A",
      "--no-aggr", "--per-socket", "--per-core"].map ascii }

/-- The options of `perf mem` itself, before the word `record`. -/
def forMem : Allowed :=
  { valued := ["-t", "--type", "-x", "--field-separator", "-C", "--cpu-list"].map ascii
    plain := ["-D", "--dump-raw-samples"].map ascii }

/-- The options of `perf inject` an outsider may ask for. -/
def forInject : Allowed :=
  { valued := ["--kallsyms"].map ascii
    plain := ["-b", "--build-ids", "--buildid-all", "-s", "--sched-stat", "--itrace", "--strip", "-j", "--jit"].map
      ascii }

/-- Options nobody may ask for: they name files to read or write, or other programs. -/
def banned : List Bytes :=
  ["-o", "--output", "--append", "--input", "--log-fd", "--pre", "--post", "-v", "--verbose", "-q", "--quiet", "-f",
    "--force", "--"].map ascii

/-- The word `w` is the option `n`: alone, or with `=` and more. -/
def IsOption (n w : Bytes) : Prop := 61 ∉ n ∧ (w = n ∨ ∃ v, w = n ++ [61] ++ v)

/-- An option of a line with its value. -/
structure Opt where
  word : Bytes
  value : Option Bytes
deriving DecidableEq, Repr

/-- The words of a list of options. -/
def Opt.words (o : Opt) : List Bytes := o.word :: o.value.toList

/-- The option is listed, with a value exactly if it takes one. -/
def Listed (al : Allowed) (o : Opt) : Prop :=
  (∃ n ∈ al.valued, IsOption n o.word ∧ o.value.isSome) ∨ (∃ n ∈ al.plain, IsOption n o.word ∧ o.value = none)

/-- The words are a list of listed options. -/
def Line (al : Allowed) (words : List Bytes) (opts : List Opt) : Prop :=
  words = opts.flatMap Opt.words ∧ ∀ o ∈ opts, Listed al o

/-- A line that may be run: `perf`, a command and options listed for it. `perf mem` has its own options, then the
word `record` and options listed for that. -/
def Safe (args : List Bytes) : Prop :=
  (∃ rest o, args = ascii "perf" :: ascii "record" :: rest ∧ Line forRecord rest o) ∨
  (∃ rest o, args = ascii "perf" :: ascii "stat" :: rest ∧ Line forStat rest o) ∨
  (∃ rest o, args = ascii "perf" :: ascii "inject" :: rest ∧ Line forInject rest o) ∨
  (∃ m rest o o', args = ascii "perf" :: ascii "mem" :: m ++ ascii "record" :: rest ∧ ascii "record" ∉ m ∧
    Line forMem m o ∧ Line forRecord rest o')

/-! ## How perf reads a line

perf's own rules (its `parse-options.c`, which is not in this repository): an option that takes a value and is written
with `=` carries that value; otherwise its value is the next word. The first word that is not an option begins the
program perf is to run, and so does what follows `--`. -/

/-- What perf makes of a line: its options and the program to run. -/
structure Reading where
  options : List Opt
  program : List Bytes
deriving DecidableEq, Repr

/-- perf's reading of words, where `takes` says which option names take a value. -/
def perfReads (takes : Bytes → Bool) : List Bytes → Reading
  | [] => ⟨[], []⟩
  | w :: t =>
    if w = ascii "--" then ⟨[], t⟩
    else if w.head? ≠ some 45 then ⟨[], w :: t⟩
    else if 61 ∈ w ∨ takes w = false then
      let r := perfReads takes t
      ⟨⟨w, none⟩ :: r.options, r.program⟩
    else
      match t with
      | [] => ⟨[⟨w, none⟩], []⟩
      | v :: t' =>
        let r := perfReads takes t'
        ⟨⟨w, some v⟩ :: r.options, r.program⟩

/-- What takes a value in perf: what is listed so, and `-o`, which the recorder adds. -/
def takes (al : Allowed) (n : Bytes) : Bool := decide (n ∈ al.valued ∨ n = ascii "-o")

end Verif.Command.Spec
