import Verif.Text.Model
import Verif.Base.Bytes
import Verif.HugePages.Model

/-!
# Model of the check of perf command lines and of the recorder

`perf_option_parser.cc` whole and, of `perf_recorder.cc`, what is run and with which arguments. Running the commands
is not modelled: their exit codes are parameters.
-/

namespace Verif.Command
open Verif.Text (splitString)

abbrev Bytes := List UInt8

/-! ## `perf_option_parser.cc`

An option is paired with whether it takes a value (`OptionType::Value`). The banned options are comments in the
code. -/

/-- `GetPerfRecordOptions`, `perf_option_parser.cc:20-104`. -/
def recordOptions : List (Bytes × Bool) :=
  [(ascii "-e", true), (ascii "--event", true), (ascii "--filter", true),
   (ascii "-p", true), (ascii "--pid", true), (ascii "-t", true),
   (ascii "--tid", true), (ascii "-r", true), (ascii "--realtime", true),
   (ascii "-R", false), (ascii "--raw-samples", false), (ascii "-a", false),
   (ascii "--all-cpus", false), (ascii "-C", true), (ascii "--cpu", true),
   (ascii "-c", true), (ascii "--count", true), (ascii "--code-page-size", false),
   (ascii "--data-page-size", false), (ascii "-i", false), (ascii "--no-inherit", false),
   (ascii "-F", true), (ascii "--freq", true), (ascii "--group", false),
   (ascii "-g", false), (ascii "--call-graph", true), (ascii "-s", false),
   (ascii "--stat", false), (ascii "-d", false), (ascii "--data", false),
   (ascii "-T", false), (ascii "--timestamp", false), (ascii "-P", false),
   (ascii "--period", false), (ascii "-n", false), (ascii "--no-samples", false),
   (ascii "-N", false), (ascii "--no-buildid-cache", false), (ascii "-B", false),
   (ascii "--no-buildid", false), (ascii "-G", true), (ascii "--cgroup", true),
   (ascii "-u", true), (ascii "--uid", true), (ascii "-b", false),
   (ascii "--branch-any", false), (ascii "-j", true), (ascii "--branch-filter", true),
   (ascii "-W", false), (ascii "--weight", false), (ascii "--transaction", false),
   (ascii "--running-time", false), (ascii "-k", true), (ascii "--clockid", true),
   (ascii "-S", true), (ascii "--snapshot", true), (ascii "--pfm-events", true)]

/-- `GetPerfStatOptions`, `perf_option_parser.cc:106-159`. -/
def statOptions : List (Bytes × Bool) :=
  [(ascii "-T", false), (ascii "--transaction", false), (ascii "-e", true),
   (ascii "--event", true), (ascii "--filter", true), (ascii "-i", false),
   (ascii "--no-inherit", false), (ascii "-p", true), (ascii "--pid", true),
   (ascii "-t", true), (ascii "--tid", true), (ascii "-a", false),
   (ascii "--all-cpus", false), (ascii "-g", false), (ascii "--group", false),
   (ascii "-c", false), (ascii "--scale", false), (ascii "-C", true),
   (ascii "--cpu", true), (ascii "-A", false), (ascii "--no-aggr", false),
   (ascii "-G", true), (ascii "--cgroup", true), (ascii "--per-socket", false),
   (ascii "--per-core", false), (ascii "-D", true), (ascii "--delay", true)]

/-- `GetPerfMemOptions`, `perf_option_parser.cc:161-169`. -/
def memOptions : List (Bytes × Bool) :=
  [(ascii "-t", true), (ascii "--type", true), (ascii "-D", false),
   (ascii "--dump-raw-samples", false), (ascii "-x", true), (ascii "--field-separator", true),
   (ascii "-C", true), (ascii "--cpu-list", true)]

/-- `GetPerfInjectOptions`, `perf_option_parser.cc:171-195`. -/
def injectOptions : List (Bytes × Bool) :=
  [(ascii "-b", false), (ascii "--build-ids", false), (ascii "--buildid-all", false),
   (ascii "-s", false), (ascii "--sched-stat", false), (ascii "--kallsyms", true),
   (ascii "--itrace", false), (ascii "--strip", false), (ascii "-j", false),
   (ascii "--jit", false)]

/-- The name of an option: what is before the first `=`, `perf_option_parser.cc:202-205`. -/
def optionName (arg : Bytes) : Bytes :=
  match splitString 61 arg with
  | [] => []
  | p :: _ => p

/-- `std::map::find`; the keys of the tables are distinct. -/
def findOption (options : List (Bytes × Bool)) (name : Bytes) : Option Bool :=
  (options.find? (fun o => o.1 == name)).map (·.2)

/-- `ValidatePerfCommandLineOptions`, `perf_option_parser.cc:197-219`. -/
def validateOptions (options : List (Bytes × Bool)) : List Bytes → Bool
  | [] => true
  | a :: t =>
    match findOption options (optionName a) with
    | none => false
    | some false => validateOptions options t
    | some true =>
      match t with
      | [] => false
      | _ :: t' => validateOptions options t'

/-- `ValidatePerfCommandLine`, `perf_option_parser.cc:223-252`. For `mem`, the options up to the first `record` of the
whole line are those of `mem`. -/
def validate (args : List Bytes) : Bool :=
  match args with
  | a0 :: a1 :: rest =>
    if a0 ≠ ascii "perf" then false
    else if a1 = ascii "record" then validateOptions recordOptions rest
    else if a1 = ascii "mem" then
      if ascii "record" ∈ args then
        let i := (args.takeWhile (· ≠ ascii "record")).length
        validateOptions memOptions ((args.take i).drop 2) && validateOptions recordOptions (args.drop (i + 1))
      else false
    else if a1 = ascii "stat" then validateOptions statOptions rest
    else if a1 = ascii "inject" then validateOptions injectOptions rest
    else false
  | _ => false

/-! ## `perf_recorder.cc` -/

/-- `std::string::find` for a pattern. -/
def contains (pat s : Bytes) : Bool := (HugePages.find pat s).isSome

/-- `IsRecordingETM`, `perf_recorder.cc:84-92`. -/
def isRecordingETM : List Bytes → Bool
  | [] => false
  | a :: t =>
    if a ≠ ascii "-e" then isRecordingETM t
    else
      match t with
      | [] => false
      | e :: t' => if contains (ascii "cs_etm") e then true else isRecordingETM t'

/-- `FullPerfCommand`, `perf_recorder.cc:101-131`; `time` is the number of seconds as text. `perf_args[1]` exists: the
arguments were validated. -/
def fullCommand (binary args : List Bytes) (time out : Bytes) : List Bytes :=
  let type := (args[1]?).getD []
  binary ++ args.drop 1 ++ [ascii "-o", out] ++
    (if type = ascii "stat" then [ascii "-v"] else []) ++
    (if type ≠ ascii "inject" then [ascii "--", ascii "sleep", time] else [ascii "-f"])

/-- The command line stored with the counters of `perf stat`, `perf_recorder.cc:66-76`, before the last space is cut
off. -/
def statWords : List Bytes → Bytes
  | [] => []
  | a :: t =>
    if a = ascii "-o" then
      match t with
      | [] => []
      | _ :: t' => statWords t'
    else a ++ [32] ++ statWords t

/-- `command_line`, `perf_recorder.cc:77`; the size is not 0: at least the command is there. -/
def statCommandLine (args : List Bytes) : Bytes := (statWords args).dropLast

/-- What the recorder does after running commands: how it reads the output. -/
inductive Outcome where
  | failed
  | data (file : Bytes)
  | stat (file : Bytes) (commandLine : Bytes)
deriving DecidableEq, Repr

/-- `RunCommandAndGetSerializedOutput`, `perf_recorder.cc:133-200`: the commands run, in order, and what is read then.
`ok1`, `ok2` say whether the commands end with status 0; `return {}` is false. -/
def record (binary args : List Bytes) (time : Bytes) (inject : List Bytes) (out injectOut : Bytes) (ok1 ok2 : Bool) :
    List (List Bytes) × Outcome :=
  if !validate args then ([], .failed)
  else
    let type := (args[1]?).getD []
    if type ≠ ascii "record" ∧ type ≠ ascii "stat" ∧ type ≠ ascii "mem" then ([], .failed)
    else if type = ascii "record" ∧ isRecordingETM args = true ∧ inject = [] then ([], .failed)
    else
      let cmd := fullCommand binary args time out
      if !ok1 then ([cmd], .failed)
      else if inject = [] then
        if type = ascii "record" ∨ type = ascii "mem" then ([cmd], .data out)
        else ([cmd], .stat out (statCommandLine cmd))
      else if !validate inject then ([cmd], .failed)
      else if (inject[1]?).getD [] ≠ ascii "inject" then ([cmd], .failed)
      else
        let cmd2 := fullCommand binary inject (ascii "0") injectOut ++ [ascii "-i", out]
        if !ok2 then ([cmd, cmd2], .failed) else ([cmd, cmd2], .data injectOut)

end Verif.Command
