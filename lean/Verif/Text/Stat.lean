import Verif.Text.Model
import Verif.Text.Seconds

/-!
# Model of the parser of `perf stat` output

`/repo/src/quipper/perf_stat_parser.cc:28-67`.
-/

namespace Verif.Text
open Verif.Util

/-- A line of `PerfStatProto`: event name and count; the time is set for all lines alike,
`perf_stat_parser.cc:51-53`. -/
structure StatLine where
  name : List UInt8
  count : Nat
deriving DecidableEq, Repr

/-- State of the loop of `ParsePerfStatOutputToProto`: lines and `time_ms`,
`perf_stat_parser.cc:31`. -/
structure StatState where
  lines : List StatLine := []
  timeMs : Nat := 0
deriving DecidableEq, Repr

/-- `perf_stat_parser.cc:55-59`: the time, if the second token says so. `none` is the undefined behaviour of
`SecondsStringToMillisecondsUint64`. -/
def statTime (t0 t1 : List UInt8) (st : StatState) : Option StatState :=
  if t1 = ascii "seconds" then (secondsToMs t0).map (fun r => { st with timeMs := r.getD 0 })
  else some st

/-- One iteration, `perf_stat_parser.cc:32-60`. `none` is undefined behaviour: `back()` of an empty
string at line 45, and what `SecondsStringToMillisecondsUint64` may do at line 57. -/
def statLine (line : List UInt8) (st : StatState) : Option StatState :=
  match splitString 32 (trimWhitespace line) with
  | [t0, t1, _, _] =>
    match t0.getLast? with
    | none => none
    | some last =>
      if last = 58 then
        let (count, e) := strtoul10 t1
        if e ≠ [] then some st
        else statTime t0 t1 { st with lines := st.lines ++ [⟨t0.take (t0.length - 1), count⟩] }
      else statTime t0 t1 st
  | _ => some st

/-- The loop over lines, `perf_stat_parser.cc:32-60`. -/
def statLines : List (List UInt8) → StatState → Option StatState
  | [], st => some st
  | l :: ls, st => match statLine l st with
    | none => none
    | some st' => statLines ls st'

/-- `ParsePerfStatOutputToProto` on an empty proto, `perf_stat_parser.cc:28-67`: the lines, the time
given to every line (`none`: not set), and the return value. -/
def parsePerfStat (data : List UInt8) : Option (List StatLine × Option Nat × Bool) :=
  (statLines (splitString 10 data) {}).map (fun st =>
    (st.lines, if st.timeMs ≠ 0 then some st.timeMs else none, decide (st.lines ≠ [])))

end Verif.Text
