import Verif.Base.Bytes

/-!
# Model of running a command

`/repo/src/quipper/run_command.cc`, without signals (`Run/Signal.lean`): the descriptors of the program and of the command, the pipes, and what is returned. What the
system does is an input: whether there is room for descriptors and processes, whether `exec` succeeds, what the command writes and how it ends, and in which
pieces its output comes. `waitpid` that is interrupted is called again, which is left out.
-/

namespace Verif.Run

abbrev Bytes := List UInt8

/-! ## Descriptors -/

/-- What a descriptor leads to: something opened before, an end of one of the two pipes, or `/dev/null`. -/
inductive End where
  | file (k : Nat)
  | outRead
  | outWrite
  | errRead
  | errWrite
  | null
deriving DecidableEq, Repr

/-- A descriptor: its number, what it leads to, and whether it is closed by `exec`. -/
structure Slot where
  fd : Nat
  to : End
  cloexec : Bool := false
deriving DecidableEq, Repr

/-- The open descriptors of a process. -/
abbrev Table := List Slot

/-- The descriptor with a number. -/
def Table.look (t : Table) (fd : Nat) : Option Slot := t.find? (fun s => s.fd = fd)

/-- The lowest number that is free. -/
def lowest (t : Table) : Nat := ((List.range (t.length + 1)).find? (fun n => (t.look n).isNone)).getD 0

/-- `open`, which fails if the number would be `max` or more. -/
def openTo (max : Nat) (to : End) (t : Table) : Option (Nat × Table) :=
  if lowest t < max then some (lowest t, { fd := lowest t, to } :: t) else none

/-- `pipe`: the numbers of its ends, the one to read from first. -/
def pipe (max : Nat) (r w : End) (t : Table) : Option ((Nat × Nat) × Table) :=
  match openTo max r t with
  | none => none
  | some (a, t) =>
    match openTo max w t with
    | none => none
    | some (b, t) => some ((a, b), t)

/-- `close`; `none` is an error. -/
def closeFd (fd : Nat) (t : Table) : Option Table := if (t.look fd).isSome then some (t.filter (fun s => s.fd ≠ fd)) else none

/-- `dup2`; `none` is an error. -/
def dup2 (a b : Nat) (t : Table) : Option Table :=
  match t.look a with
  | none => none
  | some s => if a = b then some t else some ({ fd := b, to := s.to } :: t.filter (fun s => s.fd ≠ b))

/-- `CloseFdOnExec`, `run_command.cc:24-35`; `none` is false. -/
def closeOnExec (fd : Nat) (t : Table) : Option Table :=
  if (t.look fd).isSome then some (t.map (fun s => if s.fd = fd then { s with cloexec := true } else s)) else none

/-- What `exec` leaves open. -/
def onExec (t : Table) : Table := t.filter (fun s => !s.cloexec)

/-! ## `ReadFromFd` -/

/-- `std::vector<char>::resize`. -/
def resize (n : Nat) (b : Bytes) : Bytes := b.take n ++ List.replicate (n - b.length) 0

/-- What a read stores at an offset. -/
def storeAt (off : Nat) (d b : Bytes) : Bytes := b.take off ++ d ++ b.drop (off + d.length)

/-- The loops of `ReadFromFd`, `run_command.cc:41-51`. `sched` says how the reads end: interrupted, or with at most one more byte than the number given; when it is used
up a read gets all that there is. An end of 0 bytes comes when all is read. No read fails otherwise. Each round takes something from `sched` or from the pipe. -/
def readLoop : Nat → List (Option Nat) → Bytes → Bytes → Nat → Bytes
  | 0, _, _, output, _ => output
  | fuel + 1, sched, piped, output, off =>
    let output := resize (off + 4096) output
    match sched with
    | none :: sched => readLoop fuel sched piped output off
    | some k :: sched =>
      let n := min (k + 1) (min 4096 piped.length)
      if n > 0 then readLoop fuel sched (piped.drop n) (storeAt off (piped.take n) output) (off + n)
      else resize off output
    | [] =>
      let n := min 4096 piped.length
      if n > 0 then readLoop fuel [] (piped.drop n) (storeAt off (piped.take n) output) (off + n)
      else resize off output

/-- `ReadFromFd`, `run_command.cc:37-52`. -/
def readFromFd (sched : List (Option Nat)) (piped output : Bytes) : Bytes :=
  readLoop (sched.length + piped.length + 1) sched piped output output.length

/-! ## `RunCommand` -/

/-- How a process ends. -/
inductive Ended where
  | exited (code : Nat)
  | signaled (signal : Nat)
deriving DecidableEq, Repr

/-- What the system does: the limit of descriptors, whether `fork` succeeds, the error of `exec` if it fails, what the command writes to which of its
descriptors, how it ends, and how the reads of its output end. -/
structure System where
  max : Nat
  fork : Bool
  exec : Option Nat
  writes : List (Nat × Bytes)
  ended : Ended
  sched : List (Option Nat)

/-- The numbers of the ends of the pipes. -/
structure Pipes where
  out : Option (Nat × Nat)
  err : Nat × Nat
deriving DecidableEq, Repr

/-- The child until `execvp`, `run_command.cc:198-222`: its descriptors; `none` if it ends before (`PLOG(FATAL)`). -/
def child (max : Nat) (p : Pipes) (t : Table) : Option Table :=
  let t := (closeFd p.err.1 t).getD t
  match (match p.out with | none => some t | some o => closeFd o.1 t) with
  | none => none
  | some t =>
    match openTo max .null t with
    | none => none
    | some (n, t) =>
      match dup2 (match p.out with | none => n | some o => o.2) 1 t with
      | none => none
      | some t =>
        match dup2 n 2 t with
        | none => none
        | some t => closeFd n t

/-- What comes out of an end of a pipe: all that is written to the descriptors that lead to it. -/
def flow (t : Table) (to : End) (writes : List (Nat × Bytes)) : Bytes :=
  writes.flatMap (fun w => if (t.look w.1).map (·.to) = some to then w.2 else [])

/-- What a child does, `run_command.cc:224-234`: what it writes to the pipe for its output and to the one for errors, and how it ends. -/
def childDoes (S : System) (p : Pipes) (t : Table) : Bytes × Bytes × Ended :=
  match child S.max p t with
  | none => ([], [], .exited 1)
  | some t =>
    match S.exec with
    | none => (flow (onExec t) .outWrite S.writes, flow (onExec t) .errWrite S.writes, S.ended)
    | some e => (flow t .outWrite [(p.err.2, toLE 4 e)], flow t .errWrite [(p.err.2, toLE 4 e)], .exited 1)

/-- `GetSignaledExitStatus`, `run_command.cc:127-137`, and the end of `RunCommand`, `run_command.cc:282-287`. `SIGINT` is 2, `SIGTERM` 15. -/
def exitStatus : Ended → Int
  | .exited c => c
  | .signaled s => if s = 15 ∨ s = 2 then 0 else -s

/-- What a call comes to: it returns a number, with `errno`, the output and the descriptors then, or it ends the program. `errno` is left out if a system call set
it. -/
inductive Outcome where
  | returned (status : Int) (errno : Option Nat) (output : Option Bytes) (t : Table)
  | ended
deriving DecidableEq, Repr

/-- `RunCommand`, `run_command.cc:162-288`. If `fork` fails the destructor of the signal handler ends the program (`DCHECK_GT` is `CHECK_GT`,
`base/logging.h:138`). -/
def runCommand (S : System) (output : Option Bytes) (t : Table) : Outcome :=
  match (match output with | none => some (none, t) | some _ => (pipe S.max .outRead .outWrite t).map (fun p => (some p.1, p.2))) with
  | none => .returned (-1) none output t
  | some (out, t) =>
    match pipe S.max .errRead .errWrite t with
    | none => .returned (-1) none output t
    | some (err, t) =>
      match closeOnExec err.2 t with
      | none => .returned (-1) none output t
      | some t =>
        if S.fork = false then .ended
        else
          let (written, errors, ended) := childDoes S ⟨out, err⟩ t
          match closeFd err.2 t with
          | none => .ended
          | some t =>
            match (match out with | none => some t | some o => closeFd o.2 t) with
            | none => .ended
            | some t =>
              match closeFd err.1 t with
              | none => .ended
              | some t =>
                if errors ≠ [] then .returned (-1) (some (leNat (errors.take 4))) output t
                else
                  match output, out with
                  | some old, some o =>
                    match closeFd o.1 t with
                    | none => .ended
                    | some t => .returned (exitStatus ended) (some 0) (some (readFromFd S.sched written old)) t
                  | _, _ => .returned (exitStatus ended) (some 0) output t

end Verif.Run
