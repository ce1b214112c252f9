import Verif.Tool.Wire
import Verif.Whole.Model

/-!
# Model of `perf_to_profile`

`/repo/src/perf_to_profile.cc` and `/repo/src/perf_to_profile_lib.cc`. `getopt` belongs to the C library and the file system to
the machine; both are modelled as far as the tools depend on them.
-/

namespace Verif.Tool

/-! ## `getopt` -/

/-- What one call of `getopt` returns: an option with its argument, a letter that is no option (`?`), an option whose argument is missing
(`:` if the letters start with a colon, else `?`). -/
inductive Got where
  | option (c : UInt8) (arg : Option Bytes)
  | unknown (c : UInt8)
  | missing (c : UInt8)
deriving DecidableEq, Repr

/-- The value of an option: the rest of its word or, if that is empty, the next word. -/
def value (c : UInt8) (l : Bytes) (ws : List Bytes) : List Got × List Bytes :=
  if l ≠ [] then ([.option c (some l)], ws)
  else
    match ws with
    | [] => ([.missing c], [])
    | w :: ws => ([.option c (some w)], ws)

/-- The rest of a word after a minus and some letters, followed by other words: what is returned, and the words that are left. `takes c` tells
whether the letter is an option and has an argument. -/
def letters (takes : UInt8 → Option Bool) : Bytes → List Bytes → List Got × List Bytes
  | [], ws => ([], ws)
  | c :: l, ws =>
    match takes c with
    | none => ((.unknown c :: (letters takes l ws).1), (letters takes l ws).2)
    | some false => ((.option c none :: (letters takes l ws).1), (letters takes l ws).2)
    | some true => value c l ws

/-- What the calls of `getopt` return for these words, `getopt(3)` of the GNU C library without `POSIXLY_CORRECT`: words that do not start with a
minus, and a single minus, are passed over; `--` ends the options. A word is used up with each round. -/
def getopts (takes : UInt8 → Option Bool) : Nat → List Bytes → List Got
  | 0, _ => []
  | _, [] => []
  | fuel + 1, w :: ws =>
    match w with
    | 45 :: c :: l =>
      if c = 45 ∧ l = [] then []
      else (letters takes (c :: l) ws).1 ++ getopts takes fuel (letters takes (c :: l) ws).2
    | _ => getopts takes fuel ws

/-! ## `ParseArguments` -/

/-- What `ParseArguments` stores. -/
structure Args where
  input : Bytes := []
  output : Bytes := []
  overwrite : Bool := false
  jit : Bool := false
deriving DecidableEq, Repr

/-- `":jfi:o:"`, `perf_to_profile_lib.cc:70`. -/
def takes (c : UInt8) : Option Bool :=
  if c = 106 ∨ c = 102 then some false else if c = 105 ∨ c = 111 then some true else none

/-- The body of the loop, `perf_to_profile_lib.cc:72-94`; `none` is the return of false. -/
def store (a : Args) : Got → Option Args
  | .option c arg =>
    if c = 105 then some { a with input := arg.getD [] }
    else if c = 111 then some { a with output := arg.getD [] }
    else if c = 102 then some { a with overwrite := true }
    else if c = 106 then some { a with jit := true }
    else none
  | .unknown _ => none
  | .missing _ => none

/-- `ParseArguments`, `perf_to_profile_lib.cc:62-97`, of the words after the name of the program. -/
def parseArguments (words : List Bytes) : Option Args :=
  match (getopts takes (words.length + 1) words).foldlM store {} with
  | none => none
  | some a => if a.input ≠ [] ∧ a.output ≠ [] then some a else none

/-! ## The program -/

/-- The machine as the tools see it: which file a name leads to, which files can be opened for reading and for writing, and how
many bytes a file can have. Several names can lead to one file. -/
structure Place where
  file : Bytes → Nat
  readable : Nat → Bool
  writable : Nat → Bool
  room : Nat → Nat

/-- The files that exist, with their contents. -/
abbrev Files := Nat → Option Bytes

/-- The files after one is written. -/
def Files.put (f : Files) (n : Nat) (b : Bytes) : Files := fun k => if k = n then some b else f k

/-- The functions that are not modelled: the profiles of a message (`PerfDataProtoToProfiles` after `ParseFromArray`; `none` if that does not
return), and the bytes of a profile. -/
structure Library where
  ofMessage : Nat → Nat → Bytes → Option (List Converter.ProcessProfile)
  profileBytes : Profile.Profile → Bytes

/-- `StringToProfiles`, `perf_to_profile_lib.cc:28-40`. -/
def stringToProfiles (M : Whole.Machine) (L : Library) (labels options : Nat) (b : Bytes) : Option (List Converter.ProcessProfile) :=
  if isMessage b then L.ofMessage labels options b else Whole.rawToProfiles M [] labels options [] b

/-- `ReadFileToString`, `perf_to_profile_lib.cc:18-26`; `none` if the file cannot be opened. -/
def readFile (P : Place) (f : Files) (name : Bytes) : Option Bytes :=
  if P.readable (P.file name) then f (P.file name) else none

/-- `CreateFile`, `perf_to_profile_lib.cc:42-51`, with `FileExists`, `perf_to_profile_lib.cc:13-16`: false if the program ends there. The file is
empty then. -/
def createFile (P : Place) (f : Files) (name : Bytes) (overwrite : Bool) : Option Files :=
  if overwrite = false ∧ (f (P.file name)).isSome then none
  else if P.writable (P.file name) then some (f.put (P.file name) [])
  else none

/-- What `SerializeToOstream` leaves in a file that was empty: as many bytes as the file can have; nothing if there are 2^31 or more. -/
def stored (P : Place) (n : Nat) (b : Bytes) : Bytes := if b.length < 2 ^ 31 then b.take (P.room n) else []

/-- How a program ends: with `EXIT_SUCCESS`, with `EXIT_FAILURE` (as `LOG(FATAL)` does, `quipper/base/logging.h:72`), or in the conversion, which
aborts or does not end as it should. -/
inductive Exit where
  | success
  | failure
  | lost
deriving DecidableEq, Repr

/-- `main`, `perf_to_profile.cc:13-40`: how the program ends, and the files after it. -/
def perfToProfile (M : Whole.Machine) (L : Library) (P : Place) (f : Files) (words : List Bytes) : Exit × Files :=
  match parseArguments words with
  | none => (.failure, f)
  | some a =>
    match readFile P f a.input with
    | none => (.failure, f)
    | some data =>
      match stringToProfiles M L 0 (if a.jit then 4 else 0) data with
      | none => (.lost, f)
      | some [p] =>
        match createFile P f a.output a.overwrite with
        | none => (.failure, f)
        | some f => (.success, f.put (P.file a.output) (stored P (P.file a.output) (L.profileBytes p.data)))
      | some _ => (.failure, f)

end Verif.Tool
