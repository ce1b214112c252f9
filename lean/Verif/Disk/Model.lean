import Verif.Buffer.Model

/-!
# Model of files as inputs, and of build IDs in files

`/repo/src/quipper/file_reader.{h,cc}`, `file_utils.cc`, `data_reader.{h,cc}` on a file, and `dso.cc` without the names of the kernel.
A file that is open does not change while it is read. `none` as the outcome of a function is undefined behaviour or the end of the program.
-/

namespace Verif.Disk
open Verif.Buffer (addSz ROp RRes)
open Verif.Util

abbrev Bytes := List UInt8

/-! ## `FileReader` -/

/-- What can be opened: a file, or something without positions, like a pipe. -/
inductive Source where
  | file (b : Bytes)
  | stream
deriving DecidableEq, Repr

/-- `FileReader`, `file_reader.h:15-40`: what is open (`infile_`), and `size_` and `is_cross_endian_` of `data_reader.h:67-83`; `pos` is the position of
the open file. -/
structure FReader where
  infile : Option Source
  size : Nat
  pos : Nat
  cross : Bool
deriving DecidableEq, Repr

/-- The constructor, `file_reader.cc:16-29`, and `set_is_cross_endian`. `ftell` of something without positions is -1. -/
def FReader.new (source : Option Source) (cross : Bool) : FReader :=
  match source with
  | none => ⟨none, 0, 0, cross⟩
  | some (.file b) => ⟨source, b.length, 0, cross⟩
  | some .stream => ⟨source, 2 ^ 64 - 1, 0, cross⟩

/-- `IsOpen`, `file_reader.h:21`. -/
def FReader.isOpen (r : FReader) : Bool := r.infile.isSome

/-- `SeekSet`, `file_reader.cc:37-48`. `fseek` refuses what has no positions, and offsets that are negative as `long`. -/
def FReader.seekSet (r : FReader) (offset : Nat) : Option (Bool × FReader) :=
  if offset > r.size then some (false, r)
  else match r.infile with
    | none => none
    | some .stream => some (false, r)
    | some (.file _) => if offset ≥ 2 ^ 63 then some (false, r) else some (true, { r with pos := offset })

/-- `ReadData`, `file_reader.cc:50-63`: the bytes, or `none` for false. `fread` gets what there is. -/
def FReader.readData (r : FReader) (size : Nat) : Option (Option Bytes × FReader) :=
  match r.infile with
  | none => none
  | some .stream => some (none, r)
  | some (.file b) =>
    if r.pos > (2 ^ 64 - 1) - size ∨ addSz r.pos size > r.size then some (none, r)
    else
      let d := (b.drop r.pos).take size
      if d.length < size then some (none, { r with pos := r.pos + d.length })
      else some (some d, { r with pos := r.pos + d.length })

/-- `ReadDataString`, `data_reader.cc:15-29`, on a file; `dest` is the old string. -/
def FReader.readDataString (r : FReader) (size : Nat) (dest : Bytes) : Option ((Bool × Bytes) × FReader) :=
  if size = 0 then some ((true, []), r)
  else if max size dest.length > 2 ^ 63 - 1 then some ((false, dest), r)
  else match r.readData size with
    | none => none
    | some (none, r') => some ((false, dest), r')
    | some (some d, r') => some ((true, d), r')

/-- `ReadString`, `file_reader.cc:65-72`. -/
def FReader.readString (r : FReader) (size : Nat) (dest : Bytes) : Option ((Bool × Bytes) × FReader) :=
  match r.readDataString size dest with
  | none => none
  | some ((false, d), r') => some ((false, d), r')
  | some ((true, d), r') => some ((true, d.takeWhile (· ≠ 0)), r')

/-- `ReadIntValue<T>` with `sizeof(T) = n`, `data_reader.h:75-80`, on a file. -/
def FReader.readInt (r : FReader) (n : Nat) : Option (Option Nat × FReader) :=
  match r.readData n with
  | none => none
  | some (none, r') => some (none, r')
  | some (some d, r') =>
    match maybeSwap n (leNat d) r.cross with
    | none => none
    | some v => some (some v, r')

/-- `ReadStringWithSizeFromData`, `data_reader.cc:39-51`, on a file. -/
def FReader.readStringWithSize (r : FReader) (dest : Bytes) : Option ((Bool × Bytes) × FReader) :=
  match r.readInt 4 with
  | none => none
  | some (none, r') => some ((false, dest), r')
  | some (some len, r') => r'.readString len dest

/-- What a call that fills a string returns. -/
def ofString (x : (Bool × Bytes) × FReader) : RRes × FReader := (if x.1.1 then .bytes x.1.2 else .fail, x.2)

/-- Execute one call (`data_reader.h:22-61`); `dest` is what the string that is filled held before. -/
def FReader.step (r : FReader) (dest : Bytes) : ROp → Option (RRes × FReader)
  | .seek o => (r.seekSet o).map (fun p => (if p.1 then .ok else .fail, p.2))
  | .data n => (r.readData n).map (fun p => (.ofBytes p.1, p.2))
  | .str n => (r.readString n dest).map ofString
  | .dataStr n d => (r.readDataString n d).map ofString
  | .u16 => (r.readInt 2).map (fun p => (.ofNum p.1, p.2))
  | .u32 => (r.readInt 4).map (fun p => (.ofNum p.1, p.2))
  | .u64 => (r.readInt 8).map (fun p => (.ofNum p.1, p.2))
  | .sizedStr => (r.readStringWithSize dest).map ofString

/-- Execute a sequence of calls, each with what its string held before. -/
def FReader.run (r : FReader) : List (ROp × Bytes) → Option (List RRes × FReader)
  | [] => some ([], r)
  | (op, dest) :: ops =>
    match r.step dest op with
    | none => none
    | some (res, r') => (r'.run ops).map (fun p => (res :: p.1, p.2))

/-- `FileToBuffer`, `file_utils.cc:15-28`; `none` inside is false. `resize` ends the program (with an exception that nothing catches) if there cannot be so
many bytes. -/
def fileToBuffer (source : Option Source) : Option (Option Bytes) :=
  let r := FReader.new source false
  if r.isOpen = false then some none
  else if r.size > 2 ^ 63 - 1 then none
  else if r.size > 0 then (r.readData r.size).map (·.1)
  else some (some [])

/-! ## Build IDs -/

/-- `ReadBuildIdNote`, `dso.cc:144-161`. `NT_GNU_BUILD_ID` is 3, `ELF_NOTE_GNU` is `GNU`. The words of `GElf_Nhdr` are in the order of the machine. Each
round reads 12 bytes, so there are not more rounds than bytes. -/
def readBuildIdNote : Nat → FReader → Option (Option Bytes)
  | 0, _ => some none
  | fuel + 1, r =>
    match r.readData 12 with
    | none => none
    | some (none, _) => some none
    | some (some h, r) =>
      match r.readString (align 2 (leNat (h.take 4))) [] with
      | none => none
      | some ((false, _), _) => some none
      | some ((true, name), r) =>
        match r.readDataString (align 2 (leNat ((h.drop 4).take 4))) [] with
        | none => none
        | some ((false, _), _) => some none
        | some ((true, desc), r) =>
          if leNat (h.drop 8) = 3 ∧ name = ascii "GNU" then some (some desc)
          else readBuildIdNote fuel r

/-- `ReadModuleBuildId`, `dso.cc:134-142`, with what can be opened under `/sys/module/<module_name>/notes/.note.gnu.build-id`. -/
def readModuleBuildId (source : Option Source) : Option (Option Bytes) :=
  let r := FReader.new source false
  if r.isOpen = false then some none else readBuildIdNote (r.size + 1) r

/-- A note as `gelf_getnote` gives it: the bytes of its name (with what follows a NUL in them) and of its description. -/
structure Note where
  type : Nat
  name : Bytes
  desc : Bytes
deriving DecidableEq, Repr

/-- A section as libelf gives it: its name, if there is such a string, and the notes in its data, if it has data. -/
structure Section where
  name : Option Bytes
  notes : Option (List Note)
deriving DecidableEq, Repr

/-- What libelf gives of a file: whether it is an ELF file, whether it has names of sections, and its sections in order. -/
structure Elf where
  elf : Bool
  names : Bool
  sections : List Section
deriving DecidableEq, Repr

/-- The loop over the sections, `dso.cc:37-54`; `best` is the number of the best name so far. -/
def findIn (names : List Bytes) : Nat → Option Section → List Section → Option Section
  | _, sec, [] => sec
  | best, sec, s :: l =>
    match s.name with
    | none => none
    | some n =>
      let found := (names.takeWhile (· ≠ n)).length
      if found < best then if found = 0 then some s else findIn names found (some s) l
      else findIn names best sec l

/-- `FindElfSection`, `dso.cc:27-57`. -/
def findElfSection (e : Elf) (names : List Bytes) : Option Section :=
  if e.names = false then none else findIn names names.length none e.sections

/-- `GetBuildID`, `dso.cc:59-94`. -/
def getBuildID (e : Elf) : Option Bytes :=
  if e.elf = false then none
  else match findElfSection e [ascii ".note.gnu.build-id", ascii ".notes", ascii ".note"] with
    | none => none
    | some s =>
      match s.notes with
      | none => none
      | some l => (l.find? (fun n => n.type = 3 ∧ n.name.takeWhile (· ≠ 0) = ascii "GNU")).map (·.desc)

/-- The open descriptors, and what the process does to them: opening gives the lowest free number. -/
abbrev Descriptors := List Nat

/-- The lowest number that is not open. -/
def lowest (d : Descriptors) : Nat := ((List.range (d.length + 1)).find? (· ∉ d)).getD 0

/-- `open`. -/
def openFile (d : Descriptors) : Nat × Descriptors := (lowest d, lowest d :: d)

/-- `close`: nothing happens if the number is not open. -/
def closeFile (fd : Nat) (d : Descriptors) : Descriptors := d.filter (· ≠ fd)

/-- What other threads do meanwhile: they open a file, and the list begins with its number. -/
def meanwhile (opens : Bool) (d : Descriptors) : Descriptors := if opens then (openFile d).2 else d

/-- `ReadElfBuildId` of a name, `dso.cc:103-112`, and of a descriptor, `dso.cc:114-130`: the build ID and the descriptors that are open then. `file` is what
libelf makes of the file, if it can be opened; `elf_begin` fails if that is `none`. Before each `close` another thread can open a file. `CHECK` does not
fail. -/
def readElfBuildId (file : Option (Option Elf)) (other1 other2 : Bool) (d : Descriptors) : Option Bytes × Descriptors :=
  match file with
  | none => (none, d)
  | some elf =>
    let (fd, d) := openFile d
    match elf with
    | none => (none, closeFile fd (meanwhile other2 (closeFile fd (meanwhile other1 d))))
    | some e => (getBuildID e, closeFile fd (meanwhile other2 (meanwhile other1 d)))

end Verif.Disk
