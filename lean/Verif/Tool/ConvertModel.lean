import Verif.Tool.Model

/-!
# Model of messages and of `perf_converter`

`/repo/src/quipper/perf_protobuf_io.cc`, `conversion_utils.cc` and `perf_converter.cc`, with the functions of the reader between the
recording it holds and a `PerfDataProto`. A message is what it holds; how it is written as text or as bytes is left open.
-/

namespace Verif.Tool
open Verif.Serial (Msg)
open Verif.Attr (Ser)

/-! ## Messages -/

/-- `PerfDataProto.PerfEventStats`. -/
structure MsgStats where
  samples : Nat := 0
  mmaps : Nat := 0
  forks : Nat := 0
  exits : Nat := 0
  remapped : Bool := false
  mapped : Nat := 0
deriving DecidableEq, Repr

/-- A `PerfDataProto`: what is known beside the events, the events, `stats` and `timestamp_sec`. -/
structure Message where
  info : Meta.Info
  events : List Msg
  stats : Option MsgStats := none
  time : Option Nat := none

/-- What a `PerfReader` holds: a message and the attributes known to its serializer. -/
structure Held where
  msg : Message
  ser : Ser

/-- `PerfParserOptions`, `perf_parser.h:150-181`, without `sample_mapping_percentage_threshold`, which nothing depends on, and
`read_missing_buildids`, which is false here; `Verif.Missing` is about the other case. -/
structure ParseOpts where
  remap : Bool := false
  discard : Bool := false
  sort : Bool := true
  huge : Bool := true
  combine : Bool := true
  jit : Bool := false
deriving DecidableEq, Repr

/-- The options as the parser sees them. -/
def ParseOpts.parser (o : ParseOpts) (page : Nat) : Parser.Opts := { remap := o.remap, discard := o.discard, allowJit := o.jit, page := page }

/-- `PerfParserOptionsProto`, `perf_parser_options.proto:11-19`: the members that are set. -/
structure OptsMessage where
  remap : Option Bool := none
  discard : Option Bool := none
  sort : Option Bool := none
  huge : Option Bool := none
  combine : Option Bool := none
deriving DecidableEq, Repr

/-- The options from a message, `perf_protobuf_io.cc:39-48`. -/
def OptsMessage.options (o : OptsMessage) : ParseOpts :=
  { remap := o.remap.getD false, discard := o.discard.getD false, sort := o.sort.getD false, huge := o.huge.getD true,
    combine := o.combine.getD true }

/-- `PerfReader::ReadFromString` and `ReadFile`, `perf_reader.cc:489-496`: what the reader holds then. -/
def readRecording (M : Whole.Machine) (b : Bytes) : Option (Option Held) :=
  (File.readBytes { env := M.env } b).map (Option.map fun st => ⟨⟨st.base.info, st.events, none, none⟩, st.base.ser⟩)

/-- `ParseRawEvents`, `perf_parser.cc:76-136`, on a reader: what the reader holds then, and the counters. -/
def parseHeld (M : Whole.Machine) (o : ParseOpts) (h : Held) : Option (Held × Parser.Stats) :=
  (Whole.parseEvents M (o.parser M.page) o.sort o.huge o.combine h.msg.info h.msg.events).map fun r =>
    (⟨{ h.msg with events := r.1 }, h.ser⟩, r.2)

/-- `PerfReader::Serialize`, `perf_reader.cc:462-471`, at the time `now`; `gettimeofday` does not fail. -/
def serialize (now : Nat) (h : Held) : Message := { h.msg with time := some now }

/-- `SerializeParserStats`, `perf_serializer.cc:1587-1597`. `did_remap` is the option, `perf_parser.cc:164-167`. -/
def serializeStats (s : Parser.Stats) (remapped : Bool) (m : Message) : Message :=
  { m with stats := some ⟨s.samples, s.mmaps, s.forks, s.exits, remapped, s.mapped⟩ }

/-- `DeserializeParserStats`, `perf_serializer.cc:1599-1609`: members that are not there count as zero, and the other counters stay. -/
def deserializeStats (m : Message) (s : Parser.Stats) : Parser.Stats × Bool :=
  let p := m.stats.getD {}
  ({ s with samples := p.samples, mmaps := p.mmaps, forks := p.forks, exits := p.exits, mapped := p.mapped }, p.remapped)

/-- `PopulateMissingEventSize`, `perf_reader.cc:2616-2626`. -/
def fillSizes (env : Serial.Env) (ser : Ser) : List Msg → Option (Option (List Msg))
  | [] => some (some [])
  | m :: l =>
    if m.size > 0 then (fillSizes env ser l).map (Option.map (m :: ·))
    else
      match Serial.eventSize env ser m with
      | none => none
      | some 0 => some none
      | some n => (fillSizes env ser l).map (Option.map ({ m with size := n } :: ·))

/-- Register the attributes of a message, `perf_reader.cc:479-486`. -/
def register (ser : Ser) : List Attr.ProtoFileAttr → Option Ser
  | [] => some ser
  | a :: l =>
    match Attr.createReader ser (Attr.deserializeFileAttr a) false with
    | (true, ser) => register ser l
    | (false, _) => none

/-- `PerfReader::Deserialize`, `perf_reader.cc:473-489`, on a new reader. -/
def deserialize (M : Whole.Machine) (m : Message) : Option (Option Held) :=
  match register {} m.info.attrs with
  | none => some none
  | some ser => (fillSizes M.env ser m.events).map (Option.map fun l => ⟨{ m with events := l }, ser⟩)

/-- `SerializeFromStringWithOptions`, `perf_protobuf_io.cc:21-35`, and `SerializeFromFileWithOptions`, `perf_protobuf_io.cc:58-72`, with the
contents of the file. -/
def serializeFrom (M : Whole.Machine) (o : ParseOpts) (now : Nat) (b : Bytes) : Option (Option Message) :=
  match readRecording M b with
  | none => none
  | some none => some none
  | some (some h) => (parseHeld M o h).map fun r => some (serializeStats r.2 o.remap (serialize now r.1))

/-- `WriteToVector`, `perf_reader.cc:540-543`. -/
def writeHeld (M : Whole.Machine) (h : Held) : Option (Option Bytes) := File.writeBytes M.env h.ser h.msg.info h.msg.events

/-- `DeserializeToFile`, `perf_protobuf_io.cc:74-78`: the bytes that are written. -/
def deserializeTo (M : Whole.Machine) (m : Message) : Option (Option Bytes) :=
  match deserialize M m with
  | none => none
  | some none => some none
  | some (some h) => writeHeld M h

/-! ## Files -/

/-- How messages are written: as text (`TextFormat`) and as bytes, and read back. -/
structure Codec where
  text : Message → Bytes
  ofText : Bytes → Option Message
  binary : Message → Bytes
  ofBinary : Bytes → Option Message

/-- The outcome of writing a file: false, true, or the end of the program. -/
inductive Wrote where
  | no
  | yes
  | aborted
deriving DecidableEq, Repr

/-- `BufferToFile`, `file_utils.h:19-34`. `fwrite` of the GNU C library writes the whole blocks at once and keeps the rest in its buffer; that is
written by `fclose`, whose result is not looked at. A file that cannot have the whole blocks ends the program (`CHECK_EQ`). -/
def bufferToFile (P : Place) (block : Nat) (f : Files) (name : Bytes) (b : Bytes) : Wrote × Files :=
  if P.writable (P.file name) then
    (if P.room (P.file name) < b.length / block * block then .aborted else .yes, f.put (P.file name) (b.take (P.room (P.file name))))
  else (.no, f)

/-- What `FormatAndFile` holds. -/
structure Spot where
  filename : Bytes
  format : Bytes
deriving DecidableEq, Repr

/-- `ParseFormatOptions`, `conversion_utils.cc:24-46`. -/
def parseFormat (format : Bytes) : Bytes × ParseOpts :=
  match format.dropWhile (· ≠ 46) with
  | [] => (format, {})
  | _ :: opt =>
    let base := format.takeWhile (· ≠ 46)
    if opt = ascii "remap" then (base, { remap := true })
    else if opt = ascii "discard" then (base, { discard := true })
    else if opt = ascii "remap.discard" then (base, { remap := true, discard := true })
    else if opt = ascii "no_combine" then (base, { combine := false })
    else ([], {})

/-- `ReadInput`, `conversion_utils.cc:48-76`, with `FileToBuffer`, `file_utils.cc:15-28`. -/
def readInput (M : Whole.Machine) (C : Codec) (P : Place) (f : Files) (input : Spot) : Option (Option Held) × ParseOpts :=
  let (format, o) := parseFormat input.format
  (if format = ascii "perf" then
    match readFile P f input.filename with
    | none => some none
    | some b => readRecording M b
  else if format = ascii "text" ∨ format = ascii "proto" then
    match readFile P f input.filename with
    | none => some none
    | some b =>
      match (if format = ascii "text" then C.ofText b else C.ofBinary b) with
      | none => some none
      | some m => deserialize M m
  else some none, o)

/-- The end of a program that writes a file. -/
def Wrote.exit : Wrote → Exit
  | .no => .failure
  | .yes => .success
  | .aborted => .lost

/-- `WriteOutput`, `conversion_utils.cc:78-118`, and the exit of `main`. `PrintToString` does not fail. -/
def writeOutput (M : Whole.Machine) (C : Codec) (P : Place) (block : Nat) (f : Files) (output : Spot) (o : ParseOpts) (h : Held) : Exit × Files :=
  match parseHeld M o h with
  | none => (.lost, f)
  | some (h, s) =>
    if output.format = ascii "perf" then
      match writeHeld M h with
      | none => (.lost, f)
      | some none => (.failure, f)
      | some (some b) => ((bufferToFile P block f output.filename b).1.exit, (bufferToFile P block f output.filename b).2)
    else if output.format = ascii "text" ∨ output.format = ascii "proto" then
      let m := { serializeStats s o.remap (serialize 0 h) with time := some 0 }
      let b := if output.format = ascii "text" then C.text m else C.binary m
      ((bufferToFile P block f output.filename b).1.exit, (bufferToFile P block f output.filename b).2)
    else (.failure, f)

/-- `ConvertFile`, `conversion_utils.cc:131-137`, and the exit of `main`. -/
def convertFile (M : Whole.Machine) (C : Codec) (P : Place) (block : Nat) (f : Files) (input output : Spot) : Exit × Files :=
  match readInput M C P f input with
  | (none, _) => (.lost, f)
  | (some none, _) => (.failure, f)
  | (some (some h), o) => writeOutput M C P block f output o h

/-! ## `perf_converter` -/

/-- `"i:o:I:O:v:"`, `perf_converter.cc:43`. -/
def convTakes (c : UInt8) : Option Bool := if c = 105 ∨ c = 111 ∨ c = 73 ∨ c = 79 ∨ c = 118 then some true else none

/-- The body of the loop, `perf_converter.cc:44-67`; `none` is the return of false. -/
def convStore (a : Spot × Spot) : Got → Option (Spot × Spot)
  | .option c arg =>
    if c = 105 then some ({ a.1 with filename := arg.getD [] }, a.2)
    else if c = 73 then some ({ a.1 with format := arg.getD [] }, a.2)
    else if c = 111 then some (a.1, { a.2 with filename := arg.getD [] })
    else if c = 79 then some (a.1, { a.2 with format := arg.getD [] })
    else if c = 118 then some a
    else none
  | .unknown _ => none
  | .missing _ => none

/-- `ParseArguments`, `perf_converter.cc:33-70`, of the words after the name of the program: input and output. -/
def convArguments (words : List Bytes) : Option (Spot × Spot) :=
  (getopts convTakes (words.length + 1) words).foldlM convStore
    (⟨ascii "perf.data", ascii "perf"⟩, ⟨ascii "/dev/stdout", ascii "text"⟩)

/-- `main`, `perf_converter.cc:87-97`. -/
def perfConverter (M : Whole.Machine) (C : Codec) (P : Place) (block : Nat) (f : Files) (words : List Bytes) : Exit × Files :=
  match convArguments words with
  | none => (.failure, f)
  | some (input, output) => convertFile M C P block f input output

end Verif.Tool
