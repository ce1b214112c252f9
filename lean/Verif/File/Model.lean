import Verif.Data.Model

/-!
# Model of reading and writing whole recordings

`/repo/src/quipper/perf_reader.cc:462-654,808-1033,1035-1072,1783-1893,1927-2007,2353-2437,2602-2626`, for data in memory.

The parts are modelled elsewhere: the feature sections in `Meta`, attributes in `Attr`, the data section in `Data`, events in
`Serial`. Code that reads has the type `P` of the sample reader, code that writes the type `W`: the outer `none` is undefined
behaviour, an abort or a loop without end, the inner one `return false`. Memory exhaustion and log messages are not modelled.
-/

namespace Verif.File
open Verif.Buffer Verif.Event Verif.Sample Verif.Attr Verif.Names Verif.Text Verif.Util Verif.Meta Verif.Serial Verif.Data

/-- `kPerfMagic`, `kernel/perf_internals.h`. -/
def magic : Nat := 0x32454c4946524550

/-- `perf_file_header`, `kernel/perf_internals.h`; sections are offsets and sizes. `mask` is the first word of `adds_features` as it is
copied to the metadata mask, `perf_reader.cc:860`, before its bytes are swapped; the swapped words are not used. -/
structure FileHeader where
  size : Nat := 0
  attrSize : Nat := 0
  attrs : Nat × Nat := (0, 0)
  data : Nat × Nat := (0, 0)
  types : Nat × Nat := (0, 0)
  mask : Nat := 0
deriving DecidableEq, Repr

/-! ## Reading -/

/-- `set_is_cross_endian`. -/
def setCross (b : Bool) : P Unit := fun r => some (some (), { r with cross := b })

/-- `ReadString`. -/
def str (n : Nat) : P Serial.Bytes := fun r => r.readString n

/-- A failing `CHECK`. -/
def check (c : Bool) : P Unit := if c then pure () else abort

/-- The part of the header that only files have, `perf_reader.cc:844-860`. -/
def readRest (size : Nat) : P FileHeader := do
  let attrSize ← u64
  let attrs ← readFileSection
  let dat ← readFileSection
  let types ← readFileSection
  let here ← tell
  let _ ← check (here = 72)
  let f ← data 32
  pure ⟨size, attrSize, attrs, dat, types, leNat (f.take 8)⟩

/-- `ReadHeader`, `perf_reader.cc:808-900`. -/
def readHeader : P FileHeader := do
  let start ← tell
  let _ ← check (start = 0)
  let m ← u64
  if m ≠ magic ∧ m ≠ bswap64 magic then fail
  else do
    let _ ← setCross (m ≠ magic)
    let size ← u64
    let here ← tell
    let _ ← check (here = 16)
    if size = 16 then pure { size := size } else readRest size

/-- `ReadAttr`, `perf_reader.cc:919-935`. `is_cross_endian_` is what the reader was told. -/
def readAttr (st : Meta.St) : P Meta.St := do
  let a ← readEventAttr
  let s ← readFileSection
  let saved ← tell
  let _ ← seek s.1
  let ids ← readUniqueIDs (s.2 / 8)
  let _ ← seek saved
  let cross ← isCross
  addAttr st ⟨a, ids⟩ cross

/-- The loop of `ReadAttrsSection`, `perf_reader.cc:902-917`. -/
def readAttrs : Nat → Meta.St → P Meta.St
  | 0, st => pure st
  | n + 1, st => do
    let st ← readAttr st
    readAttrs n st

/-- `ReadAttrsSection`, `perf_reader.cc:902-917`. -/
def readAttrsSection (h : FileHeader) (st : Meta.St) : P Meta.St :=
  if h.attrSize = 0 then fail
  else do
    let _ ← seek h.attrs.1
    readAttrs (h.attrs.2 / h.attrSize) st

/-- `ReadEventType`, `perf_reader.cc:1035-1072`, with `SerializePerfEventType`, `perf_serializer.cc:295-302`; `eventSize` is 0 outside
of an event. -/
def readEventType (st : Meta.St) (idx eventSize : Nat) : P Meta.St := do
  let id ← u64
  let name ← str (if eventSize = 0 then 64 else (eventSize + 2 ^ 64 - 16) % 2 ^ 64)
  match st.info.attrs[idx]? with
  | none => fail
  | some f =>
    if id ≠ f.attr.config then fail
    else pure { st with info := { st.info with eventTypes := st.info.eventTypes ++ [(f.attr.config, name)] } }

/-- The loop of `ReadEventTypesSection`, `perf_reader.cc:1007-1033`. -/
def readTypes : Nat → Nat → Meta.St → P Meta.St
  | 0, _, st => pure st
  | n + 1, idx, st => do
    let st ← readEventType st idx 0
    readTypes n (idx + 1) st

/-- `ReadEventTypesSection`, `perf_reader.cc:1007-1033`: `num_event_types` is an `int`. A `perf_trace_event_type` has 72 bytes. -/
def readTypesSection (h : FileHeader) (st : Meta.St) : P Meta.St :=
  let num := h.types.2 / 72 % 2 ^ 32
  if num = 0 then pure st
  else if 2 ^ 31 ≤ num ∨ st.info.attrs.length ≠ num then fail
  else if 72 * num ≠ h.types.2 then fail
  else do
    let _ ← seek h.types.1
    readTypes num 0 st

/-- Attributes and names of events from the sections of the file, `perf_reader.cc:1809-1814`. -/
def readOld (h : FileHeader) (st : Meta.St) : P Meta.St := do
  let st ← readAttrsSection h st
  readTypesSection h st

/-- `set_metadata_mask_bit` of a reader. -/
def setBit (st : Data.St) (b : Nat) : Data.St := { st with base := setMaskBit st.base b }

/-- `ReadFileData`, `perf_reader.cc:1783-1823`. -/
def readFileData (cfg : Cfg) (h : FileHeader) (st : Data.St) : P Data.St := do
  let total ← dataSize
  if addSz h.attrs.1 h.attrs.2 > total ∨ addSz h.data.1 h.data.2 > total ∨ addSz h.types.1 h.types.2 > total then fail
  else do
    let b ← if st.base.info.mask.testBit 12 then pure st.base else readOld h st.base
    let b ← readMetadata cfg.env.md5 b (addSz h.data.1 h.data.2)
    let st ← readDataSection cfg { st with base := b } h.data.1 h.data.2
    pure (if st.base.info.eventTypes ≠ [] then setBit st 12 else st)

/-- `ReadAttrEventBlock`, `perf_reader.cc:2353-2400`. -/
def readAttrBlock (st : Meta.St) (size : Nat) : P Meta.St := do
  let start ← tell
  let a ← readEventAttr
  let here ← tell
  let actual := (here + 2 ^ 64 - start) % 2 ^ 64
  if size < actual then fail
  else do
    let ids ← readUniqueIDs ((size - actual) / 8)
    if ids = [] ∧ a.config ∈ st.seenConfigs then pure st
    else if ∃ id, ids.head? = some id ∧ id ∈ st.seenIds then pure st
    else do
      let cross ← isCross
      addAttr st ⟨a, ids⟩ cross

/-- `ReadHeaderFeature`, `perf_reader.cc:2402-2437`; the type of a section has 32 bits, `perf_reader.h:197`. -/
def readHeaderFeature (md5 : Serial.Bytes → Nat) (st : Meta.St) (h : Header) : P Meta.St :=
  if h.size < 16 then fail
  else do
    let d ← data 8
    let cross ← isCross
    let id := field cross d 0 8
    if id = 1 ∨ id = 2 ∨ id = 15 then fail
    else readMetadataSection md5 st (id % 2 ^ 32) (h.size - 16)

/-- One round of the loop of `ReadPipedData`, `perf_reader.cc:1825-1893`, with `IsSupportedHeaderEventType`,
`perf_serializer.cc:84-97`; `n` is `num_event_types`. -/
def readPipedRecord (cfg : Cfg) (st : Data.St) (n : Nat) : P (Data.St × Nat) := do
  let h ← readEventHeader
  if h.type = 64 then do
    let b ← readAttrBlock st.base (h.size - 8)
    pure ({ st with base := b }, n)
  else if h.type = 65 then do
    let b ← readEventType st.base n h.size
    pure ({ st with base := b }, n + 1)
  else if h.type = 66 then do
    let size ← u32
    let b ← readTracing (setMaskBit st.base 1) size
    pure ({ st with base := b }, n)
  else if h.type = 67 then do
    let b ← readBuildId cfg.env.md5 h
    let base := setMaskBit st.base 2
    pure ({ st with base := { base with info := { base.info with buildIds := base.info.buildIds ++ [b] } } }, n)
  else if h.type = 80 then do
    let b ← readHeaderFeature cfg.env.md5 st.base h
    pure ({ st with base := b }, n)
  else do
    let (st, _) ← readEvent cfg st h
    pure (st, n)

/-- The loop of `ReadPipedData`, `perf_reader.cc:1825-1893`. `fuel` is at least the number of rounds; that it is enough is proved. -/
def readPipedRecords (cfg : Cfg) : Nat → Data.St → Nat → P (Data.St × Nat)
  | fuel, st, n => do
    let here ← tell
    let total ← dataSize
    if here < total then
      match fuel with
      | 0 => abort
      | fuel + 1 => do
        let (st, n) ← readPipedRecord cfg st n
        readPipedRecords cfg fuel st n
    else pure (st, n)

/-- `ReadPipedData`, `perf_reader.cc:1825-1893`. -/
def readPiped (cfg : Cfg) (st : Data.St) : P Data.St := fun r =>
  (do
    let here ← tell
    let _ ← check (here = 16)
    let (st, n) ← readPipedRecords cfg (r.size + 1) st 0
    pure (if st.base.info.mask.testBit 12 = false ∧ n = st.base.info.attrs.length then setBit st 12 else st) : P Data.St) r

/-- `ReadFromData`, `perf_reader.cc:511-533`, by a reader that has not read anything, `perf_reader.cc:453-458`. -/
def readFromData (cfg : Cfg) : P Data.St := do
  let total ← dataSize
  if total = 0 then fail
  else do
    let h ← readHeader
    if h.size = 104 then readFileData cfg h { base := { info := { mask := h.mask } } }
    else if h.size ≠ 16 then fail
    else readPiped cfg {}

/-- `ReadFromPointer`, `ReadFromString` and `ReadFromVector`, `perf_reader.cc:498-509`: the outcome for these bytes. -/
def readBytes (cfg : Cfg) (b : Serial.Bytes) : Option (Option Data.St) := (readFromData cfg (Reader.new b false)).map (·.1)

/-! ## Writing -/

/-- What `GenerateHeader` counts for an event, `perf_reader.cc:619-626`. -/
def countedSize (m : Msg) : Nat := m.size + (if m.type = AUXTRACE then m.body.getAuxtrace.size else 0)

/-- The bytes of all ids, `perf_reader.cc:580-583,632-635`. -/
def idsSize (i : Info) : Nat := (i.attrs.map (fun f => 8 * f.ids.length)).sum

/-- `GenerateHeader`, `perf_reader.cc:602-654`. A `perf_file_attr` has 112 bytes. -/
def generateHeader (i : Info) (events : List Msg) : FileHeader :=
  let attrs := 112 * i.attrs.length
  let off := 104 + idsSize i
  { size := 104
    attrSize := 112
    attrs := (off % 2 ^ 64, attrs % 2 ^ 64)
    data := ((off + attrs) % 2 ^ 64, (events.map countedSize).sum % 2 ^ 64)
    types := ((off + attrs) % 2 ^ 64, 0)
    mask := i.mask &&& supported }

/-- `GetSize`, `perf_reader.cc:569-600`. -/
def fileSize (i : Info) (events : List Msg) : Nat :=
  let h := generateHeader i events
  (h.size + h.attrs.2 + h.types.2 + h.data.2 + idsSize i + metadataSize i) % 2 ^ 64

/-- The memory of a `perf_file_section`. -/
def sectionMemory (s : Nat × Nat) : Serial.Bytes := toLE 8 s.1 ++ toLE 8 s.2

/-- The memory of a `perf_file_header`, which `GenerateHeader` sets to zero first. -/
def headerMemory (h : FileHeader) : Serial.Bytes :=
  toLE 8 magic ++ toLE 8 h.size ++ toLE 8 h.attrSize ++ sectionMemory h.attrs ++ sectionMemory h.data ++ sectionMemory h.types ++
    toLE 8 h.mask ++ List.replicate 24 0

/-- The loop over the ids, `perf_reader.cc:1943-1950`: the sections written. -/
def writeIds : List ProtoFileAttr → W (List (Nat × Nat))
  | [] => pure []
  | f :: fs => do
    let off ← wtell
    each (fun id => wdata (toLE 8 id)) f.ids
    let l ← writeIds fs
    pure ((off, 8 * f.ids.length) :: l)

/-- The loop over the attributes, `perf_reader.cc:1953-1961`, with `DeserializePerfFileAttr`. -/
def writeAttrList : List ProtoFileAttr → List (Nat × Nat) → W Unit
  | [], _ => pure ()
  | _ :: _, [] => wabort
  | f :: fs, s :: l => do
    wdata (attrMemory (deserializeFileAttr f).attr)
    wdata (sectionMemory s)
    writeAttrList fs l

/-- A failing `CHECK`. -/
def wcheck (c : Bool) : W Unit := if c then pure () else wabort

/-- `WriteAttrs`, `perf_reader.cc:1934-1962`. -/
def writeAttrs (i : Info) (h : FileHeader) : W Unit := do
  let here ← wtell
  wcheck (h.size = here)
  let l ← writeIds i.attrs
  let here ← wtell
  wcheck (h.attrs.1 = here)
  writeAttrList i.attrs l

/-- The result of code that does not write. -/
def wlift {α : Type} (x : Option (Option α)) : W α := fun w =>
  match x with
  | none => none
  | some y => some (y, w)

/-- The memory of an event: its header and what follows. -/
def eventMemory (e : RawEvent) : Serial.Bytes := toLE 4 e.type ++ toLE 2 e.misc ++ toLE 2 e.size ++ e.payload

/-- One round of the loop of `WriteData`, `perf_reader.cc:1964-2007`. -/
def writeEvent (env : Serial.Env) (ser : Ser) (m : Msg) : W Unit := do
  let size ← wlift ((eventSize env ser m).map some)
  if size = 0 then wfail
  else if m.size ≠ size then wfail
  else do
    let e ← wlift (deserialize env ser m)
    wdata (eventMemory e)
    if m.type = AUXTRACE ∧ m.body.getAuxtrace.size > 0 then wdata m.body.getAuxtrace.trace else pure ()

/-- `WriteData`, `perf_reader.cc:1964-2007`. -/
def writeEvents (env : Serial.Env) (ser : Ser) (events : List Msg) (h : FileHeader) : W Unit :=
  if events = [] then pure ()
  else do
    wcheck (ser.readers ≠ [])
    let here ← wtell
    wcheck (h.data.1 = here)
    each (writeEvent env ser) events

/-- `WriteToPointerWithoutCheckingSize`, `perf_reader.cc:560-567`. -/
def writeAll (env : Serial.Env) (ser : Ser) (i : Info) (events : List Msg) : W Unit := do
  let h := generateHeader i events
  wdata (headerMemory h)
  writeAttrs i h
  writeEvents env ser events h
  writeMetadata i h.mask (addSz h.data.1 h.data.2)

/-- The buffer after writing. -/
def outcomeOf (x : Option (Option Unit × Writer)) : Option (Option Serial.Bytes) := x.map fun y => y.1.map fun _ => y.2.buf

/-- `WriteToVector` and `WriteToString`, `perf_reader.cc:540-548`; `resize` fills with zeros and `at` throws if there are no bytes. -/
def writeBytes (env : Serial.Env) (ser : Ser) (i : Info) (events : List Msg) : Option (Option Serial.Bytes) :=
  if fileSize i events = 0 then none
  else outcomeOf (writeAll env ser i events (Writer.new (List.replicate (fileSize i events) 0)))

/-- `WriteToPointer`, `perf_reader.cc:550-558`. -/
def writePointer (env : Serial.Env) (ser : Ser) (i : Info) (events : List Msg) (buf : Serial.Bytes) : Option (Option Serial.Bytes) :=
  if buf.length < fileSize i events then some none
  else outcomeOf (writeAll env ser i events (Writer.new buf))

end Verif.File
