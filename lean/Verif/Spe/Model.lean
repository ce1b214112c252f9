import Verif.Util.Model

/-!
# Model of the ARM SPE decoder (`/repo/src/quipper/arm_spe_decoder.{h,cc}`)

The trace buffer is a list of bytes at memory address `base` (alignment packets look at the address).
Bytes are read through `[·]?` and slices; a read outside the buffer makes the whole call `none`, and so
does running out of fuel, so a theorem that a call is never `none` covers memory safety and termination.
Numbers are natural numbers below `2 ^ 64`; the host is little-endian.
-/

namespace Verif.Spe

/-- `Mask(h, l)`, `arm_spe_decoder.cc:16-18`. -/
def mask (h l : Nat) : Nat := ((2 ^ 64 - 1) <<< l) % 2 ^ 64 &&& ((2 ^ 64 - 1) >>> (64 - 1 - h))

/-- `Bit(n)`, `arm_spe_decoder.cc:20`. -/
def bit (n : Nat) : Nat := 1 <<< n

/-- `HdrMaskEvSrc`, `HdrMaskCtxOpExt`, `HdrMaskAddrCtr`, `arm_spe_decoder.cc:22-28`. -/
def hdrMaskEvSrc : Nat := mask 7 6 ||| mask 3 0
def hdrMaskCtxOpExt : Nat := mask 7 2
def hdrMaskAddrCtr : Nat := mask 7 3

/-- `HdrIndex`, `HdrExtendedIndex`, `arm_spe_decoder.cc:31-34`. -/
def hdrIndex (hdr : Nat) : Nat := hdr &&& mask 2 0
def hdrExtendedIndex (hdr0 hdr1 : Nat) : Nat := (hdr0 &&& mask 1 0) <<< 3 ||| hdrIndex hdr1

/-- `GetPayloadSize`, `arm_spe_decoder.cc:44-46`. -/
def getPayloadSize (header : Nat) : Nat := 1 <<< ((header &&& mask 5 4) >>> 4)

/-- `RecordEvent`, `arm_spe_decoder.h:16-34`. -/
structure Event where
  genException : Bool := false
  retired : Bool := false
  l1dAccess : Bool := false
  l1dRefill : Bool := false
  tlbAccess : Bool := false
  tlbWalk : Bool := false
  condNotTaken : Bool := false
  brMisPred : Bool := false
  llcAccess : Bool := false
  llcMiss : Bool := false
  remoteAccess : Bool := false
  ldstAlignment : Bool := false
  svePartialPred : Bool := false
  sveEmptyPred : Bool := false
deriving DecidableEq, Repr

/-- `RecordOp::other`, `arm_spe_decoder.h:39-44`. -/
structure OpOther where
  cond : Bool := false
  sve : Bool := false
  svePred : Bool := false
deriving DecidableEq, Repr

/-- `RecordOp::ldst`, `arm_spe_decoder.h:47-62`. -/
structure OpLdst where
  ld : Bool := false
  st : Bool := false
  gpReg : Bool := false
  atomic : Bool := false
  atomicAt : Bool := false
  atomicExcl : Bool := false
  atomicAr : Bool := false
  simdFp : Bool := false
  sve : Bool := false
  unspReg : Bool := false
  mrs : Bool := false
  allocTag : Bool := false
  memcpy : Bool := false
  memset : Bool := false
deriving DecidableEq, Repr

/-- `RecordOp`, `arm_spe_decoder.h:36-69`. -/
structure Op where
  isOther : Bool := false
  other : OpOther := {}
  isLdst : Bool := false
  ldst : OpLdst := {}
  isBrEret : Bool := false
  brCond : Bool := false
  brIndirect : Bool := false
deriving DecidableEq, Repr

/-- `RecordIP`, `arm_spe_decoder.h:72-76`. -/
structure IP where
  addr : Nat := 0
  el : Nat := 0
  ns : Nat := 0
deriving DecidableEq, Repr

/-- `RecordVA`, `arm_spe_decoder.h:78-82`. -/
structure VA where
  addr : Nat := 0
  tag : Nat := 0
deriving DecidableEq, Repr

/-- `RecordPA`, `arm_spe_decoder.h:85-92`. -/
structure PA where
  addr : Nat := 0
  ns : Nat := 0
  ch : Nat := 0
  pat : Nat := 0
deriving DecidableEq, Repr

/-- `RecordContext`, `arm_spe_decoder.h:95-99`. -/
structure Context where
  id : Nat := 0
  el1 : Bool := false
  el2 : Bool := false
deriving DecidableEq, Repr

/-- `Record`, `arm_spe_decoder.h:101-115`. -/
structure Record where
  event : Event := {}
  op : Op := {}
  totalLat : Nat := 0
  issueLat : Nat := 0
  translationLat : Nat := 0
  ip : IP := {}
  tgtBrIp : IP := {}
  prevBrIp : IP := {}
  virt : VA := {}
  phys : PA := {}
  timestamp : Nat := 0
  context : Context := {}
  source : Option Nat := none
deriving DecidableEq, Repr

/-- `Packet`, `arm_spe_decoder.h:125-132`. -/
structure Packet where
  header : Nat := 0
  extHeader : Nat := 0
  payload : Nat := 0
  payloadSize : Nat := 0
  size : Nat := 0
  isEnd : Bool := false
deriving DecidableEq, Repr

/-- The decoder, `arm_spe_decoder.h:155-165`, with the address of the buffer. -/
structure Dec where
  buf : List UInt8
  base : Nat := 0
  cross : Bool := false
  pos : Nat := 0
  seen : Nat := 0
deriving DecidableEq, Repr

/-- The byte at a position; `none` outside the buffer. -/
def Dec.byte (d : Dec) (i : Nat) : Option Nat := (d.buf[i]?).map (·.toNat)

/-- `memcpy` of `n` bytes at a position, as a little-endian number; `none` outside the buffer. -/
def Dec.load (d : Dec) (i n : Nat) : Option Nat :=
  if i + n ≤ d.buf.length then some (leNat ((d.buf.drop i).take n)) else none

/-- `SetPayloadAndSize`, `arm_spe_decoder.cc:380-429`: `some none` is the result `false`. The
subtraction does not wrap: the position is inside the buffer here. -/
def setPayloadAndSize (d : Dec) (p : Packet) : Option (Option Packet) := do
  let headerSize := if p.extHeader ≠ 0 then 2 else 1
  let payloadSize := getPayloadSize (← d.byte (d.pos + headerSize - 1))
  if d.buf.length - d.pos < headerSize + payloadSize then
    return none
  let pos := d.pos + headerSize
  if payloadSize = 1 then
    let payload ← d.load pos 1
    return some { p with payload := payload, payloadSize := 1, size := headerSize + 1 }
  else if payloadSize = 2 ∨ payloadSize = 4 ∨ payloadSize = 8 then
    let payload ← Util.maybeSwap payloadSize (← d.load pos payloadSize) d.cross
    return some { p with payload := payload, payloadSize := payloadSize, size := headerSize + payloadSize }
  else
    return none

/-- `GetCorrectHeader`, `arm_spe_decoder.cc:431-433`. -/
def getCorrectHeader (p : Packet) : Nat := if p.extHeader = 0 then p.header else p.extHeader

/-- The fields set by `HandlePacketEvent`, `arm_spe_decoder.cc:203-216`. -/
def eventOf (v : Nat) : Event :=
  { genException := v &&& bit 0 ≠ 0
    retired := v &&& bit 1 ≠ 0
    l1dAccess := v &&& bit 2 ≠ 0
    l1dRefill := v &&& bit 3 ≠ 0
    tlbAccess := v &&& bit 4 ≠ 0
    tlbWalk := v &&& bit 5 ≠ 0
    condNotTaken := v &&& bit 6 ≠ 0
    brMisPred := v &&& bit 7 ≠ 0
    llcAccess := v &&& bit 8 ≠ 0
    llcMiss := v &&& bit 9 ≠ 0
    remoteAccess := v &&& bit 10 ≠ 0
    ldstAlignment := v &&& bit 11 ≠ 0
    svePartialPred := v &&& bit 17 ≠ 0
    sveEmptyPred := v &&& bit 18 ≠ 0 }

/-- The switch of `HandlePacketOperation`, `arm_spe_decoder.cc:247-293`; `none` is the error. -/
def opOf (op : Op) (cls v : Nat) : Option Op :=
  if cls = 0 then
    some { op with
      isOther := true
      other := { cond := v &&& bit 0 ≠ 0
                 sve := v &&& (bit 7 ||| bit 3 ||| bit 0) = 0x8
                 svePred := v &&& bit 2 ≠ 0 } }
  else if cls = 1 then
    let st : Bool := v &&& bit 0 ≠ 0
    let atomic : Bool := v &&& (mask 7 5 ||| bit 1) = 0x2
    some { op with
      isLdst := true
      ldst := { st := st
                ld := !st
                gpReg := v &&& mask 7 1 = 0
                atomic := atomic
                atomicAt := if atomic then decide (v &&& bit 2 ≠ 0) else op.ldst.atomicAt
                atomicExcl := if atomic then decide (v &&& bit 3 ≠ 0) else op.ldst.atomicExcl
                atomicAr := if atomic then decide (v &&& bit 4 ≠ 0) else op.ldst.atomicAr
                simdFp := v &&& mask 7 1 = 0x4
                sve := v &&& (bit 3 ||| bit 1) = 0x8
                unspReg := v &&& mask 7 1 = 0x10
                mrs := v &&& mask 7 1 = 0x30
                allocTag := v &&& mask 7 1 = 0x12
                memcpy := v &&& mask 7 1 = 0x20
                memset := v &&& mask 7 0 = 0x25 } }
  else if cls = 2 then
    some { op with
      isBrEret := true
      brCond := v &&& bit 0 = 1
      brIndirect := v &&& mask 7 1 = 0x2 }
  else none

/-- `RecordIP` from an address payload, `arm_spe_decoder.cc:311-320`. -/
def ipOf (v : Nat) : IP :=
  let el := (v &&& mask 62 61) >>> 61
  let ns := (v &&& bit 63) >>> 63
  { el := el, ns := ns
    addr := if ns ≠ 0 ∧ (el = 1 ∨ el = 2) then v ||| (0xff <<< 56) else v &&& mask 55 0 }

/-- The body of `HandlePacketAddress`, `arm_spe_decoder.cc:308-348`: the record and `seen_pk_idx_mask_`. -/
def addressOf (r : Record) (seen index v : Nat) : Record × Nat :=
  if index = 0 ∨ index = 1 ∨ index = 4 then
    if index = 0 then ({ r with ip := ipOf v }, seen)
    else if index = 1 then ({ r with tgtBrIp := ipOf v }, seen)
    else ({ r with prevBrIp := ipOf v }, seen)
  else if index = 2 then
    let value := (v &&& mask 55 0) >>> 48
    ({ r with virt :=
        { addr := if value &&& 0xf0 = 0xf0 then v ||| (0xff <<< 56) else v &&& mask 55 0
          tag := (v &&& mask 63 56) >>> 56 } }, seen)
  else if index = 3 then
    ({ r with phys := { addr := v &&& mask 55 0
                        ns := (v &&& bit 63) >>> 63
                        ch := (v &&& bit 62) >>> 62
                        pat := (v &&& mask 59 56) >>> 56 } }, seen)
  else if seen &&& bit index = 0 then (r, seen ||| bit index)
  else (r, seen)

/-- The body of `HandlePacketCounter`, `arm_spe_decoder.cc:362-375`; the fields are 32 bits wide. -/
def counterOf (r : Record) (index v : Nat) : Record :=
  if index = 0 then { r with totalLat := v % 2 ^ 32 }
  else if index = 1 then { r with issueLat := v % 2 ^ 32 }
  else if index = 2 then { r with translationLat := v % 2 ^ 32 }
  else r

/-- The index of an address or counter packet, `arm_spe_decoder.cc:304-306,358-360`. -/
def packetIndex (d : Dec) (p : Packet) : Option Nat := do
  if p.extHeader ≠ 0 then
    return hdrExtendedIndex (← d.byte d.pos) (← d.byte (d.pos + 1))
  else
    return hdrIndex (← d.byte d.pos)

/-- What one packet does: its size, whether it ends the record, the record and `seen_pk_idx_mask_`. -/
structure Effect where
  size : Nat
  isEnd : Bool
  record : Record
  seen : Nat
deriving DecidableEq, Repr

/-- `HandlePacketAddress`/`HandlePacketCounter` and the unknown header, `arm_spe_decoder.cc:149-169`. -/
def indexedPacket (d : Dec) (p : Packet) (r : Record) : Option (Option Effect) := do
  if getCorrectHeader p &&& hdrMaskAddrCtr = 0xb0 then
    match ← setPayloadAndSize d p with
    | none => return none
    | some p =>
      let x := addressOf r d.seen (← packetIndex d p) p.payload
      return some ⟨p.size, false, x.1, x.2⟩
  else if getCorrectHeader p &&& hdrMaskAddrCtr = 0x98 then
    match ← setPayloadAndSize d p with
    | none => return none
    | some p => return some ⟨p.size, false, counterOf r (← packetIndex d p) p.payload, d.seen⟩
  else
    return none

/-- The loop body, `arm_spe_decoder.cc:65-169`: `none` is a read outside the buffer, `some none` an
error (`return false`). -/
def packet (d : Dec) (r : Record) : Option (Option Effect) := do
  let header ← d.byte d.pos
  let p : Packet := { header := header }
  if header = 0 then
    return some ⟨1, false, r, d.seen⟩
  else if header = 1 then
    return some ⟨1, true, r, d.seen⟩
  else if header = 0x71 then
    match ← setPayloadAndSize d p with
    | none => return none
    | some p => return some ⟨p.size, true, { r with timestamp := p.payload }, d.seen⟩
  else if header &&& hdrMaskEvSrc = 0x42 then
    match ← setPayloadAndSize d p with
    | none => return none
    | some p => return some ⟨p.size, false, { r with event := eventOf p.payload }, d.seen⟩
  else if header &&& hdrMaskEvSrc = 0x43 then
    match ← setPayloadAndSize d p with
    | none => return none
    | some p => return some ⟨p.size, false, { r with source := some p.payload }, d.seen⟩
  else if header &&& hdrMaskCtxOpExt = 0x64 then
    match ← setPayloadAndSize d p with
    | none => return none
    | some p =>
      return some ⟨p.size, false, { r with context :=
        { id := p.payload, el1 := p.header &&& mask 1 0 = 0, el2 := p.header &&& mask 1 0 = 1 } }, d.seen⟩
  else if header &&& hdrMaskCtxOpExt = 0x48 then
    match ← setPayloadAndSize d p with
    | none => return none
    | some p =>
      match opOf r.op (p.header &&& mask 1 0) p.payload with
      | none => return none
      | some op => return some ⟨p.size, false, { r with op := op }, d.seen⟩
  else if header &&& hdrMaskCtxOpExt = 0x20 then
    if d.buf.length - d.pos = 1 then
      return none
    let ext ← d.byte (d.pos + 1)
    if ext = 0 then
      let alignment := 1 <<< ((header &&& 0xf) + 1)
      if d.buf.length - d.pos < alignment then
        return none
      return some ⟨alignment - ((d.base + d.pos) &&& (alignment - 1)), false, r, d.seen⟩
    else
      indexedPacket d { p with extHeader := ext } r
  else
    indexedPacket d p r

/-- The loop, `arm_spe_decoder.cc:64-174`: verdict, record, decoder. -/
def loop : Nat → Dec → Record → Option (Bool × Record × Dec)
  | 0, _, _ => none
  | fuel + 1, d, r =>
    if d.pos < d.buf.length then
      match packet d r with
      | none => none
      | some none => some (false, r, d)
      | some (some e) =>
        let d' := { d with pos := d.pos + e.size, seen := e.seen }
        if e.isEnd then some (true, e.record, d') else loop fuel d' e.record
    else some (true, r, d)

/-- `NextRecord`, `arm_spe_decoder.cc:56-174`, with a non-null record whose old contents are `out`. -/
def nextRecord (d : Dec) (out : Record) : Option (Bool × Record × Dec) :=
  if d.pos ≥ d.buf.length then some (false, out, d)
  else
    match loop (d.buf.length + 1) d {} with
    | none => none
    | some (true, r, d') => some (true, r, d')
    | some (false, _, d') => some (false, out, d')

/-- The caller's loop `while (decoder.NextRecord(&record))`: the records and the final state; `none`
also when it has not stopped after `fuel` calls. -/
def decodeAll : Nat → Dec → Record → Option (List Record × Dec)
  | 0, _, _ => none
  | fuel + 1, d, out =>
    match nextRecord d out with
    | none => none
    | some (false, _, d') => some ([], d')
    | some (true, r, d') => (decodeAll fuel d' r).map (fun x => (r :: x.1, x.2))

end Verif.Spe
