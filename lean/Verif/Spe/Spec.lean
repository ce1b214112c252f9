import Verif.Spe.Model

/-!
# Specification of the SPE trace format

Packets as described in the Arm Architecture Reference Manual, what their bytes are, and what each
contributes to the record. Uses division, remainder and single bits instead of masks.
-/

namespace Verif.Spe

/-- Packets that do not end a record. -/
inductive Pkt where
  | pad
  /-- event packet with a payload of `2 ^ size` bytes -/
  | event (size : Fin 4) (v : Nat)
  | source (size : Fin 4) (v : Nat)
  | context (el : Fin 4) (v : Nat)
  | op (cls : Fin 3) (v : Nat)
  /-- address packet with a one-byte header -/
  | addr (index : Fin 8) (v : Nat)
  /-- address packet with a two-byte header -/
  | addrExt (index : Fin 32) (v : Nat)
  | counter (index : Fin 8) (v : Nat)
  | counterExt (index : Fin 32) (v : Nat)
deriving DecidableEq, Repr

/-- Packets that end a record. -/
inductive Last where
  | endOfRecord
  | timestamp (v : Nat)
deriving DecidableEq, Repr

/-- The payload fits in the packet. -/
def Pkt.Fits : Pkt → Prop
  | .pad => True
  | .event size v => v < 256 ^ (2 ^ size.val)
  | .source size v => v < 256 ^ (2 ^ size.val)
  | .context _ v => v < 2 ^ 32
  | .op _ v => v < 2 ^ 8
  | .addr _ v => v < 2 ^ 64
  | .addrExt _ v => v < 2 ^ 64
  | .counter _ v => v < 2 ^ 16
  | .counterExt _ v => v < 2 ^ 16

def Last.Fits : Last → Prop
  | .endOfRecord => True
  | .timestamp v => v < 2 ^ 64

/-- A payload of `n` bytes in the byte order of the trace. -/
def payloadBytes (cross : Bool) (n v : Nat) : List UInt8 :=
  if cross then (toLE n v).reverse else toLE n v

/-- The bytes of a packet. -/
def Pkt.bytes (cross : Bool) : Pkt → List UInt8
  | .pad => [0]
  | .event size v => UInt8.ofNat (0x42 + 16 * size.val) :: payloadBytes cross (2 ^ size.val) v
  | .source size v => UInt8.ofNat (0x43 + 16 * size.val) :: payloadBytes cross (2 ^ size.val) v
  | .context el v => UInt8.ofNat (0x64 + el.val) :: payloadBytes cross 4 v
  | .op cls v => UInt8.ofNat (0x48 + cls.val) :: payloadBytes cross 1 v
  | .addr index v => UInt8.ofNat (0xb0 + index.val) :: payloadBytes cross 8 v
  | .addrExt index v =>
    UInt8.ofNat (0x20 + index.val / 8) :: UInt8.ofNat (0xb0 + index.val % 8) :: payloadBytes cross 8 v
  | .counter index v => UInt8.ofNat (0x98 + index.val) :: payloadBytes cross 2 v
  | .counterExt index v =>
    UInt8.ofNat (0x20 + index.val / 8) :: UInt8.ofNat (0x98 + index.val % 8) :: payloadBytes cross 2 v

def Last.bytes (cross : Bool) : Last → List UInt8
  | .endOfRecord => [1]
  | .timestamp v => 0x71 :: payloadBytes cross 8 v

/-- An address whose top byte is all ones. -/
def kernelAddr (v : Nat) : Nat := 255 * 2 ^ 56 + v % 2 ^ 56

/-- An instruction address: bits 61-62 exception level, bit 63 non-secure. -/
def specIP (v : Nat) : IP :=
  { el := v / 2 ^ 61 % 4
    ns := v / 2 ^ 63
    addr := if v / 2 ^ 63 = 1 ∧ (v / 2 ^ 61 % 4 = 1 ∨ v / 2 ^ 61 % 4 = 2) then kernelAddr v
            else v % 2 ^ 56 }

/-- What an address packet contributes. -/
def specAddr (index v : Nat) (r : Record) : Record :=
  match index with
  | 0 => { r with ip := specIP v }
  | 1 => { r with tgtBrIp := specIP v }
  | 2 => { r with virt := { addr := if v / 2 ^ 52 % 16 = 15 then kernelAddr v else v % 2 ^ 56
                            tag := v / 2 ^ 56 } }
  | 3 => { r with phys := { addr := v % 2 ^ 56, ns := v / 2 ^ 63, ch := v / 2 ^ 62 % 2
                            pat := v / 2 ^ 56 % 16 } }
  | 4 => { r with prevBrIp := specIP v }
  | _ => r

/-- What a counter packet contributes. -/
def specCounter (index v : Nat) (r : Record) : Record :=
  match index with
  | 0 => { r with totalLat := v }
  | 1 => { r with issueLat := v }
  | 2 => { r with translationLat := v }
  | _ => r

/-- The events of an event payload. -/
def specEvent (v : Nat) : Event :=
  { genException := v.testBit 0, retired := v.testBit 1, l1dAccess := v.testBit 2
    l1dRefill := v.testBit 3, tlbAccess := v.testBit 4, tlbWalk := v.testBit 5
    condNotTaken := v.testBit 6, brMisPred := v.testBit 7, llcAccess := v.testBit 8
    llcMiss := v.testBit 9, remoteAccess := v.testBit 10, ldstAlignment := v.testBit 11
    svePartialPred := v.testBit 17, sveEmptyPred := v.testBit 18 }

/-- What an operation packet contributes. -/
def specOp (cls : Fin 3) (v : Nat) (op : Op) : Op :=
  match cls with
  | 0 => { op with
      isOther := true
      other := { cond := v.testBit 0
                 sve := !v.testBit 7 && v.testBit 3 && !v.testBit 0
                 svePred := v.testBit 2 } }
  | 1 =>
    let atomic := v / 32 == 0 && v.testBit 1
    { op with
      isLdst := true
      ldst := { ld := !v.testBit 0
                st := v.testBit 0
                gpReg := v / 2 == 0
                atomic := atomic
                atomicAt := if atomic then v.testBit 2 else op.ldst.atomicAt
                atomicExcl := if atomic then v.testBit 3 else op.ldst.atomicExcl
                atomicAr := if atomic then v.testBit 4 else op.ldst.atomicAr
                simdFp := v / 2 == 2
                sve := v.testBit 3 && !v.testBit 1
                unspReg := v / 2 == 8
                mrs := v / 2 == 24
                allocTag := v / 2 == 9
                memcpy := v / 2 == 16
                memset := v == 0x25 } }
  | 2 => { op with
      isBrEret := true
      brCond := v.testBit 0
      brIndirect := v / 2 == 1 }

/-- What a packet contributes to the record. -/
def Pkt.apply (r : Record) : Pkt → Record
  | .pad => r
  | .event _ v => { r with event := specEvent v }
  | .source _ v => { r with source := some v }
  | .context el v => { r with context := { id := v, el1 := el.val == 0, el2 := el.val == 1 } }
  | .op cls v => { r with op := specOp cls v r.op }
  | .addr index v => specAddr index.val v r
  | .addrExt index v => specAddr index.val v r
  | .counter index v => specCounter index.val v r
  | .counterExt index v => specCounter index.val v r

def Last.apply (r : Record) : Last → Record
  | .endOfRecord => r
  | .timestamp v => { r with timestamp := v }

/-- A record as it is traced: its packets and the packet that ends it. -/
structure Traced where
  pkts : List Pkt
  last : Last
deriving DecidableEq, Repr

def Traced.Fits (t : Traced) : Prop := (∀ p ∈ t.pkts, p.Fits) ∧ t.last.Fits

def Traced.bytes (cross : Bool) (t : Traced) : List UInt8 :=
  t.pkts.flatMap (Pkt.bytes cross) ++ t.last.bytes cross

/-- The record it stands for. -/
def Traced.record (t : Traced) : Record := t.last.apply (t.pkts.foldl Pkt.apply {})

end Verif.Spe
