import Verif.Buffer.Model

/-!
# Specification of the buffer reader and writer

A reader is a cursor in a byte string, a writer a cursor in an array; positions and sizes are
unbounded numbers, so there is no arithmetic that could wrap.
-/

namespace Verif.Buffer

/-- The `n` bytes at position `pos`, if the buffer has them. -/
def slice (buf : List UInt8) (pos n : Nat) : Option (List UInt8) :=
  if pos + n ≤ buf.length then some ((buf.drop pos).take n) else none

/-- Value of an integer stored in native (little-endian) or foreign (big-endian) order. -/
def decodeInt (cross : Bool) (d : List UInt8) : Nat := leNat (if cross then d.reverse else d)

/-- Result and new position of a call at position `pos`. -/
def specRead (buf : List UInt8) (cross : Bool) (pos : Nat) : ROp → RRes × Nat
  | .seek o => if o ≤ buf.length then (.ok, o) else (.fail, pos)
  | .data n => match slice buf pos n with
    | some d => (.bytes d, pos + n)
    | none => (.fail, pos)
  | .str n => match slice buf pos n with
    | some d => (.bytes (d.takeWhile (· ≠ 0)), pos + n)
    | none => (.fail, pos)
  | .dataStr n _ => match slice buf pos n with
    | some d => (.bytes d, pos + n)
    | none => (.fail, pos)
  | .u16 => match slice buf pos 2 with
    | some d => (.num (decodeInt cross d), pos + 2)
    | none => (.fail, pos)
  | .u32 => match slice buf pos 4 with
    | some d => (.num (decodeInt cross d), pos + 4)
    | none => (.fail, pos)
  | .u64 => match slice buf pos 8 with
    | some d => (.num (decodeInt cross d), pos + 8)
    | none => (.fail, pos)
  | .sizedStr => match slice buf pos 4 with
    | none => (.fail, pos)
    | some d =>
      let n := decodeInt cross d
      match slice buf (pos + 4) n with
      | some s => (.bytes (s.takeWhile (· ≠ 0)), pos + 4 + n)
      | none => (.fail, pos + 4)   -- the length field has been consumed

/-- Results and final position of a sequence of calls. -/
def specReads (buf : List UInt8) (cross : Bool) : Nat → List ROp → List RRes × Nat
  | pos, [] => ([], pos)
  | pos, op :: ops =>
    let (r, pos') := specRead buf cross pos op
    let (rs, p) := specReads buf cross pos' ops
    (r :: rs, p)

/-- Sizes and offsets that a `size_t` parameter can carry. -/
def ROp.wf : ROp → Prop
  | .seek n | .data n | .str n => n < 2 ^ 64
  | .dataStr n d => n < 2 ^ 64 ∧ d.length < 2 ^ 63
  | _ => True

/-- Overwrite the bytes at `pos`. -/
def overwrite (buf : List UInt8) (pos : Nat) (src : List UInt8) : List UInt8 :=
  buf.take pos ++ src ++ buf.drop (pos + src.length)

/-- The bytes a string field of `n` bytes holds: the string, cut or padded with zeros. -/
def stringField (s : List UInt8) (n : Nat) : List UInt8 :=
  s.take n ++ List.replicate (n - s.length) 0

/-- Smallest multiple of 8 greater than the length: the size of a length-prefixed string field. -/
def fieldSize (n : Nat) : Nat := (n / 8 + 1) * 8

/-- The bytes a call stores; `none` for calls that store nothing. -/
def WOp.bytes : WOp → Option (List UInt8)
  | .seek _ => none
  | .data s => some s
  | .str s n => some (stringField s n)
  | .sizedStr s => some (toLE 4 (fieldSize s.length) ++ stringField s (fieldSize s.length))

/-- Success, new content and new position of a write: it happens when the bytes fit and the position
is not already at the end. -/
def specWrite (buf : List UInt8) (pos : Nat) (op : WOp) : Bool × List UInt8 × Nat :=
  match op with
  | .seek o => (true, buf, o)
  | op => match op.bytes with
    | none => (false, buf, pos)
    | some b =>
      if pos + b.length ≤ buf.length ∧ pos < buf.length then
        (true, overwrite buf pos b, pos + b.length)
      else (false, buf, pos)

/-- Results, final content and final position of a sequence of calls. -/
def specWrites : List UInt8 → Nat → List WOp → List Bool × List UInt8 × Nat
  | buf, pos, [] => ([], buf, pos)
  | buf, pos, op :: ops =>
    let r := specWrites (specWrite buf pos op).2.1 (specWrite buf pos op).2.2 ops
    ((specWrite buf pos op).1 :: r.1, r.2)

/-- Arguments a caller can pass, without the sizes at which `WriteString` and
`WriteStringWithSizeToData` overflow. -/
def WOp.wf (off : Nat) : WOp → Prop
  | .seek o => o < 2 ^ 64
  | .data s => s.length < 2 ^ 63
  | .str s n => s.length < 2 ^ 63 ∧ off + n < 2 ^ 64
  | .sizedStr s => s.length < 2 ^ 32 - 8

/-- All calls of the sequence have such arguments at the position where they are made. -/
def WfFrom : List UInt8 → Nat → List WOp → Prop
  | _, _, [] => True
  | buf, pos, op :: ops =>
    op.wf pos ∧ WfFrom (specWrite buf pos op).2.1 (specWrite buf pos op).2.2 ops

/-- A value to be stored in a file. -/
inductive Item where
  | u16 (v : Nat)
  | u32 (v : Nat)
  | u64 (v : Nat)
  | str (s : List UInt8)
deriving DecidableEq, Repr

/-- Integers in range; strings without NUL whose field size fits its 32-bit length. -/
def Item.wf : Item → Prop
  | .u16 v => v < 2 ^ 16
  | .u32 v => v < 2 ^ 32
  | .u64 v => v < 2 ^ 64
  | .str s => (0 : UInt8) ∉ s ∧ s.length < 2 ^ 32 - 8

/-- `v` as `n` bytes, least significant byte first, or last when `foreign`. -/
def encodeInt (foreign : Bool) (n v : Nat) : List UInt8 :=
  if foreign then (toLE n v).reverse else toLE n v

/-- The file representation of an item. -/
def Item.encode (foreign : Bool) : Item → List UInt8
  | .u16 v => encodeInt foreign 2 v
  | .u32 v => encodeInt foreign 4 v
  | .u64 v => encodeInt foreign 8 v
  | .str s => encodeInt foreign 4 (fieldSize s.length) ++ stringField s (fieldSize s.length)

/-- The file representation of a sequence of items. -/
def encodeAll (foreign : Bool) (items : List Item) : List UInt8 :=
  (items.map (Item.encode foreign)).flatten

/-- The call that writes an item on this machine. -/
def Item.write : Item → WOp
  | .u16 v => .data (toLE 2 v)
  | .u32 v => .data (toLE 4 v)
  | .u64 v => .data (toLE 8 v)
  | .str s => .sizedStr s

/-- The call that reads an item. -/
def Item.read : Item → ROp
  | .u16 _ => .u16
  | .u32 _ => .u32
  | .u64 _ => .u64
  | .str _ => .sizedStr

/-- What reading an item must return. -/
def Item.result : Item → RRes
  | .u16 v | .u32 v | .u64 v => .num v
  | .str s => .bytes s

end Verif.Buffer
