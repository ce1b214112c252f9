import Verif.Util.Model

/-!
# Model of `BufferReader` and `BufferWriter`

`/repo/src/quipper/{data_reader,data_writer}.{h,cc}`, `{buffer_reader,buffer_writer}.{h,cc}`.
`size_t` is 64 bits wide. Memory is a list of bytes; touching memory outside of the buffer is
undefined behaviour and is the outcome `none`. Memory exhaustion (`std::bad_alloc`) and log messages
are not modelled.
-/

namespace Verif.Buffer
open Verif.Util

/-- Addition of `size_t` values. -/
def addSz (a b : Nat) : Nat := (a + b) % 2 ^ 64

/-! ## Reading -/

/-- `BufferReader`, `buffer_reader.h:15-44` with `size_` and `is_cross_endian_` of
`data_reader.h:67-83`. -/
structure Reader where
  buf : List UInt8
  size : Nat
  off : Nat
  cross : Bool
deriving DecidableEq, Repr

/-- The constructor, `buffer_reader.h:18-21`, followed by `set_is_cross_endian`. -/
def Reader.new (buf : List UInt8) (cross : Bool) : Reader := ⟨buf, buf.length, 0, cross⟩

/-- Copy `n` bytes from position `off`; `none` when they are not all inside the buffer. -/
def fetch (buf : List UInt8) (off n : Nat) : Option (List UInt8) :=
  if off + n ≤ buf.length then some ((buf.drop off).take n) else none

/-- `SeekSet`, `buffer_reader.cc:15-22`. -/
def Reader.seekSet (r : Reader) (offset : Nat) : Bool × Reader :=
  if offset > r.size then (false, r) else (true, { r with off := offset })

/-- The bounds test shared by `ReadData` and `ReadString`, `buffer_reader.cc:25,33`. -/
def Reader.refuses (r : Reader) (size : Nat) : Bool :=
  r.off > (2 ^ 64 - 1) - size || addSz r.off size > r.size

/-- `ReadData`, `buffer_reader.cc:24-30`. The result is the copied bytes, or `none` for `false`; the
outer `none` is undefined behaviour. -/
def Reader.readData (r : Reader) (size : Nat) : Option (Option (List UInt8) × Reader) :=
  if r.refuses size then some (none, r)
  else match fetch r.buf r.off size with
    | none => none
    | some d => some (some d, { r with off := addSz r.off size })

/-- `ReadString`, `buffer_reader.cc:32-39`; `strnlen` only reads the addressed bytes up to a NUL, the
model reads all of them, which is the stronger demand. -/
def Reader.readString (r : Reader) (size : Nat) : Option (Option (List UInt8) × Reader) :=
  if r.refuses size then some (none, r)
  else match fetch r.buf r.off size with
    | none => none
    | some d => some (some (d.takeWhile (· ≠ 0)), { r with off := addSz r.off size })

/-- `ReadDataString`, `data_reader.cc:15-29`; `dest` is the string's old content and the first
component is the return value with the new content. `std::string::max_size()` is `2^63 - 1`. -/
def Reader.readDataString (r : Reader) (size : Nat) (dest : List UInt8) :
    Option ((Bool × List UInt8) × Reader) :=
  if size = 0 then some ((true, []), r)
  else if max size dest.length > 2 ^ 63 - 1 then some ((false, dest), r)
  else match r.readData size with
    | none => none
    | some (none, r') => some ((false, dest), r')
    | some (some d, r') => some ((true, d), r')

/-- `ReadIntValue<T>` with `sizeof(T) = n`, `data_reader.h:75-80`. -/
def Reader.readInt (r : Reader) (n : Nat) : Option (Option Nat × Reader) :=
  match r.readData n with
  | none => none
  | some (none, r') => some (none, r')
  | some (some d, r') =>
    match maybeSwap n (leNat d) r.cross with
    | none => none
    | some v => some (some v, r')

/-- `ReadStringWithSizeFromData`, `data_reader.cc:39-51`. -/
def Reader.readStringWithSize (r : Reader) : Option (Option (List UInt8) × Reader) :=
  match r.readInt 4 with
  | none => none
  | some (none, r') => some (none, r')
  | some (some len, r') => r'.readString len

/-- A call on a reader. -/
inductive ROp where
  | seek (offset : Nat)
  | data (size : Nat)
  | str (size : Nat)
  | dataStr (size : Nat) (dest : List UInt8)
  | u16 | u32 | u64
  | sizedStr
deriving DecidableEq, Repr

/-- What a call returns to its caller. -/
inductive RRes where
  | fail
  | ok
  | bytes (l : List UInt8)
  | num (v : Nat)
deriving DecidableEq, Repr

def RRes.ofBytes : Option (List UInt8) → RRes
  | none => .fail
  | some l => .bytes l

def RRes.ofNum : Option Nat → RRes
  | none => .fail
  | some l => .num l

/-- Execute one call (`data_reader.h:22-61`). -/
def Reader.step (r : Reader) : ROp → Option (RRes × Reader)
  | .seek o => let (b, r') := r.seekSet o; some (if b then .ok else .fail, r')
  | .data n => (r.readData n).map (fun p => (.ofBytes p.1, p.2))
  | .str n => (r.readString n).map (fun p => (.ofBytes p.1, p.2))
  | .dataStr n d => (r.readDataString n d).map (fun p => (if p.1.1 then .bytes p.1.2 else .fail, p.2))
  | .u16 => (r.readInt 2).map (fun p => (.ofNum p.1, p.2))
  | .u32 => (r.readInt 4).map (fun p => (.ofNum p.1, p.2))
  | .u64 => (r.readInt 8).map (fun p => (.ofNum p.1, p.2))
  | .sizedStr => r.readStringWithSize.map (fun p => (.ofBytes p.1, p.2))

/-- Execute a sequence of calls, collecting the results. -/
def Reader.run (r : Reader) : List ROp → Option (List RRes × Reader)
  | [] => some ([], r)
  | op :: ops =>
    match r.step op with
    | none => none
    | some (res, r') => (r'.run ops).map (fun p => (res :: p.1, p.2))

/-! ## Writing -/

/-- `BufferWriter`, `buffer_writer.h:15-45`. -/
structure Writer where
  buf : List UInt8
  size : Nat
  off : Nat
deriving DecidableEq, Repr

/-- The constructor, `buffer_writer.h:18-21`. -/
def Writer.new (buf : List UInt8) : Writer := ⟨buf, buf.length, 0⟩

/-- Store bytes at position `off`; `none` when they do not all fit inside the buffer. -/
def store (buf : List UInt8) (off : Nat) (src : List UInt8) : Option (List UInt8) :=
  if off + src.length ≤ buf.length then
    some (buf.take off ++ src ++ buf.drop (off + src.length))
  else none

/-- `SeekSet`, `buffer_writer.h:23`: unchecked. -/
def Writer.seekSet (w : Writer) (offset : Nat) : Writer := { w with off := offset }

/-- `WriteData(src, src.length)`, `buffer_writer.cc:13-21`. -/
def Writer.writeData (w : Writer) (src : List UInt8) : Option (Bool × Writer) :=
  if addSz w.off src.length > w.size ∨ w.off ≥ w.size ∨ src.length > w.size then some (false, w)
  else match store w.buf w.off src with
    | none => none
    | some b => some (true, { w with buf := b, off := addSz w.off src.length })

/-- `WriteString(str, size)`, `buffer_writer.cc:23-35`. -/
def Writer.writeString (w : Writer) (str : List UInt8) (size : Nat) : Option (Bool × Writer) :=
  let writeSize := min str.length size
  if addSz w.off size > w.size then some (false, w)
  else match w.writeData (str.take writeSize) with
    | none => none
    | some (false, w') => some (false, w')
    | some (true, w') =>
      -- the test is first so that no huge list is ever built
      if w'.off + (size - writeSize) ≤ w'.buf.length then
        match store w'.buf w'.off (List.replicate (size - writeSize) 0) with
        | none => none
        | some b => some (true, { w' with buf := b, off := addSz w'.off (size - writeSize) })
      else none

/-- `CanWriteSize`, `buffer_writer.cc:37-39`. -/
def Writer.canWriteSize (w : Writer) (n : Nat) : Bool := addSz w.off n ≤ w.size

/-- `GetUint64AlignedStringLength`, `perf_data_utils.h:59-61`. -/
def alignedStringLength (size : Nat) : Nat := align 3 (addSz size 1)

/-- `WriteStringWithSizeToData`, `data_writer.cc:23-36`; `len` is a `uint32_t`. -/
def Writer.writeStringWithSize (w : Writer) (src : List UInt8) : Option (Bool × Writer) :=
  let len := alignedStringLength src.length % 2 ^ 32
  if ¬ w.canWriteSize (addSz len 4) then some (false, w)
  else match w.writeData (toLE 4 len) with
    | none => none
    | some (false, w') => some (false, w')
    | some (true, w') => w'.writeString src len

/-- A call on a writer. -/
inductive WOp where
  | seek (offset : Nat)
  | data (src : List UInt8)
  | str (str : List UInt8) (size : Nat)
  | sizedStr (src : List UInt8)
deriving DecidableEq, Repr

/-- Execute one call (`data_writer.h:19-45`). `WriteDataValue` is `WriteData` plus a log message. -/
def Writer.step (w : Writer) : WOp → Option (Bool × Writer)
  | .seek o => some (true, w.seekSet o)
  | .data s => w.writeData s
  | .str s n => w.writeString s n
  | .sizedStr s => w.writeStringWithSize s

/-- Execute a sequence of calls, collecting the results. -/
def Writer.run (w : Writer) : List WOp → Option (List Bool × Writer)
  | [] => some ([], w)
  | op :: ops =>
    match w.step op with
    | none => none
    | some (res, w') => (w'.run ops).map (fun p => (res :: p.1, p.2))

end Verif.Buffer
