import Verif.Base.Bytes

/-!
# Model of the small numeric and text helpers

`/repo/src/quipper/binary_data_utils.{h,cc}`, the bit reversal of `perf_reader.cc` and the pid/tid
packing of `perf_parser.cc`. Unsigned integers are natural numbers below the width's bound; every
place where the C++ arithmetic can wrap is an explicit `%`.
-/

namespace Verif.Util

/-- `Align<alignment>`, `binary_data_utils.h:59-67`. The template constraint
(`alignment` is a power of two) is expressed by passing its exponent `k`. -/
def align (k value : Nat) : Nat :=
  let mask := 2 ^ k - 1
  ((value + mask) % 2 ^ 64) &&& (2 ^ 64 - 1 - mask)

/-- `bswap_16` of glibc's `<byteswap.h>`, used at `binary_data_utils.cc:93-95`. -/
def bswap16 (x : Nat) : Nat := (x % 256) * 256 + x / 256 % 256

/-- `bswap_32` of glibc's `<byteswap.h>`, used at `binary_data_utils.cc:96-98`. -/
def bswap32 (x : Nat) : Nat :=
  (x % 256) * 2 ^ 24 + (x / 2 ^ 8 % 256) * 2 ^ 16 + (x / 2 ^ 16 % 256) * 2 ^ 8 + x / 2 ^ 24 % 256

/-- `bswap_64` of glibc's `<byteswap.h>`, used at `binary_data_utils.cc:99-101`. -/
def bswap64 (x : Nat) : Nat :=
  (x % 256) * 2 ^ 56 + (x / 2 ^ 8 % 256) * 2 ^ 48 + (x / 2 ^ 16 % 256) * 2 ^ 40 +
  (x / 2 ^ 24 % 256) * 2 ^ 32 + (x / 2 ^ 32 % 256) * 2 ^ 24 + (x / 2 ^ 40 % 256) * 2 ^ 16 +
  (x / 2 ^ 48 % 256) * 2 ^ 8 + x / 2 ^ 56 % 256

/-- `ByteSwap<T>` with `sizeof(T) = n`, `binary_data_utils.cc:87-106`; `none` is the `LOG(FATAL)` of
an unsupported size. -/
def byteSwap (n x : Nat) : Option Nat :=
  match n with
  | 1 => some x
  | 2 => some (bswap16 x)
  | 4 => some (bswap32 x)
  | 8 => some (bswap64 x)
  | _ => none

/-- `MaybeSwap`, `binary_data_utils.h:26-30`. -/
def maybeSwap (n x : Nat) (swap : Bool) : Option Nat := if swap then byteSwap n x else some x

/-- `GetNumBits<T>` for an unsigned `T`, `binary_data_utils.h:32-36`: `std::bitset::count` examines
every bit of the value. `n` is the width in bits. -/
def getNumBits : Nat → Nat → Nat
  | 0, _ => 0
  | n + 1, x => x % 2 + getNumBits n (x / 2)

/-- One lowercase hexadecimal digit as printed by `%x`. -/
def hexDigit (n : Nat) : UInt8 := if n < 10 then UInt8.ofNat (48 + n) else UInt8.ofNat (87 + n)

/-- `RawDataToHexString`, `binary_data_utils.cc:55-70`: `"%02x"` of every byte, concatenated. -/
def rawDataToHexString : List UInt8 → List UInt8
  | [] => []
  | b :: t => [hexDigit (b.toNat / 16), hexDigit (b.toNat % 16)] ++ rawDataToHexString t

/-- `isspace` in the C locale. -/
def isSpace (c : UInt8) : Bool := c == 32 || (9 ≤ c && c ≤ 13)

/-- The value of a digit character in bases up to 36, as `strtol` reads it. -/
def digitVal (c : UInt8) : Option Nat :=
  if 48 ≤ c ∧ c ≤ 57 then some (c.toNat - 48)
  else if 97 ≤ c ∧ c ≤ 122 then some (c.toNat - 87)
  else if 65 ≤ c ∧ c ≤ 90 then some (c.toNat - 55)
  else none

/-- Read the longest run of base-`b` digits: accumulated value, number of digits, remaining text. -/
def readDigits (b : Nat) : Nat → List UInt8 → Nat × Nat × List UInt8
  | acc, [] => (acc, 0, [])
  | acc, c :: t =>
    match digitVal c with
    | some d =>
      if d < b then
        let r := readDigits b (acc * b + d) t
        (r.1, r.2.1 + 1, r.2.2)
      else (acc, 0, c :: t)
    | none => (acc, 0, c :: t)

/-- What `std::string::c_str()` shows to a C function: the bytes before the first NUL. -/
def cStr (s : List UInt8) : List UInt8 := s.takeWhile (· ≠ 0)

/-- The parsing common to C's `strtol` and `strtoul` in base 10 or 16: white space, an optional
sign, an optional `0x` in base 16, digits. Returns the sign, the magnitude (not yet clamped to the
type's range) and the text at `*endptr`; without digits `*endptr` is the start of the text.
Used at `binary_data_utils.cc:81` and `string_utils.cc:58`. -/
def strto (b : Nat) (s0 : List UInt8) : Bool × Nat × List UInt8 :=
  let s := cStr s0
  let s1 := s.dropWhile isSpace
  let (neg, s2) : Bool × List UInt8 :=
    match s1 with
    | c :: t => if c = 45 then (true, t) else if c = 43 then (false, t) else (false, s1)
    | [] => (false, [])
  let s3 : List UInt8 :=
    if b = 16 then
      match s2 with
      | z :: x :: d :: t =>
        if z = 48 ∧ (x = 120 ∨ x = 88) ∧ (digitVal d).any (· < 16) then d :: t else s2
      | _ => s2
    else s2
  let (v, k, r) := readDigits b 0 s3
  if k = 0 then (false, 0, s) else (neg, v, r)

/-- `strtol(.., 16)` of a two-character string converted to `u8`, `binary_data_utils.cc:81`. -/
def strtolByte (s : List UInt8) : UInt8 × List UInt8 :=
  let (neg, v, r) := strto 16 s
  (if neg then 0 - UInt8.ofNat v else UInt8.ofNat v, r)

/-- The loop of `HexStringToRawData` with the rest of the text and the rest of the array,
`binary_data_utils.cc:77-84`. The byte is stored before the error check. -/
def hexLoop : List UInt8 → List UInt8 → Bool × List UInt8
  | c0 :: c1 :: s, _ :: array =>
    let (v, err) := strtolByte [c0, c1]
    if err ≠ [] then (false, v :: array)
    else
      let (ok, rest) := hexLoop s array
      (ok, v :: rest)
  | _, array => (true, array)

/-- `HexStringToRawData(str, array, length)`, `binary_data_utils.cc:72-85`. `array` is the memory the
pointer refers to; only its first `length` bytes are offered to the loop. Accessing the array beyond
its real size would be undefined behaviour, so `length ≤ array.length` is the caller's obligation. -/
def hexStringToRawData (str array : List UInt8) (length : Nat) : Bool × List UInt8 :=
  let (ok, front) := hexLoop str (array.take length)
  (ok, front ++ array.drop length)

/-- `ReverseByte`, `perf_reader.cc:88-93`. `u8` operands are promoted to `int` and truncated again. -/
def reverseByte (x : UInt8) : UInt8 :=
  let x := (x &&& 0xf0) >>> 4 ||| (x &&& 0x0f) <<< 4
  let x := (x &&& 0xcc) >>> 2 ||| (x &&& 0x33) <<< 2
  (x &&& 0xaa) >>> 1 ||| (x &&& 0x55) <<< 1

/-- `SwapBitfieldOfBits`, `perf_reader.cc:99-103`. -/
def swapBitfieldOfBits (field : List UInt8) : List UInt8 := field.map reverseByte

/-- `mergeTwoU32`, `perf_parser.cc:351-353`. -/
def mergeTwoU32 (first second : Nat) : Nat := (first <<< 32) ||| second

/-- `splitU64`, `perf_parser.cc:357-360`; `make_pair` narrows the first component to `uint32_t`. -/
def splitU64 (value : Nat) : Nat × Nat := ((value >>> 32) % 2 ^ 32, (2 ^ 32 - 1) &&& value)

end Verif.Util
