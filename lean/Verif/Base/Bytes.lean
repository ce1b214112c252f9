/-!
# Bytes, little-endian numbers and machine words

The memory of the modelled program is a list of bytes. The modelled host is little-endian
(x86-64 / AArch64 Linux): the `n`-byte unsigned integer `v` is stored as `toLE n v`, and `leNat`
reads it back.
-/

namespace Verif

/-- The value of a little-endian byte sequence. -/
def leNat : List UInt8 → Nat
  | [] => 0
  | b :: t => b.toNat + 256 * leNat t

/-- The `n`-byte little-endian representation of `v` (truncated to `n` bytes). -/
def toLE : Nat → Nat → List UInt8
  | 0, _ => []
  | n + 1, v => UInt8.ofNat v :: toLE n (v / 256)

@[simp] theorem toLE_length (n v : Nat) : (toLE n v).length = n := by
  induction n generalizing v with
  | zero => rfl
  | succ n ih => simp [toLE, ih]

theorem leNat_lt (l : List UInt8) : leNat l < 256 ^ l.length := by
  induction l with
  | nil => simp [leNat]
  | cons b t ih =>
    have := b.toNat_lt
    simp only [leNat, List.length_cons, Nat.pow_succ]
    omega

theorem leNat_toLE (n v : Nat) : leNat (toLE n v) = v % 256 ^ n := by
  induction n generalizing v with
  | zero => simp [toLE, leNat, Nat.mod_one]
  | succ n ih =>
    simp only [toLE, leNat, ih, UInt8.toNat_ofNat']
    rw [Nat.pow_succ 256 n, Nat.mul_comm (256 ^ n) 256, Nat.mod_mul]

theorem leNat_toLE_of_lt {n v : Nat} (h : v < 256 ^ n) : leNat (toLE n v) = v := by
  rw [leNat_toLE, Nat.mod_eq_of_lt h]

theorem toLE_leNat (l : List UInt8) : toLE l.length (leNat l) = l := by
  induction l with
  | nil => rfl
  | cons b t ih =>
    have := b.toNat_lt
    simp only [List.length_cons, toLE, leNat]
    have h1 : (b.toNat + 256 * leNat t) / 256 = leNat t := by omega
    rw [h1, ih]
    congr 1
    apply UInt8.toNat_inj.mp
    rw [UInt8.toNat_ofNat']
    omega

theorem toLE_inj {n a b : Nat} (ha : a < 256 ^ n) (hb : b < 256 ^ n) (h : toLE n a = toLE n b) :
    a = b := by
  rw [← leNat_toLE_of_lt ha, ← leNat_toLE_of_lt hb, h]

theorem leNat_append (a b : List UInt8) : leNat (a ++ b) = leNat a + 256 ^ a.length * leNat b := by
  induction a with
  | nil => simp [leNat]
  | cons x t ih =>
    simp only [List.cons_append, leNat, ih, List.length_cons, Nat.pow_succ, Nat.mul_add]
    rw [Nat.mul_comm (256 ^ t.length) 256, Nat.mul_assoc]
    omega

theorem leNat_inj {a b : List UInt8} (hl : a.length = b.length) (h : leNat a = leNat b) : a = b := by
  rw [← toLE_leNat a, ← toLE_leNat b, hl, h]

/-- A string literal as bytes (ASCII only). -/
def ascii (s : String) : List UInt8 := s.toList.map (fun c => UInt8.ofNat c.toNat)

end Verif
