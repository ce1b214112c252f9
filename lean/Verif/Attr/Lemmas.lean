import Verif.Attr.Spec
import Verif.Sample.Props
import Verif.Util.Props

/-! Helper lemmas on bits of bytes, slices and reading an attribute. -/

namespace Verif.Attr
open Verif.Buffer Verif.Event Verif.Sample

theorem leNat_testBit : ∀ (l : List UInt8) (i : Nat),
    (leNat l).testBit i = (l.getD (i / 8) 0).toNat.testBit (i % 8)
  | [], i => by simp [leNat]
  | b :: t, i => by
    have hb : b.toNat < 2 ^ 8 := b.toNat_lt
    have e : leNat (b :: t) = 2 ^ 8 * leNat t + b.toNat := by simp only [leNat]; omega
    rw [e, Nat.testBit_two_pow_mul_add _ hb]
    by_cases h : i < 8
    · rw [if_pos h, Nat.div_eq_of_lt h, Nat.mod_eq_of_lt h]; rfl
    · rw [if_neg h, leNat_testBit t]
      obtain ⟨k, rfl⟩ : ∃ k, i = k + 8 := ⟨i - 8, by omega⟩
      rw [Nat.add_sub_cancel, Nat.add_div_right _ (by decide), Nat.add_mod_right]
      rfl

theorem leNat_zeros : ∀ n, leNat (List.replicate n 0) = 0
  | 0 => rfl
  | n + 1 => by simp [List.replicate_succ, leNat, leNat_zeros n]

theorem leNat_pad (l : List UInt8) (n : Nat) : leNat (l ++ List.replicate n 0) = leNat l := by
  rw [leNat_append, leNat_zeros]; simp

theorem member_pad (d : List UInt8) (k off n : Nat) :
    member d off n = leNat (((d ++ List.replicate k 0).drop (off - 8)).take n) := by
  unfold member
  rw [List.drop_append, List.take_append, List.drop_replicate, List.take_replicate, leNat_pad]

/-- The bytes of one of the fields. -/
theorem matches_at {cross : Bool} {A B : List Piece} {p : Piece} {bs : List UInt8}
    (h : Matches cross (A ++ p :: B) bs) : p.Is cross ((bs.drop (total A)).take p.len) := by
  obtain ⟨x, y, rfl, hx, hy⟩ := matches_append.mp h
  obtain ⟨z, w, rfl, hz, hw⟩ := matches_cons.mp hy
  have e1 := matches_len hx
  have e2 : z.length = p.len := is_len (matches_one.mp hz)
  rw [← e1, ← e2]
  simpa using matches_one.mp hz

theorem swapFlags_spec (l : List UInt8) (flags : Nat) (hf : flags < 2 ^ 64)
    (h : StoredBigEndian l flags) : swapFlags (leNat l) = flags := by
  obtain ⟨hl, hb⟩ := h
  have e : toLE 8 (leNat l) = l := by rw [← hl]; exact toLE_leNat l
  unfold swapFlags
  rw [e]
  -- the bits before `precise_ip` is swapped back
  have hbit : ∀ i < 64, (leNat (Util.swapBitfieldOfBits l)).testBit i =
      flags.testBit (if i = 15 then 16 else if i = 16 then 15 else i) := by
    intro i hi
    rw [leNat_testBit, ← hb i hi]
    unfold Util.swapBitfieldOfBits
    have hlt : i / 8 < l.length := by omega
    rw [List.getD_eq_getElem?_getD, List.getElem?_map, List.getD_eq_getElem?_getD,
      List.getElem?_eq_getElem hlt]
    simp only [Option.map_some, Option.getD_some]
    rw [Util.C16_reverseByte_reverses _ _ (by omega)]
  have hlt : leNat (Util.swapBitfieldOfBits l) < 2 ^ 64 := by
    have := leNat_lt (Util.swapBitfieldOfBits l)
    rw [show (Util.swapBitfieldOfBits l).length = 8 by simp [Util.swapBitfieldOfBits, hl]] at this
    exact this
  generalize leNat (Util.swapBitfieldOfBits l) = f at hbit hlt
  have hf1 : f = 2 ^ 15 * (2 ^ 2 * (f / 2 ^ 17) + f / 2 ^ 15 % 4) + f % 2 ^ 15 := by omega
  have h15 : f / 2 ^ 15 % 4 = f / 2 ^ 15 % 2 + 2 * (f / 2 ^ 16 % 2) := by omega
  have b15 := hbit 15 (by omega)
  have b16 := hbit 16 (by omega)
  simp only [if_pos, if_neg (show ¬ (16 : Nat) = 15 by decide)] at b15 b16
  rw [Nat.testBit_eq_decide_div_mod_eq] at b15 b16
  have key : ∀ t : Fin 4, ((t.val &&& 2) >>> 1 ||| (t.val &&& 1) <<< 1) = t.val / 2 + 2 * (t.val % 2) := by decide
  have ht : f / 2 ^ 15 % 4 < 4 := Nat.mod_lt _ (by decide)
  have hk := key ⟨f / 2 ^ 15 % 4, ht⟩
  simp only at hk
  show f - f / 2 ^ 15 % 4 * 2 ^ 15 + ((f / 2 ^ 15 % 4 &&& 2) >>> 1 ||| (f / 2 ^ 15 % 4 &&& 1) <<< 1) * 2 ^ 15 = flags
  rw [hk]
  have t1 : f / 2 ^ 15 % 4 / 2 = f / 2 ^ 16 % 2 := by omega
  have t0 : f / 2 ^ 15 % 4 % 2 = f / 2 ^ 15 % 2 := by omega
  have e2 : f - f / 2 ^ 15 % 4 * 2 ^ 15 + (f / 2 ^ 15 % 4 / 2 + 2 * (f / 2 ^ 15 % 4 % 2)) * 2 ^ 15 =
      2 ^ 15 * (2 ^ 2 * (f / 2 ^ 17) + (f / 2 ^ 15 % 4 / 2 + 2 * (f / 2 ^ 15 % 4 % 2))) + f % 2 ^ 15 := by omega
  rw [e2]
  apply Nat.eq_of_testBit_eq
  intro i
  by_cases hi : i < 64
  · have hi' := hbit i hi
    rw [Nat.testBit_two_pow_mul_add _ (Nat.mod_lt _ (by decide))]
    by_cases c : i < 15
    · rw [if_pos c, Nat.testBit_mod_two_pow]
      rw [if_neg (by omega), if_neg (by omega)] at hi'
      simp [c, hi']
    · rw [if_neg c, Nat.testBit_two_pow_mul_add _ (by omega)]
      by_cases c' : i < 17
      · rw [if_pos (by omega)]
        have : i = 15 ∨ i = 16 := by omega
        rcases this with rfl | rfl
        · show (f / 2 ^ 15 % 4 / 2 + 2 * (f / 2 ^ 15 % 4 % 2)).testBit 0 = _
          rw [← b16, Nat.testBit_eq_decide_div_mod_eq]
          congr 1
          rw [t1, t0]
          have x2 : f / 2 ^ 16 % 2 < 2 := Nat.mod_lt _ (by decide)
          generalize f / 2 ^ 16 % 2 = x at x2
          generalize f / 2 ^ 15 % 2 = y
          rw [show (x + 2 * y) / 2 ^ 0 % 2 = x by rw [Nat.pow_zero, Nat.div_one]; omega]
        · show (f / 2 ^ 15 % 4 / 2 + 2 * (f / 2 ^ 15 % 4 % 2)).testBit 1 = _
          rw [← b15, Nat.testBit_eq_decide_div_mod_eq]
          congr 1
          rw [t1, t0]
          have x2 : f / 2 ^ 16 % 2 < 2 := Nat.mod_lt _ (by decide)
          have y2 : f / 2 ^ 15 % 2 < 2 := Nat.mod_lt _ (by decide)
          generalize f / 2 ^ 16 % 2 = x at x2
          generalize f / 2 ^ 15 % 2 = y at y2
          rw [show (x + 2 * y) / 2 ^ 1 % 2 = y by rw [Nat.pow_one]; omega]
      · rw [if_neg (by omega)]
        rw [if_neg (by omega), if_neg (by omega)] at hi'
        rw [← hi', ← Nat.shiftRight_eq_div_pow, Nat.testBit_shiftRight]
        congr 1; omega
  · rw [Nat.testBit_lt_two_pow (Nat.lt_of_lt_of_le hf (Nat.pow_le_pow_right (by decide) (by omega))),
      Nat.testBit_lt_two_pow (Nat.lt_of_lt_of_le (m := 2 ^ 64) (by omega) (Nat.pow_le_pow_right (by decide) (by omega)))]

theorem swap32 {l : List UInt8} (h : l.length = 4) : Util.bswap32 (leNat l) = leNat l.reverse := by
  have := Util.byteSwap_leNat (l := l) (by omega)
  rw [h] at this
  simpa [Util.byteSwap] using this

theorem swap64 {l : List UInt8} (h : l.length = 8) : Util.bswap64 (leNat l) = leNat l.reverse := by
  have := Util.byteSwap_leNat (l := l) (by omega)
  rw [h] at this
  simpa [Util.byteSwap] using this

/-- Reading the bytes of an attribute. -/
theorem read_bytes (r : Reader) (cross : Bool) (type size : Nat) (bs tail : List UInt8) (hr : r.Ok)
    (hc : r.cross = cross) (hd : r.buf.drop r.off = bs ++ tail) (hl : bs.length = size) (h8 : 8 ≤ size)
    (h32 : size < 2 ^ 32)
    (ht : decodeInt cross (bs.take 4) = type) (hsz : decodeInt cross ((bs.drop 4).take 4) = size) :
    readEventAttr r =
      let a := ofMemory type size ((bs.take 96).drop 8)
      some (some { (if cross then a.swap else a) with size := 96 }, { r with off := r.off + bs.length }) := by
  subst hc
  have hr' := hr
  obtain ⟨h1, h2, h3⟩ := hr'
  have hlen := congrArg List.length hd
  simp only [List.length_drop, List.length_append] at hlen
  have hd1 : r.buf.drop r.off = bs.take 4 ++ ((bs.drop 4).take 4 ++ ((bs.take 96).drop 8 ++ (bs.drop 96 ++ tail))) := by
    rw [hd]
    have e1 : bs = bs.take 4 ++ ((bs.drop 4).take 4 ++ ((bs.take 96).drop 8 ++ bs.drop 96)) := by
      have : (bs.take 96).drop 8 = (bs.drop 8).take 88 := by rw [List.drop_take]
      rw [this]
      have h3 : (bs.drop 8).take 88 ++ bs.drop 96 = bs.drop 8 := by
        rw [show bs.drop 96 = (bs.drop 8).drop 88 by rw [List.drop_drop]]
        exact List.take_append_drop ..
      rw [h3, show bs.drop 8 = (bs.drop 4).drop 4 by rw [List.drop_drop], List.take_append_drop,
        List.take_append_drop]
    conv => lhs; rw [e1]
    simp
  have l1 : (bs.take 4).length = 4 := by simp; omega
  have l2 : ((bs.drop 4).take 4).length = 4 := by simp; omega
  have l3 : ((bs.take 96).drop 8).length = min size 96 - 8 := by simp; omega
  have e1 := reads_u32 r.cross type r _ _ hr rfl hd1 (matches_one.mpr ⟨l1, ht⟩)
  obtain ⟨ok1, dr1⟩ := ok_advance hr hd1
  have e2 := reads_u32 r.cross size _ _ _ ok1 rfl dr1 (matches_one.mpr ⟨l2, hsz⟩)
  obtain ⟨ok2, dr2⟩ := ok_advance ok1 dr1
  have e3 := reads_data r.cross ((bs.take 96).drop 8) (by omega) _ _ _ ok2 rfl dr2 (matches_one.mpr rfl)
  have eb : restSize size = ((bs.take 96).drop 8).length := by unfold restSize; omega
  unfold readEventAttr
  rw [bind_of e1, bind_of e2, eb, bind_of e3, bind_of (p := tell) rfl]
  have es : skipTo (r.off + (bs.take 4).length + ((bs.drop 4).take 4).length + ((bs.take 96).drop 8).length) size =
      r.off + size := by unfold skipTo; omega
  simp only [es]
  rw [bind_of (seek_of (by show r.off + size ≤ r.size; omega)), bind_of (p := isCross) rfl]
  rw [pure_def, hl]

end Verif.Attr
