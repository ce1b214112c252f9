import Verif.Tool.WireProps
import Verif.File.Props3
import Verif.Data.Skip

/-!
# How recordings start, and that they are not taken for messages
-/

namespace Verif.Tool
open Verif.Buffer Verif.Sample Verif.Util

/-- The mark at the start of the recordings of machines that store the lowest byte first; those of other machines start with
its reverse. -/
def mark : Bytes := ascii "PERFILE2"

theorem readInt_ok {r r' : Reader} {v : Nat} (h0 : r.off + 8 < 2 ^ 64) (hs : r.size = r.buf.length) (h : r.readInt 8 = some (some v, r')) :
    r.off + 8 ≤ r.buf.length ∧ r'.buf = r.buf ∧ r'.size = r.size ∧ r'.off = r.off + 8 ∧ r'.cross = r.cross ∧
      (r.cross = false → v = leNat ((r.buf.drop r.off).take 8)) := by
  unfold Reader.readInt Reader.readData at h
  by_cases hr : r.refuses 8 = true
  · rw [if_pos hr] at h; cases h
  · rw [if_neg hr] at h
    unfold fetch at h
    by_cases hl : r.off + 8 ≤ r.buf.length
    · rw [if_pos hl] at h
      simp only at h
      split at h
      · cases h
      · rename_i w hw
        cases h
        refine ⟨hl, rfl, rfl, ?_, rfl, fun hc => ?_⟩
        · show addSz r.off 8 = _
          unfold addSz
          exact Nat.mod_eq_of_lt h0
        · rw [hc] at hw
          unfold maybeSwap at hw
          cases hw
          rfl
    · rw [if_neg hl] at h; cases h

theorem toLE_of {l : Bytes} {n v : Nat} (hl : l.length = n) (h : v = leNat l) : l = toLE n v := by
  rw [h, ← hl, toLE_leNat]

/-- A recording starts with the mark, or its reverse, and in the first case the length of a header follows. -/
theorem starts {cfg : Data.Cfg} {b : Bytes} {st : Data.St} (h : File.readBytes cfg b = some (some st)) :
    (∃ n rest, (n = 16 ∨ n = 104) ∧ b = mark ++ (toLE 8 n ++ rest)) ∨ ∃ rest, b = mark.reverse ++ rest := by
  unfold File.readBytes at h
  obtain ⟨⟨x, rz⟩, h, hx⟩ := Option.map_eq_some_iff.1 h
  have hx : x = some st := hx
  subst hx
  unfold File.readFromData at h
  obtain ⟨_, _, h1, h⟩ := Data.bind_ok h
  cases h1
  split at h
  · cases h
  · obtain ⟨hd, r1, h1, h⟩ := Data.bind_ok h
    unfold File.readHeader at h1
    obtain ⟨_, _, h2, h1⟩ := Data.bind_ok h1
    cases h2
    obtain ⟨_, _, h2, h1⟩ := Data.bind_ok h1
    cases h2
    obtain ⟨m, r2, h2, h1⟩ := Data.bind_ok h1
    obtain ⟨hl, hb, hsz, ho, hc, hv⟩ := readInt_ok (show 0 + 8 < 2 ^ 64 by decide) rfl h2
    have hl : 8 ≤ b.length := hl
    have hv : m = leNat (b.take 8) := hv rfl
    have hm : b.take 8 = toLE 8 m := toLE_of (by simp; omega) hv
    split at h1
    · cases h1
    · rename_i hmm
      by_cases hmg : m = File.magic
      · obtain ⟨_, _, h3, h1⟩ := Data.bind_ok h1
        cases h3
        obtain ⟨size, r3, h3, h1⟩ := Data.bind_ok h1
        have hcr : decide (m ≠ File.magic) = false := by rw [hmg]; decide
        obtain ⟨hl2, _, _, _, _, hv2⟩ := readInt_ok (r := { r2 with cross := decide (m ≠ File.magic) }) (by show r2.off + 8 < 2 ^ 64; rw [ho]; show 0 + 8 + 8 < 2 ^ 64; decide) (by
          show r2.size = r2.buf.length
          rw [hsz, hb]; rfl) h3
        have hl2 : r2.off + 8 ≤ r2.buf.length := hl2
        have hv2 : size = leNat ((r2.buf.drop r2.off).take 8) := hv2 hcr
        rw [hb, ho] at hl2 hv2
        have hl2 : 16 ≤ b.length := hl2
        have hv2 : size = leNat ((b.drop 8).take 8) := hv2
        have hsize : hd.size = size := by
          obtain ⟨_, _, h4, h1⟩ := Data.bind_ok h1
          obtain ⟨_, _, h5, h1⟩ := Data.bind_ok h1
          split at h1
          · rename_i h16
            cases h1
            rfl
          · unfold File.readRest at h1
            obtain ⟨_, _, _, h1⟩ := Data.bind_ok h1
            obtain ⟨_, _, _, h1⟩ := Data.bind_ok h1
            obtain ⟨_, _, _, h1⟩ := Data.bind_ok h1
            obtain ⟨_, _, _, h1⟩ := Data.bind_ok h1
            obtain ⟨_, _, _, h1⟩ := Data.bind_ok h1
            obtain ⟨_, _, _, h1⟩ := Data.bind_ok h1
            obtain ⟨_, _, _, h1⟩ := Data.bind_ok h1
            cases h1
            rfl
        refine Or.inl ⟨size, b.drop 16, ?_, ?_⟩
        · rw [← hsize]
          split at h
          · rename_i h104; exact Or.inr h104
          · split at h
            · cases h
            · rename_i h16; exact Or.inl (Classical.not_not.1 h16)
        · rw [← toLE_of (l := (b.drop 8).take 8) (by simp; omega) hv2]
          have hmk : mark = b.take 8 := by rw [hm, hmg]; decide
          rw [hmk, show b.drop 16 = (b.drop 8).drop 8 by rw [List.drop_drop], List.take_append_drop, List.take_append_drop]
      · have hmg2 : m = bswap64 File.magic := Classical.not_not.1 fun hne => hmm ⟨hmg, hne⟩
        refine Or.inr ⟨b.drop 8, ?_⟩
        have hmk : mark.reverse = b.take 8 := by rw [hm, hmg2]; decide
        rw [hmk, List.take_append_drop]

theorem varint_one {n : Nat} {x : UInt8} {l : Bytes} (h : x.toNat < 128) : readVarint (n + 1) (x :: l) = some (x.toNat, l) := if_pos h

/-- What follows the mark and the lower bytes of a length that is shorter than 2^40: no field starts with a zero. -/
theorem zero_tag {fuel depth : Nat} {msg group : Option Nat} {l : Bytes} : fields (fuel + 1) depth msg group (0 :: l) = none := by
  rw [fields, varint_one (by decide)]
  simp

/-- The mark, read as fields of a message: a number, then a message of seventy bytes, in which the rest of the mark and five bytes are a number of
fixed length. -/
theorem marked_rejected {a : UInt8} {l rest : Bytes} (hl : l.length = 4) : isMessage (mark ++ (a :: (l ++ 0 :: rest))) = false := by
  obtain ⟨b1, b2, b3, b4, rfl⟩ : ∃ b1 b2 b3 b4, l = [b1, b2, b3, b4] := by
    match l, hl with
    | [b1, b2, b3, b4], _ => exact ⟨b1, b2, b3, b4, rfl⟩
  have hm : mark = [80, 69, 82, 70, 73, 76, 69, 50] := by decide
  unfold isMessage
  rw [hm]
  simp only [List.cons_append, List.nil_append, List.length_cons]
  rw [fields, varint_one (by decide)]
  simp only [show (80 : UInt8).toNat = 80 from rfl]
  rw [if_neg (by decide), if_pos (by decide), varint_one (by decide)]
  simp only
  rw [fields, varint_one (by decide)]
  simp only [show (82 : UInt8).toNat = 82 from rfl]
  rw [if_neg (by decide), if_neg (by decide), if_neg (by decide), if_pos (by decide), varint_one (by decide)]
  simp only [show (70 : UInt8).toNat = 70 from rfl]
  split
  · rfl
  · rw [show fieldKind (some 0) (82 % 2 ^ 32 / 8) = some (.message 3) by decide +kernel]
    simp only
    rw [if_neg (by decide), if_neg]
    · rfl
    · simp only [List.take_succ_cons]
      rw [fields, varint_one (by decide)]
      simp only [show (73 : UInt8).toNat = 73 from rfl]
      rw [if_neg (by decide), if_neg (by decide), if_pos (by decide)]
      simp only [skip, List.length_cons]
      rw [if_pos (by omega)]
      simp only [List.drop_succ_cons, List.drop_zero]
      rw [zero_tag]
      decide

/-- C114: a recording of a machine that stores the lowest byte first is never taken for a message. -/
theorem recording_not_message {cfg : Data.Cfg} {b : Bytes} {st : Data.St} (h : File.readBytes cfg b = some (some st)) (hm : b.take 8 = mark) :
    isMessage b = false := by
  rcases starts h with ⟨n, rest, hn, rfl⟩ | ⟨rest, rfl⟩
  · rcases hn with rfl | rfl
    · exact marked_rejected (a := 16) (l := [0, 0, 0, 0]) rfl
    · exact marked_rejected (a := 104) (l := [0, 0, 0, 0]) rfl
  · rw [List.take_left' (by decide)] at hm
    exact absurd hm (by decide)

/-- The mark of another machine, read as fields of a message: an unknown field of 69 bytes. -/
theorem foreign_fields {rest : Bytes} (fuel : Nat) : fields (fuel + 1) 100 (some 0) none (mark.reverse ++ rest) =
    if 63 ≤ rest.length then fields fuel 100 (some 0) none (rest.drop 63) else none := by
  have hm : mark.reverse = [50, 69, 76, 73, 70, 82, 69, 80] := by decide
  rw [hm]
  simp only [List.cons_append, List.nil_append]
  rw [fields, varint_one (by decide)]
  simp only [show (50 : UInt8).toNat = 50 from rfl]
  rw [if_neg (by decide), if_neg (by decide), if_neg (by decide), if_pos (by decide), varint_one (by decide)]
  simp only [show (69 : UInt8).toNat = 69 from rfl]
  rw [show fieldKind (some 0) (50 % 2 ^ 32 / 8) = none by decide +kernel]
  simp only [List.length_cons]
  by_cases h : 63 ≤ rest.length
  · rw [if_neg (by omega), if_pos h]
    simp only [List.drop_succ_cons]
  · rw [if_pos (Or.inr (by omega)), if_neg h]

/-- C114: a recording of any other machine is not taken for a message if its byte 71 is zero; in a file that is the lowest byte of the size of the
table of event types, which is zero in all files without this table. -/
theorem foreign_not_message_partial {cfg : Data.Cfg} {b : Bytes} {st : Data.St} (h : File.readBytes cfg b = some (some st)) (hz : b[71]? = some 0) :
    isMessage b = false := by
  rcases starts h with ⟨n, rest, hn, rfl⟩ | ⟨rest, rfl⟩
  · exact recording_not_message h (List.take_left' (by decide))
  · have hz : rest[63]? = some 0 := by
      rwa [List.getElem?_append_right (by decide)] at hz
    obtain ⟨hl, h0⟩ := List.getElem?_eq_some_iff.1 hz
    unfold isMessage
    rw [foreign_fields, if_pos (by omega), List.drop_eq_getElem_cons hl, h0, List.length_append,
      show mark.reverse.length + rest.length = (7 + rest.length) + 1 by simp [show mark.length = 8 by decide]; omega, zero_tag]
    rfl

/-! ## Cases -/

/-- A message with a time, an event with a header, and a text. -/
def exFields : Fields :=
  .cons 2 (.message (.cons 1 (.message (.cons 1 (.number 9) (.cons 3 (.number 300) .nil))) .nil))
    (.cons 3 (.number (2 ^ 64 - 1)) .nil)

example : exFields.Fits 100 0 ∧ exFields.encode = [18, 7, 10, 5, 8, 9, 24, 172, 2, 24, 255, 255, 255, 255, 255, 255, 255, 255, 255, 1] := by
  refine ⟨?_, by simp [exFields, Fields.encode, Val.encode, varint]⟩
  simp only [exFields, Fields.Fits, Val.Fits, and_true]
  refine ⟨⟨by simp [Fields.encode, Val.encode, varint], 39, by decide +kernel, by decide, ⟨by simp [Fields.encode, Val.encode, varint], 38, by decide +kernel, by decide, ⟨by decide, Or.inl (by decide +kernel)⟩, by decide, Or.inl (by decide +kernel)⟩⟩, by decide, Or.inl (by decide +kernel)⟩

/-- A recording of another machine with an attribute and a record; the size of the table of event types is 49 bytes, less than one entry has,
and the bits of features that are not looked at are not zero. -/
def foreignMessage : Bytes :=
  Meta.image true [.raw mark.reverse, Meta.u64F 104, Meta.u64F 112, Meta.u64F 104, Meta.u64F 112, Meta.u64F 216, Meta.u64F 8, Meta.u64F 104,
    Meta.u64F 49, Meta.u64F 0, .raw [50, 141, 1], .raw (List.replicate 21 0)] ++
  Meta.image true (Meta.attrFlds { size := 96, sampleType := 7 } ++ [Meta.u64F 0, Meta.u64F 0]) ++
  Meta.image true [Meta.u32F 68, Meta.u16F 0, Meta.u16F 8]

/-- C114 fails for recordings of other machines: one that can be read, with its attribute and its event, is taken for a message. -/
theorem foreign_message_violated :
    (File.readBytes { env := Serial.exEnv } foreignMessage).map (·.map fun s => (s.base.info.attrs.map (·.attr.sampleType), s.events.map (·.type))) =
      some (some ([7], [68])) ∧ isMessage foreignMessage = true :=
  ⟨by decide +kernel, by decide +kernel⟩

example : (∃ st, File.readBytes { env := Serial.exEnv } File.foreignFile = some (some st)) ∧ File.foreignFile[71]? = some 0 ∧
    isMessage File.foreignFile = false := by
  have h := File.foreign_features_violated
  obtain ⟨x, hx, hy⟩ := Option.map_eq_some_iff.1 h
  obtain ⟨st, rfl, -⟩ := Option.map_eq_some_iff.1 hy
  have h0 : File.foreignFile[71]? = some 0 := by decide +kernel
  exact ⟨⟨st, hx⟩, h0, foreign_not_message_partial hx h0⟩

end Verif.Tool
