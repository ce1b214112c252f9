import Verif.Buffer.Lemmas

/-! # Theorems C17, C18 and C19: buffer readers and writers -/

namespace Verif.Buffer
open Verif.Util

/-! ## C17 -/

/-- C17: every sequence of calls on a reader of a buffer runs without touching memory outside of the
buffer, returns what the cursor specification says, and leaves the cursor inside the buffer. The
buffer is limited to `2^63` bytes, the maximum size of an object; sizes and offsets are arbitrary
64-bit values. -/
theorem C17_refines_cursor (buf : List UInt8) (cross : Bool) (hbuf : buf.length < 2 ^ 63)
    (ops : List ROp) (hops : ∀ op ∈ ops, op.wf) :
    (Reader.new buf cross).run ops =
      some ((specReads buf cross 0 ops).1, ⟨buf, buf.length, (specReads buf cross 0 ops).2, cross⟩) ∧
    (specReads buf cross 0 ops).2 ≤ buf.length :=
  run_spec (r := Reader.new buf cross) ⟨rfl, by simp [Reader.new], hbuf⟩ ops hops

/-- C17: a call that fails does not move the position, except that a length-prefixed string whose
length could be read but whose bytes are not there leaves the position after the length. -/
theorem C17_failure_moves (buf : List UInt8) (cross : Bool) (pos : Nat) (op : ROp)
    (hfail : (specRead buf cross pos op).1 = .fail) :
    (specRead buf cross pos op).2 = pos ∨
      (op = .sizedStr ∧ (specRead buf cross pos op).2 = pos + 4) := by
  cases op with
  | seek o =>
    simp only [specRead] at hfail ⊢
    by_cases h : o ≤ buf.length
    · simp [h] at hfail
    · simp [h]
  | sizedStr =>
    simp only [specRead] at hfail ⊢
    (repeat' split at hfail) <;> simp_all
  | _ =>
    simp only [specRead] at hfail ⊢
    split at hfail <;> simp_all

/-- C17: a successful read of `n` bytes returns exactly the bytes at the old position and moves by
exactly `n`. -/
theorem C17_success_exact (buf : List UInt8) (cross : Bool) (pos n : Nat) (d : List UInt8)
    (h : (specRead buf cross pos (.data n)).1 = .bytes d) :
    (specRead buf cross pos (.data n)).2 = pos + n ∧ d.length = n ∧
    ∀ i, i < n → d[i]? = buf[pos + i]? := by
  simp only [specRead] at h ⊢
  cases hs : slice buf pos n with
  | none => rw [hs] at h; cases h
  | some d' =>
    rw [hs] at h
    cases h
    refine ⟨rfl, slice_length hs, fun i hi => ?_⟩
    obtain ⟨h1, rfl⟩ := slice_some_iff.mp hs
    rw [List.getElem?_take_of_lt hi, List.getElem?_drop]

/-- C17, as stated, is false for the length-prefixed string read: it fails and yet moves. -/
theorem C17_sized_string_violated :
    (Reader.new [5, 0, 0, 0, 65] false).run [.sizedStr, .data 1] =
      some ([.fail, .bytes [65]], ⟨[5, 0, 0, 0, 65], 5, 5, false⟩) := by decide +kernel

example : (Reader.new [1, 2, 3, 4, 5] true).run
    [.u16, .data (2 ^ 64 - 1), .seek 3, .u32, .str 2, .data 1, .data 0, .seek 6] =
    some ([.num 0x0102, .fail, .ok, .fail, .bytes [4, 5], .fail, .bytes [], .fail],
      ⟨[1, 2, 3, 4, 5], 5, 5, true⟩) := by decide +kernel

/-! ## C18 -/

/-- C18, one call, partial (excluded by `WOp.wf`: `WriteString` with `position + size ≥ 2^64`, see
`C18_writeString_violated`, and strings of almost `2^32` bytes): no memory outside the buffer is
touched, and the call has exactly the effect of `specWrite`: a call that succeeds replaces exactly the
addressed bytes by the bytes it was given and advances by their number; one that fails changes neither
the buffer nor the position; a write that fits and does not start at the end succeeds. -/
theorem C18_step_partial (w : Writer) (hw : w.Ok) (op : WOp) (hop : op.wf w.off) :
    w.step op = some ((specWrite w.buf w.off op).1,
      { w with buf := (specWrite w.buf w.off op).2.1, off := (specWrite w.buf w.off op).2.2 }) ∧
    (specWrite w.buf w.off op).2.1.length = w.buf.length ∧
    (specWrite w.buf w.off op).2.2 < 2 ^ 64 := by
  have hok := hw
  obtain ⟨h1, h2, h3⟩ := hok
  cases op with
  | seek o => exact ⟨rfl, rfl, hop⟩
  | data s =>
    simp only [Writer.step, writeData_spec hw hop, specWrite, WOp.bytes]
    by_cases hc : w.off + s.length ≤ w.buf.length ∧ w.off < w.buf.length
    · simp only [hc, and_self, if_true, true_and]
      exact ⟨overwrite_length hc.1, by omega⟩
    · simp only [hc, if_false, true_and]
      exact h2
  | str s n =>
    simp only [Writer.step, writeString_spec hw hop.1 hop.2, specWrite, WOp.bytes,
      stringField_length]
    by_cases hc : w.off + n ≤ w.buf.length ∧ w.off < w.buf.length
    · simp only [hc, and_self, if_true, true_and]
      exact ⟨overwrite_length (by rw [stringField_length]; exact hc.1), by omega⟩
    · simp only [hc, if_false, true_and]
      exact h2
  | sizedStr s =>
    have hl4 : (toLE 4 (fieldSize s.length) ++ stringField s (fieldSize s.length)).length =
        4 + fieldSize s.length := by simp [stringField_length]
    simp only [Writer.step, writeStringWithSize_spec hw hop, specWrite, WOp.bytes, hl4]
    by_cases hc : w.off + 4 + fieldSize s.length ≤ w.buf.length
    · have hc' : w.off + (4 + fieldSize s.length) ≤ w.buf.length ∧ w.off < w.buf.length := by omega
      simp only [hc, hc', and_self, if_true, true_and]
      exact ⟨overwrite_length (by rw [hl4]; omega), by omega⟩
    · have hc' : ¬ (w.off + (4 + fieldSize s.length) ≤ w.buf.length ∧ w.off < w.buf.length) := by
        omega
      simp only [hc, hc', if_false, true_and]
      exact h2

/-- C18, sequences of calls, partial in the same way: every sequence of calls runs inside the buffer
and has exactly the specified effect. -/
theorem C18_run_partial (w : Writer) (hw : w.Ok) (ops : List WOp) (hops : WfFrom w.buf w.off ops) :
    w.run ops = some ((specWrites w.buf w.off ops).1,
      { w with buf := (specWrites w.buf w.off ops).2.1, off := (specWrites w.buf w.off ops).2.2 }) ∧
    (specWrites w.buf w.off ops).2.1.length = w.buf.length := by
  induction ops generalizing w with
  | nil => exact ⟨rfl, rfl⟩
  | cons op ops ih =>
    obtain ⟨hs, hl, ho⟩ := C18_step_partial w hw op hops.1
    obtain ⟨h1, h2, h3⟩ := hw
    have h := ih { w with buf := (specWrite w.buf w.off op).2.1, off := (specWrite w.buf w.off op).2.2 }
      ⟨by simp [hl, h1], ho, by simp [hl]; omega⟩ hops.2
    simp only [Writer.run, hs, h.1, Option.map_some, specWrites]
    exact ⟨trivial, h.2.trans hl⟩

example : WfFrom [0, 0, 0, 0] 0 [.seek (2 ^ 64 - 1), .data [1, 2], .seek 1, .str [65] 3] := by
  simp [WfFrom, WOp.wf, specWrite, WOp.bytes]

/-- A byte outside of the written range keeps its value. -/
theorem C18_untouched (buf src : List UInt8) (pos i : Nat) (h : pos + src.length ≤ buf.length)
    (hi : i < pos ∨ pos + src.length ≤ i) : (overwrite buf pos src)[i]? = buf[i]? := by
  unfold overwrite
  rcases hi with hi | hi
  · rw [List.append_assoc, List.getElem?_append_left (by simp; omega),
      List.getElem?_take_of_lt hi]
  · rw [List.getElem?_append_right (by simp; omega), List.getElem?_drop]
    congr 1
    simp; omega

/-- The written range holds the written bytes. -/
theorem C18_written (buf src : List UInt8) (pos i : Nat) (h : pos + src.length ≤ buf.length)
    (hi : i < src.length) : (overwrite buf pos src)[pos + i]? = src[i]? := by
  unfold overwrite
  rw [List.append_assoc, List.getElem?_append_right (by simp; omega),
    List.getElem?_append_left (by simp; omega)]
  congr 1
  simp; omega

example : (Writer.new [0, 0, 0, 0, 0, 0, 0, 0]).run
    [.data [1, 2], .str [65] 3, .data [9, 9, 9, 9], .seek (2 ^ 64 - 1), .data [7, 7], .seek 7,
      .data [5]] =
    some ([true, true, false, true, false, true, true], ⟨[1, 2, 65, 0, 0, 0, 0, 5], 8, 8⟩) := by
  decide +kernel

/-- C18 is false in general: writing a two-byte string into a field of `2^64 - 2` bytes at position
4 of an 8-byte buffer passes the size check because `position + size` wraps, and the padding is then
written outside of the buffer. -/
theorem C18_writeString_violated :
    ∃ w : Writer, w.Ok ∧ w.step (.str [65, 66] (2 ^ 64 - 2)) = none :=
  ⟨⟨[0, 0, 0, 0, 0, 0, 0, 0], 8, 4⟩, ⟨rfl, by decide, by decide⟩, by decide +kernel⟩

/-! ## C19 -/

theorem encodeInt_length (f : Bool) (n v : Nat) : (encodeInt f n v).length = n := by
  cases f <;> simp [encodeInt]

theorem decode_encode (f : Bool) {n v : Nat} (h : v < 256 ^ n) :
    decodeInt f (encodeInt f n v) = v := by
  cases f <;> simp [decodeInt, encodeInt, leNat_toLE_of_lt h]

theorem slice_mid (a b c : List UInt8) : slice (a ++ b ++ c) a.length b.length = some b := by
  simp [slice]

theorem fieldSize_bounds (n : Nat) : n < fieldSize n ∧ fieldSize n ≤ n + 8 := by
  unfold fieldSize; omega

theorem takeWhile_stringField {s : List UInt8} (h : (0 : UInt8) ∉ s) {n : Nat} (hn : s.length < n) :
    (stringField s n).takeWhile (· ≠ 0) = s := by
  unfold stringField
  rw [List.take_of_length_le (by omega), List.takeWhile_append_of_pos
    (by intro a ha; simp only [ne_eq, decide_eq_true_eq]; rintro rfl; exact h ha)]
  obtain ⟨k, hk⟩ : ∃ k, n - s.length = k + 1 := ⟨n - s.length - 1, by omega⟩
  simp [hk, List.replicate_succ]

/-- Reading one item at the position where its representation starts. -/
theorem read_item (f : Bool) (it : Item) (hit : it.wf) (a c : List UInt8) :
    specRead (a ++ it.encode f ++ c) f a.length it.read =
      (it.result, a.length + (it.encode f).length) := by
  have hs := slice_mid a (it.encode f) c
  cases it with
  | u16 v =>
    simp only [Item.encode, encodeInt_length] at hs ⊢
    simp only [Item.read, specRead, hs, decode_encode f (n := 2) (v := v) hit, Item.result]
  | u32 v =>
    simp only [Item.encode, encodeInt_length] at hs ⊢
    simp only [Item.read, specRead, hs, decode_encode f (n := 4) (v := v) hit, Item.result]
  | u64 v =>
    simp only [Item.encode, encodeInt_length] at hs ⊢
    simp only [Item.read, specRead, hs, decode_encode f (n := 8) (v := v) hit, Item.result]
  | str s =>
    obtain ⟨h0, hlen⟩ := hit
    have hb := fieldSize_bounds s.length
    have hs1 := slice_mid a (encodeInt f 4 (fieldSize s.length))
      (stringField s (fieldSize s.length) ++ c)
    have hs2 := slice_mid (a ++ encodeInt f 4 (fieldSize s.length))
      (stringField s (fieldSize s.length)) c
    simp only [encodeInt_length, List.length_append, stringField_length] at hs1 hs2
    simp only [Item.read, specRead, Item.encode, List.append_assoc] at *
    rw [hs1]
    simp only [decode_encode f (n := 4) (v := fieldSize s.length) (by omega), hs2, Item.result,
      takeWhile_stringField h0 hb.1, List.length_append, encodeInt_length, stringField_length,
      Nat.add_assoc]

theorem reads_items (f : Bool) (items : List Item) (hit : ∀ it ∈ items, it.wf) (a c : List UInt8) :
    specReads (a ++ encodeAll f items ++ c) f a.length (items.map Item.read) =
      (items.map Item.result, a.length + (encodeAll f items).length) := by
  induction items generalizing a with
  | nil => simp [specReads, encodeAll]
  | cons it t ih =>
    have h1 := read_item f it (hit it (by simp)) a (encodeAll f t ++ c)
    have h2 := ih (fun i hi => hit i (by simp [hi])) (a ++ it.encode f)
    have e : encodeAll f (it :: t) = it.encode f ++ encodeAll f t := by simp [encodeAll]
    rw [e]
    simp only [List.append_assoc, List.map_cons, specReads] at *
    rw [h1]
    simp only [List.length_append] at h2
    simp only [h2, List.length_append, Nat.add_assoc]

/-- C19, reading: a buffer that holds the representation of a sequence of items, native with
`cross = false` or of the opposite byte order with `cross = true`, is read back item by item. -/
theorem C19_read_back (foreign : Bool) (items : List Item) (hit : ∀ it ∈ items, it.wf)
    (rest : List UInt8) (hlen : (encodeAll foreign items ++ rest).length < 2 ^ 63) :
    ∃ r, (Reader.new (encodeAll foreign items ++ rest) foreign).run (items.map Item.read) =
      some (items.map Item.result, r) ∧ r.off = (encodeAll foreign items).length := by
  have hwf : ∀ op ∈ items.map Item.read, op.wf := by
    simp only [List.mem_map]
    rintro op ⟨it, _, rfl⟩
    cases it <;> simp [Item.read, ROp.wf]
  have h := (C17_refines_cursor (encodeAll foreign items ++ rest) foreign hlen _ hwf).1
  have h2 := reads_items foreign items hit [] rest
  simp only [List.nil_append, List.length_nil] at h2
  rw [h2] at h
  exact ⟨_, h, by simp⟩

theorem write_item (w : Writer) (hw : w.Ok) (it : Item) (hit : it.wf)
    (hfit : w.off + (it.encode false).length ≤ w.buf.length) :
    w.step it.write = some (true, { w with
      buf := overwrite w.buf w.off (it.encode false),
      off := w.off + (it.encode false).length }) := by
  cases it with
  | u16 v =>
    simp only [Item.encode, encodeInt_length] at hfit
    simp only [Item.write, Writer.step, Item.encode, encodeInt]
    rw [writeData_spec hw (by simp), if_pos (by rw [toLE_length]; omega)]; rfl
  | u32 v =>
    simp only [Item.encode, encodeInt_length] at hfit
    simp only [Item.write, Writer.step, Item.encode, encodeInt]
    rw [writeData_spec hw (by simp), if_pos (by rw [toLE_length]; omega)]; rfl
  | u64 v =>
    simp only [Item.encode, encodeInt_length] at hfit
    simp only [Item.write, Writer.step, Item.encode, encodeInt]
    rw [writeData_spec hw (by simp), if_pos (by rw [toLE_length]; omega)]; rfl
  | str s =>
    simp only [Item.encode, encodeInt_length, List.length_append, stringField_length] at hfit
    simp only [Item.write, Writer.step]
    rw [writeStringWithSize_spec hw hit.2, if_pos (by omega)]
    simp [Item.encode, encodeInt, stringField_length]

theorem overwrite_nil (buf : List UInt8) (pos : Nat) : overwrite buf pos [] = buf := by
  simp [overwrite]

theorem write_items (w : Writer) (hw : w.Ok) (items : List Item) (hit : ∀ it ∈ items, it.wf)
    (hfit : w.off + (encodeAll false items).length ≤ w.buf.length) :
    w.run (items.map Item.write) = some (items.map (fun _ => true), { w with
      buf := overwrite w.buf w.off (encodeAll false items),
      off := w.off + (encodeAll false items).length }) := by
  induction items generalizing w with
  | nil => simp [Writer.run, encodeAll, overwrite_nil]
  | cons it t ih =>
    have e : encodeAll false (it :: t) = it.encode false ++ encodeAll false t := by
      simp [encodeAll]
    rw [e, List.length_append] at hfit
    have hs := write_item w hw it (hit it (by simp)) (by omega)
    have hl := overwrite_length (buf := w.buf) (pos := w.off) (src := it.encode false) (by omega)
    obtain ⟨h1, h2, h3⟩ := hw
    have h := ih { w with buf := overwrite w.buf w.off (it.encode false),
                          off := w.off + (it.encode false).length }
      ⟨by simp [hl, h1], by simp; omega, by simp [hl]; omega⟩ (fun i hi => hit i (by simp [hi]))
      (by simp [hl]; omega)
    simp only [List.map_cons, Writer.run, hs, h, Option.map_some]
    rw [overwrite_append (by omega), e, List.length_append, Nat.add_assoc]

/-- C19, writing: when there is room, the calls that write a sequence of items all succeed and store
exactly its native representation. -/
theorem C19_written (w : Writer) (hw : w.Ok) (items : List Item) (hit : ∀ it ∈ items, it.wf)
    (hfit : w.off + (encodeAll false items).length ≤ w.buf.length) :
    ∃ w', w.run (items.map Item.write) = some (items.map (fun _ => true), w') ∧
      w'.buf = overwrite w.buf w.off (encodeAll false items) :=
  ⟨_, write_items w hw items hit hfit, rfl⟩

/-- C19: items written to a fresh buffer that has room for them are read back unchanged from that
buffer. -/
theorem C19_roundtrip (buf : List UInt8) (hbuf : buf.length < 2 ^ 63) (items : List Item)
    (hit : ∀ it ∈ items, it.wf) (hfit : (encodeAll false items).length ≤ buf.length) :
    ∃ w r, (Writer.new buf).run (items.map Item.write) = some (items.map (fun _ => true), w) ∧
      (Reader.new w.buf false).run (items.map Item.read) = some (items.map Item.result, r) := by
  have hw : (Writer.new buf).Ok := ⟨rfl, by simp [Writer.new], hbuf⟩
  have h := write_items (Writer.new buf) hw items hit (by simpa [Writer.new] using hfit)
  obtain ⟨r, hr, _⟩ := C19_read_back false items hit (buf.drop (encodeAll false items).length)
    (by simp; omega)
  refine ⟨_, r, h, ?_⟩
  have e : overwrite (Writer.new buf).buf (Writer.new buf).off (encodeAll false items) =
      encodeAll false items ++ buf.drop (encodeAll false items).length := by
    simp [overwrite, Writer.new]
  rw [e]
  exact hr

example : ∀ it ∈ [Item.u32 7, .str (ascii "abc"), .u16 65535, .str [], .u64 (2 ^ 64 - 1)], it.wf := by
  simp [Item.wf]; decide +kernel

example : encodeAll true [.u32 7, .str (ascii "abc")] =
    [0, 0, 0, 7, 0, 0, 0, 8, 97, 98, 99, 0, 0, 0, 0, 0] := by decide +kernel

end Verif.Buffer
