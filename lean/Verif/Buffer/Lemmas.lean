import Verif.Buffer.Spec
import Verif.Util.Lemmas

namespace Verif.Buffer
open Verif.Util

/-- A reader whose position is inside its buffer. -/
def Reader.Ok (r : Reader) : Prop := r.size = r.buf.length ∧ r.off ≤ r.size ∧ r.buf.length < 2 ^ 63

theorem refuses_iff {r : Reader} (h : r.Ok) {n : Nat} (hn : n < 2 ^ 64) :
    r.refuses n = true ↔ ¬ r.off + n ≤ r.buf.length := by
  obtain ⟨h1, h2, h3⟩ := h
  unfold Reader.refuses addSz
  simp only [Bool.or_eq_true, decide_eq_true_eq]
  constructor
  · rintro (h | h)
    · omega
    · have := Nat.mod_le (r.off + n) (2 ^ 64); omega
  · intro h
    by_cases hs : r.off + n < 2 ^ 64
    · right; rw [Nat.mod_eq_of_lt hs]; omega
    · left; omega

theorem slice_some_iff {buf : List UInt8} {pos n : Nat} {d : List UInt8} :
    slice buf pos n = some d ↔ pos + n ≤ buf.length ∧ d = (buf.drop pos).take n := by
  unfold slice
  split <;> rename_i h
  · simp [h, eq_comm]
  · simp [h]

theorem slice_length {buf : List UInt8} {pos n : Nat} {d : List UInt8}
    (h : slice buf pos n = some d) : d.length = n := by
  obtain ⟨h1, rfl⟩ := slice_some_iff.mp h
  simp; omega

theorem readData_spec {r : Reader} (h : r.Ok) {n : Nat} (hn : n < 2 ^ 64) :
    r.readData n = match slice r.buf r.off n with
      | some d => some (some d, { r with off := r.off + n })
      | none => some (none, r) := by
  have hr := refuses_iff h hn
  unfold Reader.readData
  obtain ⟨h1, h2, h3⟩ := h
  by_cases hf : r.off + n ≤ r.buf.length
  · have : r.refuses n = false := by
      cases hh : r.refuses n
      · rfl
      · exact absurd hf (hr.mp hh)
    have ha : addSz r.off n = r.off + n := by unfold addSz; omega
    simp [this, fetch, slice, hf, ha]
  · have : r.refuses n = true := hr.mpr hf
    simp [this, slice, hf]

theorem readString_spec {r : Reader} (h : r.Ok) {n : Nat} (hn : n < 2 ^ 64) :
    r.readString n = match slice r.buf r.off n with
      | some d => some (some (d.takeWhile (· ≠ 0)), { r with off := r.off + n })
      | none => some (none, r) := by
  have hr := refuses_iff h hn
  unfold Reader.readString
  obtain ⟨h1, h2, h3⟩ := h
  by_cases hf : r.off + n ≤ r.buf.length
  · have : r.refuses n = false := by
      cases hh : r.refuses n
      · rfl
      · exact absurd hf (hr.mp hh)
    have ha : addSz r.off n = r.off + n := by unfold addSz; omega
    simp [this, fetch, slice, hf, ha]
  · have : r.refuses n = true := hr.mpr hf
    simp [this, slice, hf]

theorem maybeSwap_decode {d : List UInt8} (hd : d.length = 2 ∨ d.length = 4 ∨ d.length = 8)
    (cross : Bool) : maybeSwap d.length (leNat d) cross = some (decodeInt cross d) := by
  unfold maybeSwap decodeInt
  cases cross
  · simp
  · simpa using byteSwap_leNat (l := d) (Or.inr hd)

theorem readInt_spec {r : Reader} (h : r.Ok) {n : Nat} (hn : n = 2 ∨ n = 4 ∨ n = 8) :
    r.readInt n = match slice r.buf r.off n with
      | some d => some (some (decodeInt r.cross d), { r with off := r.off + n })
      | none => some (none, r) := by
  unfold Reader.readInt
  rw [readData_spec h (by omega)]
  cases hs : slice r.buf r.off n with
  | none => rfl
  | some d =>
    have hl := slice_length hs
    have := maybeSwap_decode (d := d) (by omega) r.cross
    rw [hl] at this
    simp [this]

theorem decodeInt_lt (cross : Bool) (d : List UInt8) : decodeInt cross d < 256 ^ d.length := by
  unfold decodeInt
  cases cross
  · exact leNat_lt d
  · simpa using leNat_lt d.reverse

/-- One call refines the specification. -/
theorem step_spec {r : Reader} (h : r.Ok) {op : ROp} (hop : op.wf) :
    r.step op = some ((specRead r.buf r.cross r.off op).1,
      { r with off := (specRead r.buf r.cross r.off op).2 }) ∧
    (specRead r.buf r.cross r.off op).2 ≤ r.buf.length := by
  have hok := h
  obtain ⟨h1, h2, h3⟩ := hok
  cases op with
  | seek o =>
    simp only [Reader.step, Reader.seekSet, specRead]
    by_cases hh : o ≤ r.buf.length
    · have : ¬ o > r.size := by omega
      simp [this, hh]
    · have : o > r.size := by omega
      simp [this, hh]; omega
  | data n =>
    simp only [Reader.step, specRead, readData_spec h hop]
    cases hs : slice r.buf r.off n with
    | none => simp [RRes.ofBytes]; omega
    | some d => have := (slice_some_iff.mp hs).1; simp [RRes.ofBytes]; omega
  | str n =>
    simp only [Reader.step, specRead, readString_spec h hop]
    cases hs : slice r.buf r.off n with
    | none => simp [RRes.ofBytes]; omega
    | some d => have := (slice_some_iff.mp hs).1; simp [RRes.ofBytes]; omega
  | dataStr n dest =>
    obtain ⟨hn, hd⟩ := hop
    simp only [Reader.step, specRead, Reader.readDataString]
    by_cases hz : n = 0
    · subst hz
      simp only [if_true, Option.map_some]
      have : slice r.buf r.off 0 = some [] := by simp [slice]; omega
      simp [this]; omega
    · simp only [hz, if_false]
      by_cases hm : max n dest.length > 2 ^ 63 - 1
      · have hm' : ¬ r.off + n ≤ r.buf.length := by omega
        simp only [hm, if_true, Option.map_some]
        simp [slice, hm']; omega
      · simp only [hm, if_false]
        rw [readData_spec h hn]
        cases hs : slice r.buf r.off n with
        | none => simp; omega
        | some d => have := (slice_some_iff.mp hs).1; simp; omega
  | u16 =>
    simp only [Reader.step, specRead, readInt_spec h (Or.inl rfl)]
    cases hs : slice r.buf r.off 2 with
    | none => simp [RRes.ofNum]; omega
    | some d => have := (slice_some_iff.mp hs).1; simp [RRes.ofNum]; omega
  | u32 =>
    simp only [Reader.step, specRead, readInt_spec h (Or.inr (Or.inl rfl))]
    cases hs : slice r.buf r.off 4 with
    | none => simp [RRes.ofNum]; omega
    | some d => have := (slice_some_iff.mp hs).1; simp [RRes.ofNum]; omega
  | u64 =>
    simp only [Reader.step, specRead, readInt_spec h (Or.inr (Or.inr rfl))]
    cases hs : slice r.buf r.off 8 with
    | none => simp [RRes.ofNum]; omega
    | some d => have := (slice_some_iff.mp hs).1; simp [RRes.ofNum]; omega
  | sizedStr =>
    simp only [Reader.step, specRead, Reader.readStringWithSize,
      readInt_spec h (Or.inr (Or.inl rfl))]
    cases hs : slice r.buf r.off 4 with
    | none => simp [RRes.ofBytes]; omega
    | some d =>
      have h4 := (slice_some_iff.mp hs).1
      have hl := slice_length hs
      have hlt := decodeInt_lt r.cross d
      rw [hl] at hlt
      have hok' : Reader.Ok { r with off := r.off + 4 } := ⟨h1, by simp; omega, h3⟩
      simp only [readString_spec hok' (show decodeInt r.cross d < 2 ^ 64 by omega)]
      cases hs2 : slice r.buf (r.off + 4) (decodeInt r.cross d) with
      | none => simp [RRes.ofBytes]; omega
      | some s => have := (slice_some_iff.mp hs2).1; simp [RRes.ofBytes]; omega

theorem run_spec {r : Reader} (h : r.Ok) (ops : List ROp) (hops : ∀ op ∈ ops, op.wf) :
    r.run ops = some ((specReads r.buf r.cross r.off ops).1,
      { r with off := (specReads r.buf r.cross r.off ops).2 }) ∧
    (specReads r.buf r.cross r.off ops).2 ≤ r.buf.length := by
  induction ops generalizing r with
  | nil => exact ⟨rfl, by have := h.1; have := h.2.1; simp [specReads]; omega⟩
  | cons op ops ih =>
    obtain ⟨hs, hp⟩ := step_spec h (hops op (by simp))
    have hok : Reader.Ok { r with off := (specRead r.buf r.cross r.off op).2 } :=
      ⟨h.1, by have := h.1; simp; omega, h.2.2⟩
    obtain ⟨h1, h2⟩ := ih hok (fun o ho => hops o (by simp [ho]))
    refine ⟨?_, h2⟩
    simp only [Reader.run, hs, h1, Option.map_some, specReads]

/-! ### Writing -/

/-- A writer on a buffer of its size; the position is an arbitrary `size_t`. -/
def Writer.Ok (w : Writer) : Prop := w.size = w.buf.length ∧ w.off < 2 ^ 64 ∧ w.buf.length < 2 ^ 63

theorem overwrite_length {buf src : List UInt8} {pos : Nat} (h : pos + src.length ≤ buf.length) :
    (overwrite buf pos src).length = buf.length := by
  simp [overwrite]; omega

theorem overwrite_append {buf a b : List UInt8} {pos : Nat}
    (h : pos + a.length + b.length ≤ buf.length) :
    overwrite (overwrite buf pos a) (pos + a.length) b = overwrite buf pos (a ++ b) := by
  unfold overwrite
  have hl : (buf.take pos ++ a).length = pos + a.length := by simp; omega
  rw [show List.take (pos + a.length) (buf.take pos ++ a ++ buf.drop (pos + a.length)) =
    buf.take pos ++ a by rw [← hl, List.take_left']; rfl]
  rw [show List.drop (pos + a.length + b.length) (buf.take pos ++ a ++ buf.drop (pos + a.length)) =
    buf.drop (pos + (a ++ b).length) by
      rw [List.drop_append, List.drop_eq_nil_of_le (by omega), hl, List.drop_drop, List.nil_append,
        List.length_append]
      congr 1; omega]
  simp

theorem writeData_spec {w : Writer} (h : w.Ok) {src : List UInt8} (hsrc : src.length < 2 ^ 63) :
    w.writeData src =
      if w.off + src.length ≤ w.buf.length ∧ w.off < w.buf.length then
        some (true, { w with buf := overwrite w.buf w.off src, off := w.off + src.length })
      else some (false, w) := by
  obtain ⟨h1, h2, h3⟩ := h
  unfold Writer.writeData
  by_cases hf : w.off + src.length ≤ w.buf.length ∧ w.off < w.buf.length
  · have ha : addSz w.off src.length = w.off + src.length := by unfold addSz; omega
    have : ¬ (addSz w.off src.length > w.size ∨ w.off ≥ w.size ∨ src.length > w.size) := by
      rw [ha]; omega
    simp only [this, if_false, hf, if_true, and_self]
    simp [store, hf.1, overwrite, ha]
  · have : addSz w.off src.length > w.size ∨ w.off ≥ w.size ∨ src.length > w.size := by
      unfold addSz
      by_cases hs : w.off + src.length < 2 ^ 64
      · rw [Nat.mod_eq_of_lt hs]; omega
      · omega
    simp only [this, if_true, hf, if_false]

theorem stringField_length (s : List UInt8) (n : Nat) : (stringField s n).length = n := by
  simp [stringField]; omega

theorem stringField_split (s : List UInt8) (n : Nat) :
    s.take (min s.length n) ++ List.replicate (n - min s.length n) 0 = stringField s n := by
  unfold stringField
  rcases Nat.le_total s.length n with h | h
  · rw [Nat.min_eq_left h, List.take_length, List.take_of_length_le h]
  · rw [Nat.min_eq_right h, Nat.sub_self, show n - s.length = 0 by omega]

theorem writeString_spec {w : Writer} (h : w.Ok) {str : List UInt8} {n : Nat}
    (hstr : str.length < 2 ^ 63) (hn : w.off + n < 2 ^ 64) :
    w.writeString str n =
      if w.off + n ≤ w.buf.length ∧ w.off < w.buf.length then
        some (true, { w with buf := overwrite w.buf w.off (stringField str n), off := w.off + n })
      else some (false, w) := by
  obtain ⟨h1, h2, h3⟩ := h
  have ha : addSz w.off n = w.off + n := by unfold addSz; omega
  have hl : (str.take (min str.length n)).length = min str.length n := by simp
  unfold Writer.writeString
  simp only [ha]
  by_cases hf : w.off + n ≤ w.buf.length
  · rw [writeData_spec ⟨h1, h2, h3⟩ (by rw [hl]; omega), hl]
    have hn' : ¬ w.off + n > w.size := by omega
    by_cases hlt : w.off < w.buf.length
    · have hc1 : w.off + min str.length n ≤ w.buf.length ∧ w.off < w.buf.length := by omega
      have hc2 : w.off + n ≤ w.buf.length ∧ w.off < w.buf.length := ⟨hf, hlt⟩
      simp only [hn', if_false, hc1, hc2, and_self, if_true]
      have hl2 : (overwrite w.buf w.off (str.take (min str.length n))).length = w.buf.length :=
        overwrite_length (by rw [hl]; omega)
      have hc3 : w.off + min str.length n + (n - min str.length n) ≤ w.buf.length := by omega
      rw [hl2]
      simp only [hc3, if_true, store, List.length_replicate, hl2]
      have := overwrite_append (buf := w.buf) (a := str.take (min str.length n))
        (b := List.replicate (n - min str.length n) 0) (pos := w.off)
        (by rw [hl, List.length_replicate]; omega)
      rw [stringField_split, hl] at this
      rw [← this]
      have ha2 : addSz (w.off + min str.length n) (n - min str.length n) = w.off + n := by
        unfold addSz; omega
      simp [overwrite, ha2]
    · have hc1 : ¬ (w.off + min str.length n ≤ w.buf.length ∧ w.off < w.buf.length) := by omega
      have hc2 : ¬ (w.off + n ≤ w.buf.length ∧ w.off < w.buf.length) := by omega
      simp only [hn', if_false, hc1, hc2]
  · have h1' : w.off + n > w.size := by omega
    have h2' : ¬ (w.off + n ≤ w.buf.length ∧ w.off < w.buf.length) := by omega
    simp only [h1', if_true, h2', if_false]

theorem alignedStringLength_eq {n : Nat} (h : n < 2 ^ 63) : alignedStringLength n = fieldSize n := by
  unfold alignedStringLength fieldSize addSz
  rw [Nat.mod_eq_of_lt (by omega), align8 _ (by omega)]
  congr 1
  omega

theorem writeStringWithSize_spec {w : Writer} (h : w.Ok) {src : List UInt8}
    (hsrc : src.length < 2 ^ 32 - 8) :
    w.writeStringWithSize src =
      if w.off + 4 + fieldSize src.length ≤ w.buf.length then
        some (true, { w with
          buf := overwrite w.buf w.off
            (toLE 4 (fieldSize src.length) ++ stringField src (fieldSize src.length)),
          off := w.off + (4 + fieldSize src.length) })
      else some (false, w) := by
  have hw := h
  obtain ⟨h1, h2, h3⟩ := h
  have hfs : fieldSize src.length < 2 ^ 32 ∧ 8 ≤ fieldSize src.length := by
    unfold fieldSize; omega
  unfold Writer.writeStringWithSize
  simp only [alignedStringLength_eq (show src.length < 2 ^ 63 by omega), Nat.mod_eq_of_lt hfs.1]
  have ha : addSz (fieldSize src.length) 4 = fieldSize src.length + 4 := by unfold addSz; omega
  rw [ha]
  unfold Writer.canWriteSize
  by_cases hf : w.off + 4 + fieldSize src.length ≤ w.buf.length
  · have hcan : addSz w.off (fieldSize src.length + 4) ≤ w.size := by unfold addSz; omega
    have hc : w.off + 4 ≤ w.buf.length ∧ w.off < w.buf.length := by omega
    rw [writeData_spec hw (by simp)]
    simp only [toLE_length, hc, and_self, if_true, hcan, decide_true, not_true, if_false]
    have hl : (overwrite w.buf w.off (toLE 4 (fieldSize src.length))).length = w.buf.length :=
      overwrite_length (by simp; omega)
    rw [writeString_spec (w := { w with buf := _, off := _ })
      ⟨by simp [hl, h1], by simp; omega, by simp [hl]; omega⟩ (by omega) (by simp; omega)]
    simp only [hl]
    have hc2 : w.off + 4 + fieldSize src.length ≤ w.buf.length ∧ w.off + 4 < w.buf.length := by omega
    simp only [hc2, and_self, if_true]
    have := overwrite_append (buf := w.buf) (a := toLE 4 (fieldSize src.length))
      (b := stringField src (fieldSize src.length)) (pos := w.off)
      (by rw [stringField_length, toLE_length]; omega)
    rw [toLE_length] at this
    rw [this, Nat.add_assoc]
  · simp only [hf, if_false]
    by_cases hcan : addSz w.off (fieldSize src.length + 4) ≤ w.size
    · -- only possible when the position is far outside: the sum wrapped
      have hbig : ¬ (w.off + 4 ≤ w.buf.length ∧ w.off < w.buf.length) := by
        intro hc
        apply hf
        have : addSz w.off (fieldSize src.length + 4) = w.off + (fieldSize src.length + 4) := by
          unfold addSz; omega
        omega
      rw [writeData_spec hw (by simp)]
      simp only [toLE_length, hbig, if_false, hcan, decide_true, not_true]
    · simp [hcan]

end Verif.Buffer
