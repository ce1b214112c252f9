import Verif.Meta.Model
import Verif.Sample.Safe
import Verif.Attr.Props2

/-! # C46: reading metadata touches nothing outside of the file -/

namespace Verif.Meta
open Verif.Buffer Verif.Event Verif.Sample Verif.Attr Verif.Names Verif.Text Verif.Util

/-- `Safe`, and what is read has a property. -/
def SafeP {α : Type} (p : P α) (Q : α → Prop) : Prop :=
  ∀ r : Reader, r.Ok → ∃ x r', p r = some (x, r') ∧ r'.Ok ∧ r'.buf = r.buf ∧ r'.cross = r.cross ∧ ∀ a, x = some a → Q a

theorem SafeP.safe {α : Type} {p : P α} {Q : α → Prop} (h : SafeP p Q) : Safe p := fun r hr => by
  obtain ⟨x, r', a, b, c, d, _⟩ := h r hr; exact ⟨x, r', a, b, c, d⟩

theorem SafeP.of {α : Type} {p : P α} (h : Safe p) : SafeP p fun _ => True := fun r hr => by
  obtain ⟨x, r', a, b, c, d⟩ := h r hr; exact ⟨x, r', a, b, c, d, fun _ _ => trivial⟩

theorem SafeP.mono {α : Type} {p : P α} {Q R : α → Prop} (h : SafeP p Q) (hq : ∀ a, Q a → R a) : SafeP p R := fun r hr => by
  obtain ⟨x, r', a, b, c, d, e⟩ := h r hr; exact ⟨x, r', a, b, c, d, fun a ha => hq a (e a ha)⟩

theorem SafeP.pure {α : Type} {Q : α → Prop} {a : α} (h : Q a) : SafeP (pure a : P α) Q :=
  fun r hr => ⟨some a, r, rfl, hr, rfl, rfl, fun b hb => by cases hb; exact h⟩

theorem SafeP.fail {α : Type} {Q : α → Prop} : SafeP (fail : P α) Q :=
  fun r hr => ⟨none, r, rfl, hr, rfl, rfl, fun b hb => by cases hb⟩

theorem SafeP.bind {α β : Type} {p : P α} {f : α → P β} {Q : α → Prop} {R : β → Prop} (hp : SafeP p Q)
    (hf : ∀ a, Q a → SafeP (f a) R) : SafeP (p >>= f) R := by
  intro r hr
  obtain ⟨x, r1, e1, ok1, b1, c1, hq⟩ := hp r hr
  rw [bind_def, e1]
  cases x with
  | none => exact ⟨none, r1, rfl, ok1, b1, c1, by simp⟩
  | some a =>
    obtain ⟨y, r2, e2, ok2, b2, c2, h2⟩ := hf a (hq a rfl) r1 ok1
    exact ⟨y, r2, e2, ok2, b2.trans b1, c2.trans c1, h2⟩

theorem SafeP.ite {α : Type} {c : Prop} [Decidable c] {p q : P α} {Q : α → Prop} (hp : c → SafeP p Q) (hq : ¬ c → SafeP q Q) :
    SafeP (if c then p else q) Q := by
  split
  · exact hp ‹_›
  · exact hq ‹_›

theorem safe_remaining : Safe remaining := fun r hr => ⟨_, r, rfl, hr, rfl, rfl⟩
theorem safe_dataSize : Safe dataSize := fun r hr => ⟨_, r, rfl, hr, rfl, rfl⟩

theorem safe_sizedStr : Safe sizedStr := by
  intro r hr
  unfold sizedStr Reader.readStringWithSize
  obtain ⟨x, r1, e1, ok1, b1, c1, hq⟩ := int_bound (n := 4) (by omega) r hr
  rw [e1]
  cases x with
  | none => exact ⟨none, r1, rfl, ok1, b1, c1⟩
  | some n =>
    have hn : n < 2 ^ 64 := by have := hq n rfl; omega
    simp only
    rw [readString_spec ok1 hn]
    cases hs : slice r1.buf r1.off n with
    | none => exact ⟨none, r1, rfl, ok1, b1, c1⟩
    | some d =>
      have hd := (slice_some_iff.mp hs).1
      exact ⟨some _, _, rfl, ⟨ok1.1, by have := ok1.1; show r1.off + n ≤ r1.size; omega, ok1.2.2⟩, b1, c1⟩

theorem bswap16_lt (x : Nat) : bswap16 x < 2 ^ 16 := by unfold bswap16; omega

theorem field2_lt (cross : Bool) (d : Bytes) (off : Nat) : field cross d off 2 < 2 ^ 16 := by
  unfold field
  have h : leNat ((d.drop off).take 2) < 2 ^ 16 := by
    have h1 := leNat_lt ((d.drop off).take 2)
    have h2 : ((d.drop off).take 2).length ≤ 2 := by rw [List.length_take]; omega
    exact Nat.lt_of_lt_of_le h1 (Nat.le_trans (Nat.pow_le_pow_right (by omega) h2) (by decide))
  cases cross
  · exact h
  · exact bswap16_lt _

theorem safe_header : SafeP readEventHeader fun h => 8 ≤ h.size ∧ h.size < 2 ^ 16 := by
  refine SafeP.bind (SafeP.of (safe_data (by omega))) fun d _ => SafeP.bind (SafeP.of safe_isCross) fun cross _ => ?_
  refine SafeP.ite (fun _ => SafeP.fail) fun h1 => SafeP.bind (SafeP.of safe_remaining) fun rem _ => ?_
  exact SafeP.ite (fun _ => SafeP.fail) fun _ => SafeP.pure ⟨by simp only at h1 ⊢; omega, field2_lt _ _ _⟩

theorem safe_fileSection : Safe readFileSection := by
  refine Safe.bind (safe_data (by omega)) fun d => Safe.bind safe_isCross fun cross => Safe.bind safe_dataSize fun n => ?_
  exact Safe.ite (fun _ => Safe.fail) fun _ => Safe.ite (fun _ => Safe.fail) fun _ => Safe.pure _

theorem safe_buildId (md5 : Bytes → Nat) {h : Header} (hs : h.size < 2 ^ 16) : Safe (readBuildId md5 h) := by
  unfold readBuildId
  refine Safe.ite (fun _ => Safe.fail) fun _ => Safe.bind (safe_data (by omega)) fun d => Safe.bind safe_isCross fun cross => ?_
  refine Safe.ite (fun _ => Safe.fail) fun _ => Safe.ite (fun _ => Safe.fail) fun _ => ?_
  split
  · exact Safe.fail
  · exact Safe.pure _

theorem safe_buildIds (md5 : Bytes → Nat) : ∀ fuel size, size ≤ fuel → Safe (readBuildIds md5 fuel size)
  | _, 0, _ => by rw [readBuildIds.eq_def]; exact Safe.pure _
  | 0, size + 1, h => by omega
  | fuel + 1, size + 1, h => by
    rw [readBuildIds.eq_def]
    refine (SafeP.bind safe_header fun hd hq => ?_ : SafeP _ fun _ => True).safe
    refine SafeP.ite (fun _ => SafeP.fail) fun h1 => SafeP.of ?_
    refine Safe.bind (safe_buildId md5 hq.2) fun b => Safe.bind (safe_buildIds md5 fuel _ (by omega)) fun _ => Safe.pure _

theorem safe_single (max : Nat) : Safe (readSingle max) := Safe.ite (fun _ => Safe.pure _) fun _ => safe_sizedStr

theorem safe_tokens (max : Nat) : ∀ n k, Safe (readTokens max n k)
  | 0, _ => Safe.pure _
  | n + 1, _ => Safe.ite (fun _ => Safe.bind safe_tell fun _ => Safe.bind (safe_single _) fun _ => Safe.bind safe_tell fun _ =>
      Safe.bind (safe_tokens max n _) fun _ => Safe.pure _) fun _ => Safe.pure _

/-- `ReadUint32` and `ReadUint64`. -/
def anyInt (n : Nat) : P Nat := fun r => r.readInt n

/-- Integers are read until the file ends or the section does. -/
theorem safe_words {n : Nat} (hn : n = 4 ∨ n = 8) : ∀ (fuel size : Nat) (r : Reader), r.Ok → r.size < fuel + r.off →
    ∃ x r', readWords (anyInt n) n fuel size r = some (x, r') ∧ r'.Ok ∧ r'.buf = r.buf ∧ r'.cross = r.cross
  | fuel, 0, r, hr, _ => by rw [readWords.eq_def]; exact ⟨_, r, rfl, hr, rfl, rfl⟩
  | 0, size + 1, r, hr, h => by have := hr.2.1; omega
  | fuel + 1, size + 1, r, hr, h => by
    rw [readWords.eq_def]
    simp only
    rw [bind_def, show anyInt n r = _ from readInt_spec hr (by omega)]
    cases hs : slice r.buf r.off n with
    | none => exact ⟨none, r, rfl, hr, rfl, rfl⟩
    | some d =>
      have hd := (slice_some_iff.mp hs).1
      have ok : ({ r with off := r.off + n } : Reader).Ok := ⟨hr.1, by have := hr.1; show r.off + n ≤ r.size; omega, hr.2.2⟩
      obtain ⟨x, r', e, a, b, c⟩ := safe_words hn fuel ((size + 1 + 2 ^ 64 - n) % 2 ^ 64) { r with off := r.off + n } ok
        (by show r.size < fuel + (r.off + n); omega)
      simp only
      rw [bind_def, e]
      cases x with
      | none => exact ⟨none, r', rfl, a, b, c⟩
      | some l => exact ⟨_, r', rfl, a, b, c⟩

theorem safe_uint32 (st : St) (t size : Nat) : SafeP (readUint32 st t size) fun st' => st'.info.mask = st.info.mask := by
  intro r hr
  obtain ⟨x, r', e, a, b, c⟩ := safe_words (n := 4) (by omega) (r.size + 1) size r hr (by omega)
  unfold readUint32
  rw [bind_def]
  rw [show readWords u32 4 (r.size + 1) size r = some (x, r') from e]
  cases x with
  | none => exact ⟨none, r', rfl, a, b, c, by simp⟩
  | some l =>
    by_cases h : l = []
    · simp only; rw [if_pos h]; exact ⟨none, r', rfl, a, b, c, by simp⟩
    · simp only; rw [if_neg h]; exact ⟨_, r', rfl, a, b, c, fun s hs => by cases hs; rfl⟩

theorem safe_uint64 (st : St) (t size : Nat) : SafeP (readUint64 st t size) fun st' => st'.info.mask = st.info.mask := by
  intro r hr
  obtain ⟨x, r', e, a, b, c⟩ := safe_words (n := 8) (by omega) (r.size + 1) size r hr (by omega)
  unfold readUint64
  rw [bind_def]
  rw [show readWords u64 8 (r.size + 1) size r = some (x, r') from e]
  cases x with
  | none => exact ⟨none, r', rfl, a, b, c, by simp⟩
  | some l =>
    by_cases h : l = []
    · simp only; rw [if_pos h]; exact ⟨none, r', rfl, a, b, c, by simp⟩
    · simp only; rw [if_neg h]; exact ⟨_, r', rfl, a, b, c, fun s hs => by cases hs; rfl⟩

theorem safe_addAttr (st : St) (f : FileAttr) (cross : Bool) :
    SafeP (addAttr st f cross) fun st' => st'.info.mask = st.info.mask := by
  unfold addAttr
  exact SafeP.ite (fun _ => SafeP.pure rfl) fun _ => SafeP.fail

theorem safe_eventDescs : ∀ (n : Nat) (st : St), SafeP (readEventDescs n st) fun st' => st'.info.mask = st.info.mask
  | 0, st => SafeP.pure rfl
  | n + 1, st => by
    rw [readEventDescs.eq_def]
    refine SafeP.bind (SafeP.of read_attr_safe) fun a _ => SafeP.bind (SafeP.of safe_u32) fun k _ =>
      SafeP.bind (SafeP.of safe_sizedStr) fun name _ => SafeP.bind (SafeP.of (safe_u64.times k)) fun ids _ =>
      SafeP.bind (SafeP.of safe_isCross) fun cross _ => SafeP.bind (safe_addAttr _ _ _) fun st' h => ?_
    exact (safe_eventDescs n _).mono fun s hs => hs.trans h

theorem safe_hybrid_or {type : Nat} (h : type ≠ 30) (md5 : Bytes → Nat) (st : St) {size : Nat} (hs : size < 2 ^ 64) :
    SafeP (readFeature md5 st type size) fun st' => st'.info.mask = st.info.mask := by
  unfold readFeature
  have single : ∀ f : Bytes → St, (∀ s, (f s).info.mask = st.info.mask) →
      SafeP (readSingle size >>= fun s => pure (f s)) fun st' => st'.info.mask = st.info.mask :=
    fun f hf => SafeP.bind (SafeP.of (safe_single size)) fun s _ => SafeP.pure (hf s)
  split
  · refine SafeP.bind (SafeP.of (safe_data hs)) fun d _ => SafeP.pure ?_
    split <;> rfl
  · exact SafeP.bind (SafeP.of (safe_buildIds md5 size size (Nat.le_refl _))) fun l _ => SafeP.pure rfl
  · exact single _ fun _ => rfl
  · exact single _ fun _ => rfl
  · exact single _ fun _ => rfl
  · exact single _ fun _ => rfl
  · exact safe_uint32 st 7 size
  · exact single _ fun _ => rfl
  · exact single _ fun _ => rfl
  · exact safe_uint64 st 10 size
  · exact SafeP.bind (SafeP.of safe_u32) fun n _ => SafeP.bind (SafeP.of (safe_tokens size n 4)) fun l _ => SafeP.pure rfl
  · refine SafeP.bind (SafeP.of safe_u32) fun n _ => SafeP.ite (fun _ => SafeP.fail) fun _ =>
      SafeP.bind (SafeP.of safe_u32) fun _ _ => ?_
    exact (safe_eventDescs n _).mono fun s hs => hs
  · refine SafeP.bind (SafeP.of safe_tell) fun o _ => SafeP.bind (SafeP.of safe_u32) fun n _ => SafeP.ite (fun _ => SafeP.fail)
      fun _ => SafeP.bind (SafeP.of (safe_sizedStr.times n)) fun cores _ => SafeP.bind (SafeP.of safe_u32) fun m _ =>
      SafeP.ite (fun _ => SafeP.fail) fun _ => SafeP.bind (SafeP.of (safe_sizedStr.times m)) fun threads _ =>
      SafeP.bind (SafeP.of safe_tell) fun now _ => ?_
    refine SafeP.bind (Q := fun _ => True) (SafeP.ite (fun _ => SafeP.ite (fun _ => SafeP.fail) fun _ => SafeP.of (Safe.times ?_ _))
      fun _ => SafeP.pure trivial) fun cpus _ => SafeP.pure rfl
    exact Safe.bind safe_u32 fun _ => Safe.bind safe_u32 fun _ => Safe.pure _
  · refine SafeP.bind (SafeP.of safe_u32) fun n _ => SafeP.bind (SafeP.of (Safe.times ?_ n)) fun l _ => SafeP.pure rfl
    exact Safe.bind safe_u32 fun _ => Safe.bind safe_u64 fun _ => Safe.bind safe_u64 fun _ => Safe.bind safe_sizedStr fun _ =>
      Safe.pure _
  · exact SafeP.pure rfl
  · refine SafeP.bind (SafeP.of safe_u32) fun n _ => SafeP.ite (fun _ => SafeP.fail) fun _ =>
      SafeP.bind (SafeP.of (Safe.times ?_ n)) fun l _ => SafeP.pure rfl
    exact Safe.bind safe_u32 fun _ => Safe.bind safe_sizedStr fun _ => Safe.pure _
  · refine SafeP.bind (SafeP.of safe_u32) fun n _ => SafeP.bind (SafeP.of (Safe.times ?_ n)) fun l _ => SafeP.pure rfl
    exact Safe.bind safe_sizedStr fun _ => Safe.bind safe_u32 fun _ => Safe.bind safe_u32 fun _ => Safe.pure _
  · exact absurd rfl h
  · exact SafeP.pure rfl

theorem or_bit {m t : Nat} (h : m.testBit t = true) : m ||| 2 ^ t = m := by
  apply Nat.eq_of_testBit_eq
  intro j
  rw [Nat.testBit_or, Nat.testBit_two_pow]
  by_cases hj : t = j
  · subst hj; simp [h]
  · simp [hj]

theorem remaining_eq {r : Reader} (hr : r.Ok) : remaining r = some (some (r.size - r.off), r) := by
  unfold remaining
  have h1 := hr.1
  have h2 := hr.2.1
  have h3 := hr.2.2
  rw [show (r.size + 2 ^ 64 - r.off) % 2 ^ 64 = r.size - r.off by omega]

theorem safe_metadataSection (md5 : Bytes → Nat) (st : St) {type : Nat} (size : Nat) (h : type ≠ 30)
    (hm : st.info.mask.testBit type = true) :
    SafeP (readMetadataSection md5 st type size) fun st' => st'.info.mask = st.info.mask := by
  unfold readMetadataSection
  refine SafeP.bind (Q := fun n => n < 2 ^ 64) (fun r hr => ⟨_, r, remaining_eq hr, hr, rfl, rfl, fun a ha => ?_⟩) fun n hn => ?_
  · cases ha
    have := hr.1
    have := hr.2.2
    omega
  · refine SafeP.ite (fun _ => SafeP.fail) fun hle => SafeP.bind (SafeP.of safe_tell) fun o _ =>
      SafeP.bind (safe_hybrid_or h md5 st (by omega)) fun st' hq => ?_
    have hmask : (if supported.testBit type = true then setMaskBit st' type else st').info.mask = st.info.mask := by
      split
      · show st'.info.mask ||| 2 ^ type = _
        rw [hq, or_bit hm]
      · exact hq
    refine SafeP.bind (SafeP.of safe_tell) fun now _ => SafeP.ite (fun _ => ?_) fun _ => SafeP.pure hmask
    exact SafeP.bind (SafeP.of (safe_seek _)) fun _ _ => SafeP.pure hmask

theorem safe_features (md5 : Bytes → Nat) : ∀ (types : List Nat) (sections : List (Nat × Nat)) (st : St),
    st.info.mask.testBit 30 = false → (types.filter st.info.mask.testBit).length ≤ sections.length →
    Safe (readFeatures md5 types sections st)
  | [], _, st, _, _ => by rw [readFeatures.eq_def]; exact Safe.pure _
  | t :: ts, sections, st, h30, hlen => by
    rw [readFeatures.eq_def]
    simp only
    by_cases ht : st.info.mask.testBit t = true
    · rw [if_pos ht]
      rw [List.filter_cons_of_pos ht, List.length_cons] at hlen
      cases sections with
      | nil => simp at hlen
      | cons s sections =>
        have h : t ≠ 30 := by intro he; subst he; rw [h30] at ht; cases ht
        refine (SafeP.bind (Q := fun _ => True) (SafeP.of (safe_seek _)) fun _ _ => SafeP.bind (safe_metadataSection md5 st _ h ht)
          fun st' hq => SafeP.of (safe_features md5 ts sections st' (by rw [hq]; exact h30) ?_) : SafeP _ fun _ => True).safe
        rw [hq]
        simp only [List.length_cons] at hlen
        omega
    · rw [if_neg ht]
      rw [List.filter_cons_of_neg ht] at hlen
      exact safe_features md5 ts sections st h30 hlen

theorem types_le (m : Nat) : (featureTypes.filter m.testBit).length ≤ numBits m := by
  unfold numBits featureTypes
  exact ((by decide : (List.range' 1 30).Sublist (List.range 64)).filter _).length_le

theorem times_length {α : Type} {p : P α} : ∀ {n : Nat} {r : Reader} {l : List α} {r' : Reader},
    times p n r = some (some l, r') → l.length = n
  | 0, r, l, r', h => by
    cases h; rfl
  | n + 1, r, l, r', h => by
    rw [times.eq_def] at h
    simp only [bind_def] at h
    split at h
    · cases h
    · cases h
    · split at h
      · cases h
      · cases h
      · rename_i h2
        cases h
        simp [times_length h2]

/-- **C46.** Whatever a file holds, reading its metadata ends, reads nothing outside of the file and takes no more section
headers than it has read, unless the file says that it has a hybrid topology. (That the reader gets back to a position in
the file is part of `Safe`.) -/
theorem read_metadata_safe_partial (md5 : Bytes → Nat) (st : St) (dataEnd : Nat) (h : st.info.mask.testBit 30 = false) :
    Safe (readMetadata md5 st dataEnd) := by
  unfold readMetadata
  refine (SafeP.bind (SafeP.of (safe_seek _)) fun _ _ => SafeP.bind (Q := fun l => l.length = numBits st.info.mask) ?_ fun l hl =>
    SafeP.of (safe_features md5 _ l st h (by rw [hl]; exact types_le _)) : SafeP _ fun _ => True).safe
  intro r hr
  obtain ⟨x, r', e, a, b, c⟩ := safe_fileSection.times (numBits st.info.mask) r hr
  refine ⟨x, r', e, a, b, c, fun l hl => ?_⟩
  subst hl
  exact times_length e

/-! ## Section headers -/

/-- The integer with `n` bytes at `off`. -/
def intAt (r : Reader) (off n : Nat) : Nat := decodeInt r.cross ((r.buf.drop off).take n)

theorem field_decode {cross : Bool} {d : Bytes} {off n : Nat} (hn : n = 2 ∨ n = 4 ∨ n = 8) (hd : off + n ≤ d.length) :
    field cross d off n = decodeInt cross ((d.drop off).take n) := by
  unfold field
  have hl : ((d.drop off).take n).length = n := by rw [List.length_take, List.length_drop]; omega
  have := maybeSwap_decode (d := (d.drop off).take n) (by rw [hl]; exact hn) cross
  rw [hl] at this
  unfold maybeSwap byteSwap at this
  cases cross
  · simpa using this
  · rcases hn with rfl | rfl | rfl <;> simpa using this

theorem slice_eq {b d : Bytes} {o n : Nat} (h : slice b o n = some d) : d = (b.drop o).take n := by
  unfold slice at h
  split at h
  · cases h; rfl
  · cases h

/-- **C46.** A section header at the position of the reader is accepted if and only if it is inside of the file and so is the
range of bytes that it describes. -/
theorem section_accepted (r : Reader) (hr : r.Ok) :
    ∃ x r', readFileSection r = some (x, r') ∧ r'.buf = r.buf ∧
      (x.isSome ↔ r.off + 16 ≤ r.buf.length ∧ intAt r r.off 8 + intAt r (r.off + 8) 8 ≤ r.buf.length) ∧
      ∀ s, x = some s → s = (intAt r r.off 8, intAt r (r.off + 8) 8) ∧ r' = { r with off := r.off + 16 } := by
  obtain ⟨h1, h2, h3⟩ := hr
  unfold readFileSection
  have hdata : data 16 r = _ := readData_spec (n := 16) ⟨h1, h2, h3⟩ (by omega)
  rw [bind_def, hdata]
  cases hs : slice r.buf r.off 16 with
  | none =>
    refine ⟨none, r, rfl, rfl, ?_, by simp⟩
    have : ¬ r.off + 16 ≤ r.buf.length := by
      intro h
      unfold slice at hs
      rw [if_pos (by omega)] at hs
      cases hs
    simp only [Option.isSome_none, Bool.false_eq_true, false_iff]
    exact fun h => this h.1
  | some d =>
    have hd := (slice_some_iff.mp hs).1
    have hl := slice_length hs
    have e1 : field r.cross d 0 8 = intAt r r.off 8 := by
      rw [field_decode (by omega) (by omega), slice_eq hs, List.drop_zero, List.take_take]; rfl
    have e2 : field r.cross d 8 8 = intAt r (r.off + 8) 8 := by
      rw [field_decode (by omega) (by omega), slice_eq hs, List.drop_take, List.take_take, List.drop_drop]; rfl
    have ok' : ({ r with off := r.off + 16 } : Reader).Ok := ⟨h1, by show r.off + 16 ≤ r.size; omega, h3⟩
    simp only
    rw [bind_def]
    simp only [isCross]
    rw [bind_def]
    simp only [dataSize, e1, e2]
    generalize intAt r r.off 8 = o
    generalize intAt r (r.off + 8) 8 = n
    by_cases c1 : o > r.size
    · rw [if_pos c1]
      refine ⟨none, _, rfl, rfl, ?_, by simp⟩
      simp only [Option.isSome_none, Bool.false_eq_true, false_iff]
      omega
    · rw [if_neg c1]
      by_cases c2 : n > (r.size + 2 ^ 64 - o) % 2 ^ 64
      · rw [if_pos c2]
        refine ⟨none, _, rfl, rfl, ?_, by simp⟩
        simp only [Option.isSome_none, Bool.false_eq_true, false_iff]
        omega
      · rw [if_neg c2]
        refine ⟨some (o, n), _, rfl, rfl, ?_, fun s hs => ?_⟩
        · simp only [Option.isSome_some, true_iff]
          omega
        · cases hs; exact ⟨rfl, rfl⟩

/-- **C46, C27.** An event header at the position of the reader is accepted if and only if it is inside of the file, the
size in it is not below that of the header, and the whole event is inside of the file. -/
theorem header_accepted (r : Reader) (hr : r.Ok) :
    ∃ x r', readEventHeader r = some (x, r') ∧ r'.buf = r.buf ∧
      (x.isSome ↔ r.off + 8 ≤ r.buf.length ∧ 8 ≤ intAt r (r.off + 6) 2 ∧ r.off + intAt r (r.off + 6) 2 ≤ r.buf.length) ∧
      ∀ h, x = some h → h = ⟨intAt r r.off 4, intAt r (r.off + 4) 2, intAt r (r.off + 6) 2⟩ ∧ r' = { r with off := r.off + 8 } := by
  obtain ⟨h1, h2, h3⟩ := hr
  unfold readEventHeader
  have hdata : data 8 r = _ := readData_spec (n := 8) ⟨h1, h2, h3⟩ (by omega)
  rw [bind_def, hdata]
  cases hs : slice r.buf r.off 8 with
  | none =>
    refine ⟨none, r, rfl, rfl, ?_, by simp⟩
    have : ¬ r.off + 8 ≤ r.buf.length := by
      intro h
      unfold slice at hs
      rw [if_pos (by omega)] at hs
      cases hs
    simp only [Option.isSome_none, Bool.false_eq_true, false_iff]
    exact fun h => this h.1
  | some d =>
    have hd := (slice_some_iff.mp hs).1
    have hl := slice_length hs
    have e0 : field r.cross d 0 4 = intAt r r.off 4 := by
      rw [field_decode (by omega) (by omega), slice_eq hs, List.drop_zero, List.take_take]; rfl
    have e1 : field r.cross d 4 2 = intAt r (r.off + 4) 2 := by
      rw [field_decode (by omega) (by omega), slice_eq hs, List.drop_take, List.take_take, List.drop_drop]; rfl
    have e2 : field r.cross d 6 2 = intAt r (r.off + 6) 2 := by
      rw [field_decode (by omega) (by omega), slice_eq hs, List.drop_take, List.take_take, List.drop_drop]; rfl
    have ok' : ({ r with off := r.off + 8 } : Reader).Ok := ⟨h1, by show r.off + 8 ≤ r.size; omega, h3⟩
    simp only
    rw [bind_def]
    simp only [isCross, e0, e1, e2]
    generalize intAt r r.off 4 = t
    generalize intAt r (r.off + 4) 2 = m
    generalize intAt r (r.off + 6) 2 = n
    by_cases c1 : n < 8
    · rw [if_pos c1]
      refine ⟨none, _, rfl, rfl, ?_, by simp⟩
      simp only [Option.isSome_none, Bool.false_eq_true, false_iff]
      omega
    · rw [if_neg c1, bind_def, remaining_eq ok']
      simp only
      by_cases c2 : n - 8 > r.size - (r.off + 8)
      · rw [if_pos c2]
        refine ⟨none, _, rfl, rfl, ?_, by simp⟩
        simp only [Option.isSome_none, Bool.false_eq_true, false_iff]
        omega
      · rw [if_neg c2]
        refine ⟨some ⟨t, m, n⟩, _, rfl, rfl, ?_, fun s hs => ?_⟩
        · simp only [Option.isSome_some, true_iff]
          omega
        · cases hs; exact ⟨rfl, rfl⟩

/-- A header that is accepted, and the same one at the end of a file that is a byte short. -/
example : readEventHeader ⟨[9,0,0,0, 2,0, 10,0, 5,6], 10, 0, false⟩ =
    some (some ⟨9, 2, 10⟩, ⟨[9,0,0,0, 2,0, 10,0, 5,6], 10, 8, false⟩) ∧
    readEventHeader ⟨[9,0,0,0, 2,0, 10,0, 5], 9, 0, false⟩ =
    some (none, ⟨[9,0,0,0, 2,0, 10,0, 5], 9, 8, false⟩) := by decide +kernel

theorem table_inside : ∀ (n : Nat) (r : Reader) (l : List (Nat × Nat)) (r' : Reader), r.Ok →
    times readFileSection n r = some (some l, r') → ∀ k < n, r.off + 16 * k + 16 ≤ r.buf.length ∧
      l[k]? = some (intAt r (r.off + 16 * k) 8, intAt r (r.off + 16 * k + 8) 8) ∧
      intAt r (r.off + 16 * k) 8 + intAt r (r.off + 16 * k + 8) 8 ≤ r.buf.length
  | 0, r, l, r', hr, h => fun k hk => by omega
  | n + 1, r, l, r', hr, h => fun k hk => by
    rw [times.eq_def] at h
    simp only [bind_def] at h
    obtain ⟨x, r1, e, hb, hiff, hsome⟩ := section_accepted r hr
    rw [e] at h
    cases x with
    | none => cases h
    | some s =>
      obtain ⟨h1, h2⟩ := hiff.mp rfl
      obtain ⟨hs, hr1⟩ := hsome s rfl
      simp only at h
      split at h
      · cases h
      · cases h
      · rename_i l' _ e2
        cases h
        cases k with
        | zero =>
          refine ⟨by omega, ?_, ?_⟩
          · rw [List.getElem?_cons_zero, hs]; rfl
          · exact h2
        | succ k =>
          have ok1 : r1.Ok := by
            rw [hr1]
            exact ⟨hr.1, by have := hr.1; show r.off + 16 ≤ r.size; omega, hr.2.2⟩
          have ih := table_inside n r1 l' r' ok1 e2 k (by omega)
          rw [hr1] at ih
          simp only [intAt] at ih ⊢
          rw [List.getElem?_cons_succ]
          rw [show r.off + 16 + 16 * k = r.off + 16 * (k + 1) by omega] at ih
          exact ih

/-- **C46.** If the metadata of a file can be read, then there is a section header behind the data for every feature, and the
range of bytes of each of them is inside of the file. -/
theorem sections_inside (md5 : Bytes → Nat) (st st' : St) (dataEnd : Nat) (r r' : Reader) (hr : r.Ok)
    (hd : dataEnd ≤ r.buf.length) (h : readMetadata md5 st dataEnd r = some (some st', r')) (k : Nat)
    (hk : k < numBits st.info.mask) :
    dataEnd + 16 * k + 16 ≤ r.buf.length ∧
      intAt r (dataEnd + 16 * k) 8 + intAt r (dataEnd + 16 * k + 8) 8 ≤ r.buf.length := by
  unfold readMetadata at h
  rw [bind_def, seek_of (by have := hr.1; omega)] at h
  simp only at h
  rw [bind_def] at h
  cases e : times readFileSection (numBits st.info.mask) { r with off := dataEnd } with
  | none => rw [e] at h; cases h
  | some y =>
    obtain ⟨x, r1⟩ := y
    rw [e] at h
    cases x with
    | none => cases h
    | some l =>
      have := table_inside _ { r with off := dataEnd } l r1 ⟨hr.1, by have := hr.1; show dataEnd ≤ r.size; omega, hr.2.2⟩ e k hk
      exact ⟨this.1, this.2.2⟩

end Verif.Meta
