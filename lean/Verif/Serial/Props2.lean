import Verif.Serial.Props

/-!
# Events that no message describes (C44)

The round trip of `Props` holds for events that a message describes. Here are events of supported types, well-formed and accepted, that
are changed by the round trip, and messages that are not in order and what becomes of them.
-/

namespace Verif.Serial
open Verif.Buffer Verif.Event Verif.Sample Verif.Attr Verif.Util

/-- The event fits its declared size, which is the size that its contents and the attributes of the file say, and after the round
trip it is another event of the same size. -/
def Changed (fs : List FileAttr) (e : RawEvent) : Prop :=
  ∃ ser m e', registerAll {} false fs = some ser ∧ e.Ok ∧ eventDataSize e = some e.size ∧ serialize exEnv ser e = some (some m) ∧
    deserialize exEnv ser m = some (some e') ∧ e'.size = e.size ∧ e' ≠ e

theorem changed_of {fs : List FileAttr} {e : RawEvent}
    (h : (match registerAll {} false fs with
      | none => false
      | some ser => decide (e.size < 2 ^ 16) && (eventDataSize e == some e.size) &&
        match serialize exEnv ser e with
        | some (some m) => (match deserialize exEnv ser m with
          | some (some e') => (e'.size == e.size) && e' != e
          | _ => false)
        | _ => false) = true) : Changed fs e := by
  cases hr : registerAll {} false fs with
  | none => rw [hr] at h; cases h
  | some ser =>
    rw [hr] at h
    simp only [Bool.and_eq_true, decide_eq_true_eq, beq_iff_eq] at h
    obtain ⟨⟨h1, h2⟩, h3⟩ := h
    cases hs : serialize exEnv ser e with
    | none => rw [hs] at h3; cases h3
    | some o =>
      cases o with
      | none => rw [hs] at h3; cases h3
      | some m =>
        rw [hs] at h3
        simp only at h3
        cases hd : deserialize exEnv ser m with
        | none => rw [hd] at h3; cases h3
        | some o =>
          cases o with
          | none => rw [hd] at h3; cases h3
          | some e' =>
            rw [hd] at h3
            simp only [Bool.and_eq_true, beq_iff_eq, bne_iff_ne, ne_eq] at h3
            exact ⟨ser, m, e', hr, h1, h2, hs, hd, h3.1, h3.2⟩

/-- One attribute, of events that carry no sample information. -/
def plainFile : List FileAttr := [⟨{ sampleType := 1 }, []⟩]

/-- C44 fails: an AUX event keeps only three of its flags; `PERF_AUX_FLAG_COLLISION` (8) is lost. -/
theorem aux_flags_violated : Changed plainFile ⟨AUX, 0, toLE 8 0 ++ toLE 8 64 ++ toLE 8 8⟩ := changed_of (by decide +kernel)

/-- C44 fails: what follows the end of a name is lost. -/
theorem behind_name_violated : Changed plainFile ⟨COMM, 0, toLE 4 1 ++ toLE 4 1 ++ [97, 0, 98, 99, 0, 0, 0, 0]⟩ := changed_of (by decide +kernel)

/-- C44 fails: the reserved bytes of a build ID, and those beyond its size, are lost. -/
theorem build_id_rest_violated : Changed plainFile
    ⟨MMAP2, 2 ^ 14, toLE 4 1 ++ toLE 4 1 ++ toLE 8 0 ++ toLE 8 1 ++ toLE 8 0 ++ [1, 0, 0, 0] ++ [7, 9] ++ List.replicate 18 0 ++
      toLE 4 5 ++ toLE 4 2 ++ [97, 0, 0, 0, 0, 0, 0, 0]⟩ := changed_of (by decide +kernel)

/-- C44 fails: of two values of a program with the same key only one is kept, and the number of values changes. -/
theorem bpf_keys_violated : Changed plainFile
    ⟨BPF_METADATA, 0, 112 :: List.replicate 511 0 ++ toLE 8 2 ++ (97 :: List.replicate 63 0 ++ 49 :: List.replicate 255 0) ++
      (97 :: List.replicate 63 0 ++ 50 :: List.replicate 255 0)⟩ := changed_of (by decide +kernel)

/-- C44 fails: the reserved words of AUXTRACE events are lost. -/
theorem auxtrace_reserved_violated : Changed plainFile
    ⟨AUXTRACE, 0, toLE 8 0 ++ toLE 8 0 ++ toLE 8 0 ++ toLE 4 0 ++ toLE 4 0 ++ toLE 4 0 ++ toLE 4 1⟩ := changed_of (by decide +kernel)

/-- C44 fails: a capability of a clock other than 0 and 1 is normalised, and reserved bytes are lost. -/
theorem time_conv_violated : Changed plainFile
    ⟨TIME_CONV, 0, toLE 8 1 ++ toLE 8 1 ++ toLE 8 1 ++ toLE 8 1 ++ toLE 8 1 ++ [2, 1, 0, 0, 0, 0, 0, 0]⟩ := changed_of (by decide +kernel)

/-! ## Samples -/

/-- A sample event with the sample `s`, recorded with the only attribute `a`; the round trip changes it. -/
def SampleChanged (a : EventAttr) (s : Sample) : Prop :=
  Supported a.sample true ∧ Fits s ∧ HwIdxOk a.sample true s ∧
  ∃ ser m e', registerAll {} false [⟨a, []⟩] = some ser ∧
    serialize exEnv ser ⟨SAMPLE, 0, image (layout a.sample true s)⟩ = some (some m) ∧
    deserialize exEnv ser m = some (some e') ∧ e' ≠ ⟨SAMPLE, 0, image (layout a.sample true s)⟩

theorem supported_of {a : Sample.Attr} (h : (!(has a true 12) && !(has a true 13) && !(has a true 18) && !(has a true 14 && has a true 24)) = true)
    (h25 : a.sampleType < 2 ^ 25) : Supported a true := by
  simp only [Bool.and_eq_true, Bool.not_eq_true'] at h
  obtain ⟨⟨⟨h1, h2⟩, h3⟩, h4⟩ := h
  refine ⟨h1, h2, h3, h4, fun b hb => ?_⟩
  simp only [has]
  rw [Nat.testBit_lt_two_pow (Nat.lt_of_lt_of_le h25 (Nat.pow_le_pow_right (by decide) hb))]
  rfl

theorem sample_changed_of {a : EventAttr} {s : Sample}
    (hs : Supported a.sample true) (hf : Fits s) (hh : HwIdxOk a.sample true s)
    (h : (match registerAll {} false [⟨a, []⟩] with
      | none => false
      | some ser =>
        match serialize exEnv ser ⟨SAMPLE, 0, image (layout a.sample true s)⟩ with
        | some (some m) => (match deserialize exEnv ser m with
          | some (some e') => e' != ⟨SAMPLE, 0, image (layout a.sample true s)⟩
          | _ => false)
        | _ => false) = true) : SampleChanged a s := by
  refine ⟨hs, hf, hh, ?_⟩
  cases hr : registerAll {} false [⟨a, []⟩] with
  | none => rw [hr] at h; cases h
  | some ser =>
    rw [hr] at h
    simp only at h
    cases hs : serialize exEnv ser ⟨SAMPLE, 0, image (layout a.sample true s)⟩ with
    | none => rw [hs] at h; cases h
    | some o =>
      cases o with
      | none => rw [hs] at h; cases h
      | some m =>
        rw [hs] at h
        simp only at h
        cases hd : deserialize exEnv ser m with
        | none => rw [hd] at h; cases h
        | some o =>
          cases o with
          | none => rw [hd] at h; cases h
          | some e' =>
            rw [hd] at h
            simp only [bne_iff_ne, ne_eq] at h
            exact ⟨ser, m, e', rfl, hs, hd, h⟩

/-- C44 fails: the bits of a branch entry from 26 on are lost; `new_type` and `priv` are there. -/
theorem branch_bits_violated : SampleChanged { sampleType := 2 ^ 11 } { noHwIdx := true, branchStack := some ⟨0, [⟨1, 2, 2 ^ 26⟩]⟩ } :=
  sample_changed_of (supported_of (by decide) (by decide)) (by constructor <;> decide) (by decide) (by decide +kernel)

/-- C44 fails: the number of lost values of a single counter is replaced by 0. -/
theorem lost_count_violated : SampleChanged { sampleType := 2 ^ 4, readFormat := 2 ^ 4 } { one := ⟨5, 0, 3⟩ } :=
  sample_changed_of (supported_of (by decide) (by decide)) (by constructor <;> decide) (by decide) (by decide +kernel)

/-- C44 fails: the index into the branch records is lost if the stack is empty. -/
theorem hw_idx_violated : SampleChanged { sampleType := 2 ^ 11, branchSampleType := 2 ^ 17 } { noHwIdx := false, branchStack := some ⟨5, []⟩ } :=
  sample_changed_of (supported_of (by decide) (by decide)) (by constructor <;> decide) (by decide) (by decide +kernel)

/-! ## Messages that are not in order -/

/-- C44: a message whose name does not fit in the size it declares is written beyond the memory that was allocated for it. -/
theorem name_overflow_violated : ∃ (ser : Ser) (m m' : Msg), registerAll {} false plainFile = some ser ∧
    MsgOk exEnv (EventAttr.sample { sampleType := 1 }) m ∧ m' = { m with body := .comm { m.body.getComm with comm := List.replicate 16 97 } } ∧
    deserialize exEnv ser m' = none := by
  refine ⟨(registerAll {} false plainFile).getD {}, ⟨COMM, 0, 24, .comm { comm := [97], commMd5 := 1 }, 0⟩, _, by decide +kernel,
    ⟨⟨rfl, by decide, by decide, ⟨by decide, by decide⟩, rfl⟩, fun s h => (by cases h), fun i h => ?_, by decide, by decide, by decide, rfl⟩, rfl, by decide +kernel⟩
  cases h
  rfl

end Verif.Serial
