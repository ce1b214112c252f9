import Verif.Event.Model
import Verif.Buffer.Lemmas
import Verif.Util.Lemmas

/-!
# Sizes of raw events (C45, C60, C61)
-/

namespace Verif.Event
open Verif.Buffer

/-- An event as it is found in a file: the size field is 16 bits wide. -/
def RawEvent.Ok (e : RawEvent) : Prop := e.size < 2 ^ 16

instance (e : RawEvent) : Decidable e.Ok := inferInstanceAs (Decidable (e.size < 2 ^ 16))

theorem int_some {e : RawEvent} {off n : Nat} (h : 8 ≤ off) (h' : off + n ≤ e.size) :
    ∃ v, e.int off n = some v ∧ v < 256 ^ n := by
  unfold RawEvent.int RawEvent.size at *
  rw [if_pos h]
  unfold fetch
  rw [if_pos (by omega)]
  refine ⟨_, rfl, ?_⟩
  have := leNat_lt ((e.payload.drop (off - 8)).take n)
  rwa [show ((e.payload.drop (off - 8)).take n).length = n by simp; omega] at this

theorem aligned_eq {n : Nat} (h : n < 2 ^ 63) : alignedStringLength n = 8 * (n / 8 + 1) := by
  rw [alignedStringLength_eq h, fieldSize, Nat.mul_comm]

theorem alignedString_some {e : RawEvent} {off max : Nat} (h : 8 ≤ off) (h' : off + max ≤ e.size)
    (hmax : max < 2 ^ 63) :
    ∃ x, alignedString e off max = some x ∧ ∀ n, x = some n → n ≤ max ∧ n % 8 = 0 ∧ 0 < n := by
  have hs : ∃ m, strnlen e off max = some m ∧ m ≤ max := by
    unfold strnlen RawEvent.size at *
    rw [if_pos h]
    unfold fetch
    rw [if_pos (by omega)]
    refine ⟨_, rfl, ?_⟩
    refine Nat.le_trans (List.takeWhile_sublist _).length_le ?_
    simp; omega
  obtain ⟨m, hm, hle⟩ := hs
  unfold alignedString
  rw [hm]
  simp only
  split
  · exact ⟨none, rfl, by simp⟩
  · split
    · exact ⟨none, rfl, by simp⟩
    · rename_i h1 h2
      refine ⟨_, rfl, ?_⟩
      intro n hn
      simp only [Option.some.injEq] at hn
      rw [aligned_eq (by omega)] at h2 hn
      omega

theorem checkComms_some (e : RawEvent) : ∀ k i, 16 + 24 * (i + k) ≤ e.size → ∃ b, checkComms e i k = some b := by
  intro k
  induction k with
  | zero => intro i _; exact ⟨true, rfl⟩
  | succ k ih =>
    intro i h
    simp only [checkComms]
    obtain ⟨x, hx, -⟩ := @alignedString_some e (16 + 24 * i + 8) 16 (by omega) (by omega) (by decide)
    rw [hx]
    cases x with
    | none => exact ⟨false, rfl⟩
    | some n => exact ih (i + 1) (by omega)

theorem fixed_facts {t f : Nat} (h : fixedPayloadSize t = some f) : f % 8 = 0 ∧ 8 ≤ f ∧ f ≤ 528 := by
  have key : ∀ t : Fin 85, ∀ f ∈ fixedPayloadSize t.val, f % 8 = 0 ∧ 8 ≤ f ∧ f ≤ 528 := by decide +kernel
  by_cases ht : t < 85
  · exact key ⟨t, ht⟩ f h
  · unfold fixedPayloadSize at h
    have ne : ∀ k, k < 85 → t ≠ k := by omega
    repeat first
      | rw [if_neg (ne _ (by decide))] at h
      | rw [if_neg (not_or.mpr ⟨ne _ (by decide), ne _ (by decide)⟩)] at h
    cases h

theorem variableSize_some {e : RawEvent} (hok : e.Ok) {f : Nat} (hf : fixedPayloadSize e.type = some f)
    (hle : f ≤ e.size) : ∃ x, variableSize e (e.size - f) = some x ∧ ∀ n, x = some n → n ≤ e.size - f := by
  have hok' : e.size < 2 ^ 16 := hok
  have str : ∀ off max, off = f → max ≤ e.size - f → ∃ x, alignedString e off max = some x ∧
      ∀ n, x = some n → n ≤ e.size - f := by
    intro off max ho hm
    have h8 := (fixed_facts hf).2.1
    obtain ⟨x, hx, hn⟩ := @alignedString_some e off max (by omega) (by omega) (by omega)
    exact ⟨x, hx, fun n h => Nat.le_trans (hn n h).1 hm⟩
  unfold variableSize
  by_cases c : e.type = MMAP
  · rw [if_pos c]
    rw [c] at hf
    exact str 40 _ (Option.some.inj (show some 40 = some f from hf)) (Nat.min_le_left _ _)
  rw [if_neg c]
  by_cases c : e.type = COMM
  · rw [if_pos c]
    rw [c] at hf
    exact str 16 _ (Option.some.inj (show some 16 = some f from hf)) (Nat.min_le_left _ _)
  rw [if_neg c]
  by_cases c : e.type = MMAP2
  · rw [if_pos c]
    rw [c] at hf
    exact str 72 _ (Option.some.inj (show some 72 = some f from hf)) (Nat.min_le_left _ _)
  rw [if_neg c]
  by_cases c : e.type = NAMESPACES
  · rw [if_pos c]
    rw [c] at hf
    have : f = 24 := (Option.some.inj (show some 24 = some f from hf)).symm
    obtain ⟨v, hv, hlt⟩ := @int_some e 16 8 (by omega) (by omega)
    rw [hv]
    simp only
    split
    · exact ⟨none, rfl, by simp⟩
    · refine ⟨_, rfl, ?_⟩
      intro n hn
      simp only [Option.some.injEq] at hn
      omega
  rw [if_neg c]
  by_cases c : e.type = CGROUP
  · rw [if_pos c]
    rw [c] at hf
    exact str 16 _ (Option.some.inj (show some 16 = some f from hf)) (Nat.min_le_left _ _)
  rw [if_neg c]
  by_cases c : e.type = KSYMBOL
  · rw [if_pos c]
    rw [c] at hf
    exact str 24 _ (Option.some.inj (show some 24 = some f from hf)) (Nat.min_le_left _ _)
  rw [if_neg c]
  by_cases c : (e.type = LOST ∨ e.type = EXIT ∨ e.type = FORK ∨ e.type = THROTTLE ∨ e.type = UNTHROTTLE ∨
      e.type = SAMPLE ∨ e.type = AUX ∨ e.type = ITRACE_START ∨ e.type = LOST_SAMPLES ∨
      e.type = SWITCH ∨ e.type = SWITCH_CPU_WIDE)
  · rw [if_pos c]
    exact ⟨_, rfl, by intro n hn; simp only [Option.some.injEq] at hn; omega⟩
  rw [if_neg c]
  by_cases c : e.type = AUXTRACE_INFO
  · rw [if_pos c]
    exact ⟨_, rfl, by intro n hn; simp only [Option.some.injEq] at hn; omega⟩
  rw [if_neg c]
  by_cases c : e.type = AUXTRACE_ERROR
  · rw [if_pos c]
    rw [c] at hf
    obtain ⟨x, hx, hn⟩ := str 40 (min (e.size - f) 64) (Option.some.inj (show some 40 = some f from hf)) (Nat.min_le_left _ _)
    rw [hx]
    cases x with
    | none => exact ⟨none, rfl, by simp⟩
    | some n =>
      simp only
      split
      · exact ⟨none, rfl, by simp⟩
      · exact ⟨_, rfl, by intro m hm; simp only [Option.some.injEq] at hm; omega⟩
  rw [if_neg c]
  by_cases c : e.type = ID_INDEX
  · rw [if_pos c]
    rw [c] at hf
    have : f = 16 := (Option.some.inj (show some 16 = some f from hf)).symm
    obtain ⟨v, hv, hlt⟩ := @int_some e 8 8 (by omega) (by omega)
    rw [hv]
    simp only
    split
    · exact ⟨none, rfl, by simp⟩
    · split
      · exact ⟨none, rfl, by simp⟩
      · exact ⟨_, rfl, by intro m hm; simp only [Option.some.injEq] at hm; omega⟩
  rw [if_neg c]
  by_cases c : e.type = THREAD_MAP
  · rw [if_pos c]
    rw [c] at hf
    have : f = 16 := (Option.some.inj (show some 16 = some f from hf)).symm
    obtain ⟨v, hv, hlt⟩ := @int_some e 8 8 (by omega) (by omega)
    rw [hv]
    simp only
    split
    · exact ⟨none, rfl, by simp⟩
    · rename_i hne
      split
      · exact ⟨none, rfl, by simp⟩
      · obtain ⟨b, hb⟩ := checkComms_some e v 0 (by omega)
        rw [hb]
        cases b with
        | false => exact ⟨none, rfl, by simp⟩
        | true => exact ⟨_, rfl, by intro m hm; simp only [Option.some.injEq] at hm; omega⟩
  rw [if_neg c]
  by_cases c : e.type = STAT_CONFIG
  · rw [if_pos c]
    rw [c] at hf
    have : f = 16 := (Option.some.inj (show some 16 = some f from hf)).symm
    obtain ⟨v, hv, hlt⟩ := @int_some e 8 8 (by omega) (by omega)
    rw [hv]
    simp only
    split
    · exact ⟨none, rfl, by simp⟩
    · split
      · exact ⟨none, rfl, by simp⟩
      · exact ⟨_, rfl, by intro m hm; simp only [Option.some.injEq] at hm; omega⟩
  rw [if_neg c]
  by_cases c : e.type = BPF_METADATA
  · rw [if_pos c]
    rw [c] at hf
    have : f = 528 := (Option.some.inj (show some 528 = some f from hf)).symm
    obtain ⟨v, hv, hlt⟩ := @int_some e 520 8 (by omega) (by omega)
    rw [hv]
    simp only
    split
    · exact ⟨none, rfl, by simp⟩
    · exact ⟨_, rfl, by intro m hm; simp only [Option.some.injEq] at hm; omega⟩
  rw [if_neg c]
  by_cases c : e.type = TIME_CONV
  · rw [if_pos c]
    split
    · exact ⟨_, rfl, by intro m hm; simp only [Option.some.injEq] at hm; omega⟩
    · exact ⟨none, rfl, by simp⟩
  rw [if_neg c]
  split
  · split
    · exact ⟨none, rfl, by simp⟩
    · exact ⟨_, rfl, by intro m hm; simp only [Option.some.injEq] at hm; omega⟩
  · exact ⟨none, rfl, by simp⟩

/-- C45, raw events: whatever bytes an event holds, computing its data size reads nothing outside of it;
the result is at most the size of the event and a multiple of 8. -/
theorem eventDataSize_safe (e : RawEvent) (h : e.Ok) :
    ∃ n, eventDataSize e = some n ∧ n ≤ e.size ∧ n % 8 = 0 := by
  unfold eventDataSize
  cases hf : fixedPayloadSize e.type with
  | none => exact ⟨0, rfl, by omega, rfl⟩
  | some f =>
    simp only
    split
    · exact ⟨0, rfl, by omega, rfl⟩
    · rename_i hle
      obtain ⟨x, hx, hn⟩ := variableSize_some h hf (by omega)
      unfold variablePayloadSize
      rw [hx]
      cases x with
      | none => exact ⟨0, rfl, by omega, rfl⟩
      | some n =>
        simp only
        have := hn n rfl
        have := fixed_facts hf
        by_cases h8 : n % 8 ≠ 0
        · rw [if_pos h8]; exact ⟨0, rfl, by omega, rfl⟩
        · rw [if_neg h8]; exact ⟨f + n, rfl, by omega, by omega⟩

/-- A COMM event with the name "ab" and eight bytes of trailing data. -/
def sampleComm : RawEvent :=
  { type := COMM, payload := toLE 4 7 ++ toLE 4 9 ++ [97, 98, 0, 0, 0, 0, 0, 0] ++ toLE 8 5 }
example : sampleComm.Ok ∧ eventDataSize sampleComm = some 24 ∧ sampleComm.size = 32 := by decide +kernel

/-! ## C60 -/

/-- Where an event keeps its number of list entries, where the entries start, and their size. -/
def listLayout (type : Nat) : Option (Nat × Nat × Nat) :=
  if type = NAMESPACES then some (16, 24, 16)
  else if type = ID_INDEX then some (8, 16, 32)
  else if type = THREAD_MAP then some (8, 16, 24)
  else if type = STAT_CONFIG then some (8, 16, 16)
  else if type = BPF_METADATA then some (520, 528, 320)
  else none

/-- C60, what holds of it: in an event with a list of entries, other than BPF metadata, whose size
computation succeeds, all entries announced by the count lie in the event. -/
theorem declared_entries_fit_partial (e : RawEvent) (h : e.Ok) (n countOff start sz nr : Nat)
    (hl : listLayout e.type = some (countOff, start, sz)) (hb : e.type ≠ BPF_METADATA)
    (hn : eventDataSize e = some n) (hn0 : n ≠ 0) (hnr : e.int countOff 8 = some nr) :
    start + nr * sz = n ∧ n ≤ e.size := by
  have hok : e.size < 2 ^ 16 := h
  obtain ⟨n', h1, h2, -⟩ := eventDataSize_safe e h
  rw [hn] at h1
  simp only [Option.some.injEq] at h1
  subst h1
  refine ⟨?_, h2⟩
  unfold eventDataSize at hn
  unfold listLayout at hl
  by_cases c1 : e.type = NAMESPACES
  · rw [if_pos c1] at hl
    simp only [Option.some.injEq, Prod.mk.injEq] at hl
    obtain ⟨rfl, rfl, rfl⟩ := hl
    have hf : fixedPayloadSize e.type = some 24 := by rw [c1]; rfl
    rw [hf] at hn
    simp only at hn
    split at hn
    · simp at hn; omega
    · rename_i hle
      have hv : variableSize e (e.size - 24) = (match e.int 16 8 with
        | none => none
        | some nr => if nr > (e.size - 24) / 16 then some none else some (some (nr * 16 % 2 ^ 64))) := by
        unfold variableSize
        simp only [c1]
        rfl
      unfold variablePayloadSize at hn
      rw [hv, hnr] at hn
      simp only at hn
      by_cases hc : nr > (e.size - 24) / 16
      · rw [if_pos hc] at hn; simp at hn; omega
      · rw [if_neg hc] at hn
        simp only at hn
        by_cases h8 : nr * 16 % 2 ^ 64 % 8 ≠ 0
        · rw [if_pos h8] at hn; simp at hn; omega
        · rw [if_neg h8] at hn
          simp only [Option.some.injEq] at hn
          omega
  rw [if_neg c1] at hl
  by_cases c2 : e.type = ID_INDEX
  · rw [if_pos c2] at hl
    simp only [Option.some.injEq, Prod.mk.injEq] at hl
    obtain ⟨rfl, rfl, rfl⟩ := hl
    have hf : fixedPayloadSize e.type = some 16 := by rw [c2]; rfl
    rw [hf] at hn
    simp only at hn
    split at hn
    · simp at hn; omega
    · rename_i hle
      have hv : variableSize e (e.size - 16) = (match e.int 8 8 with
        | none => none
        | some nr =>
          if nr ≠ (e.size - 16) / 32 then some none
          else if nr * 32 % 2 ^ 64 ≠ (e.size - 16) then some none
          else some (some (nr * 32 % 2 ^ 64))) := by
        unfold variableSize
        simp only [c2]
        rfl
      unfold variablePayloadSize at hn
      rw [hv, hnr] at hn
      simp only at hn
      by_cases hc : nr ≠ (e.size - 16) / 32
      · rw [if_pos hc] at hn; simp at hn; omega
      · rw [if_neg hc] at hn
        by_cases hc2 : nr * 32 % 2 ^ 64 ≠ (e.size - 16)
        · rw [if_pos hc2] at hn; simp at hn; omega
        · rw [if_neg hc2] at hn
          simp only at hn
          by_cases h8 : nr * 32 % 2 ^ 64 % 8 ≠ 0
          · rw [if_pos h8] at hn; simp at hn; omega
          · rw [if_neg h8] at hn
            simp only [Option.some.injEq] at hn
            omega
  rw [if_neg c2] at hl
  by_cases c3 : e.type = THREAD_MAP
  · rw [if_pos c3] at hl
    simp only [Option.some.injEq, Prod.mk.injEq] at hl
    obtain ⟨rfl, rfl, rfl⟩ := hl
    have hf : fixedPayloadSize e.type = some 16 := by rw [c3]; rfl
    rw [hf] at hn
    simp only at hn
    split at hn
    · simp at hn; omega
    · rename_i hle
      have hv : variableSize e (e.size - 16) = (match e.int 8 8 with
        | none => none
        | some nr =>
          if nr ≠ (e.size - 16) / 24 then some none
          else if nr * 24 % 2 ^ 64 ≠ (e.size - 16) then some none
          else match checkComms e 0 nr with
            | none => none
            | some false => some none
            | some true => some (some (nr * 24 % 2 ^ 64))) := by
        unfold variableSize
        simp only [c3]
        rfl
      unfold variablePayloadSize at hn
      rw [hv, hnr] at hn
      simp only at hn
      by_cases hc : nr ≠ (e.size - 16) / 24
      · rw [if_pos hc] at hn; simp at hn; omega
      · rw [if_neg hc] at hn
        by_cases hc2 : nr * 24 % 2 ^ 64 ≠ (e.size - 16)
        · rw [if_pos hc2] at hn; simp at hn; omega
        · rw [if_neg hc2] at hn
          cases hcc : checkComms e 0 nr with
          | none => rw [hcc] at hn; simp at hn
          | some b =>
            rw [hcc] at hn
            cases b with
            | false => simp at hn; omega
            | true =>
              simp only at hn
              by_cases h8 : nr * 24 % 2 ^ 64 % 8 ≠ 0
              · rw [if_pos h8] at hn; simp at hn; omega
              · rw [if_neg h8] at hn
                simp only [Option.some.injEq] at hn
                omega
  rw [if_neg c3] at hl
  by_cases c4 : e.type = STAT_CONFIG
  · rw [if_pos c4] at hl
    simp only [Option.some.injEq, Prod.mk.injEq] at hl
    obtain ⟨rfl, rfl, rfl⟩ := hl
    have hf : fixedPayloadSize e.type = some 16 := by rw [c4]; rfl
    rw [hf] at hn
    simp only at hn
    split at hn
    · simp at hn; omega
    · rename_i hle
      have hv : variableSize e (e.size - 16) = (match e.int 8 8 with
        | none => none
        | some nr =>
          if nr ≠ (e.size - 16) / 16 then some none
          else if nr * 16 % 2 ^ 64 ≠ (e.size - 16) then some none
          else some (some (nr * 16 % 2 ^ 64))) := by
        unfold variableSize
        simp only [c4]
        rfl
      unfold variablePayloadSize at hn
      rw [hv, hnr] at hn
      simp only at hn
      by_cases hc : nr ≠ (e.size - 16) / 16
      · rw [if_pos hc] at hn; simp at hn; omega
      · rw [if_neg hc] at hn
        by_cases hc2 : nr * 16 % 2 ^ 64 ≠ (e.size - 16)
        · rw [if_pos hc2] at hn; simp at hn; omega
        · rw [if_neg hc2] at hn
          simp only at hn
          by_cases h8 : nr * 16 % 2 ^ 64 % 8 ≠ 0
          · rw [if_pos h8] at hn; simp at hn; omega
          · rw [if_neg h8] at hn
            simp only [Option.some.injEq] at hn
            omega
  rw [if_neg c4] at hl
  rw [if_neg hb] at hl
  cases hl

/-- A thread map with one entry, the thread "a". -/
def sampleThreadMap : RawEvent :=
  { type := THREAD_MAP, payload := toLE 8 1 ++ toLE 8 33 ++ [97] ++ List.replicate 15 0 }
example : sampleThreadMap.Ok ∧ listLayout sampleThreadMap.type = some (8, 16, 24) ∧
    eventDataSize sampleThreadMap = some 40 ∧ sampleThreadMap.int 8 8 = some 1 := by decide +kernel

/-- A BPF metadata event without room for any entry that announces `2^58` of them. -/
def hugeBpf : RawEvent :=
  { type := BPF_METADATA, payload := List.replicate 512 0 ++ toLE 8 (2 ^ 58) }

/-- C60 fails for BPF metadata: the product of the number of entries and their size wraps around, so an
event that announces `2^58` entries and holds none is accepted. -/
theorem declared_entries_fit_violated :
    hugeBpf.Ok ∧ listLayout hugeBpf.type = some (520, 528, 320) ∧ eventDataSize hugeBpf = some 528 ∧
    hugeBpf.int 520 8 = some (2 ^ 58) ∧ hugeBpf.size = 528 := by decide +kernel

/-! ## C61 -/

/-- Where an event keeps its string, and the longest string accepted. -/
def stringLayout (type : Nat) : Option (Nat × Nat) :=
  if type = MMAP then some (40, 4096)
  else if type = COMM then some (16, 4096)
  else if type = MMAP2 then some (72, 4096)
  else if type = CGROUP then some (16, 4096)
  else if type = KSYMBOL then some (24, 512)
  else none

/-- C61: for events with a string followed by sample data, when the payload from the string's offset is a
string without NUL, then enough zero bytes to reach the next multiple of 8, then anything, the data size
is the offset plus the padded length of the string. -/
theorem eventDataSize_string (e : RawEvent) (h : e.Ok) (off max : Nat) (s rest : List UInt8)
    (hl : stringLayout e.type = some (off, max)) (hoff : off ≤ e.size)
    (hs : ∀ c ∈ s, c ≠ 0)
    (hp : e.payload.drop (off - 8) = s ++ List.replicate (8 * (s.length / 8 + 1) - s.length) 0 ++ rest)
    (hmax : 8 * (s.length / 8 + 1) ≤ max) :
    eventDataSize e = some (off + 8 * (s.length / 8 + 1)) := by
  have hok : e.size < 2 ^ 16 := h
  have hoff8 : 8 ≤ off ∧ max % 8 = 0 ∧ fixedPayloadSize e.type = some off := by
    unfold stringLayout at hl
    repeat' split at hl
    all_goals first
      | (cases hl; done)
      | (rename_i c; simp only [Option.some.injEq, Prod.mk.injEq] at hl
         rw [← hl.1, ← hl.2, c]; decide)
  obtain ⟨h8, hm8, hf⟩ := hoff8
  have hlen : e.payload.length - (off - 8) = 8 * (s.length / 8 + 1) + rest.length := by
    have := congrArg List.length hp
    simp at this
    omega
  have hsize : e.size = 8 + e.payload.length := rfl
  have hstr : alignedString e off (min (e.size - off) max) = some (some (8 * (s.length / 8 + 1))) := by
    have hn : strnlen e off (min (e.size - off) max) = some s.length := by
      unfold strnlen fetch
      rw [if_pos h8, if_pos (by omega), hp]
      simp only [Option.map_some, Option.some.injEq]
      have hsplit : (s ++ List.replicate (8 * (s.length / 8 + 1) - s.length) 0 ++ rest).take (min (e.size - off) max)
          = s ++ 0 :: ((List.replicate (8 * (s.length / 8 + 1) - s.length - 1) 0 ++ rest).take (min (e.size - off) max - s.length - 1)) := by
        have e1 : List.replicate (8 * (s.length / 8 + 1) - s.length) (0 : UInt8) =
            0 :: List.replicate (8 * (s.length / 8 + 1) - s.length - 1) 0 := by
          rw [← List.replicate_succ]; congr 1; omega
        rw [e1, List.append_assoc, List.take_append, List.take_of_length_le (by omega)]
        congr 1
        rw [show min (e.size - off) max - s.length = (min (e.size - off) max - s.length - 1) + 1 by omega]
        simp
      rw [hsplit]
      rw [List.takeWhile_append_of_pos (by simpa using hs)]
      simp
    unfold alignedString
    rw [hn]
    simp only
    rw [aligned_eq (by omega), if_neg (by omega), if_neg (by omega)]
  have hv : variableSize e (e.size - off) = alignedString e off (min (e.size - off) max) := by
    unfold stringLayout at hl
    unfold variableSize
    repeat' split at hl
    all_goals first
      | (cases hl; done)
      | (rename_i c; simp only [Option.some.injEq, Prod.mk.injEq] at hl
         rw [← hl.1, ← hl.2]; simp only [c]; rfl)
  unfold eventDataSize variablePayloadSize
  rw [hf]
  simp only
  rw [if_neg (by omega), hv, hstr]
  simp only
  rw [if_neg (by omega)]

example : eventDataSize sampleComm = some (16 + 8 * (2 / 8 + 1)) :=
  eventDataSize_string sampleComm (by decide) 16 4096 [97, 98] (toLE 8 5) (by decide) (by decide) (by decide)
    (by decide +kernel) (by decide)

end Verif.Event
