import Verif.Data.Keep

/-! Reading one record: its effect, and that it depends on nothing but the record. -/

namespace Verif.Data
open Verif.Buffer Verif.Event Verif.Sample Verif.Attr Verif.Names Verif.Text Verif.Util Verif.Meta Verif.Serial

theorem fixed_types {t n : Nat} (h : fixedPayloadSize t = some n) :
    8 ≤ n ∧ (t = MMAP → n = 40) ∧ (t = MMAP2 → n = 72) ∧ (t = AUXTRACE → n = 48) := by
  refine ⟨?_, ?_, ?_, ?_⟩
  · have : ∀ {c : Prop} [Decidable c] {a : Nat} {y : Option Nat}, (8 ≤ a) → (y = some n → 8 ≤ n) →
        ((if c then some a else y) = some n → 8 ≤ n) := by
      intro c _ a y ha hy h
      split at h
      · cases h; exact ha
      · exact hy h
    revert h
    unfold fixedPayloadSize
    repeat' apply this
    all_goals first
      | decide
      | (intro h; cases h)
  · rintro rfl; cases h; rfl
  · rintro rfl; cases h; rfl
  · rintro rfl; cases h; rfl

/-- The bytes of a record in the event in memory. -/
theorem bytesAt_file {hd d bs : List UInt8} {t m off n : Nat} (hl : hd.length = 8) (ho : 8 ≤ off) (hn : off + n ≤ 8 + d.length) :
    bytesAt ⟨t, m, d⟩ off n = ((hd ++ d ++ bs).drop off).take n := by
  unfold bytesAt
  simp only
  have : (hd ++ d ++ bs).drop off = (d ++ bs).drop (off - 8) := by
    rw [List.append_assoc, List.drop_append, List.drop_eq_nil_of_le (by omega), List.nil_append, hl]
  rw [this, List.drop_append_of_le_length (by omega), List.take_append_of_le_length (by rw [List.length_drop]; omega)]

theorem cStr_take : ∀ {s t : List UInt8}, (0 : UInt8) ∈ s → cStr (s ++ t) = cStr s := by
  intro s t h
  unfold cStr
  induction s with
  | nil => cases h
  | cons a s ih =>
    by_cases c : a = 0
    · subst c; rfl
    · rw [List.cons_append, List.takeWhile_cons, List.takeWhile_cons]
      have : (0 : UInt8) ∈ s := by
        rcases List.mem_cons.mp h with h | h
        · exact absurd h.symm c
        · exact h
      rw [ih this]

theorem cstr_payload {e : RawEvent} {off : Nat} {s : List UInt8} (h : cstr e off = some s) : s = cStr (e.payload.drop (off - 8)) := by
  unfold cstr at h
  split at h
  · simp only at h
    split at h
    · cases h; rfl
    · cases h
  · cases h

theorem cStr_idem (s : List UInt8) : cStr (cStr s) = cStr s := by
  unfold cStr
  induction s with
  | nil => rfl
  | cons a s ih =>
    rw [List.takeWhile_cons]
    split
    · rename_i c
      rw [List.takeWhile_cons, if_pos c, ih]
    · rfl

theorem emptyKernel_iff {st : St} {e : RawEvent} (hm : e.type = MMAP ∨ e.type = MMAP2) (h32 : 32 ≤ e.size) :
    emptyKernel st e = some true ↔ e.misc.testBit 0 = true ∧ leNat (bytesAt e 24 8) = 0 ∧
      ∃ a l, st.base.info.attrs = a :: l ∧ a.attr.flags.testBit 5 = true := by
  unfold emptyKernel
  rw [if_pos hm, int_bytesAt (by omega) (by omega)]
  cases st.base.info.attrs with
  | nil => simp
  | cons f l =>
    simp only
    by_cases c : f.attr.flags.testBit 5 ∧ e.misc.testBit 0
    · rw [if_pos c]
      simp only [Option.map_some, Option.some.injEq, decide_eq_true_eq, List.cons.injEq]
      constructor
      · intro h; exact ⟨c.2, h, f, l, ⟨rfl, rfl⟩, c.1⟩
      · rintro ⟨_, h, _⟩; exact h
    · rw [if_neg c]
      simp only [Option.some.injEq, Bool.false_eq_true, List.cons.injEq, false_iff]
      rintro ⟨h1, _, a, l', ⟨rfl, rfl⟩, h2⟩
      exact c ⟨h2, h1⟩

/-- From the event in memory to the record. -/
theorem effect_of {x : Bool} {cfg : Cfg} {st st' : St} {hd d bs : List UInt8} {fixed : Nat} {e : RawEvent} {out : Option Msg}
    (hl : hd.length = 8) (hf : fixedPayloadSize (kind x (hd ++ d ++ bs)) = some fixed)
    (hlen : extent x (hd ++ d ++ bs) = 8 + d.length) (hfix : fixed ≤ 8 + d.length)
    (hpass : ¬ Passed x (hd ++ d ++ bs))
    (hdec : decode st.base.ser x fixed ⟨kind x (hd ++ d ++ bs), bits x (hd ++ d ++ bs), d⟩ = some (some e))
    (hk : Keep cfg st e out st' bs) : Effect cfg x st (hd ++ d ++ bs) out st' := by
  obtain ⟨s1, s2, s3⟩ := decode_same hdec
  simp only at s1 s2 s3
  have hsz : e.size = 8 + d.length := by unfold RawEvent.size; rw [s3]
  obtain ⟨_, f1, f2, f3⟩ := fixed_types hf
  have hat : ∀ off n, 8 ≤ off → off + n ≤ 8 + d.length →
      bytesAt ⟨kind x (hd ++ d ++ bs), bits x (hd ++ d ++ bs), d⟩ off n = ((hd ++ d ++ bs).drop off).take n :=
    fun off n h1 h2 => bytesAt_file hl h1 h2
  have hdrop : (hd ++ d ++ bs).drop (extent x (hd ++ d ++ bs)) = bs := by
    rw [hlen, List.drop_append, List.drop_eq_nil_of_le (by simp; omega)]
    simp [hl]
  have hempty : emptyKernel st e = some true ↔ EmptyKernel st x (hd ++ d ++ bs) := by
    unfold EmptyKernel Mapping
    by_cases hm : kind x (hd ++ d ++ bs) = 1 ∨ kind x (hd ++ d ++ bs) = 10
    · have h40 : 40 ≤ fixed := by
        rcases hm with hm | hm
        · rw [f1 hm]; omega
        · rw [f2 hm]; omega
      rw [emptyKernel_iff (by rw [s1]; exact hm) (by rw [hsz]; omega), decoded_len hdec hm, hat 24 8 (by omega) (by omega), s2]
      exact ⟨fun h => ⟨hm, h⟩, fun h => h.2⟩
    · constructor
      · intro h; have := emptyKernel_mmap h; rw [s1] at this; exact absurd this hm
      · rintro ⟨h, _⟩; exact absurd h hm
  have hshown : ∀ m, serialize cfg.env st.base.ser e = some (some m) → Shown cfg st x (hd ++ d ++ bs) m := by
    intro m hm
    refine ⟨e, s1, s2, by rw [hsz, hlen], fun hx => ?_, hm⟩
    subst hx
    rw [decode_native hdec, hlen]
    simp only
    rw [List.take_append_of_le_length (by simp [hl]), List.take_of_length_le (by simp [hl]), List.drop_append, hl]
    simp [hl]
  refine ⟨⟨by omega, ?_⟩, hk.events, ?_, fun m hm => ?_, ?_, ?_, ?_, ?_⟩
  · -- size
    have hcl : (hd ++ d ++ bs).length = 8 + d.length + bs.length := by simp [hl]; omega
    rw [hcl, hlen]
    congr 1
    unfold following
    cases out with
    | none =>
      have hb0 : bs.length = 0 := by rw [hk.bytes rfl]; rfl
      rw [hb0, if_neg]
      rintro ⟨h71, hns⟩
      rcases hk.kept.mp rfl with h | h
      · have := emptyKernel_mmap h
        rw [s1, h71] at this
        revert this; decide
      · rw [s1, h71] at h; exact hns h
    | some m =>
      obtain ⟨m0, hm0, _, hbl⟩ := hk.message m rfl
      rw [hbl, s1]
      have hns : ¬ e.type ∈ cfg.skip := fun h => by
        have := hk.kept.mpr (Or.inr h); cases this
      by_cases h71 : kind x (hd ++ d ++ bs) = AUXTRACE
      · have hns' : 71 ∉ cfg.skip := by rw [s1, h71] at hns; exact hns
        rw [if_pos h71, if_pos ⟨h71, hns'⟩]
        obtain ⟨hi, _⟩ := serialize_auxtrace hm0 (by rw [s1, h71])
        have h48 := f3 h71
        rw [int_bytesAt (by omega) (by rw [hsz]; omega)] at hi
        simp only [Option.some.injEq] at hi
        rw [← hi, decoded_size hdec h71, hat 8 8 (by omega) (by omega)]
        rfl
      · rw [if_neg h71, if_neg (fun h => h71 h.1)]
  · -- kept
    rw [hk.kept, hempty, s1]
    exact ⟨Or.inr, fun h => h.resolve_left hpass⟩
  · -- message
    obtain ⟨m0, hm0, hm', _⟩ := hk.message m hm
    refine ⟨m0, hshown m0 hm0, ?_⟩
    rw [hm', hdrop]
    rfl
  · -- called
    have := hk.called
    rw [s1] at this
    split at this
    · rename_i c
      rw [if_pos c]
      obtain ⟨m, s, h1, h2, h3⟩ := this
      exact ⟨m, s, hshown m h1, h2, h3⟩
    · rename_i c
      rw [if_neg c]
      exact this
  · -- ids
    have := hk.ids
    split at this
    · exact Or.inl ⟨by rw [this.1], this.2⟩
    · obtain ⟨st1, h1, h2, h3⟩ := this
      obtain ⟨_, _, _, h, _⟩ := addBuildId_some h1
      rw [h2, h3]
      rcases h with h | ⟨ht, hb, name, n, dd, b, g1, g2, g3, g4, g5, g6, g7, g8, g9, g10⟩
      · exact Or.inl h
      · rw [s1] at ht
        rw [s2] at hb
        have h72 := f2 ht
        obtain ⟨n1, n2⟩ := decoded_name hdec ht
        have n2 := n2 hb
        have hname : name = cStr ((hd ++ d ++ bs).drop 72) := by
          have hin := g1
          unfold cstr at hin
          rw [if_pos (by omega)] at hin
          simp only at hin
          split at hin
          · rename_i hc
            rw [cstr_payload g1]
            have hb1 : e.payload.drop 64 = ((hd ++ d ++ bs).drop 72).take (8 + d.length - 72) := by
              rw [← hat 72 _ (by omega) (by omega), ← n1]
              unfold bytesAt
              rw [List.take_of_length_le (by rw [List.length_drop]; omega)]
            have hc' : (0 : UInt8) ∈ e.payload.drop 64 := by simpa using hc
            conv => rhs; rw [← List.take_append_drop (8 + d.length - 72) ((hd ++ d ++ bs).drop 72), ← hb1]
            rw [cStr_take hc']
          · cases hin
        have h40 : n = num x (hd ++ d ++ bs) 40 1 := by
          rw [int_bytesAt (by omega) (by rw [hsz]; omega)] at g4
          simp only [Option.some.injEq] at g4
          rw [← g4, n2 40 1 (by omega) (by omega), hat 40 1 (by omega) (by omega)]
          unfold num decodeInt
          generalize hone : ((hd ++ d ++ bs).drop 40).take 1 = one
          have : one.length ≤ 1 := by rw [← hone, List.length_take]; omega
          cases x
          · rfl
          · rcases one with _ | ⟨a, _ | ⟨b, l⟩⟩
            · rfl
            · rfl
            · simp at this
        have hdd : dd = ((hd ++ d ++ bs).drop 44).take n := by
          unfold fetch at g6
          split at g6
          · cases g6
            have := n2 44 n (by omega) (by omega)
            rw [hat 44 n (by omega) (by omega)] at this
            exact this
          · cases g6
        refine Or.inr ⟨ht, hb, by rw [← hname]; exact g2, by rw [← hname]; exact g3, b, g7, ?_, by rw [g9, s2], by rw [← h40]; exact g5, ?_⟩
        · rw [g8, hname, cStr_idem]
        · rw [g10, hdd, h40]
  · -- noted
    intro ht hb _ hne
    have := hk.ids
    rw [if_neg (fun h => hne (hempty.mp h))] at this
    obtain ⟨st1, h1, h2, h3⟩ := this
    obtain ⟨_, _, _, _, h⟩ := addBuildId_some h1
    obtain ⟨name, g1, g2⟩ := h (by rw [s1]; exact ht) (by rw [s2]; exact hb)
    rw [h3]
    have h72 := f2 ht
    obtain ⟨n1, _⟩ := decoded_name hdec ht
    have hname : name = cStr ((hd ++ d ++ bs).drop 72) := by
      have hin := g1
      unfold cstr at hin
      rw [if_pos (by omega)] at hin
      simp only at hin
      split at hin
      · rename_i hc
        rw [cstr_payload g1]
        have hb1 : e.payload.drop 64 = ((hd ++ d ++ bs).drop 72).take (8 + d.length - 72) := by
          rw [← hat 72 _ (by omega) (by omega), ← n1]
          unfold bytesAt
          rw [List.take_of_length_le (by rw [List.length_drop]; omega)]
        have hc' : (0 : UInt8) ∈ e.payload.drop 64 := by simpa using hc
        conv => rhs; rw [← List.take_append_drop (8 + d.length - 72) ((hd ++ d ++ bs).drop 72), ← hb1]
        rw [cStr_take hc']
      · cases hin
    rw [← hname]
    exact g2
  · -- rest
    have := hk.ids
    split at this
    · rw [this.1]
    · obtain ⟨st1, h1, h2, _⟩ := this
      rw [h2]
      exact (addBuildId_some h1).2.2.1

end Verif.Data
