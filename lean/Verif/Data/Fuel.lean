import Verif.Data.Section

/-! The number of rounds of the loop over the records, and where the loop can go wrong. -/

namespace Verif.Data
open Verif.Buffer Verif.Event Verif.Sample Verif.Attr Verif.Names Verif.Text Verif.Util Verif.Meta Verif.Serial

theorem Chain.append {cfg : Cfg} {x : Bool} {st st₁ st₂ : St} {l m : List (List UInt8 × Option Msg)} (h : Chain cfg x st l st₁)
    (h' : Chain cfg x st₁ m st₂) : Chain cfg x st (l ++ m) st₂ := by
  induction h with
  | nil => exact h'
  | cons e _ ih => exact .cons e (ih h')

/-- `p` takes the bytes `bs`, wherever they are, and yields `a`. -/
def Accepts {α : Type} (x : Bool) (p : P α) (bs : List UInt8) (a : α) : Prop :=
  ∀ q : Reader, q.Ok → q.cross = x → slice q.buf q.off bs.length = some bs →
    p q = some (some a, { q with off := q.off + bs.length })

theorem fuel_eq {cfg : Cfg} : ∀ {fuel fuel' left : Nat} {st : St} {r : Reader}, r.Ok → r.size - r.off < fuel → r.size - r.off < fuel' →
    readEvents cfg fuel left st r = readEvents cfg fuel' left st r := by
  intro fuel
  induction fuel with
  | zero => intro fuel' left st r _ h; omega
  | succ fuel ih =>
    intro fuel' left st r hr h1 h2
    cases fuel' with
    | zero => omega
    | succ fuel' =>
      by_cases h0 : left = 0
      · unfold readEvents
        rw [if_pos h0, if_pos h0]
      · rw [readEvents_step h0, readEvents_step h0, bind_def, bind_def]
        cases ho : one cfg st r with
        | none => rfl
        | some o =>
          obtain ⟨o, r1⟩ := o
          cases o with
          | none => rfl
          | some y =>
            simp only
            obtain ⟨c, ⟨hc1, _⟩, _, hsl, hr1, _⟩ := takes_one (x := r.cross) r r1 y hr rfl ho
            have hb := (slice_some_iff.mp hsl).1
            have := hr.1
            have ok1 : r1.Ok := by rw [hr1]; exact ok_forward hr hsl
            have e1 : r1.size = r.size := by rw [hr1]
            have e2 : r1.off = r.off + c.length := by rw [hr1]
            exact ih ok1 (by omega) (by omega)

theorem fuel_mono {cfg : Cfg} : ∀ {fuel fuel' left : Nat} {st st' : St} {r r' : Reader},
    readEvents cfg fuel left st r = some (some st', r') → fuel ≤ fuel' → readEvents cfg fuel' left st r = some (some st', r') := by
  intro fuel
  induction fuel with
  | zero =>
    intro fuel' left st st' r r' h _
    unfold readEvents at h
    split at h
    · rename_i h0
      cases fuel' with
      | zero => unfold readEvents; rw [if_pos h0]; exact h
      | succ _ => unfold readEvents; rw [if_pos h0]; exact h
    · cases h
  | succ fuel ih =>
    intro fuel' left st st' r r' h hle
    cases fuel' with
    | zero => omega
    | succ fuel' =>
      by_cases h0 : left = 0
      · unfold readEvents at h ⊢
        rw [if_pos h0] at h ⊢
        exact h
      · rw [readEvents_step h0, bind_def] at h ⊢
        cases ho : one cfg st r with
        | none => rw [ho] at h; cases h
        | some o =>
          obtain ⟨o, r1⟩ := o
          rw [ho] at h
          cases o with
          | none => cases h
          | some y => exact ih h (by omega)

/-- Where something goes wrong that is not a failure. -/
theorem readEvents_none {cfg : Cfg} : ∀ {fuel left : Nat} {st : St} {r : Reader}, r.Ok → r.size - r.off < fuel →
    readEvents cfg fuel left st r = none →
    ∃ (L : List (List UInt8 × Option Msg)) (st₁ : St) (c : List UInt8), (L.map Prod.fst).flatten = c ∧
      slice r.buf r.off c.length = some c ∧ Chain cfg r.cross st L st₁ ∧ one cfg st₁ { r with off := r.off + c.length } = none := by
  intro fuel
  induction fuel with
  | zero => intro left st r _ h; omega
  | succ fuel ih =>
    intro left st r hr hf h
    by_cases h0 : left = 0
    · unfold readEvents at h
      rw [if_pos h0] at h
      cases h
    · rw [readEvents_step h0, bind_def] at h
      cases ho : one cfg st r with
      | none => exact ⟨[], st, [], rfl, slice_zero (by have := hr.1; have := hr.2.1; omega), .nil st, ho⟩
      | some o =>
        obtain ⟨o, r1⟩ := o
        rw [ho] at h
        cases o with
        | none => cases h
        | some y =>
          simp only at h
          obtain ⟨c, ⟨hc1, out, hc2⟩, _, hsl, hr1, _⟩ := takes_one (x := r.cross) r r1 y hr rfl ho
          have hb := (slice_some_iff.mp hsl).1
          have := hr.1
          have ok1 : r1.Ok := by rw [hr1]; exact ok_forward hr hsl
          have e1 : r1.size = r.size := by rw [hr1]
          have e2 : r1.off = r.off + c.length := by rw [hr1]
          obtain ⟨L, st₁, d, g1, g2, g3, g4⟩ := ih ok1 (by omega) h
          subst hr1
          refine ⟨(c, out) :: L, st₁, c ++ d, by simp [g1], slice_append.mpr ⟨hsl, g2⟩, .cons hc2 g3, ?_⟩
          rw [List.length_append, ← Nat.add_assoc]
          exact g4

/-! ## The section -/

theorem seek_some {r r' : Reader} {o : Nat} {a : Unit} (h : seek o r = some (some a, r')) : o ≤ r.size ∧ r' = { r with off := o } := by
  unfold seek Reader.seekSet at h
  simp only at h
  split at h
  · simp at h
  · rename_i h'
    simp at h
    exact ⟨by omega, h.symm⟩

theorem seek_ok {r : Reader} {o : Nat} (h : o ≤ r.size) : seek o r = some (some (), { r with off := o }) := by
  unfold seek Reader.seekSet
  simp [show ¬ o > r.size by omega]

theorem seek_fail {r : Reader} {o : Nat} (h : ¬ o ≤ r.size) : seek o r = some (none, r) := by
  unfold seek Reader.seekSet
  simp [show o > r.size by omega]

theorem section_some {cfg : Cfg} {st st' : St} {offset size : Nat} {r r' : Reader} (hr : r.Ok)
    (h : readDataSection cfg st offset size r = some (some st', r')) :
    offset ≤ r.buf.length ∧ ({ r with off := offset } : Reader).Ok ∧
      readEvents cfg (r.size + 1) size st { r with off := offset } = some (some st', r') := by
  unfold readDataSection at h
  rw [bind_def] at h
  by_cases ho : offset ≤ r.size
  · rw [seek_ok ho] at h
    exact ⟨by rw [← hr.1]; exact ho, ⟨hr.1, ho, hr.2.2⟩, h⟩
  · rw [seek_fail ho] at h
    cases h

/-- What is read when reading the section succeeds depends on nothing but the bytes of the section. -/
theorem section_takes {cfg : Cfg} {st st' : St} {offset size : Nat} {r r' : Reader} (hr : r.Ok) (hs : size < 2 ^ 64)
    (h : readDataSection cfg st offset size r = some (some st', r')) :
    ∃ c L, slice r.buf offset size = some c ∧ r' = { r with off := offset + size } ∧ (L.map Prod.fst).flatten = c ∧
      Chain cfg r.cross st L st' ∧ ∀ q : Reader, q.Ok → q.cross = r.cross → ∀ o, slice q.buf o size = some c →
        readDataSection cfg st o size q = some (some st', { q with off := o + size }) := by
  obtain ⟨h1, ok1, h2⟩ := section_some hr h
  obtain ⟨c, ⟨hc, L, hL1, hL2⟩, h63, hsl, hr', hloc⟩ := takes_readEvents hs _ r' st' ok1 rfl h2
  rw [hc] at hsl hr'
  refine ⟨c, L, hsl, hr', hL1, hL2, fun q okq cq o hq => ?_⟩
  have hb := (slice_some_iff.mp hq).1
  have hqs := okq.1
  have ok2 : ({ q with off := o } : Reader).Ok := ⟨okq.1, by show o ≤ q.size; omega, okq.2.2⟩
  unfold readDataSection
  rw [bind_def, seek_ok (by omega)]
  simp only
  rw [fuel_eq (fuel' := max (r.size + 1) (q.size + 1)) ok2 (by simp only; omega) (by simp only; omega)]
  have := hloc { q with off := o } ok2 cq (by rw [hc]; exact hq)
  rw [hc] at this
  exact fuel_mono this (Nat.le_max_left _ _)

theorem section_none {cfg : Cfg} {st : St} {offset size : Nat} {r : Reader} (hr : r.Ok)
    (h : readDataSection cfg st offset size r = none) :
    ∃ (L : List (List UInt8 × Option Msg)) (st₁ : St) (c : List UInt8), (L.map Prod.fst).flatten = c ∧
      slice r.buf offset c.length = some c ∧ Chain cfg r.cross st L st₁ ∧ one cfg st₁ { r with off := offset + c.length } = none := by
  unfold readDataSection at h
  rw [bind_def] at h
  by_cases ho : offset ≤ r.size
  · rw [seek_ok ho] at h
    exact readEvents_none (r := { r with off := offset }) ⟨hr.1, ho, hr.2.2⟩ (by show r.size - offset < r.size + 1; omega) h
  · rw [seek_fail ho] at h
    cases h

/-- A record in front. -/
theorem accepts_cons {x : Bool} {cfg : Cfg} {st st₁ st₂ : St} {c d : List UInt8} {fuel : Nat} (h8 : 8 ≤ c.length)
    (h : Accepts x (one cfg st) c (st₁, c.length - 8)) (hl : (c ++ d).length < 2 ^ 63)
    (h' : Accepts x (readEvents cfg fuel d.length st₁) d st₂) :
    Accepts x (readEvents cfg (fuel + 1) (c ++ d).length st) (c ++ d) st₂ := by
  intro q okq cq hq
  obtain ⟨hq1, hq2⟩ := slice_append.mp hq
  rw [List.length_append] at hl
  rw [readEvents_step (by rw [List.length_append]; omega), bind_def, h q okq cq hq1]
  simp only
  have : (((c ++ d).length + 2 ^ 64 - addSz 8 (c.length - 8)) % 2 ^ 64) = d.length := by
    rw [List.length_append]; unfold addSz; omega
  rw [this, h' _ (ok_forward okq hq1) cq hq2, List.length_append]
  simp only [Nat.add_assoc]

end Verif.Data
