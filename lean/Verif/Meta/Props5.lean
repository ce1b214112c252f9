import Verif.Meta.Props4

/-! # C28, C46: what a section that was read looks like -/

namespace Verif.Meta
open Verif.Buffer Verif.Event Verif.Sample Verif.Attr Verif.Names Verif.Text Verif.Util

theorem ran_bind {α β : Type} {p : P α} {f : α → P β} {r r' : Reader} {b : β} (h : (p >>= f) r = some (some b, r')) :
    ∃ a r1, p r = some (some a, r1) ∧ f a r1 = some (some b, r') := by
  rw [bind_def] at h
  cases hp : p r with
  | none => rw [hp] at h; cases h
  | some o =>
    obtain ⟨o, r1⟩ := o
    rw [hp] at h
    cases o with
    | none => cases h
    | some a => exact ⟨a, r1, rfl, h⟩

theorem ran_data {n : Nat} {r r' : Reader} {d : Bytes} (hr : r.Ok) (hn : n < 2 ^ 64) (h : data n r = some (some d, r')) :
    r.off + n ≤ r.buf.length ∧ d = (r.buf.drop r.off).take n ∧ r' = { r with off := r.off + n } := by
  have h1 : data n r = _ := readData_spec hr hn
  rw [h1] at h
  cases hs : slice r.buf r.off n with
  | none => rw [hs] at h; cases h
  | some x =>
    rw [hs] at h
    simp only [Option.some.injEq, Prod.mk.injEq] at h
    obtain ⟨rfl, rfl⟩ := h
    obtain ⟨h2, h3⟩ := slice_some_iff.mp hs
    exact ⟨h2, h3, rfl⟩

theorem takeWhile_length_le (l : Bytes) (n : Nat) : ((l.take n).takeWhile (· ≠ 0)).length ≤ n := by
  have := (List.takeWhile_sublist (p := fun x : UInt8 => decide (x ≠ 0)) (l := l.take n)).length_le
  rw [List.length_take] at this
  omega

/-- A text that ends before the limit. -/
theorem takeWhile_stop : ∀ (l : Bytes) (n : Nat), ((l.take n).takeWhile (· ≠ 0)).length ≠ n → n ≤ l.length →
    0 ∉ l.take ((l.take n).takeWhile (· ≠ 0)).length ∧
      l.take (((l.take n).takeWhile (· ≠ 0)).length + 1) = l.take ((l.take n).takeWhile (· ≠ 0)).length ++ [0]
  | l, 0, h, _ => absurd rfl h
  | [], n + 1, _, h => by cases h
  | a :: l, n + 1, h, hl => by
    rw [List.take_succ_cons, List.takeWhile_cons] at h ⊢
    by_cases ha : a = 0
    · subst ha; simp
    · have hd : decide (a ≠ 0) = true := by simpa using ha
      rw [if_pos hd] at h ⊢
      rw [List.length_cons] at h ⊢
      obtain ⟨h1, h2⟩ := takeWhile_stop l n (by omega) (by rw [List.length_cons] at hl; omega)
      rw [List.take_succ_cons, List.take_succ_cons, h2]
      refine ⟨?_, rfl⟩
      rw [List.mem_cons, not_or]
      exact ⟨fun h => ha h.symm, h1⟩

/-- C46: a build ID that is accepted has its name inside of its record, followed by a NUL and by padding up to a multiple of eight. -/
theorem build_id_inside (md5 : Bytes → Nat) (h : Header) (r r' : Reader) (b : BuildId) (hr : r.Ok) (hz : h.size < 2 ^ 16)
    (ho : readBuildId md5 h r = some (some b, r')) :
    36 + b.filename.length < h.size ∧ 36 + (b.filename.length / 8 + 1) * 8 ≤ h.size ∧ b.filename.length < 4096 ∧ 0 ∉ b.filename ∧
      r.off + (h.size - 8) ≤ r.buf.length ∧
      (r.buf.drop (r.off + 28)).take (b.filename.length + 1) = b.filename ++ [0] ∧ r' = { r with off := r.off + (h.size - 8) } := by
  unfold readBuildId at ho
  split at ho
  · cases ho
  · rename_i hs
    obtain ⟨d, r1, h1, h2⟩ := ran_bind ho
    obtain ⟨h3, h4, rfl⟩ := ran_data hr (by omega) h1
    obtain ⟨c, r2, h5, h6⟩ := ran_bind h2
    cases h5
    simp only at h6
    split at h6
    · cases h6
    · rename_i hlen
      split at h6
      · cases h6
      · rename_i hpad
        cases hk : keptHash ((d.drop 4).take 20) with
        | none => rw [hk] at h6; cases h6
        | some hash =>
          rw [hk] at h6
          cases h6
          have hdl : d.length = h.size - 8 := by rw [h4, List.length_take, List.length_drop]; omega
          have hle := takeWhile_length_le (d.drop 28) (min (h.size - 36) 4096)
          have hdd : (d.drop 28).length = h.size - 36 := by rw [List.length_drop]; omega
          obtain ⟨k1, k2⟩ := takeWhile_stop (d.drop 28) (min (h.size - 36) 4096) hlen (by omega)
          have hfl : ((d.drop 28).take (((d.drop 28).take (min (h.size - 36) 4096)).takeWhile (· ≠ 0)).length).length =
            (((d.drop 28).take (min (h.size - 36) 4096)).takeWhile (· ≠ 0)).length := by rw [List.length_take]; omega
          refine ⟨?_, ?_, ?_, k1, h3, ?_, rfl⟩
          · simp only [hfl]; omega
          · simp only [hfl]
            unfold padded at hpad
            rw [align_eq] at hpad
            omega
          · simp only [hfl]; omega
          · simp only [hfl]
            have key : ∀ n, n ≤ h.size - 36 → (r.buf.drop (r.off + 28)).take n = (d.drop 28).take n := by
              intro n hn
              rw [h4, List.drop_take, List.take_take, Nat.min_eq_left (by omega), List.drop_drop]
            rw [← k2]
            exact key _ (by omega)

/-- C46: build IDs take the whole of their section and nothing else. -/
theorem build_ids_inside (md5 : Bytes → Nat) : ∀ (fuel size : Nat) (r r' : Reader) (l : List BuildId), r.Ok →
    readBuildIds md5 fuel size r = some (some l, r') → r' = { r with off := r.off + size } ∧ r.off + size ≤ r.buf.length ∧ 
      (l.map fun b => 36 + (b.filename.length / 8 + 1) * 8).sum ≤ size
  | _, 0, r, r', l, hr, h => by
    rw [readBuildIds] at h
    cases h
    exact ⟨rfl, by have := hr.1; have := hr.2.1; omega, Nat.le_refl _⟩
  | 0, _ + 1, _, _, _, _, h => by cases h
  | fuel + 1, size + 1, r, r', l, hr, h => by
    have e : readBuildIds md5 (fuel + 1) (size + 1) = (readEventHeader >>= fun h =>
      if h.size > size + 1 then fail
      else do
        let b ← readBuildId md5 h
        let l ← readBuildIds md5 fuel (size + 1 - h.size)
        pure (b :: l)) := rfl
    rw [e] at h
    obtain ⟨hd, r1, h1, h2⟩ := ran_bind h
    obtain ⟨x, r1', k1, -, -, k3⟩ := header_accepted r hr
    rw [k1] at h1
    cases h1
    obtain ⟨e1, rfl⟩ := k3 hd rfl
    split at h2
    · cases h2
    · rename_i hle
      obtain ⟨b, r2, h3, h4⟩ := ran_bind h2
      obtain ⟨t, r3, h5, h6⟩ := ran_bind h4
      cases h6
      have hz : hd.size < 2 ^ 16 := by
        rw [e1]
        show intAt r (r.off + 6) 2 < 2 ^ 16
        refine Nat.lt_of_lt_of_le (decodeInt_lt _ _) ?_
        exact Nat.le_trans (Nat.pow_le_pow_right (by omega) (List.length_take_le 2 _)) (by omega)
      have hok : Reader.Ok { r with off := r.off + 8 } := by
        obtain ⟨y, r4, q1, q2, -⟩ := safe_header r hr
        rw [k1] at q1
        cases q1
        exact q2
      obtain ⟨m1, m2, -, -, m3, -, m4⟩ := build_id_inside md5 hd _ _ b hok hz h3
      subst m4
      have hok' : Reader.Ok { r with off := r.off + 8 + (hd.size - 8) } :=
        ⟨hr.1, by have := hr.1; simp only at m3 ⊢; omega, hr.2.2⟩
      obtain ⟨n1, n2, n3⟩ := build_ids_inside md5 fuel (size + 1 - hd.size) { r with off := r.off + 8 + (hd.size - 8) } _ t hok' h5
      simp only at m3 n1 n2
      refine ⟨?_, by omega, ?_⟩
      · rw [n1]
        congr 1
        omega
      · rw [List.map_cons, List.sum_cons]
        omega

/-- C28, C46: whatever a section holds, reading goes on behind it. -/
theorem section_left (md5 : Bytes → Nat) (st st' : St) (type size : Nat) (r r' : Reader) (hr : r.Ok)
    (h : readMetadataSection md5 st type size r = some (some st', r')) : r'.off % 2 ^ 64 = (r.off + size) % 2 ^ 64 := by
  have ho : r.off < 2 ^ 64 := by have := hr.1; have := hr.2.1; have := hr.2.2; omega
  unfold readMetadataSection at h
  obtain ⟨rem, r1, h1, h⟩ := ran_bind h
  cases h1
  split at h
  · cases h
  · obtain ⟨b, r2, h2, h⟩ := ran_bind h
    cases h2
    obtain ⟨s, r3, -, h⟩ := ran_bind h
    obtain ⟨now, r4, h4, h⟩ := ran_bind h
    cases h4
    split at h
    · obtain ⟨u, r5, h5, h⟩ := ran_bind h
      cases h
      unfold seek Reader.seekSet at h5
      split at h5
      · cases h5
      · cases h5
        show _ % 2 ^ 64 % 2 ^ 64 = _
        have := r3.off
        omega
    · rename_i he
      cases h
      omega

/-! ## The claims are not empty -/

/-- Two build IDs with names of 2 and 8 bytes, and bytes that do not belong to the section. -/
def exIdBytes : Bytes :=
  toLE 4 67 ++ toLE 2 2 ++ toLE 2 44 ++ toLE 4 5 ++ List.replicate 20 9 ++ toLE 4 0 ++ [97, 98] ++ List.replicate 6 0 ++
  toLE 4 67 ++ toLE 2 2 ++ toLE 2 52 ++ toLE 4 5 ++ List.replicate 20 8 ++ toLE 4 0 ++ List.replicate 8 97 ++ List.replicate 8 0 ++ [1, 2, 3]

example : readBuildIds (fun _ => 0) 96 96 (Reader.new exIdBytes false) =
    some (some [⟨2, 5, List.replicate 20 9, [97, 98], 0, none, false⟩, ⟨2, 5, List.replicate 20 8, List.replicate 8 97, 0, none, false⟩],
      { Reader.new exIdBytes false with off := 96 }) := by decide +kernel

/-- A section with a feature that is unknown is passed over. -/
example : readMetadataSection (fun _ => 0) {} 29 5 (Reader.new [1, 2, 3, 4, 5, 6, 7] false) =
    some (some {}, { Reader.new [1, 2, 3, 4, 5, 6, 7] false with off := 5 }) := by decide +kernel

end Verif.Meta
