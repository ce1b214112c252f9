import Verif.Text.Lemmas

/-! # Theorems C20, C21, C53: text helpers -/

namespace Verif.Text
open Verif.Util

/-! ## C20 -/

/-- C20, partial: for a non-empty, strictly increasing list of 32-bit numbers that does not contain
both of the two largest 32-bit numbers, parsing the formatted text gives the list back. Missing: all
other lists, for which the claim is false (next theorems). -/
theorem C20_roundtrip_partial (cpus : List Nat) (h : CpuList cpus) :
    parseCPUNumbers (formatCPUNumbers cpus) = .ok cpus := by
  obtain ⟨hne, hlt, hp, htop⟩ := h
  obtain ⟨toks, hpt, htn, hst, _⟩ := formatLoop_parse cpus hp hlt htop
  unfold parseCPUNumbers formatCPUNumbers
  rw [hst]
  have := htn hne
  obtain ⟨t, ts, rfl⟩ := List.exists_cons_of_ne_nil this
  exact hpt

example : CpuList [0, 1, 2, 5, 7, 8, 4294967295] := by unfold CpuList; decide

example : formatCPUNumbers [0, 1, 2, 5, 7, 8] = ascii "0-2,5,7-8" := by
  simp [formatCPUNumbers, formatLoop, runEnd, dec]; decide +kernel

/-- The empty list is written as the empty text, which does not parse. -/
theorem C20_empty_violated : parseCPUNumbers (formatCPUNumbers []) = .fail := by
  simp [formatCPUNumbers, formatLoop, parseCPUNumbers, splitString]

theorem split45 (a b : Nat) : splitString 45 (dec a ++ [45] ++ dec b) = [dec a, dec b] := by
  rw [List.append_assoc, List.singleton_append, splitString_cons (dec_no (Or.inr rfl)),
    splitString_last (dec_no (Or.inr rfl)) (dec_ne_nil b)]

theorem parse_single_token {t : List UInt8} (h : (44 : UInt8) ∉ t) (hne : t ≠ []) :
    parseCPUNumbers t = parseTokens [t] := by
  unfold parseCPUNumbers
  rw [splitString_last h hne]

/-- A decreasing or repeated neighbour is swallowed into a range that does not parse. -/
theorem C20_unsorted_violated (a b : Nat) (ha : a < 2 ^ 32 - 1) (hab : b ≤ a) :
    parseCPUNumbers (formatCPUNumbers [a, b]) = .fail := by
  have hw : (a + 1) % 2 ^ 32 = a + 1 := Nat.mod_eq_of_lt (by omega)
  have hf : formatCPUNumbers [a, b] = dec a ++ [45] ++ dec b := by
    have hn : ¬ b > (a + 1) % 2 ^ 32 := by rw [hw]; omega
    simp [formatCPUNumbers, formatLoop, runEnd, hn]
  have hc : (44 : UInt8) ∉ dec a ++ [45] ++ dec b := by
    simp only [List.mem_append, List.mem_singleton, not_or]
    exact ⟨⟨dec_no (Or.inl rfl), by decide⟩, dec_no (Or.inl rfl)⟩
  rw [hf, parse_single_token hc (by simp), parseTokens, parseToken, split45]
  simp only [stou32_dec (show a < 2 ^ 32 by omega), stou32_dec (show b < 2 ^ 32 by omega)]
  rw [if_pos hab]

/-- The list of the two largest 32-bit numbers is written as a range whose parsing never ends. -/
theorem C20_largest_violated : parseCPUNumbers (formatCPUNumbers [2 ^ 32 - 2, 2 ^ 32 - 1]) = .diverge := by
  have hf : formatCPUNumbers [2 ^ 32 - 2, 2 ^ 32 - 1] =
      dec (2 ^ 32 - 2) ++ [45] ++ dec (2 ^ 32 - 1) := by
    simp [formatCPUNumbers, formatLoop, runEnd]
  have hc : (44 : UInt8) ∉ dec (2 ^ 32 - 2) ++ [45] ++ dec (2 ^ 32 - 1) := by
    simp only [List.mem_append, List.mem_singleton, not_or]
    exact ⟨⟨dec_no (Or.inl rfl), by decide⟩, dec_no (Or.inl rfl)⟩
  rw [hf, parse_single_token hc (by simp), parseTokens, parseToken, split45]
  simp only [stou32_dec (show 2 ^ 32 - 2 < 2 ^ 32 by decide),
    stou32_dec (show 2 ^ 32 - 1 < 2 ^ 32 by decide)]
  rfl

/-! ## C21 -/

/-- C21: a padded build ID has exactly 40 characters. -/
theorem C21_perfize_length (s : List UInt8) : (perfizeBuildID s).length = 40 := by
  simp [perfizeBuildID]; omega

/-- C21: padding is idempotent. -/
theorem C21_perfize_idempotent (s : List UInt8) :
    perfizeBuildID (perfizeBuildID s) = perfizeBuildID s := by
  have h := C21_perfize_length s
  rw [perfizeBuildID, h, List.take_of_length_le (by omega)]
  simp

/-- C21: padding keeps the leading characters: of a short string all, of a long one the first 40; and
what it adds are zeros. -/
theorem C21_perfize_keeps (s : List UInt8) :
    (s.length ≤ 40 → perfizeBuildID s = s ++ zeros (40 - s.length)) ∧
    (40 ≤ s.length → perfizeBuildID s = s.take 40) := by
  refine ⟨fun h => ?_, fun h => ?_⟩
  · rw [perfizeBuildID, List.take_of_length_le h, zeros]
  · rw [perfizeBuildID, show 40 - s.length = 0 by omega]; simp

/-- C21: trimming removes exactly the trailing groups of eight zeros: the result is the unique string
that differs from the argument by whole groups and does not end in another group. -/
theorem C21_trim_exact (s t : List UInt8) :
    trimZeroes s = t ↔ (∃ k, s = t ++ zeros (8 * k)) ∧ ¬ zeros 8 <:+ t := by
  constructor
  · rintro rfl; exact trimZeroes_spec s
  · rintro ⟨⟨k, rfl⟩, hn⟩
    rw [trimZeroes_append]
    obtain ⟨⟨j, hj⟩, _⟩ := trimZeroes_spec t
    cases j with
    | zero => simpa [zeros] using hj.symm
    | succ j =>
      exfalso
      apply hn
      refine ⟨trimZeroes t ++ zeros (8 * j), ?_⟩
      conv => rhs; rw [hj]
      rw [List.append_assoc, zeros, zeros, zeros, List.replicate_append_replicate]
      congr 2

/-- C21: trimming is idempotent. -/
theorem C21_trim_idempotent (s : List UInt8) : trimZeroes (trimZeroes s) = trimZeroes s :=
  (C21_trim_exact _ _).mpr ⟨⟨0, by simp [zeros]⟩, (trimZeroes_spec s).2⟩

/-- C21: trimming undoes padding up to trailing zero groups: trimming a padded string is trimming the
string completed with zeros to a multiple of eight characters. -/
theorem C21_trim_perfize (s : List UInt8) (h : s.length ≤ 40) :
    trimZeroes (perfizeBuildID s) = trimZeroes (s ++ zeros ((8 - s.length % 8) % 8)) := by
  rw [(C21_perfize_keeps s).1 h]
  have e : zeros (40 - s.length) = zeros ((8 - s.length % 8) % 8) ++ zeros (8 * ((40 - s.length) / 8)) := by
    rw [zeros, zeros, zeros, List.replicate_append_replicate]
    congr 1
    omega
  rw [e, ← List.append_assoc, trimZeroes_append]

/-- C21: in particular a build ID made of whole groups comes back, up to trailing zero groups. -/
theorem C21_trim_perfize_groups (s : List UInt8) (h : s.length ≤ 40) (h8 : s.length % 8 = 0) :
    trimZeroes (perfizeBuildID s) = trimZeroes s := by
  rw [C21_trim_perfize s h, h8]
  simp [zeros]

/-- C21: padding undoes trimming of a 40-character build ID. -/
theorem C21_perfize_trim (s : List UInt8) (h : s.length = 40) : perfizeBuildID (trimZeroes s) = s := by
  obtain ⟨⟨k, hk⟩, _⟩ := trimZeroes_spec s
  have hl : (trimZeroes s).length + 8 * k = 40 := by
    rw [← h]; conv => rhs; rw [hk]
    simp [zeros]
  rw [(C21_perfize_keeps _).1 (by omega)]
  conv => rhs; rw [hk]
  rw [show 40 - (trimZeroes s).length = 8 * k by omega]

example : trimZeroes (ascii "deadbeef0000000000000000") = ascii "deadbeef" ∧
    (perfizeBuildID (ascii "deadbeef")).length = 40 ∧
    trimZeroes (ascii "a000000000") = ascii "a0" := by
  refine ⟨(C21_trim_exact _ _).mpr ⟨⟨2, by decide +kernel⟩, by decide +kernel⟩, C21_perfize_length _,
    (C21_trim_exact _ _).mpr ⟨⟨1, by decide +kernel⟩, by decide +kernel⟩⟩

/-! ## C53 -/

/-- C53: a file at least three levels deep gets its first two directories, whatever the rest. -/
theorem C53_two_levels (s1 d1 s2 d2 rest : List UInt8) (hs1 : Slashes s1) (hd1 : Component d1)
    (hs2 : Slashes s2) (hd2 : Component d2)
    (hsp : ¬ SpecialName (s1 ++ d1 ++ s2 ++ d2 ++ 47 :: rest)) :
    rootPath (s1 ++ d1 ++ s2 ++ d2 ++ 47 :: rest) = s1 ++ d1 ++ s2 ++ d2 := by
  obtain ⟨c1, t1, rfl⟩ := List.exists_cons_of_ne_nil hs1.1
  have hc1 : c1 = 47 := hs1.2 c1 (by simp)
  obtain ⟨c2, t2, rfl⟩ := List.exists_cons_of_ne_nil hs2.1
  have hc2 : c2 = 47 := hs2.2 c2 (by simp)
  subst hc1 hc2
  obtain ⟨x1, y1, rfl⟩ := List.exists_cons_of_ne_nil hd1.1
  obtain ⟨x2, y2, rfl⟩ := List.exists_cons_of_ne_nil hd2.1
  have hx1 : x1 ≠ 47 := by rintro rfl; exact hd1.2 (by simp)
  have hx2 : x2 ≠ 47 := by rintro rfl; exact hd2.2 (by simp)
  rw [rootPath_general hsp (by simp)]
  have h1 : skipSlashes (47 :: t1 ++ (x1 :: y1) ++ (47 :: t2) ++ (x2 :: y2) ++ 47 :: rest) 1 =
      (47 :: t1).length := by
    have := skipSlashes_start (s := 47 :: t1) (b := (x1 :: y1) ++ (47 :: t2) ++ (x2 :: y2) ++ 47 :: rest)
      hs1 (by simp [hx1])
    simpa using this
  have h2 : skipSlashes (47 :: t1 ++ (x1 :: y1) ++ (47 :: t2) ++ (x2 :: y2) ++ 47 :: rest)
      (47 :: t1).length = (47 :: t1).length := by
    have := skipSlashes_at (a := 47 :: t1) (s := [])
      (b := (x1 :: y1) ++ (47 :: t2) ++ (x2 :: y2) ++ 47 :: rest) (by simp) (by simp [hx1])
    simpa using this
  have h3 : findFrom (47 :: t1 ++ (x1 :: y1) ++ (47 :: t2) ++ (x2 :: y2) ++ 47 :: rest) 47
      (47 :: t1).length = some (47 :: t1 ++ (x1 :: y1)).length := by
    have := findFrom_at (a := 47 :: t1) (s := x1 :: y1) (b := t2 ++ (x2 :: y2) ++ 47 :: rest) hd1.2
    simpa [Nat.add_assoc, Nat.add_comm, Nat.add_left_comm] using this
  have h4 : skipSlashes (47 :: t1 ++ (x1 :: y1) ++ (47 :: t2) ++ (x2 :: y2) ++ 47 :: rest)
      (47 :: t1 ++ (x1 :: y1)).length = (47 :: t1 ++ (x1 :: y1) ++ (47 :: t2)).length := by
    have := skipSlashes_at (a := 47 :: t1 ++ (x1 :: y1)) (s := 47 :: t2)
      (b := (x2 :: y2) ++ 47 :: rest) hs2.2 (by simp [hx2])
    simpa [Nat.add_assoc, Nat.add_comm, Nat.add_left_comm] using this
  have h5 : findFrom (47 :: t1 ++ (x1 :: y1) ++ (47 :: t2) ++ (x2 :: y2) ++ 47 :: rest) 47
      (47 :: t1 ++ (x1 :: y1) ++ (47 :: t2)).length =
      some (47 :: t1 ++ (x1 :: y1) ++ (47 :: t2) ++ (x2 :: y2)).length := by
    have := findFrom_at (a := 47 :: t1 ++ (x1 :: y1) ++ (47 :: t2)) (s := x2 :: y2) (b := rest) hd2.2
    simpa [Nat.add_assoc, Nat.add_comm, Nat.add_left_comm] using this
  rw [h1]
  simp only [rootLoop, h2, h3, h4, h5]
  exact List.take_left' rfl

/-- C53: a file directly below a top-level directory gets that directory. -/
theorem C53_one_level (s1 d1 s2 f : List UInt8) (hs1 : Slashes s1) (hd1 : Component d1)
    (hs2 : Slashes s2) (hf : (47 : UInt8) ∉ f) (hsp : ¬ SpecialName (s1 ++ d1 ++ s2 ++ f)) :
    rootPath (s1 ++ d1 ++ s2 ++ f) = s1 ++ d1 := by
  obtain ⟨c1, t1, rfl⟩ := List.exists_cons_of_ne_nil hs1.1
  have hc1 : c1 = 47 := hs1.2 c1 (by simp)
  obtain ⟨c2, t2, rfl⟩ := List.exists_cons_of_ne_nil hs2.1
  have hc2 : c2 = 47 := hs2.2 c2 (by simp)
  subst hc1 hc2
  obtain ⟨x1, y1, rfl⟩ := List.exists_cons_of_ne_nil hd1.1
  have hx1 : x1 ≠ 47 := by rintro rfl; exact hd1.2 (by simp)
  have hfh : f.head? ≠ some 47 := by
    cases f with
    | nil => simp
    | cons x t => simp only [List.head?_cons, ne_eq, Option.some.injEq]; rintro rfl; exact hf (by simp)
  rw [rootPath_general hsp (by simp)]
  have h1 : skipSlashes (47 :: t1 ++ (x1 :: y1) ++ (47 :: t2) ++ f) 1 = (47 :: t1).length := by
    have := skipSlashes_start (s := 47 :: t1) (b := (x1 :: y1) ++ (47 :: t2) ++ f) hs1 (by simp [hx1])
    simpa using this
  have h2 : skipSlashes (47 :: t1 ++ (x1 :: y1) ++ (47 :: t2) ++ f) (47 :: t1).length =
      (47 :: t1).length := by
    have := skipSlashes_at (a := 47 :: t1) (s := []) (b := (x1 :: y1) ++ (47 :: t2) ++ f) (by simp)
      (by simp [hx1])
    simpa using this
  have h3 : findFrom (47 :: t1 ++ (x1 :: y1) ++ (47 :: t2) ++ f) 47 (47 :: t1).length =
      some (47 :: t1 ++ (x1 :: y1)).length := by
    have := findFrom_at (a := 47 :: t1) (s := x1 :: y1) (b := t2 ++ f) hd1.2
    simpa [Nat.add_assoc, Nat.add_comm, Nat.add_left_comm] using this
  have h4 : skipSlashes (47 :: t1 ++ (x1 :: y1) ++ (47 :: t2) ++ f) (47 :: t1 ++ (x1 :: y1)).length =
      (47 :: t1 ++ (x1 :: y1) ++ (47 :: t2)).length := by
    have := skipSlashes_at (a := 47 :: t1 ++ (x1 :: y1)) (s := 47 :: t2) (b := f) hs2.2 hfh
    simpa [Nat.add_assoc, Nat.add_comm, Nat.add_left_comm] using this
  have h5 : findFrom (47 :: t1 ++ (x1 :: y1) ++ (47 :: t2) ++ f) 47
      (47 :: t1 ++ (x1 :: y1) ++ (47 :: t2)).length = none := findFrom_none hf
  rw [h1]
  simp only [rootLoop, h2, h3, h4, h5]
  rw [List.append_assoc, List.take_left' rfl]

/-- C53: a file in the root directory gets the leading slashes. -/
theorem C53_root (s1 f : List UInt8) (hs1 : Slashes s1) (hf : (47 : UInt8) ∉ f)
    (hsp : ¬ SpecialName (s1 ++ f)) : rootPath (s1 ++ f) = s1 := by
  obtain ⟨c1, t1, rfl⟩ := List.exists_cons_of_ne_nil hs1.1
  have hc1 : c1 = 47 := hs1.2 c1 (by simp)
  subst hc1
  have hfh : f.head? ≠ some 47 := by
    cases f with
    | nil => simp
    | cons x t => simp only [List.head?_cons, ne_eq, Option.some.injEq]; rintro rfl; exact hf (by simp)
  rw [rootPath_general hsp (by simp)]
  have h1 : skipSlashes (47 :: t1 ++ f) 1 = (47 :: t1).length := skipSlashes_start hs1 hfh
  have h2 : skipSlashes (47 :: t1 ++ f) (47 :: t1).length = (47 :: t1).length := by
    have := skipSlashes_at (a := 47 :: t1) (s := []) (b := f) (by simp) hfh
    simpa using this
  have h3 : findFrom (47 :: t1 ++ f) 47 (47 :: t1).length = none := findFrom_none hf
  rw [h1]
  simp only [rootLoop, h2, h3]
  exact List.take_left' rfl

/-- C53: a name that is neither special nor absolute has no root. -/
theorem C53_relative (s : List UInt8) (hsp : ¬ SpecialName s) (h0 : s.head? ≠ some 47) :
    rootPath s = [] := by
  unfold SpecialName at hsp
  simp only [not_or] at hsp
  unfold rootPath
  rw [if_neg (by simpa using hsp.1), if_neg (by simpa using hsp.2.1), if_neg (by simpa using hsp.2.2),
    if_pos h0]

/-- C53: whatever the name, the root is a prefix of it. -/
theorem C53_prefix (s : List UInt8) : rootPath s <+: s := by
  unfold rootPath
  split
  · rename_i h; simpa using h
  split
  · rename_i h; simpa using h
  split
  · rename_i h
    have h : ascii "/tmp/" <+: s := by simpa using h
    exact List.IsPrefix.trans (by decide +kernel) h
  split
  · exact List.nil_prefix
  · exact List.take_prefix _ _

example : rootPath (ascii "/usr/lib/x86/libc.so") = ascii "/usr/lib" :=
  C53_two_levels (ascii "/") (ascii "usr") (ascii "/") (ascii "lib") (ascii "x86/libc.so")
    ⟨by decide +kernel, by decide +kernel⟩ ⟨by decide +kernel, by decide +kernel⟩
    ⟨by decide +kernel, by decide +kernel⟩ ⟨by decide +kernel, by decide +kernel⟩
    (by unfold SpecialName; decide +kernel)

end Verif.Text
