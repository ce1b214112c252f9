import Verif.Text.StatSpec
import Verif.Text.SecondsProps
import Verif.Text.Lemmas

/-! # Theorems C54 and C133: `perf stat` output -/

namespace Verif.Text
open Verif.Util

/-! ## C54 -/

theorem trimWhitespace_head (s : List UInt8) : (trimWhitespace s).head?.all (! isTrimSpace ·) := by
  unfold trimWhitespace
  split
  · rfl
  · rename_i h
    generalize hd : s.dropWhile isTrimSpace = d
    have hd0 : ∀ c t, d = c :: t → isTrimSpace c = false := by
      intro c t hct
      have := List.head?_dropWhile_not isTrimSpace s
      rw [hd, hct] at this
      simpa using this
    cases d with
    | nil => rfl
    | cons c t =>
      have hc := hd0 c t rfl
      have : (c :: t).reverse.dropWhile isTrimSpace = (t.reverse.dropWhile isTrimSpace) ++ [c] := by
        rw [List.reverse_cons, List.dropWhile_append]
        split
        · rename_i he
          have he' : t.reverse.dropWhile isTrimSpace = [] := by simpa using he
          rw [he']; simp [hc]
        · rfl
      rw [this]
      simp [hc]

/-- The first token of a line that starts with a non-blank is not empty. -/
theorem first_token_ne_nil {d : UInt8} {s t0 : List UInt8} {ts : List (List UInt8)}
    (h0 : s.head? ≠ some d) (h : splitString d s = t0 :: ts) : t0 ≠ [] := by
  cases s with
  | nil => rw [splitString_nil] at h; cases h
  | cons c t =>
    rw [splitString] at h
    simp only [List.cons.injEq] at h
    rw [← h.1]
    have : c ≠ d := by simpa using h0
    simp [this]

/-- When a line makes the parser do something undefined: its four tokens are those of a line with the
time, and the conversion of the time is undefined. -/
def Undefined (line : List UInt8) : Prop :=
  ∃ t0 a b, splitString 32 (trimWhitespace line) = [t0, ascii "seconds", a, b] ∧
    t0.getLast? ≠ some 58 ∧ secondsToMs t0 = none

theorem strtoul10_seconds : (strtoul10 (ascii "seconds")).2 ≠ [] := by decide +kernel

theorem statLine_none (line : List UInt8) (st : StatState) :
    statLine line st = none ↔ Undefined line := by
  unfold statLine Undefined
  split
  · rename_i t0 t1 t2 t3 hs
    have hh := trimWhitespace_head line
    have h0 : (trimWhitespace line).head? ≠ some 32 := by
      intro e
      rw [e] at hh
      exact absurd hh (by decide)
    have hne := first_token_ne_nil h0 hs
    cases hg : t0.getLast? with
    | none => exact absurd (List.getLast?_eq_none_iff.mp hg) hne
    | some last =>
      simp only
      by_cases hl : last = 58
      · subst hl
        simp only [if_true]
        constructor
        · intro h
          by_cases he : (strtoul10 t1).2 ≠ []
          · rw [if_pos he] at h; cases h
          · rw [if_neg he] at h
            unfold statTime at h
            by_cases h1 : t1 = ascii "seconds"
            · rw [h1] at he; exact absurd strtoul10_seconds he
            · rw [if_neg h1] at h; cases h
        · rintro ⟨t0', a, b, he, hl', _⟩
          rw [hs] at he
          injection he with he _
          rw [← he] at hl'
          exact absurd hg hl'
      · rw [if_neg hl]
        unfold statTime
        constructor
        · intro h
          by_cases h1 : t1 = ascii "seconds"
          · rw [if_pos h1, Option.map_eq_none_iff] at h
            refine ⟨t0, t2, t3, by rw [hs, h1], ?_, h⟩
            rw [hg]; simpa using hl
          · rw [if_neg h1] at h; cases h
        · rintro ⟨t0', a, b, he, _, hu⟩
          rw [hs] at he
          injection he with e0 he
          injection he with e1 he
          rw [if_pos e1, e0, hu]
          rfl
  · rename_i hn
    constructor
    · intro h; cases h
    · rintro ⟨t0, a, b, he, _⟩
      exact absurd he (hn _ _ _ _)

theorem statLine_lines {line : List UInt8} {st st' : StatState} (h : statLine line st = some st') :
    ∃ ls, st'.lines = ls ∧ ls.length ≤ st.lines.length + 1 := by
  have ht : ∀ t0 t1 (s s' : StatState), statTime t0 t1 s = some s' → s'.lines = s.lines := by
    intro t0 t1 s s' h
    unfold statTime at h
    split at h
    · obtain ⟨r, _, rfl⟩ := Option.map_eq_some_iff.mp h; rfl
    · cases h; rfl
  refine ⟨_, rfl, ?_⟩
  unfold statLine at h
  split at h
  · split at h
    · cases h
    · simp only at h
      split at h
      · split at h
        · cases h; omega
        · rw [ht _ _ _ _ h]; simp
      · rw [ht _ _ _ _ h]; omega
  · cases h; omega

/-- C54: parsing `perf stat` output never takes the last character of an empty token. The only
undefined behaviour is that of converting the text in front of the word `seconds`. -/
theorem C54_undefined_iff (data : List UInt8) :
    parsePerfStat data = none ↔ ∃ line ∈ splitString 10 data, Undefined line := by
  have hlines : ∀ ls st, statLines ls st = none ↔ ∃ line ∈ ls, Undefined line := by
    intro ls
    induction ls with
    | nil => intro st; simp [statLines]
    | cons l ls ih =>
      intro st
      unfold statLines
      cases h1 : statLine l st with
      | none => simp [(statLine_none l st).mp h1]
      | some st' =>
        have : ¬ Undefined l := fun h => by rw [(statLine_none l st).mpr h] at h1; cases h1
        simp [ih, this]
  unfold parsePerfStat
  rw [Option.map_eq_none_iff, hlines]

/-- C54, partial: parsing is defined if every line of four words with `seconds` as the second one begins
with a decimal number that is not enormous. Missing: all other texts, for which the claim is false (next
theorem). -/
theorem C54_safe_partial (data : List UInt8)
    (h : ∀ line ∈ splitString 10 data, ∀ t0 a b,
      splitString 32 (trimWhitespace line) = [t0, ascii "seconds", a, b] → ∃ q, Written t0 q ∧
        q < 18446744073709550) :
    ∃ r, parsePerfStat data = some r := by
  cases hp : parsePerfStat data with
  | some r => exact ⟨r, rfl⟩
  | none =>
    obtain ⟨line, hm, t0, a, b, hs, _, hn⟩ := (C54_undefined_iff data).mp hp
    obtain ⟨q, hw, hq⟩ := h line hm t0 a b hs
    exact absurd ((seconds_fit hw).mp hn) (not_le.mpr hq)

/-- But not for every text: `perf stat` output with a time that is not a number, or an enormous
one, makes the parser do something undefined. -/
theorem C54_safe_violated :
    parsePerfStat (ascii "cycles: 12 3 4\nnan seconds time elapsed\n") = none ∧
    parsePerfStat (ascii "cycles: 12 3 4\n99999999999999999.9 seconds time elapsed\n") = none := by
  constructor <;> decide +kernel

/-- C54: the result is true exactly when at least one line was recognised, and the number of lines
never exceeds the number of input lines. -/
theorem C54_result (data : List UInt8) (lines : List StatLine)
    (t : Option Nat) (ok : Bool) (h : parsePerfStat data = some (lines, t, ok)) :
    (ok = true ↔ lines ≠ []) ∧ lines.length ≤ (splitString 10 data).length := by
  have hline : ∀ line st st', statLine line st = some st' →
      st'.lines.length ≤ st.lines.length + 1 := by
    intro line st st' h
    obtain ⟨ls, rfl, hl⟩ := statLine_lines h
    exact hl
  have hlines : ∀ ls st st', statLines ls st = some st' →
      st'.lines.length ≤ st.lines.length + ls.length := by
    intro ls
    induction ls with
    | nil => intro st st' h; cases h; simp
    | cons l ls ih =>
      intro st st' h
      simp only [statLines] at h
      cases h1 : statLine l st with
      | none => rw [h1] at h; cases h
      | some st1 =>
        rw [h1] at h
        have := ih st1 st' h
        have := hline l st st1 h1
        simp only [List.length_cons]; omega
  unfold parsePerfStat at h
  cases hst : statLines (splitString 10 data) {} with
  | none => rw [hst] at h; cases h
  | some st =>
    rw [hst] at h
    cases h
    have := hlines _ _ _ hst
    refine ⟨by simp, by simpa using this⟩

example : parsePerfStat (ascii "  cycles: 12 3 4\n bad line\n1.234 seconds time elapsed\n") =
    some ([⟨ascii "cycles", 12⟩], some 1234, true) := by decide +kernel

/-! ## C133 -/

theorem trimWhitespace_indent {k : Nat} {c : UInt8} {m : List UInt8} {e : UInt8}
    (hc : isTrimSpace c = false) (he : isTrimSpace e = false) (body : List UInt8)
    (h1 : body.head? = some c) (h2 : body = m ++ [e]) :
    trimWhitespace (List.replicate k 32 ++ body) = body := by
  unfold trimWhitespace
  rw [if_neg]
  · have hd : (List.replicate k (32 : UInt8) ++ body).dropWhile isTrimSpace = body := by
      induction k with
      | zero =>
        obtain ⟨t, rfl⟩ : ∃ t, body = c :: t := by
          cases body with
          | nil => cases h1
          | cons x t => injection h1 with h1; exact ⟨t, by rw [h1]⟩
        simp [hc]
      | succ k ih =>
        rw [List.replicate_succ, List.cons_append, List.dropWhile_cons,
          if_pos (by decide : isTrimSpace 32 = true)]
        exact ih
    rw [hd, h2, List.reverse_append]
    simp [he]
  · rw [h2]
    simp [he]

theorem split_count (d : UInt8) (s : List UInt8) : (splitString d s).length ≤ s.count d + 1 := by
  fun_induction splitString d s with
  | case1 => simp
  | case2 c t token ih =>
    simp only [List.length_cons]
    by_cases hm : d ∈ c :: t
    · have hlen : token.length < (c :: t).length := by
        rcases Nat.lt_or_ge token.length (c :: t).length with h | h
        · exact h
        · have hp : token <+: (c :: t) := List.takeWhile_prefix _
          have he := hp.eq_of_length (Nat.le_antisymm hp.length_le h)
          rw [← he] at hm
          have := List.all_eq_true.mp
            (List.all_takeWhile (p := fun x : UInt8 => decide (x ≠ d)) (l := c :: t)) d hm
          simp at this
      have hx : (c :: t)[token.length]'hlen = d := by
        have hd := List.head?_dropWhile_not (fun x : UInt8 => decide (x ≠ d)) (c :: t)
        have he : (c :: t).dropWhile (fun x : UInt8 => decide (x ≠ d)) = (c :: t).drop token.length := by
          have h1 := List.takeWhile_append_dropWhile (p := fun x : UInt8 => decide (x ≠ d)) (l := c :: t)
          conv => rhs; rw [← h1]
          exact (List.drop_left).symm
        rw [he, List.head?_drop, List.getElem?_eq_getElem hlen] at hd
        simpa using hd
      have hs : (c :: t) = token ++ d :: (c :: t).drop (token.length + 1) := by
        have hp : token <+: (c :: t) := List.takeWhile_prefix _
        have h1 := List.prefix_iff_eq_take.mp hp
        conv => lhs; rw [← List.take_append_drop token.length (c :: t), ← h1]
        rw [List.drop_eq_getElem_cons hlen, hx]
      have hcnt : (c :: t).count d = token.count d + (((c :: t).drop (token.length + 1)).count d + 1) := by
        conv => lhs; rw [hs]
        rw [List.count_append, List.count_cons_self]
      omega
    · have he : token = c :: t := by
        apply takeWhile_all
        intro x hx
        simp only [ne_eq, decide_eq_true_eq]
        rintro rfl
        exact hm hx
      have : (c :: t).drop (token.length + 1) = [] := by rw [he]; simp
      rw [this, splitString_nil]
      simp

theorem trim_count (d : UInt8) (s : List UInt8) : (trimWhitespace s).count d ≤ s.count d := by
  unfold trimWhitespace
  split
  · simp
  · rw [List.count_reverse]
    refine Nat.le_trans ((List.dropWhile_sublist _).count_le _) ?_
    rw [List.count_reverse]
    exact (List.dropWhile_sublist _).count_le _

theorem dec_none {n : Nat} {c : UInt8} (hc : c < 48) : c ∉ dec n := by
  intro h
  have := (dec_digits n c h).1
  rw [UInt8.le_iff_toNat_le] at this
  rw [UInt8.lt_iff_toNat_lt] at hc
  omega

theorem dec_trim {n : Nat} : ∃ m e, dec n = m ++ [e] ∧ isTrimSpace e = false := by
  have hne := dec_ne_nil n
  refine ⟨(dec n).dropLast, (dec n).getLast hne, (List.dropLast_append_getLast hne).symm, ?_⟩
  have h := (dec_digits n _ (List.getLast_mem hne)).1
  generalize (dec n).getLast hne = c at h
  rw [UInt8.le_iff_toNat_le] at h
  have h' : 48 ≤ c.toNat := h
  unfold isTrimSpace
  have hx : ∀ k : UInt8, k.toNat < 48 → (c == k) = false := by
    intro k hk
    simp only [beq_eq_false_iff_ne, ne_eq]
    rintro rfl
    omega
  rw [hx 32 (by decide), hx 9 (by decide), hx 10 (by decide), hx 13 (by decide)]
  rfl

theorem strtoul10_dec {n : Nat} (h : n < 2 ^ 64) : strtoul10 (dec n) = (n, []) := by
  unfold strtoul10
  rw [strto_dec]
  have : ¬ n ≥ 2 ^ 64 := by omega
  simp only [if_neg this]
  rfl

theorem dec_seconds (n : Nat) : dec n ≠ ascii "seconds" := by
  intro h
  have := (dec_digits n 115 (by rw [h]; decide)).2
  exact absurd this (by decide)

/-- What one row does. -/
def Row.act : Row → StatState → StatState
  | .counter _ name count _ _, st => { st with lines := st.lines ++ [⟨name, count⟩] }
  | .time _ _ n, st => { st with timeMs := n }
  | .other _, st => st

theorem row_line {r : Row} (h : r.Good) (st : StatState) : statLine r.text st = some (r.act st) := by
  cases r with
  | counter k name count a b =>
    obtain ⟨h10, h32, h9, h13, hc⟩ := h
    obtain ⟨m, e, hm, he⟩ := dec_trim (n := b)
    obtain ⟨c, hhead, hcs⟩ : ∃ c, (name ++ ascii ":").head? = some c ∧ isTrimSpace c = false := by
      cases name with
      | nil => exact ⟨58, by decide +kernel, by decide⟩
      | cons x t =>
        refine ⟨x, rfl, ?_⟩
        unfold isTrimSpace
        simp only [List.head?_cons, ne_eq, Option.some.injEq] at h9 h13
        simp only [List.mem_cons, not_or] at h10 h32
        have a1 : (x == 32) = false := by simpa using fun e => h32.1 e.symm
        have a2 : (x == 10) = false := by simpa using fun e => h10.1 e.symm
        have a3 : (x == 9) = false := by simpa using h9
        have a4 : (x == 13) = false := by simpa using h13
        rw [a1, a2, a3, a4]; rfl
    have ht : trimWhitespace (Row.text (.counter k name count a b)) =
        (name ++ [58]) ++ 32 :: (dec count ++ 32 :: (dec a ++ 32 :: dec b)) := by
      have : Row.text (.counter k name count a b) = List.replicate k 32 ++
          ((name ++ [58]) ++ 32 :: (dec count ++ 32 :: (dec a ++ 32 :: dec b))) := by
        simp [Row.text, ascii, List.append_assoc]
      rw [this]
      refine trimWhitespace_indent (c := c) (e := e)
        (m := (name ++ [58]) ++ 32 :: (dec count ++ 32 :: (dec a ++ 32 :: m))) hcs he _ ?_ ?_
      · rw [List.head?_append]
        have : (name ++ [58]).head? = some c := hhead
        rw [this]; rfl
      · rw [hm]; simp [List.append_assoc]
    unfold statLine
    have hnm : (32 : UInt8) ∉ name ++ [58] := by
      rw [List.mem_append, not_or]; exact ⟨h32, by decide⟩
    rw [ht, splitString_cons hnm, splitString_cons (dec_none (by decide)),
      splitString_cons (dec_none (by decide)),
      splitString_last (dec_none (by decide)) (dec_ne_nil b)]
    simp only [List.getLast?_append, List.getLast?_singleton, Option.some_or, if_true,
      strtoul10_dec hc]
    rw [if_neg (by simp)]
    unfold statTime
    rw [if_neg (dec_seconds count)]
    simp [Row.act]
  | time k t n =>
    obtain ⟨⟨q, hw, hq⟩, hn⟩ := h
    obtain ⟨hne, hp⟩ := written_plain hw
    have ht : trimWhitespace (Row.text (.time k t n)) =
        t ++ 32 :: (ascii "seconds" ++ 32 :: (ascii "time" ++ 32 :: ascii "elapsed")) := by
      have : Row.text (.time k t n) = List.replicate k 32 ++
          (t ++ 32 :: (ascii "seconds" ++ 32 :: (ascii "time" ++ 32 :: ascii "elapsed"))) := by
        unfold Row.text
        rfl
      rw [this]
      obtain ⟨c, r, rfl⟩ := List.exists_cons_of_ne_nil hne
      have hcs : isTrimSpace c = false := by
        rcases hp c (by simp) with ⟨d, hd, rfl⟩ | rfl
        · have : d = 0 ∨ d = 1 ∨ d = 2 ∨ d = 3 ∨ d = 4 ∨ d = 5 ∨ d = 6 ∨ d = 7 ∨ d = 8 ∨ d = 9 := by
            omega
          rcases this with h | h | h | h | h | h | h | h | h | h <;> subst h <;> decide
        · decide
      refine trimWhitespace_indent (c := c) (e := 100)
        (m := (c :: r) ++ 32 :: (ascii "seconds" ++ 32 :: (ascii "time" ++ 32 :: ascii "elapse")))
        hcs (by decide) _ rfl ?_
      rw [List.append_assoc]
      rfl
    have h32 : (32 : UInt8) ∉ t := by
      intro hm
      have := (plain_facts (hp _ hm)).2.1
      exact absurd this (by decide)
    have hl : t.getLast? ≠ some 58 := by
      intro e
      have hm := List.mem_of_getLast? e
      rcases hp _ hm with ⟨d, hd, hx⟩ | hx
      · have := congrArg UInt8.toNat hx
        rw [digit_toNat hd] at this
        have : 58 = 48 + d := this
        omega
      · exact absurd hx (by decide)
    unfold statLine
    rw [ht, splitString_cons h32, splitString_cons (by decide), splitString_cons (by decide),
      splitString_last (by decide) (by decide)]
    cases hg : t.getLast? with
    | none => exact absurd (List.getLast?_eq_none_iff.mp hg) hne
    | some last =>
      have : last ≠ 58 := by rw [hg] at hl; simpa using hl
      simp only [hg, if_neg this]
      unfold statTime
      rw [if_pos rfl, seconds_exact hw n hq hn]
      rfl
  | other l =>
    obtain ⟨_, hc⟩ := h
    unfold statLine Row.text
    have h1 := split_count 32 (trimWhitespace l)
    have h2 := trim_count 32 l
    split
    · rename_i heq
      simp only at heq
      rw [heq] at h1
      simp only [List.length_cons, List.length_nil] at h1
      omega
    · rfl

theorem row_text_no {r : Row} (h : r.Good) : (10 : UInt8) ∉ r.text := by
  have hrep : ∀ k, (10 : UInt8) ∉ List.replicate k (32 : UInt8) := by
    intro k hm
    have := (List.mem_replicate.mp hm).2
    exact absurd this (by decide)
  cases r with
  | counter k name count a b =>
    obtain ⟨h10, _⟩ := h
    unfold Row.text
    simp only [List.mem_append, not_or]
    exact ⟨hrep k, ⟨⟨⟨⟨⟨⟨h10, by decide⟩, by decide⟩, dec_none (by decide)⟩, by decide⟩,
      dec_none (by decide)⟩, by decide⟩, dec_none (by decide)⟩
  | time k t n =>
    obtain ⟨⟨q, hw, _⟩, _⟩ := h
    unfold Row.text
    simp only [List.mem_append, not_or]
    refine ⟨hrep k, ?_, by decide⟩
    intro hm
    have := (plain_facts ((written_plain hw).2 _ hm)).2.1
    exact absurd this (by decide)
  | other l => exact h.1

theorem output_split {rows : List Row} (h : ∀ r ∈ rows, r.Good) :
    splitString 10 (output rows) = rows.map Row.text := by
  induction rows with
  | nil => simp [output, splitString_nil]
  | cons r rows ih =>
    have : output (r :: rows) = r.text ++ 10 :: output rows := by simp [output]
    rw [this, splitString_cons (row_text_no (h r (by simp))), ih (fun x hx => h x (by simp [hx]))]
    rfl

theorem rows_act {rows : List Row} (h : ∀ r ∈ rows, r.Good) (st : StatState) :
    statLines (rows.map Row.text) st = some
      { lines := st.lines ++ counters rows, timeMs := (times rows).getLastD st.timeMs } := by
  induction rows generalizing st with
  | nil => simp [statLines, counters, times]
  | cons r rows ih =>
    simp only [List.map_cons, statLines, row_line (h r (by simp))]
    rw [ih (fun x hx => h x (by simp [hx]))]
    cases r with
    | counter k name count a b => simp [Row.act, counters, times]
    | time k t n =>
      simp only [Row.act, counters, times, List.filterMap_cons, Option.some.injEq]
      rw [List.getLastD_cons]
    | other l => simp [Row.act, counters, times]

/-- C133: the output of `perf stat` is understood. The counters come out with their names and counts
in the order of the rows, all with the time that was printed last, unless that is zero, and the result
is true exactly if there are counters. -/
theorem stat_output (rows : List Row) (h : ∀ r ∈ rows, r.Good) :
    parsePerfStat (output rows) = some (counters rows,
      if (times rows).getLastD 0 = 0 then none else some ((times rows).getLastD 0),
      decide (counters rows ≠ [])) := by
  unfold parsePerfStat
  rw [output_split h, rows_act h]
  simp

/-- Rows of an output: a heading, two counters and a time. -/
def exRows : List Row :=
  [.other (ascii "# counters"), .counter 2 (ascii "cycles") 1234567890123 4 5,
    .counter 0 (ascii "cpu/event=0x3c/u") 7 0 0, .time 6 (ascii "12.034") 12034]

example : ∀ r ∈ exRows, r.Good := by
  have hw : Written (ascii "12.034") (12034 / 1000) := by
    have h := Written.point [1, 2] [0, 3, 4] (by decide) (by decide) (by decide)
    have e : ((number [1, 2] : Nat) : ℚ) + (number [0, 3, 4] : Nat) / 10 ^ [0, 3, 4].length =
        12034 / 1000 := by norm_num [number]
    rw [e] at h
    exact h
  intro r hr
  simp only [exRows, List.mem_cons, List.not_mem_nil, or_false] at hr
  rcases hr with rfl | rfl | rfl | rfl
  · exact ⟨by decide, by decide⟩
  · exact ⟨by decide, by decide, by decide, by decide, by decide⟩
  · exact ⟨by decide, by decide, by decide, by decide, by decide⟩
  · exact ⟨⟨_, hw, by norm_num⟩, by decide⟩

example : parsePerfStat (output exRows) =
    some ([⟨ascii "cycles", 1234567890123⟩, ⟨ascii "cpu/event=0x3c/u", 7⟩], some 12034, true) := by
  decide +kernel

/-- A time of less than half a millisecond is not given to the counters at all. -/
theorem stat_zero : parsePerfStat (ascii "cycles: 12 3 4\n0.0004 seconds time elapsed\n") =
    some ([⟨ascii "cycles", 12⟩], none, true) := by decide +kernel

/-- Counts that do not fit 64 bits are reported as the largest number that does, and missing or
negative ones are taken as well. -/
theorem stat_count_violated :
    parsePerfStat (ascii "a: 18446744073709551616 3 4\n") = some ([⟨ascii "a", 2 ^ 64 - 1⟩], none, true) ∧
    parsePerfStat (ascii "a:  3 4\n") = some ([⟨ascii "a", 0⟩], none, true) ∧
    parsePerfStat (ascii "a: -1 3 4\n") = some ([⟨ascii "a", 2 ^ 64 - 1⟩], none, true) := by
  refine ⟨?_, ?_, ?_⟩ <;> decide +kernel

end Verif.Text
