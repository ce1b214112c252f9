import Verif.HugePages.Combine

/-! # Combining leaves nothing to combine (C22) -/

namespace Verif.HugePages
open Verif.Buffer

structure Inv2 (st : List Ev × (Nat → Option Nat)) : Prop where
  last : ∀ k i, st.2 k = some i → LastAt st.1 k i
  none : ∀ k, st.2 k = none → ∀ e ∈ st.1, ∀ m, e.mmap = some m → m.key ≠ k
  ok : AllOk st.1
  pairs : ∀ (i j : Nat) (e1 e2 : Ev) (p m : MMap), i < j → st.1[i]? = some e1 → st.1[j]? = some e2 →
    e1.mmap = some p → e2.mmap = some m → p.key = m.key →
    (∀ (n : Nat) (e : Ev) (q : MMap), i < n → n < j → st.1[n]? = some e → e.mmap = some q → q.key ≠ m.key) →
    shouldMerge p m = false

theorem merge_left {prev : Ev} {a p m q : MMap} (hsm : shouldMerge p m = true) (hk : m.key = p.key) (hp : p.Ok)
    (hq : (merge prev p m).mmap = some q) (h : shouldMerge a q = true) : shouldMerge a p = true := by
  obtain ⟨h1, h2, h3, h4, h5⟩ := shouldMerge_spec hsm hk hp
  have hcp : combinableFile p = true := by
    unfold shouldMerge at hsm
    simp only [Bool.and_eq_true] at hsm
    exact hsm.1.1.1.1.2
  unfold merge at hq
  by_cases hc : (isHugePage p && !isHugePage m) = true
  · rw [if_pos hc] at hq
    simp only [Bool.and_eq_true, Bool.not_eq_true'] at hc
    have hmn : ¬ HugeName m.filename := fun hn => by
      rw [(isHugePage_iff m).mpr hn] at hc
      cases hc.2
    have hma : ¬ AnonName m.filename := fun hn => hmn hn.huge
    have hpg : sub64 m.pgoff p.len = p.pgoff := by
      rw [h3 hma]
      unfold sub64
      have := hp.1
      have := hp.2.1
      omega
    have hq' := (Option.some.inj hq).symm
    have q1 : q.pgoff = p.pgoff := by rw [hq']; exact hpg
    have q2 : q.start = p.start := by rw [hq']
    have q3 : q.pid = p.pid := by rw [hq']
    have q4 : q.prot = p.prot := by rw [hq']
    have q5 : q.flags = p.flags := by rw [hq']
    have q6 : q.filename = m.filename := by rw [hq']
    have hqa : isAnon q = false := by
      cases hx : isAnon q with
      | false => rfl
      | true => exact absurd (q6 ▸ (isAnon_iff q).mp hx) hma
    unfold shouldMerge at h ⊢
    simp only [Bool.and_eq_true] at h ⊢
    obtain ⟨⟨⟨⟨⟨g1, g2⟩, g3⟩, g4⟩, g5⟩, g6⟩ := h
    refine ⟨⟨⟨⟨⟨hcp, g2⟩, ?_⟩, ?_⟩, ?_⟩, ?_⟩
    · unfold equivalentFile; rw [hc.1]; simp
    · unfold equivalentProt at g4 ⊢; rw [q4, q5] at g4; exact g4
    · unfold fileContiguous at g5 ⊢
      rw [q1, hqa] at g5
      simp only [Bool.and_false, Bool.or_false] at g5
      rw [g5, Bool.true_or]
    · unfold vmaContiguous at g6 ⊢; rw [q2, q3] at g6; exact g6
  · rw [if_neg hc] at hq
    have hq' := (Option.some.inj hq).symm
    rw [hq'] at h
    exact h

theorem Inv2.addOther {st : List Ev × (Nat → Option Nat)} (h : Inv2 st) (e : Ev) (he : e.mmap = .none)
    (hl : ∀ k i, st.2 k = some i → LastAt (st.1 ++ [e]) k i) (hok : AllOk (st.1 ++ [e])) : Inv2 (st.1 ++ [e], st.2) := by
  refine ⟨hl, ?_, hok, ?_⟩
  · intro k hk x hx m hm
    rcases List.mem_append.mp hx with hx | hx
    · exact h.none k hk x hx m hm
    · have : x = e := by simpa using hx
      subst this
      rw [he] at hm
      cases hm
  · intro i j e1 e2 p m hij h1 h2 hp hm hk hb
    simp only at h1 h2 hb
    have hj : j < st.1.length := by
      have := (List.getElem?_eq_some_iff.mp h2).1
      simp at this
      by_cases hjl : j = st.1.length
      · subst hjl
        simp at h2
        subst h2
        rw [he] at hm
        cases hm
      · omega
    rw [List.getElem?_append_left (by omega)] at h1 h2
    refine h.pairs i j e1 e2 p m hij h1 h2 hp hm hk (fun n e q hn1 hn2 hn3 => hb n e q hn1 hn2 ?_)
    rw [List.getElem?_append_left (by omega)]
    exact hn3

theorem Inv2.add {st : List Ev × (Nat → Option Nat)} (h : Inv2 st) (e : Ev) (m : MMap) (he : e.mmap = some m)
    (hnot : ∀ (i : Nat) (prev : Ev) (p : MMap), st.2 m.key = some i → st.1[i]? = some prev → prev.mmap = some p →
      shouldMerge p m = false)
    (hl : ∀ k i, (if k = m.key then some st.1.length else st.2 k) = some i → LastAt (st.1 ++ [e]) k i)
    (hok : AllOk (st.1 ++ [e])) :
    Inv2 (st.1 ++ [e], fun k => if k = m.key then some st.1.length else st.2 k) := by
  refine ⟨hl, ?_, hok, ?_⟩
  · intro k hk x hx m' hm
    simp only at hk
    by_cases hkm : k = m.key
    · rw [if_pos hkm] at hk; cases hk
    · rw [if_neg hkm] at hk
      rcases List.mem_append.mp hx with hx | hx
      · exact h.none k hk x hx m' hm
      · have : x = e := by simpa using hx
        subst this
        rw [he] at hm
        have : m = m' := Option.some.inj hm
        subst this
        exact fun hh => hkm hh.symm
  · intro i j e1 e2 p m' hij h1 h2 hp hm hk hb
    simp only at h1 h2 hb
    have hjl := (List.getElem?_eq_some_iff.mp h2).1
    simp at hjl
    rw [List.getElem?_append_left (by omega)] at h1
    by_cases hjj : j = st.1.length
    · subst hjj
      simp at h2
      subst h2
      rw [he] at hm
      have : m = m' := Option.some.inj hm
      subst this
      cases hpk : st.2 m.key with
      | none => exact absurd hk (h.none _ hpk e1 (List.mem_of_getElem? h1) p hp)
      | some i0 =>
        obtain ⟨e0, m0, l1, l2, l3, l4⟩ := h.last _ _ hpk
        have hi0 := (List.getElem?_eq_some_iff.mp l1).1
        have hle : ¬ i0 < i := fun hlt => l4 i e1 p hlt h1 hp hk
        have hge : ¬ i < i0 := fun hlt =>
          hb i0 e0 m0 hlt hi0 (by rw [List.getElem?_append_left hi0]; exact l1) l2 l3
        have : i = i0 := by omega
        subst this
        exact hnot i e1 p hpk h1 hp
    · rw [List.getElem?_append_left (by omega)] at h2
      refine h.pairs i j e1 e2 p m' hij h1 h2 hp hm hk (fun n e q hn1 hn2 hn3 => hb n e q hn1 hn2 ?_)
      rw [List.getElem?_append_left (by omega)]
      exact hn3

theorem Inv2.merge {st : List Ev × (Nat → Option Nat)} (h : Inv2 st) {prev : Ev} {m p : MMap} {i : Nat}
    (hm : m.Ok) (hi : st.2 m.key = some i) (hprev : st.1[i]? = some prev) (hp : prev.mmap = some p) (hsm : shouldMerge p m = true)
    (hl : ∀ k j, st.2 k = some j → LastAt (st.1.set i (HugePages.merge prev p m)) k j)
    (hok : AllOk (st.1.set i (HugePages.merge prev p m))) :
    Inv2 (st.1.set i (HugePages.merge prev p m), st.2) := by
  obtain ⟨e0, m0, l1, l2, l3, l4⟩ := h.last _ _ hi
  rw [hprev] at l1
  have : prev = e0 := Option.some.inj l1
  subst this
  rw [hp] at l2
  have : p = m0 := Option.some.inj l2
  subst this
  have hlt := (List.getElem?_eq_some_iff.mp hprev).1
  have hpok : p.Ok := h.ok prev (List.mem_of_getElem? hprev) p hp
  obtain ⟨q, q1, q2, -⟩ := merge_spec prev hsm l3.symm hpok hm
  have qkey : q.key = p.key := by unfold MMap.key; rw [q2]
  -- every mapping of the old list is in the new one with the same key and vice versa
  have fwd : ∀ (n : Nat) (e' : Ev) (m' : MMap), st.1[n]? = some e' → e'.mmap = some m' →
      ∃ (e'' : Ev) (m'' : MMap), (st.1.set i (HugePages.merge prev p m))[n]? = some e'' ∧ e''.mmap = some m'' ∧ m''.key = m'.key := by
    intro n e' m' hn hm'
    by_cases hin : i = n
    · subst hin
      rw [hprev] at hn
      have : prev = e' := Option.some.inj hn
      subst this
      rw [hp] at hm'
      have : p = m' := Option.some.inj hm'
      subst this
      exact ⟨HugePages.merge prev p m, q, by simp [hlt], q1, qkey⟩
    · exact ⟨e', m', by rw [List.getElem?_set_ne hin]; exact hn, hm', rfl⟩
  refine ⟨hl, ?_, hok, ?_⟩
  · intro k hk x hx m' hm'
    simp only at hx hk
    rcases List.mem_or_eq_of_mem_set hx with hx | hx
    · exact h.none k hk x hx m' hm'
    · subst hx
      rw [q1] at hm'
      have : q = m' := Option.some.inj hm'
      subst this
      rw [qkey]
      exact h.none k hk prev (List.mem_of_getElem? hprev) p hp
  · intro a b e1 e2 pa mb hab h1 h2 hpa hmb hk hb
    simp only at h1 h2 hb
    have hbetween : ∀ (n : Nat) (e : Ev) (r : MMap), a < n → n < b → st.1[n]? = some e → e.mmap = some r → r.key ≠ mb.key := by
      intro n e r hn1 hn2 hn3 hr
      obtain ⟨e'', m'', g1, g2, g3⟩ := fwd n e r hn3 hr
      rw [← g3]
      exact hb n e'' m'' hn1 hn2 g1 g2
    by_cases hai : i = a
    · subst hai
      rw [List.getElem?_set_ne (by omega)] at h2
      simp [hlt] at h1
      subst h1
      rw [q1] at hpa
      have : q = pa := Option.some.inj hpa
      subst this
      exact absurd (by rw [← hk, qkey, l3]) (l4 b e2 mb hab h2 hmb)
    · rw [List.getElem?_set_ne hai] at h1
      by_cases hbi : i = b
      · subst hbi
        simp [hlt] at h2
        subst h2
        rw [q1] at hmb
        have : q = mb := Option.some.inj hmb
        subst this
        have := h.pairs a i e1 prev pa p hab h1 hprev hpa hp (by rw [hk, qkey]) (by rw [← qkey]; exact hbetween)
        cases hx : shouldMerge pa q with
        | false => rfl
        | true =>
          have := merge_left hsm l3.symm hpok q1 hx
          simp_all
      · rw [List.getElem?_set_ne hbi] at h2
        exact h.pairs a b e1 e2 pa mb hab h1 h2 hpa hmb hk hbetween

theorem combine_inv2 : ∀ (l es : List Ev) (st : List Ev × (Nat → Option Nat)), Inv es st → Inv2 st → AllOk l →
    Inv2 (l.foldl combineStep st)
  | [], _, _, _, h2, _ => h2
  | e :: l, es, st, h, h2, hok => by
    have hinv := combine_inv [e] es st h (fun x hx => hok x (by
      have : x = e := by simpa using hx
      rw [this]; exact List.mem_cons_self ..))
    simp only [List.foldl_cons, List.foldl_nil] at hinv
    rw [List.foldl_cons]
    refine combine_inv2 l (es ++ [e]) _ hinv ?_ (fun x hx => hok x (List.mem_cons_of_mem _ hx))
    have hlast := hinv.last
    have hok' := hinv.ok
    unfold combineStep at hlast hok' ⊢
    cases he : e.mmap with
    | none =>
      rw [he] at hlast hok'
      exact h2.addOther e he hlast hok'
    | some m =>
      have hm := hok e (List.mem_cons_self ..) m he
      rw [he] at hlast hok'
      simp only at hlast hok' ⊢
      cases hi : st.2 m.key with
      | none =>
        rw [hi] at hlast hok'
        exact h2.add e m he (by rw [hi]; intro _ _ _ hh; cases hh) hlast hok'
      | some i =>
        rw [hi] at hlast hok'
        simp only at hlast hok' ⊢
        cases hp : st.1[i]? with
        | none =>
          rw [hp] at hlast hok'
          exact h2.add e m he (by
            intro i' prev p hh h3
            rw [hi] at hh
            rw [← Option.some.inj hh, hp] at h3
            cases h3) hlast hok'
        | some prev =>
          rw [hp] at hlast hok'
          simp only at hlast hok' ⊢
          cases hpm : prev.mmap with
          | none =>
            rw [hpm] at hlast hok'
            exact h2.add e m he (by
              intro i' prev' p hh h3 h4
              rw [hi] at hh
              rw [← Option.some.inj hh, hp] at h3
              rw [← Option.some.inj h3, hpm] at h4
              cases h4) hlast hok'
          | some p =>
            rw [hpm] at hlast hok'
            simp only at hlast hok' ⊢
            by_cases hs : shouldMerge p m = true
            · rw [if_pos hs] at hlast hok' ⊢
              exact h2.merge hm hi hp hpm hs hlast hok'
            · rw [if_neg hs] at hlast hok' ⊢
              exact h2.add e m he (by
                intro i' prev' p' hh h3 h4
                rw [hi] at hh
                rw [← Option.some.inj hh, hp] at h3
                rw [← Option.some.inj h3, hpm] at h4
                rw [← Option.some.inj h4]
                simpa using hs) hlast hok'

theorem combine_pairs {es : List Ev} (hok : AllOk es) : Inv2 (es.foldl combineStep ([], fun _ => none)) := by
  have h : Inv [] (([], fun _ => none) : List Ev × (Nat → Option Nat)) :=
    ⟨by simp, fun e he => by simp at he, fun p x => by simp [latest], rfl, Nat.le_refl _⟩
  exact combine_inv2 es [] _ h ⟨by simp, by simp, fun e he => by simp at he, by simp⟩ hok

/-- C22: nothing is left to combine. Two consecutive mappings of one process in the result never are adjacent
pieces of one file that fit: same name (not that of anonymous memory or a device), same flags and protection,
adjacent in memory and in the file. -/
theorem combine_complete (es : List Ev) (hok : AllOk es) (l1 l2 l3 : List Ev) (e1 e2 : Ev) (p m : MMap)
    (hout : combineMappings es = l1 ++ e1 :: (l2 ++ e2 :: l3)) (hp : e1.mmap = some p) (hm : e2.mmap = some m)
    (hpid : p.pid = m.pid) (hbetween : ∀ e ∈ l2, ∀ q, e.mmap = some q → q.pid.getD (2 ^ 32 - 1) ≠ m.pid.getD (2 ^ 32 - 1)) :
    ¬ (p.filename = m.filename ∧ ¬ AnonName p.filename ∧ ¬ (∃ t, p.filename = ascii "/dev/" ++ t) ∧ p.flags = m.flags ∧
      p.prot = m.prot ∧ p.start + p.len = m.start ∧ p.pgoff + p.len = m.pgoff) := by
  rintro ⟨hf, hna, hdev, hfl, hpr, hst, hpg⟩
  have h := combine_pairs hok
  have hmok : m.Ok := h.ok e2 (by
    have : e2 ∈ combineMappings es := by rw [hout]; simp
    exact this) m hm
  have g := h.pairs l1.length (l1.length + 1 + l2.length) e1 e2 p m (by omega)
    (by
      show (combineMappings es)[l1.length]? = some e1
      rw [hout]; simp)
    (by
      show (combineMappings es)[l1.length + 1 + l2.length]? = some e2
      rw [hout, List.getElem?_append_right (by omega)]
      have : l1.length + 1 + l2.length - l1.length = l2.length + 1 := by omega
      rw [this]
      simp)
    hp hm (by unfold MMap.key; rw [hpid]) (by
      intro n e q hn1 hn2 hn3 hq
      have hn3 : (combineMappings es)[n]? = some e := hn3
      rw [hout, List.getElem?_append_right (by omega)] at hn3
      obtain ⟨d, hd⟩ : ∃ d, n - l1.length = d + 1 := ⟨n - l1.length - 1, by omega⟩
      rw [hd, List.getElem?_cons_succ, List.getElem?_append_left (by omega)] at hn3
      exact hbetween e (List.mem_of_getElem? hn3) q hq)
  have hsm : shouldMerge p m = true := by
    have c : ∀ x : MMap, x.filename = p.filename → combinableFile x = true := by
      intro x hx
      unfold combinableFile
      rw [hx]
      cases hd : (ascii "/dev/").isPrefixOf p.filename with
      | false => rfl
      | true =>
        obtain ⟨t, ht⟩ := List.isPrefixOf_iff_prefix.mp hd
        exact absurd ⟨t, ht.symm⟩ hdev
    have hpa : isAnon p = false := by
      cases hx : isAnon p with
      | false => rfl
      | true => exact absurd ((isAnon_iff p).mp hx) hna
    unfold shouldMerge
    rw [c p rfl, c m hf.symm]
    unfold equivalentFile equivalentProt fileContiguous vmaContiguous
    rw [hf, hfl, hpr, hpid, hpa]
    have a1 : add64 p.start p.len = m.start := by
      unfold add64
      rw [hst]
      have := hmok.1
      exact Nat.mod_eq_of_lt (by omega)
    have a2 : add64 p.pgoff p.len = m.pgoff := by
      unfold add64
      rw [hpg]
      exact Nat.mod_eq_of_lt hmok.2.1
    rw [a1, a2]
    simp
  rw [hsm] at g
  cases g

/-- The mapping `m` continues `p`: neither is of a device; they have the same name, or one has that of a huge page; both
are shared or private alike, or `p` is executable; they have the same protection, or one can only be read and
the other also written; `m` begins where `p` ends; and so it does in the file, or it is anonymous memory
behind data of a file. -/
def Continues (p m : MMap) : Prop :=
  (¬ ∃ t, p.filename = ascii "/dev/" ++ t) ∧ (¬ ∃ t, m.filename = ascii "/dev/" ++ t) ∧
  (p.filename = m.filename ∨ HugeName p.filename ∨ HugeName m.filename) ∧
  (p.flags % 16 = m.flags % 16 ∨ p.prot / 4 % 2 = 1) ∧
  (p.prot = m.prot ∨ p.prot = 1 ∧ m.prot = 3 ∨ p.prot = 3 ∧ m.prot = 1) ∧
  p.pid.getD 0 = m.pid.getD 0 ∧ p.start + p.len = m.start ∧ ¬ AnonName p.filename ∧
  ((p.pgoff + p.len) % 2 ^ 64 = m.pgoff ∨ p.prot / 4 % 2 = 0 ∧ AnonName m.filename)

theorem combinable_iff (m : MMap) : combinableFile m = true ↔ ¬ ∃ t, m.filename = ascii "/dev/" ++ t := by
  unfold combinableFile
  rw [Bool.not_eq_true', ← Bool.not_eq_true, List.isPrefixOf_iff_prefix]
  constructor
  · rintro h ⟨t, ht⟩; exact h ⟨t, ht.symm⟩
  · rintro h ⟨t, ht⟩; exact h ⟨t, ht.symm⟩

theorem hasExec_iff (m : MMap) : hasExec m = true ↔ m.prot / 4 % 2 = 1 := by
  unfold hasExec
  rw [Nat.testBit_eq_decide_div_mod_eq, decide_eq_true_eq]

/-- C22: which mappings are combined with the one before. -/
theorem merge_decision (p m : MMap) (hp : p.Ok) : shouldMerge p m = true ↔ Continues p m := by
  have a1 : (p.start + p.len) % 2 ^ 64 = p.start + p.len := Nat.mod_eq_of_lt hp.1
  have n1 : (isAnon p = false) ↔ ¬ AnonName p.filename := by rw [← isAnon_iff, Bool.not_eq_true]
  have n2 : (hasExec p = false) ↔ p.prot / 4 % 2 = 0 := by
    rw [← Bool.not_eq_true, hasExec_iff]; omega
  unfold shouldMerge equivalentFile equivalentProt fileContiguous vmaContiguous Continues
  simp only [Bool.and_eq_true, Bool.or_eq_true, beq_iff_eq, combinable_iff, isHugePage_iff, hasExec_iff,
    Bool.not_eq_true', n1, n2, isAnon_iff, add64, a1]
  constructor
  · rintro ⟨⟨⟨⟨⟨h1, h2⟩, h3⟩, h4, h5⟩, h6⟩, h7, h8⟩
    refine ⟨h2, h1, ?_, h4, ?_, h7, h8, ?_, ?_⟩
    · rcases h3 with (h | h) | h
      · exact Or.inl h
      · exact Or.inr (Or.inl h)
      · exact Or.inr (Or.inr h)
    · rcases h5 with (h | h) | h
      · exact Or.inl h
      · exact Or.inr (Or.inl h)
      · exact Or.inr (Or.inr h)
    · rcases h6 with h | h
      · exact h.2
      · exact h.1.2
    · rcases h6 with h | h
      · exact Or.inl h.1
      · exact Or.inr ⟨h.1.1, h.2⟩
  · rintro ⟨h1, h2, h3, h4, h5, h6, h7, h8, h9⟩
    refine ⟨⟨⟨⟨⟨h2, h1⟩, ?_⟩, h4, ?_⟩, ?_⟩, h6, h7⟩
    · rcases h3 with h | h | h
      · exact Or.inl (Or.inl h)
      · exact Or.inl (Or.inr h)
      · exact Or.inr h
    · rcases h5 with h | h | h
      · exact Or.inl (Or.inl h)
      · exact Or.inl (Or.inr h)
      · exact Or.inr h
    · rcases h9 with h | h
      · exact Or.inl ⟨h, h8⟩
      · exact Or.inr ⟨⟨h.1, h8⟩, h.2⟩

/-- C22: nothing is left to combine. Of two consecutive mappings of one process in the result, the second never
continues the first. -/
theorem combine_complete_all (es : List Ev) (hok : AllOk es) (l1 l2 l3 : List Ev) (e1 e2 : Ev) (p m : MMap)
    (hout : combineMappings es = l1 ++ e1 :: (l2 ++ e2 :: l3)) (hp : e1.mmap = some p) (hm : e2.mmap = some m)
    (hpid : p.pid = m.pid) (hbetween : ∀ e ∈ l2, ∀ q, e.mmap = some q → q.pid.getD (2 ^ 32 - 1) ≠ m.pid.getD (2 ^ 32 - 1)) :
    ¬ Continues p m := by
  have h := combine_pairs hok
  have hpok : p.Ok := h.ok e1 (by
    have : e1 ∈ combineMappings es := by rw [hout]; simp
    exact this) p hp
  have g := h.pairs l1.length (l1.length + 1 + l2.length) e1 e2 p m (by omega)
    (by
      show (combineMappings es)[l1.length]? = some e1
      rw [hout]; simp)
    (by
      show (combineMappings es)[l1.length + 1 + l2.length]? = some e2
      rw [hout, List.getElem?_append_right (by omega)]
      have : l1.length + 1 + l2.length - l1.length = l2.length + 1 := by omega
      rw [this]
      simp)
    hp hm (by unfold MMap.key; rw [hpid]) (by
      intro n e q hn1 hn2 hn3 hq
      have hn3 : (combineMappings es)[n]? = some e := hn3
      rw [hout, List.getElem?_append_right (by omega)] at hn3
      obtain ⟨d, hd⟩ : ∃ d, n - l1.length = d + 1 := ⟨n - l1.length - 1, by omega⟩
      rw [hd, List.getElem?_cons_succ, List.getElem?_append_left (by omega)] at hn3
      exact hbetween e (List.mem_of_getElem? hn3) q hq)
  intro hc
  rw [(merge_decision p m hpok).2 hc] at g
  cases g

/-- Data of a file, a part that can also be written, and the memory behind it. -/
example : combineMappings
    [ { mmap := some { pid := some 7, start := 0x1000, len := 0x1000, pgoff := 0, prot := 1, flags := 2, filename := ascii "/l" } },
      { mmap := some { pid := some 7, start := 0x2000, len := 0x1000, pgoff := 0x1000, prot := 3, flags := 2, filename := ascii "/l" } },
      { mmap := some { pid := some 7, start := 0x3000, len := 0x1000, pgoff := 0, prot := 3, flags := 2, filename := ascii "//anon" } }] =
    [ { mmap := some { pid := some 7, start := 0x1000, len := 0x3000, pgoff := 0, prot := 1, flags := 2, filename := ascii "/l" } }] := by
  decide +kernel

/-- Two adjacent pieces of a file that are combined, and what follows in another process. -/
example : combineMappings
    [ { mmap := some { pid := some 7, start := 0x1000, len := 0x1000, pgoff := 0, prot := 5, filename := ascii "/l" } },
      { mmap := some { pid := some 7, start := 0x2000, len := 0x1000, pgoff := 0x1000, prot := 5, filename := ascii "/l" } },
      { mmap := some { pid := some 8, start := 0x3000, len := 0x1000, pgoff := 0x2000, prot := 5, filename := ascii "/l" } }] =
    [ { mmap := some { pid := some 7, start := 0x1000, len := 0x2000, pgoff := 0, prot := 5, filename := ascii "/l" } },
      { mmap := some { pid := some 8, start := 0x3000, len := 0x1000, pgoff := 0x2000, prot := 5, filename := ascii "/l" } }] := by
  decide +kernel

end Verif.HugePages
