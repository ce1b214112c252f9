import Verif.HugePages.Deduce

/-! # Combining mappings (C22, C65, C66) -/

namespace Verif.HugePages
open Verif.Buffer

/-- What the combined events say about an address, compared with what the original mapping `m` says: it is
executable or not as before; a mapping that is not anonymous keeps the offset of the address; a file name
that does not stand for a huge page stays. -/
def Says (x : Nat) (m m' : MMap) : Prop :=
  hasExec m' = hasExec m ∧ (¬ AnonName m.filename → m'.offset x = m.offset x) ∧
  (¬ HugeName m.filename → m'.filename = m.filename)

theorem isAnon_iff (m : MMap) : isAnon m = true ↔ AnonName m.filename := by
  unfold isAnon AnonName anonNames
  simp

theorem AnonName.huge {f : List UInt8} (h : AnonName f) : HugeName f := by
  rcases h with h | h | h
  · exact .inl h
  · exact .inr (.inl h)
  · exact .inr (.inr (.inl h))

theorem latest_append (p : Option Nat) (x : Nat) (a b : List Ev) :
    latest p x (a ++ b) = (latest p x b).or (latest p x a) := by
  unfold latest
  simp [List.filterMap_append, List.reverse_append, List.find?_append]

theorem latest_one (p : Option Nat) (x : Nat) (e : Ev) :
    latest p x [e] = e.mmap.bind fun m => if m.pid = p ∧ m.covers x = true then some m else none := by
  unfold latest
  cases h : e.mmap with
  | none => simp [h]
  | some m =>
    simp only [List.filterMap_cons, h, List.filterMap_nil, List.reverse_cons, List.reverse_nil, List.nil_append,
      List.find?_cons, List.find?_nil, Option.bind_some]
    by_cases c1 : m.pid = p <;> cases c2 : m.covers x <;> simp [c1]

theorem latest_none {p : Option Nat} {x : Nat} {l : List Ev} (h : ∀ e ∈ l, ∀ m, e.mmap = some m → m.pid ≠ p) :
    latest p x l = none := by
  unfold latest
  rw [List.find?_eq_none]
  intro m hm
  simp only [List.mem_reverse, List.mem_filterMap] at hm
  obtain ⟨e, he, hem⟩ := hm
  simp [h e he m hem]

theorem split_at {l : List Ev} {i : Nat} {e : Ev} (h : l[i]? = some e) :
    l = l.take i ++ [e] ++ l.drop (i + 1) ∧ ∀ e', l.set i e' = l.take i ++ [e'] ++ l.drop (i + 1) := by
  obtain ⟨hi, he⟩ := List.getElem?_eq_some_iff.mp h
  constructor
  · rw [← he]
    simp
  · intro e'
    rw [List.set_eq_take_append_cons_drop, if_pos hi]
    simp

/-- The mapping that is remembered for a process is its last one. -/
def LastAt (out : List Ev) (k i : Nat) : Prop :=
  ∃ e m, out[i]? = some e ∧ e.mmap = some m ∧ m.key = k ∧
    ∀ j e' m', i < j → out[j]? = some e' → e'.mmap = some m' → m'.key ≠ k

theorem LastAt.lt {out : List Ev} {k i : Nat} (h : LastAt out k i) : i < out.length := by
  obtain ⟨e, m, h1, -⟩ := h
  exact (List.getElem?_eq_some_iff.mp h1).1

def Agree (es out : List Ev) : Prop := ∀ p x,
  match latest p x es, latest p x out with
  | none, none => True
  | some m, some m' => Says x m m'
  | _, _ => False

structure Inv (es : List Ev) (st : List Ev × (Nat → Option Nat)) : Prop where
  last : ∀ k i, st.2 k = some i → LastAt st.1 k i
  ok : AllOk st.1
  agree : Agree es st.1
  rest : st.1.filter (·.mmap.isNone) = es.filter (·.mmap.isNone)
  len : st.1.length ≤ es.length

theorem Says.refl (x : Nat) (m : MMap) : Says x m m := ⟨rfl, fun _ => rfl, fun _ => rfl⟩

/-- Adding an event. -/
theorem Inv.add {es : List Ev} {st : List Ev × (Nat → Option Nat)} (h : Inv es st) (e : Ev) (m : MMap)
    (he : e.mmap = some m) (hok : m.Ok) :
    Inv (es ++ [e]) (st.1 ++ [e], fun k => if k = m.key then some st.1.length else st.2 k) := by
  refine ⟨?_, ?_, ?_, ?_, ?_⟩
  · intro k i hi
    simp only at hi ⊢
    by_cases hk : k = m.key
    · rw [if_pos hk] at hi
      have hi : st.1.length = i := Option.some.inj hi
      subst hi
      refine ⟨e, m, by simp, he, hk.symm, ?_⟩
      intro j e' m' hj hje
      have := (List.getElem?_eq_some_iff.mp hje).1
      simp at this
      omega
    · rw [if_neg hk] at hi
      obtain ⟨e0, m0, h1, h2, h3, h4⟩ := h.last k i hi
      have hlt := (List.getElem?_eq_some_iff.mp h1).1
      refine ⟨e0, m0, by rw [List.getElem?_append_left hlt]; exact h1, h2, h3, ?_⟩
      intro j e' m' hj hje hm
      by_cases hjl : j < st.1.length
      · rw [List.getElem?_append_left hjl] at hje
        exact h4 j e' m' hj hje hm
      · have := (List.getElem?_eq_some_iff.mp hje).1
        simp at this
        have hj' : j = st.1.length := by omega
        subst hj'
        simp at hje
        subst hje
        rw [he] at hm
        have : m = m' := Option.some.inj hm
        subst this
        exact fun h => hk h.symm
  · intro x hx m' hm'
    rcases List.mem_append.mp hx with hx | hx
    · exact h.ok x hx m' hm'
    · have : x = e := by simpa using hx
      subst this
      rw [he] at hm'
      exact Option.some.inj hm' ▸ hok
  · intro p x
    simp only
    have := h.agree p x
    rw [latest_append, latest_append, latest_one, he]
    simp only [Option.bind_some]
    by_cases c : m.pid = p ∧ m.covers x = true
    · simp only [if_pos c, Option.some_or]
      exact Says.refl x m
    · simp only [if_neg c, Option.none_or]
      exact this
  · simp only [List.filter_append, h.rest]
  · simp only [List.length_append]
    have := h.len
    simp; exact this

theorem Inv.addOther {es : List Ev} {st : List Ev × (Nat → Option Nat)} (h : Inv es st) (e : Ev)
    (he : e.mmap = none) : Inv (es ++ [e]) (st.1 ++ [e], st.2) := by
  refine ⟨?_, ?_, ?_, ?_, ?_⟩
  · intro k i hi
    obtain ⟨e0, m0, h1, h2, h3, h4⟩ := h.last k i hi
    have hlt := (List.getElem?_eq_some_iff.mp h1).1
    refine ⟨e0, m0, by simp only; rw [List.getElem?_append_left hlt]; exact h1, h2, h3, ?_⟩
    intro j e' m' hj hje hm
    simp only at hje
    by_cases hjl : j < st.1.length
    · rw [List.getElem?_append_left hjl] at hje
      exact h4 j e' m' hj hje hm
    · have := (List.getElem?_eq_some_iff.mp hje).1
      simp at this
      have hj' : j = st.1.length := by omega
      subst hj'
      simp at hje
      subst hje
      rw [he] at hm
      cases hm
  · intro x hx m' hm'
    rcases List.mem_append.mp hx with hx | hx
    · exact h.ok x hx m' hm'
    · have : x = e := by simpa using hx
      subst this
      rw [he] at hm'
      cases hm'
  · intro p x
    have := h.agree p x
    simp only
    rw [latest_append, latest_append, latest_one, he]
    simpa using this
  · simp only [List.filter_append, h.rest]
  · have := h.len
    simp; exact this

/-- What a merge means. -/
theorem shouldMerge_spec {p m : MMap} (h : shouldMerge p m = true) (hk : m.key = p.key) (hp : p.Ok) :
    m.pid = p.pid ∧ m.start = p.start + p.len ∧ (¬ AnonName m.filename → m.pgoff = (p.pgoff + p.len) % 2 ^ 64) ∧
    (p.filename = m.filename ∨ HugeName p.filename ∨ HugeName m.filename) ∧ hasExec m = hasExec p := by
  unfold shouldMerge at h
  simp only [Bool.and_eq_true] at h
  obtain ⟨⟨⟨⟨⟨-, -⟩, hf⟩, hprot⟩, hc⟩, hv⟩ := h
  unfold vmaContiguous at hv
  simp only [Bool.and_eq_true, beq_iff_eq] at hv
  obtain ⟨hv1, hv2⟩ := hv
  refine ⟨?_, ?_, ?_, ?_, ?_⟩
  · unfold MMap.key at hk
    cases h1 : p.pid with
    | none =>
      cases h2 : m.pid with
      | none => rfl
      | some v =>
        exfalso
        rw [h1, h2] at hk hv1
        simp only [Option.getD_none, Option.getD_some] at hk hv1
        omega
    | some u =>
      cases h2 : m.pid with
      | none =>
        exfalso
        rw [h1, h2] at hk hv1
        simp only [Option.getD_none, Option.getD_some] at hk hv1
        omega
      | some v =>
        rw [h1, h2] at hv1
        simp only [Option.getD_some] at hv1
        rw [hv1]
  · rw [add64_of_ok hp] at hv2
    exact hv2.symm
  · intro hna
    unfold fileContiguous at hc
    simp only [Bool.or_eq_true, Bool.and_eq_true, beq_iff_eq] at hc
    rcases hc with hc | hc
    · rw [← hc.1]; rfl
    · exact absurd ((isAnon_iff m).mp hc.2) hna
  · unfold equivalentFile at hf
    simp only [Bool.or_eq_true, beq_iff_eq] at hf
    rcases hf with (hf | hf) | hf
    · exact .inl hf
    · exact .inr (.inl ((isHugePage_iff p).mp hf))
    · exact .inr (.inr ((isHugePage_iff m).mp hf))
  · unfold equivalentProt at hprot
    simp only [Bool.or_eq_true, Bool.and_eq_true, beq_iff_eq] at hprot
    unfold hasExec
    rcases hprot.2 with (h | h) | h
    · rw [h]
    · rw [h.1, h.2]; rfl
    · rw [h.1, h.2]; rfl
where
  add64_of_ok {p : MMap} (hp : p.Ok) : add64 p.start p.len = p.start + p.len := by
    unfold add64; exact Nat.mod_eq_of_lt hp.1

/-- The merged mapping. -/
theorem merge_spec {p m : MMap} (prev : Ev) (h : shouldMerge p m = true) (hk : m.key = p.key)
    (hp : p.Ok) (hm : m.Ok) :
    ∃ q, (merge prev p m).mmap = some q ∧ q.pid = p.pid ∧ q.start = p.start ∧ q.len = p.len + m.len ∧ q.Ok ∧
      (∀ x, Says x p q ∧ q.offset x = p.offset x) ∧ (∀ x, m.covers x = true → Says x m q) ∧
      (∀ x, q.covers x = (p.covers x || m.covers x)) := by
  obtain ⟨h1, h2, h3, h4, h5⟩ := shouldMerge_spec h hk hp
  have hlen : add64 p.len m.len = p.len + m.len := by
    unfold add64
    have := hm.1
    exact Nat.mod_eq_of_lt (by omega)
  have hcov : ∀ q : MMap, q.start = p.start → q.len = p.len + m.len → ∀ x, q.covers x = (p.covers x || m.covers x) := by
    intro q hq1 hq2 x
    unfold MMap.covers
    rw [hq1, hq2, h2]
    rw [Bool.eq_iff_iff]
    simp only [Bool.and_eq_true, Bool.or_eq_true, decide_eq_true_eq]
    omega
  have hoff : ∀ (q : MMap) x, q.start = p.start → q.pgoff = p.pgoff → m.covers x = true → ¬ AnonName m.filename →
      q.offset x = m.offset x := by
    intro q x hq1 hq2 hx hna
    unfold MMap.covers at hx
    simp only [Bool.and_eq_true, decide_eq_true_eq] at hx
    unfold MMap.offset
    rw [hq1, hq2, h3 hna, h2]
    have : x - p.start = p.len + (x - (p.start + p.len)) := by omega
    rw [this]
    omega
  have hfin : m.start + m.len < 2 ^ 64 := hm.1
  unfold merge
  by_cases hc : (isHugePage p && !isHugePage m) = true
  · rw [if_pos hc]
    simp only [Bool.and_eq_true, Bool.not_eq_true'] at hc
    have hmn : ¬ HugeName m.filename := fun hn => by
      rw [(isHugePage_iff m).mpr hn] at hc
      cases hc.2
    have hma : ¬ AnonName m.filename := fun hn => hmn hn.huge
    have hpg : sub64 m.pgoff p.len = p.pgoff := by
      rw [h3 hma]
      unfold sub64
      have := hp.1
      have := hp.2.1
      omega
    refine ⟨_, rfl, rfl, rfl, hlen, ⟨?_, ?_, hp.2.2⟩, ?_, ?_, hcov _ rfl hlen⟩
    · simp only [hlen]; omega
    · simp only [hpg]; exact hp.2.1
    · intro x
      refine ⟨⟨rfl, fun _ => ?_, fun hn => absurd ((isHugePage_iff p).mp hc.1) hn⟩, ?_⟩ <;>
      · unfold MMap.offset
        simp only [hpg]
    · intro x hx
      exact ⟨h5.symm, hoff _ x rfl hpg hx, fun _ => rfl⟩
  · rw [if_neg hc]
    refine ⟨_, rfl, rfl, rfl, hlen, ⟨?_, hp.2.1, hp.2.2⟩, ?_, ?_, hcov _ rfl hlen⟩
    · simp only [hlen]; omega
    · intro x
      exact ⟨⟨rfl, fun _ => rfl, fun _ => rfl⟩, rfl⟩
    · intro x hx
      refine ⟨h5.symm, hoff _ x rfl rfl hx, fun hn => ?_⟩
      rcases h4 with h4 | h4 | h4
      · exact h4
      · exfalso
        apply hc
        rw [(isHugePage_iff p).mpr h4]
        cases hx' : isHugePage m with
        | false => rfl
        | true => exact absurd ((isHugePage_iff m).mp hx') hn
      · exact absurd h4 hn

theorem Says.trans {x : Nat} {a b c : MMap} (h1 : Says x a b) (h2 : Says x b c)
    (hn : c.offset x = b.offset x) : Says x a c := by
  obtain ⟨a1, a2, a3⟩ := h1
  obtain ⟨b1, -, b3⟩ := h2
  refine ⟨b1.trans a1, fun h => ?_, fun h => ?_⟩
  · rw [hn, a2 h]
  · rw [b3 (by rw [a3 h]; exact h), a3 h]

/-- Merging a mapping into the last one of its process. -/
theorem Inv.merge {es : List Ev} {st : List Ev × (Nat → Option Nat)} (h : Inv es st) {e prev : Ev} {m p : MMap} {i : Nat}
    (he : e.mmap = some m) (hok : m.Ok) (hi : st.2 m.key = some i) (hprev : st.1[i]? = some prev)
    (hp : prev.mmap = some p) (hsm : shouldMerge p m = true) :
    Inv (es ++ [e]) (st.1.set i (HugePages.merge prev p m), st.2) := by
  obtain ⟨e0, m0, l1, l2, l3, l4⟩ := h.last _ _ hi
  rw [hprev] at l1
  have : prev = e0 := Option.some.inj l1
  subst this
  rw [hp] at l2
  have : p = m0 := Option.some.inj l2
  subst this
  have hlt := (List.getElem?_eq_some_iff.mp hprev).1
  have hpok : p.Ok := h.ok prev (List.mem_of_getElem? hprev) p hp
  obtain ⟨q, q1, q2, q3, q4, q5, q6, q7, q8⟩ := merge_spec prev hsm l3.symm hpok hok
  have qkey : q.key = p.key := by unfold MMap.key; rw [q2]
  have hpid : m.pid = p.pid := (shouldMerge_spec hsm l3.symm hpok).1
  refine ⟨?_, ?_, ?_, ?_, ?_⟩
  · intro k j hj
    obtain ⟨e0, m0, k1, k2, k3, k4⟩ := h.last _ _ hj
    have hsame : ∀ (n : Nat) (e' : Ev) (m' : MMap), (st.1.set i (HugePages.merge prev p m))[n]? = some e' → e'.mmap = some m' →
        ∃ (e'' : Ev) (m'' : MMap), st.1[n]? = some e'' ∧ e''.mmap = some m'' ∧ m''.key = m'.key := by
      intro n e' m' hn hm'
      rw [List.getElem?_set] at hn
      by_cases hin : i = n
      · subst hin
        rw [if_pos rfl, if_pos hlt] at hn
        have : HugePages.merge prev p m = e' := Option.some.inj hn
        subst this
        rw [q1] at hm'
        have : q = m' := Option.some.inj hm'
        subst this
        exact ⟨prev, p, hprev, hp, qkey.symm⟩
      · rw [if_neg hin] at hn
        exact ⟨e', m', hn, hm', rfl⟩
    by_cases hij : i = j
    · subst hij
      refine ⟨HugePages.merge prev p m, q, by simp [hlt], q1, ?_, ?_⟩
      · rw [hprev] at k1
        have : prev = e0 := Option.some.inj k1
        subst this
        rw [hp] at k2
        have : p = m0 := Option.some.inj k2
        subst this
        rw [qkey, k3]
      · intro n e' m' hn hje hm
        obtain ⟨e'', m'', g1, g2, g3⟩ := hsame n e' m' hje hm
        rw [← g3]
        exact k4 n e'' m'' hn g1 g2
    · refine ⟨e0, m0, by simp only; rw [List.getElem?_set_ne hij]; exact k1, k2, k3, ?_⟩
      intro n e' m' hn hje hm
      obtain ⟨e'', m'', g1, g2, g3⟩ := hsame n e' m' hje hm
      rw [← g3]
      exact k4 n e'' m'' hn g1 g2
  · intro x hx m' hm'
    simp only at hx
    rcases List.mem_or_eq_of_mem_set hx with hx | hx
    · exact h.ok x hx m' hm'
    · subst hx
      rw [q1] at hm'
      exact Option.some.inj hm' ▸ q5
  · obtain ⟨s1, s2⟩ := split_at hprev
    intro pp x
    have ag := h.agree pp x
    have htail : ∀ e' ∈ st.1.drop (i + 1), ∀ m', e'.mmap = some m' → m'.pid ≠ p.pid := by
      intro e' he' m' hm' hpp
      obtain ⟨n, hn⟩ := List.mem_iff_getElem?.mp he'
      rw [List.getElem?_drop] at hn
      exact l4 (i + 1 + n) e' m' (by omega) hn hm' (by rw [← l3]; unfold MMap.key; rw [hpp])
    simp only
    rw [s2, latest_append (b := List.drop (i + 1) st.1), latest_append (a := List.take i st.1), latest_append (b := [e]), latest_one, latest_one, he, q1]
    rw [s1, latest_append (b := List.drop (i + 1) st.1), latest_append (a := List.take i st.1), latest_one, hp] at ag
    simp only [Option.bind_some] at ag ⊢
    rw [q2, hpid, q8]
    by_cases hpp : p.pid = pp
    · rw [latest_none (p := pp) (l := List.drop (i + 1) st.1) (by rw [← hpp]; exact htail)] at ag ⊢
      simp only [Option.none_or] at ag ⊢
      cases hmc : m.covers x with
      | true =>
        simp only [hpp, and_self, Bool.or_true, if_true, Option.some_or]
        exact q7 x hmc
      | false =>
        cases hpc : p.covers x with
        | true =>
          simp only [hpc, hpp, and_self, if_true, Option.some_or, Bool.or_false, Bool.false_eq_true, and_false, if_false,
            Option.none_or] at ag ⊢
          cases hl : latest pp x es with
          | none => rw [hl] at ag; exact ag
          | some o =>
            rw [hl] at ag
            exact Says.trans ag (q6 x).1 (q6 x).2
        | false =>
          simp only [hpc, Bool.false_eq_true, and_false, if_false, Option.none_or, Bool.or_self] at ag ⊢
          exact ag
    · simp only [hpp, false_and, if_false, Option.none_or] at ag ⊢
      exact ag
  · obtain ⟨s1, s2⟩ := split_at hprev
    simp only
    rw [s2, List.filter_append (l₁ := es), ← h.rest]
    conv => rhs; rw [s1]
    simp [he, hp, q1]
  · have := h.len
    simp only [List.length_set, List.length_append]
    omega

theorem combine_inv : ∀ (l es : List Ev) (st : List Ev × (Nat → Option Nat)), Inv es st → AllOk l →
    Inv (es ++ l) (l.foldl combineStep st)
  | [], es, st, h, _ => by simpa using h
  | e :: l, es, st, h, hok => by
    rw [List.append_cons, List.foldl_cons]
    apply combine_inv l (es ++ [e]) _ ?_ (fun x hx => hok x (List.mem_cons_of_mem _ hx))
    unfold combineStep
    cases he : e.mmap with
    | none => exact h.addOther e he
    | some m =>
      have hm := hok e (List.mem_cons_self ..) m he
      have hadd := h.add e m he hm
      simp only
      cases hi : st.2 m.key with
      | none => exact hadd
      | some i =>
        simp only
        cases hp : st.1[i]? with
        | none => exact hadd
        | some prev =>
          simp only
          cases hpm : prev.mmap with
          | none => exact hadd
          | some p =>
            simp only
            by_cases hs : shouldMerge p m = true
            · rw [if_pos hs]; exact h.merge he hm hi hp hpm hs
            · rw [if_neg hs]; exact hadd

theorem combine_inv0 {es : List Ev} (hok : AllOk es) :
    Inv es (es.foldl combineStep ([], fun _ => none)) := by
  have : Inv [] (([], fun _ => none) : List Ev × (Nat → Option Nat)) :=
    ⟨by simp, fun e he => by simp at he, fun p x => by simp [latest], rfl, Nat.le_refl _⟩
  simpa using combine_inv es [] _ this hok

/-! ## C22 -/

/-- C22, the part that holds: combining keeps every event that is not a mapping, in order, and does not
increase the number of events; an address of a process is mapped afterwards exactly if it was mapped before;
and for a mapped address the mapping that counts says the same as before about execution, and, unless it was
anonymous memory, about the file offset; the file name stays unless it stands for a huge page. Missing: the
offset of anonymous memory, see `combine_offset_violated`. -/
theorem combine_keeps_partial (es : List Ev) (hok : AllOk es) :
    (combineMappings es).filter (·.mmap.isNone) = es.filter (·.mmap.isNone) ∧
    (combineMappings es).length ≤ es.length ∧
    ∀ p x, (latest p x (combineMappings es)).isSome = (latest p x es).isSome ∧
      ∀ m m', latest p x es = some m → latest p x (combineMappings es) = some m' →
        hasExec m' = hasExec m ∧ (¬ AnonName m.filename → m'.offset x = m.offset x) ∧
        (¬ HugeName m.filename → m'.filename = m.filename) := by
  have h := combine_inv0 hok
  refine ⟨h.rest, h.len, fun p x => ?_⟩
  have := h.agree p x
  unfold combineMappings
  cases h1 : latest p x es with
  | none =>
    cases h2 : latest p x (es.foldl combineStep ([], fun _ => none)).1 with
    | none => exact ⟨rfl, fun m m' hm => by cases hm⟩
    | some m' => rw [h1, h2] at this; exact this.elim
  | some m =>
    cases h2 : latest p x (es.foldl combineStep ([], fun _ => none)).1 with
    | none => rw [h1, h2] at this; exact this.elim
    | some m' =>
      rw [h1, h2] at this
      refine ⟨rfl, fun a b ha hb => ?_⟩
      cases ha
      cases hb
      exact this

/-- A data mapping of a file, with anonymous memory (`.bss`) behind it. -/
def exBss : List Ev :=
  [ { mmap := some { pid := some 7, start := 0x1000, len := 0x1000, pgoff := 0x3000, prot := 3, filename := ascii "/bin/x" } },
    { other := 9 },
    { mmap := some { pid := some 7, start := 0x2000, len := 0x1000, pgoff := 0, prot := 3, filename := ascii "//anon" } } ]

instance (m : MMap) : Decidable m.Ok := by
  unfold MMap.Ok
  cases m.pid with
  | none => exact decidable_of_iff (m.start + m.len < 2 ^ 64 ∧ m.pgoff < 2 ^ 64) (by simp)
  | some p => exact decidable_of_iff (m.start + m.len < 2 ^ 64 ∧ m.pgoff < 2 ^ 64 ∧ p < 2 ^ 32) (by simp)

instance (es : List Ev) : Decidable (AllOk es) :=
  decidable_of_iff (∀ m ∈ es.filterMap (·.mmap), m.Ok) (by
    unfold AllOk
    simp only [List.mem_filterMap]
    exact ⟨fun h e he m hm => h m ⟨e, he, hm⟩, fun h m ⟨e, he, hm⟩ => h e he m hm⟩)

example : AllOk exBss ∧ (combineMappings exBss).length = 2 := by decide +kernel

/-- C22 fails for anonymous memory: it is merged into the data mapping before it, and then has an offset
behind the data of the file. -/
theorem combine_offset_violated : ∃ es p x m m', AllOk es ∧ latest p x es = some m ∧
    latest p x (combineMappings es) = some m' ∧ m'.offset x ≠ m.offset x :=
  ⟨exBss, some 7, 0x2000, _, _, by decide +kernel, rfl, rfl, by decide +kernel⟩

/-! ## C65 -/

/-- C65 fails: two adjacent pieces of different files under one name are merged, and the second one is
reported with the build ID of the first. -/
theorem combine_buildId_violated : ∃ es p x m m', AllOk es ∧ latest p x es = some m ∧
    latest p x (combineMappings es) = some m' ∧ m.buildId = some (ascii "bb") ∧ m'.buildId = some (ascii "aa") :=
  ⟨[ { mmap := some { pid := some 7, start := 0x1000, len := 0x1000, pgoff := 0, prot := 5, filename := ascii "/l", buildId := some (ascii "aa") } },
     { mmap := some { pid := some 7, start := 0x2000, len := 0x1000, pgoff := 0x1000, prot := 5, filename := ascii "/l", buildId := some (ascii "bb") } }],
    some 7, 0x2000, _, _, by decide +kernel, rfl, rfl, by decide +kernel, by decide +kernel⟩

/-! ## C66 -/

theorem foldl_others : ∀ (l : List Ev) (st : List Ev × (Nat → Option Nat)), (∀ e ∈ l, e.mmap = none) →
    (l.foldl combineStep st) = (st.1 ++ l, st.2)
  | [], st, _ => by simp
  | e :: l, st, h => by
    have he := h e (List.mem_cons_self ..)
    rw [List.foldl_cons, foldl_others l _ (fun x hx => h x (List.mem_cons_of_mem _ hx))]
    unfold combineStep
    rw [he]
    simp

/-- C66, the part that holds: if all mappings come before all other events (as those that perf synthesizes do),
then every other event finds the combined mappings before it, exactly as if they had been combined alone.
Missing: events between mappings, see `combine_moment_violated`. -/
theorem combine_moment_partial (ms others : List Ev) (ho : ∀ e ∈ others, e.mmap = none) :
    combineMappings (ms ++ others) = combineMappings ms ++ others := by
  unfold combineMappings
  rw [List.foldl_append, foldl_others others _ ho]

example : combineMappings (exBss ++ [{ other := 4 }]) = combineMappings exBss ++ [{ other := 4 }] :=
  combine_moment_partial exBss [{ other := 4 }] (by decide)

/-- A library replaces another one, page by page, with a sample in between. -/
def exMoment : List Ev :=
  [ { mmap := some { pid := some 7, start := 0x2000, len := 0x1000, pgoff := 0, prot := 5, filename := ascii "/old" } },
    { mmap := some { pid := some 7, start := 0x1000, len := 0x1000, pgoff := 0, prot := 5, filename := ascii "/new" } },
    { other := 9 },
    { mmap := some { pid := some 7, start := 0x2000, len := 0x1000, pgoff := 0x1000, prot := 5, filename := ascii "/new" } } ]

/-- C66 fails in general: the sample in `exMoment` hits address `0x2500` in `/old`; after combining it is
in `/new`, because the later mapping was merged into one before the sample. -/
theorem combine_moment_violated : ∃ es p x pre post s pre' post', AllOk es ∧ es = pre ++ s :: post ∧ s.mmap = none ∧
    combineMappings es = pre' ++ s :: post' ∧ (∀ e ∈ pre, e ≠ s) ∧ (∀ e ∈ pre', e ≠ s) ∧
    (latest p x pre).map (·.filename) = some (ascii "/old") ∧ (latest p x pre').map (·.filename) = some (ascii "/new") :=
  ⟨exMoment, some 7, 0x2500, exMoment.take 2, exMoment.drop 3, { other := 9 }, (combineMappings exMoment).take 2,
    [], by decide +kernel, by decide +kernel, rfl, by decide +kernel, by decide +kernel, by decide +kernel, by decide +kernel,
    by decide +kernel⟩

end Verif.HugePages
