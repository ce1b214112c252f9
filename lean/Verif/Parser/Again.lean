import Verif.Parser.Props2

/-! # Lemmas about parsing the remapped events again -/

namespace Verif.Parser
open Verif.AddressMapper (Req specRun specLookup specStep Piece)
open Verif.HugePages (MMap)

/-! ## Ranges that have nothing in common -/

/-- A piece and a range have nothing in common. -/
def PApart (p : Piece) (q : Req) : Prop := p.lo + p.len ≤ q.real ∨ q.real + q.size ≤ p.lo

theorem run_apart (al : Nat) : ∀ (qs : List Req) (ps : List Piece), (∀ q ∈ qs, 0 < q.size ∧ q.real + q.size ≤ 2 ^ 64) →
    qs.Pairwise Apart → (∀ p ∈ ps, 0 < p.len ∧ ∀ q ∈ qs, PApart p q) →
    specRun al ps qs = (qs.map (fun _ => true), ps ++ qs.map Req.piece)
  | [], ps, _, _, _ => by simp [specRun]
  | q :: qs, ps, hw, hp, hps => by
    have hq := hw q (by simp)
    have hstep : specStep al ps q = (true, ps ++ [q.piece]) := by
      unfold specStep
      rw [if_neg (by omega), if_neg]
      · have : ps.flatMap (fun p => p.under q) = ps := by
          have : ∀ p ∈ ps, p.under q = [p] := by
            intro p hm
            have := (hps p hm).2 q (by simp)
            unfold PApart at this
            unfold Piece.under
            rw [if_pos this]
          clear hps hw hp
          induction ps with
          | nil => rfl
          | cons p t ih =>
            rw [List.flatMap_cons, this p (by simp), ih (fun p hp => this p (by simp [hp]))]
            rfl
        rw [this]
      · intro h
        rw [List.any_eq_true] at h
        obtain ⟨p, hm, h1⟩ := h
        simp only [Bool.and_eq_true] at h1
        have h2 := (AddressMapper.encloses_iff p q).1 h1.1
        have h3 := hps p hm
        have h4 := h3.2 q (by simp)
        unfold PApart at h4
        omega
    have hpw := List.pairwise_cons.1 hp
    have ih := run_apart al qs (ps ++ [q.piece]) (fun r hr => hw r (by simp [hr])) hpw.2 (by
      intro p hm
      rcases List.mem_append.1 hm with hm | hm
      · exact ⟨(hps p hm).1, fun r hr => (hps p hm).2 r (by simp [hr])⟩
      · rw [List.mem_singleton.1 hm]
        exact ⟨hq.1, fun r hr => hpw.1 r hr⟩)
    simp only [specRun, hstep, ih]
    simp

theorem lookup_apart {qs : List Req} (hp : qs.Pairwise Apart) {q : Req} (hq : q ∈ qs) {a : Nat} (ha : q.has a = true) :
    specLookup (qs.map Req.piece) a = some (q.piece.value a) := by
  unfold specLookup
  induction qs with
  | nil => cases hq
  | cons r qs ih =>
    have hpw := List.pairwise_cons.1 hp
    rw [List.map_cons, List.find?_cons]
    rcases List.mem_cons.1 hq with rfl | hq
    · have : q.piece.has a = true := ha
      rw [this]
      rfl
    · have : r.piece.has a = false := by
        have h1 := hpw.1 q hq
        unfold Apart at h1
        simp only [Req.has, decide_eq_true_eq] at ha
        unfold Piece.has Req.piece
        rw [decide_eq_false_iff_not]
        show ¬ (r.real ≤ a ∧ a < r.real + r.size)
        omega
      rw [this]
      exact ih hpw.2 hq

theorem lookup_none {qs : List Req} {a : Nat} (h : ∀ q ∈ qs, q.has a = false) : specLookup (qs.map Req.piece) a = none := by
  unfold specLookup
  rw [Option.map_eq_none_iff, List.find?_eq_none]
  intro p hp
  obtain ⟨q, hq, rfl⟩ := List.mem_map.1 hp
  have := h q hq
  simp only [Req.has, decide_eq_false_iff_not] at this
  unfold Piece.has Req.piece
  rw [decide_eq_true_eq]
  exact this

theorem good_sizes {al : Nat} : ∀ {qs : List Req} {ps : List Piece}, (∀ b ∈ (specRun al ps qs).1, b = true) →
    ∀ q ∈ qs, 0 < q.size ∧ q.real + q.size ≤ 2 ^ 64
  | [], _, _, q, hq => by cases hq
  | r :: qs, ps, h, q, hq => by
    simp only [specRun] at h
    rcases List.mem_cons.1 hq with rfl | hq
    · have := h _ (List.mem_cons_self ..)
      unfold specStep at this
      split at this
      · cases this
      · omega
    · exact good_sizes (al := al) (ps := (specStep al ps r).2) (fun b hb => h b (by simp [hb])) q hq

/-! ## The moved ranges -/

/-- A range at the address it was moved to. -/
def mv (starts : Nat → Nat) (q : Req) : Req := { q with real := starts q.id }

theorem chain_apart {l : List AddressMapper.Node} (h : AddressMapper.Chain l) :
    l.Pairwise (fun x y => x.r.mapped + x.r.size ≤ y.r.mapped) := by
  induction l with
  | nil => exact List.Pairwise.nil
  | cons a t ih =>
    refine List.pairwise_cons.2 ⟨fun y hy => ?_, ih h.tail⟩
    have := h.head_le.2 y hy
    omega

theorem pair_or {α : Type} {R : α → α → Prop} {l : List α} (h : l.Pairwise R) {x y : α} (hx : x ∈ l) (hy : y ∈ l) :
    x = y ∨ R x y ∨ R y x := by
  induction l with
  | nil => cases hx
  | cons a t ih =>
    have hp := List.pairwise_cons.1 h
    rcases List.mem_cons.1 hx with hx | hx <;> rcases List.mem_cons.1 hy with hy | hy
    · exact Or.inl (hx.trans hy.symm)
    · exact Or.inr (Or.inl (hx ▸ hp.1 _ hy))
    · exact Or.inr (Or.inr (hy ▸ hp.1 _ hx))
    · exact ih hp.2 hx hy

theorem apart_symm {r q : Req} (h : Apart r q) : Apart q r := by unfold Apart at *; omega

theorem moved_apart {O : Opts} {S : Nat} {starts : Nat → Nat} {s : Mapper} {qs : List Req} (h : MOk O S starts s qs)
    (hr : O.remap = true) (hp : qs.Pairwise Apart) : (qs.map (mv starts)).Pairwise Apart ∧
      ∀ q ∈ qs, 0 < q.size ∧ starts q.id + q.size ≤ qs.length * (S + 6 * O.page) := by
  have hsz := good_sizes h.good
  have hnode : ∀ q ∈ qs, ∃ x ∈ s.list, x.r.real = q.real ∧ x.r.size = q.size ∧ x.r.id = q.id ∧ x.r.mapped = starts q.id := by
    intro q hq
    obtain ⟨A, B, rfl⟩ := List.append_of_mem hq
    refine h.placed hr A q B rfl ?_
    intro r hr
    have := (List.pairwise_append.1 hp).2.1
    exact apart_symm ((List.pairwise_cons.1 this).1 r hr)
  refine ⟨?_, fun q hq => ?_⟩
  rotate_left
  · obtain ⟨x, hx, -, x2, -, x4⟩ := hnode q hq
    have := h.below x hx
    rw [x2, x4] at this
    exact ⟨(hsz q hq).1, this⟩
  rw [List.pairwise_map]
  refine List.Pairwise.imp_of_mem ?_ hp
  intro q r hq hr' hqr
  obtain ⟨x, hx, x1, x2, x3, x4⟩ := hnode q hq
  obtain ⟨y, hy, y1, y2, y3, y4⟩ := hnode r hr'
  have h1 := hsz q hq
  have h2 := hsz r hr'
  unfold Apart at hqr ⊢
  rcases pair_or (chain_apart h.inv.chain) hx hy with rfl | h3 | h3
  · omega
  · simp only [mv]; omega
  · simp only [mv]; omega

/-! ## Histories -/

theorem inherit_map (f : List Req → List Req) (hf : f [] = []) {T T' : Nat → Option (List Req)}
    (h : ∀ x, T' x = (T x).map f) (p pp x : Nat) : inherit T' p pp x = (inherit T p pp x).map f := by
  unfold inherit
  split
  · rw [h, h, h]
    cases T p with
    | some l => rfl
    | none =>
      cases T pp with
      | some l => rfl
      | none =>
        cases T kernelPid with
        | some l => rfl
        | none => simp [hf]
  · exact h x

theorem inherit_keep {T : Nat → Option (List Req)} {x : Nat} {l : List Req} (h : T x = some l) (p pp : Nat) :
    inherit T p pp x = some l := by
  unfold inherit
  split
  · rename_i hx
    subst hx
    rw [h]; rfl
  · exact h

theorem hist_grows (O : Opts) (e : Ev) (h : List Ev) {p : Nat} {l : List Req} (hl : hist O h p = some l) :
    ∃ m, hist O (e :: h) p = some (l ++ m) := by
  simp only [hist]
  by_cases h9 : e.type = 9
  · rw [if_pos h9]
    cases e.sample with
    | none => exact ⟨[], by simpa using hl⟩
    | some s => exact ⟨[], by simpa using inherit_keep hl _ _⟩
  · rw [if_neg h9]
    by_cases hm : isMmap e = true
    · rw [if_pos hm]
      by_cases hx : p = (e.mmap.getD {}).pid.getD 0
      · refine ⟨[requestAt O h e], ?_⟩
        rw [if_pos hx, ← hx, inherit_keep hl]
        rfl
      · exact ⟨[], by rw [if_neg hx]; simpa using hl⟩
    · rw [if_neg hm]
      by_cases h7 : e.type = 7
      · rw [if_pos h7]
        split
        · exact ⟨[], by simpa using hl⟩
        · exact ⟨[], by simpa using inherit_keep hl _ _⟩
      · rw [if_neg h7]
        split
        · exact ⟨[], by simpa using inherit_keep hl _ _⟩
        · exact ⟨[], by simpa using hl⟩

theorem hist_prefix (O : Opts) {evs : List Ev} {p : Nat} {l : List Req} : ∀ (d i : Nat), i + d = (processed evs).length →
    hist O (before evs i) p = some l → ∃ m, hist O (processed evs).reverse p = some (l ++ m)
  | 0, i, hi, hl => by
    have : before evs i = (processed evs).reverse := by
      unfold before; rw [List.take_of_length_le (by omega)]
    rw [this] at hl
    exact ⟨[], by simpa using hl⟩
  | d + 1, i, hi, hl => by
    have he : (processed evs)[i]? = some (processed evs)[i] := List.getElem?_eq_getElem (by omega)
    obtain ⟨m, hm⟩ := hist_grows O (processed evs)[i] (before evs i) hl
    rw [← before_succ he] at hm
    obtain ⟨m', hm'⟩ := hist_prefix O d (i + 1) (by omega) hm
    exact ⟨m ++ m', by rw [hm', List.append_assoc]⟩

/-- What two events have in common if one is the other with its addresses moved. -/
structure Same (starts : Nat → Nat) (O : Opts) (h : List Ev) (e e' : Ev) : Prop where
  type : e'.type = e.type
  misc : e'.misc = e.misc
  fork : e'.fork = e.fork
  comm : e'.comm = e.comm
  pid : e.type = 9 → e'.sample.map (·.pid) = e.sample.map (·.pid)
  mmap : isMmap e = true → ∃ m, e'.mmap = some m ∧ m.pid = (e.mmap.getD {}).pid ∧ m.filename = (e.mmap.getD {}).filename ∧
    m.start = starts h.length ∧ m.len = (requestAt O h e).size ∧ m.pgoff = (requestAt O h e).off

theorem Same.isMmap {starts : Nat → Nat} {O : Opts} {h : List Ev} {e e' : Ev} (hs : Same starts O h e e') :
    isMmap e' = isMmap e := by unfold Parser.isMmap; rw [hs.type]

theorem Same.isKernel {starts : Nat → Nat} {O : Opts} {h : List Ev} {e e' : Ev} (hs : Same starts O h e e') :
    isKernelMmap e' = isKernelMmap e := by unfold isKernelMmap; rw [hs.isMmap, hs.misc]

theorem request_moved {O : Opts} {starts : Nat → Nat} {h h' : List Ev} {e e' : Ev} (hs : Same starts O h e e') (hm : isMmap e = true)
    (hl : h'.length = h.length) (hk : h'.any isKernelMmap = h.any isKernelMmap) :
    requestAt { O with remap := false } h' e' = mv starts (requestAt O h e) := by
  obtain ⟨m, h1, h2, h3, h4, h5, h6⟩ := hs.mmap hm
  have hoff : (isKernelMmap e && !h.any isKernelMmap) = true → (requestAt O h e).off = 0 := by
    intro hb
    simp only [requestAt, request, hb, if_true]
  have hoff' : (isKernelMmap e && !h.any isKernelMmap) = false → (requestAt O h e).off = (e.mmap.getD {}).pgoff := by
    intro hb
    simp only [requestAt, request, hb, Bool.false_eq_true, if_false]
  have hid : (requestAt O h e).id = h.length := rfl
  have hal : (requestAt O h e).allowUnaligned = (O.allowJit && contains (ascii "jitted-") (e.mmap.getD {}).filename) := rfl
  generalize hq : requestAt O h e = q at *
  unfold requestAt request
  rw [hs.isKernel, hl, hk, h1]
  simp only [Option.getD_some, h3, h4, h5, h6]
  cases hb : isKernelMmap e && !h.any isKernelMmap with
  | true =>
    rw [hoff hb]
    simp only [Nat.not_lt_zero, gt_iff_lt, decide_false, Bool.and_false, Bool.false_and, Bool.false_eq_true, if_false, if_true]
    obtain ⟨q1, q2, q3, q4, q5⟩ := q
    simp only at hid hal hoff
    have := hoff hb
    simp only [mv, hid, hal, this]
  | false =>
    simp only [Bool.false_and, Bool.false_eq_true, if_false]
    obtain ⟨q1, q2, q3, q4, q5⟩ := q
    simp only at hid hal
    simp only [mv, hid, hal]

theorem hist_moved {O : Opts} {starts : Nat → Nat} : ∀ {es es' : List Ev}, es'.length = es.length →
    (∀ i e, es[i]? = some e → ∃ e', es'[i]? = some e' ∧ Same starts O (es.take i).reverse e e') →
    ∀ i, i ≤ es.length → (∀ p, hist { O with remap := false } (es'.take i).reverse p =
      (hist O (es.take i).reverse p).map (List.map (mv starts))) ∧
      (es'.take i).reverse.any isKernelMmap = (es.take i).reverse.any isKernelMmap ∧
      ∀ k, commAt (es'.take i).reverse k = commAt (es.take i).reverse k
  | es, es', hl, h, 0, _ => by simp [hist, commAt]
  | es, es', hl, h, i + 1, hi => by
    have he : es[i]? = some es[i] := List.getElem?_eq_getElem (by omega)
    obtain ⟨e', he', hs⟩ := h i _ he
    obtain ⟨ih, ihk, ihc⟩ := hist_moved hl h i (by omega)
    rw [List.take_add_one, List.take_add_one, he, he']
    simp only [Option.toList_some, List.reverse_append, List.reverse_singleton, List.singleton_append]
    generalize hh : (es.take i).reverse = hb at *
    generalize hh' : (es'.take i).reverse = hb' at *
    have hlen : hb'.length = hb.length := by
      rw [← hh, ← hh']; simp; omega
    generalize es[i] = e at *
    refine ⟨?_, ?_, ?_⟩
    · intro p
      have hf : List.map (mv starts) [] = [] := rfl
      simp only [hist, hs.type, hs.isMmap, hs.fork, hs.comm]
      by_cases h9 : e.type = 9
      · rw [if_pos h9, if_pos h9]
        have := hs.pid h9
        cases h1 : e.sample with
        | none =>
          rw [h1] at this
          cases h2 : e'.sample with
          | none => exact ih p
          | some s' => rw [h2] at this; cases this
        | some s =>
          rw [h1] at this
          cases h2 : e'.sample with
          | none => rw [h2] at this; cases this
          | some s' =>
            rw [h2] at this
            simp only [Option.map_some, Option.some.injEq] at this
            simp only [this]
            exact inherit_map _ hf ih _ _ _
      · rw [if_neg h9, if_neg h9]
        by_cases hm : Parser.isMmap e = true
        · rw [if_pos hm, if_pos hm]
          obtain ⟨m, h1, h2, -⟩ := hs.mmap hm
          rw [h1]
          simp only [Option.getD_some, h2]
          split
          · rw [inherit_map _ hf ih, request_moved hs hm hlen ihk]
            rw [Option.map_map, Option.map_map]
            congr 1
            funext l
            simp
          · exact ih p
        · rw [if_neg hm, if_neg hm]
          by_cases h7 : e.type = 7
          · rw [if_pos h7, if_pos h7]
            split
            · exact ih p
            · exact inherit_map _ hf ih _ _ _
          · rw [if_neg h7, if_neg h7]
            split
            · exact inherit_map _ hf ih _ _ _
            · exact ih p
    · rw [List.any_cons, List.any_cons, hs.isKernel, ihk]
    · intro k
      simp only [commAt, hs.type, hs.fork, hs.comm, ihc]

end Verif.Parser
