import Verif.Whole.Tidy
import Verif.Parser.Props3

/-! The parser accepts mappings that are in order. -/

namespace Verif.Whole
open Verif.Serial (Msg Body)
open Verif.AddressMapper (Req Piece specRun specStep)

variable {page : Nat} {R : List (Nat × Nat)}

/-- The range of a request is a part of that of a mapping, up to its end. -/
structure Within (page : Nat) (R : List (Nat × Nat)) (q : Req) (m : HugePages.MMap) : Prop where
  kept : Kept page R m
  start : m.start ≤ q.real
  stop : q.real + q.size = m.start + m.len
  pos : 0 < q.size
  page : page ∣ q.real

theorem request_within {O : Parser.Opts} {id : Nat} {b : Bool} {m : HugePages.MMap} (h : Kept page R m) :
    Within page R (Parser.request O id b m) m := by
  have h1 := h.pos
  have h2 := h.stop
  have ha : HugePages.add64 m.start m.len = m.start + m.len := Nat.mod_eq_of_lt h2
  have hb : HugePages.add64 m.len m.start = m.len + m.start := Nat.mod_eq_of_lt (by omega)
  unfold Parser.request
  simp only
  cases hs : (b && decide (m.pgoff > m.start) && decide (m.pgoff < HugePages.add64 m.start m.len)) with
  | false =>
    have hs : (b && decide (m.pgoff > m.start) && decide (m.pgoff < HugePages.add64 m.start m.len)) = false := hs
    simp only [hs, Bool.false_eq_true, if_false]
    exact ⟨h, Nat.le_refl _, rfl, h1, h.start⟩
  | true =>
    have hs' : (b && decide (m.pgoff > m.start) && decide (m.pgoff < HugePages.add64 m.start m.len)) = true := hs
    simp only [hs', if_true]
    rw [ha] at hs
    simp only [Bool.and_eq_true, decide_eq_true_eq] at hs
    have hsub : HugePages.sub64 (HugePages.add64 m.len m.start) m.pgoff = m.len + m.start - m.pgoff := by
      show HugePages.sub64 (HugePages.add64 m.len m.start) m.pgoff = _
      rw [hb]
      unfold HugePages.sub64
      rw [show m.len + m.start + 2 ^ 64 - m.pgoff = m.len + m.start - m.pgoff + 2 ^ 64 by omega, Nat.add_mod_right, Nat.mod_eq_of_lt (by omega)]
    refine ⟨h, by simp only; omega, ?_, ?_, h.pgoff⟩
    · simp only [hsub]; omega
    · simp only [hsub]; omega

/-! ## Pieces -/

theorem under_inside {p x : Piece} {q : Req} (h : x ∈ p.under q) : p.lo ≤ x.lo ∧ x.lo + x.len ≤ p.lo + p.len := by
  unfold Piece.under at h
  split at h
  · rw [List.mem_singleton.1 h]; exact ⟨Nat.le_refl _, Nat.le_refl _⟩
  · split at h
    · rename_i he
      unfold Piece.encloses at he
      simp only [decide_eq_true_eq] at he
      rcases List.mem_append.1 h with h | h
      · split at h
        · rw [List.mem_singleton.1 h]; simp only; omega
        · cases h
      · split at h
        · rw [List.mem_singleton.1 h]; simp only; omega
        · cases h
    · cases h

theorem pieces_inside (al : Nat) (P : Nat → Nat → Prop) (hP : ∀ a b a' b', P a b → a ≤ a' → b' ≤ b → P a' b') : ∀ (qs : List Req) (ps : List Piece),
    (∀ q ∈ qs, P q.real (q.real + q.size)) → (∀ p ∈ ps, P p.lo (p.lo + p.len)) → ∀ p ∈ (specRun al ps qs).2, P p.lo (p.lo + p.len)
  | [], ps, _, hp => hp
  | q :: qs, ps, hq, hp => by
    refine pieces_inside al P hP qs _ (fun x hx => hq x (List.mem_cons_of_mem _ hx)) ?_
    intro p h
    unfold specStep at h
    split at h
    · exact hp p h
    · split at h
      · exact hp p (List.mem_filter.1 h).1
      · rcases List.mem_append.1 h with h | h
        · obtain ⟨y, hy, h⟩ := List.mem_flatMap.1 h
          have := under_inside h
          exact hP _ _ _ _ (hp y hy) this.1 this.2
        · rw [List.mem_singleton.1 h]
          exact hq q List.mem_cons_self

/-! ## Histories -/

theorem hist_all {O : Parser.Opts} {P : Req → Prop} : ∀ {h : List Parser.Ev}, (∀ e ∈ h, Parser.isMmap e = true → ∀ h', P (Parser.requestAt O h' e)) →
    ∀ p qs, Parser.hist O h p = some qs → ∀ q ∈ qs, P q
  | [], _, p, qs, hq => by simp [Parser.hist] at hq
  | e :: h, he, p, qs, hq => by
    have ih := hist_all (O := O) (P := P) (h := h) (fun x hx => he x (List.mem_cons_of_mem _ hx))
    have inh := fun p pp => Parser.inherit_all (P := fun l => ∀ q ∈ l, P q) (fun q hq => by cases hq) ih p pp
    rcases Parser.hist_cases hq with hq | ⟨a, b, hq⟩ | ⟨hm, l, hl, rfl⟩
    · exact ih _ _ hq
    · exact inh _ _ _ _ hq
    · intro q hq
      rcases List.mem_append.1 hq with hq | hq
      · exact inh _ _ _ _ hl q hq
      · rw [List.mem_singleton.1 hq]; exact he e List.mem_cons_self hm h

theorem ranges_all {O : Parser.Opts} {P : Req → Prop} {h : List Parser.Ev} (he : ∀ e ∈ h, Parser.isMmap e = true → ∀ h', P (Parser.requestAt O h' e))
    (p : Nat) : ∀ q ∈ Parser.rangesOf O h p, P q :=
  Parser.inherit_all (P := fun l => ∀ q ∈ l, P q) (fun q hq => by cases hq) (hist_all he) p Parser.kernelPid p _
    (by simp [Parser.rangesOf, Parser.inherit])

/-- A request for a mapping in order is accepted. -/
theorem accepts (hR : Places page R) {O : Parser.Opts} (hp : O.page = page) {h : List Parser.Ev} {e : Parser.Ev}
    (he : ∀ x ∈ h, Parser.isMmap x = true → ∀ h', ∃ m, Within page R (Parser.requestAt O h' x) m)
    {m : HugePages.MMap} (hm : Within page R (Parser.requestAt O h e) m) : Parser.accepted O h e = true := by
  cases ha : Parser.accepted O h e with
  | true => rfl
  | false =>
    exfalso
    rcases (Parser.refused_iff O h e).1 ha with h1 | h1 | ⟨p, hp1, hp2, hp3⟩
    · have := hm.pos; omega
    · have := hm.stop; have := hm.kept.stop; omega
    · rw [hp] at hp1 hp3
      obtain ⟨n, hn⟩ := pieces_inside page (fun a b => ∃ n, Kept page R n ∧ n.start ≤ a ∧ b ≤ n.start + n.len)
        (fun a b a' b' ⟨n, k, h1, h2⟩ h3 h4 => ⟨n, k, by omega, by omega⟩) _ _
        (fun q hq => by
          obtain ⟨n, hn⟩ := ranges_all (P := fun q => ∃ m, Within page R q m) he _ q hq
          exact ⟨n, hn.kept, hn.start, by rw [hn.stop]; exact Nat.le_refl _⟩) (fun _ h => by cases h) p hp1
      obtain ⟨hk, hn1, hn2⟩ := hn
      unfold Piece.encloses at hp2
      simp only [decide_eq_true_eq] at hp2
      have hcut : page ≠ 0 ∧ ((p.lo ≠ (Parser.requestAt O h e).real ∧ (Parser.requestAt O h e).real % page ≠ 0) ∨
          (p.lo + p.len ≠ (Parser.requestAt O h e).real + (Parser.requestAt O h e).size ∧
            ((Parser.requestAt O h e).real + (Parser.requestAt O h e).size) % page ≠ 0)) := by
        unfold Piece.cutsPage at hp3
        simp only [Bool.and_eq_true, Bool.or_eq_true, decide_eq_true_eq] at hp3
        exact ⟨hp3.1.2, hp3.2⟩
      rcases hcut.2 with ⟨-, hc⟩ | ⟨hc1, hc⟩
      · exact hc (Nat.mod_eq_zero_of_dvd hm.page)
      · rcases hm.kept.cover with ⟨hd, -⟩ | ⟨hd, hmem⟩
        · rw [hm.stop] at hc
          exact hc (Nat.mod_eq_zero_of_dvd (Nat.dvd_add hm.kept.start hd))
        · have g1 := hm.start
          have g2 := hm.stop
          have g3 := hm.pos
          rcases hk.cover with ⟨-, -, -, hcov⟩ | ⟨hd', hmem'⟩
          · obtain ⟨o, ho, ho1, ho2, ho3⟩ := hcov (Parser.requestAt O h e).real (by omega) (by omega)
            rcases hR.apart _ hmem hd o ho with rfl | h3 | h3
            · exact hd ho1
            · simp only at h3; omega
            · simp only at h3; omega
          · rcases hR.apart _ hmem hd _ hmem' with h3 | h3 | h3
            · rw [Prod.mk.injEq] at h3; omega
            · simp only at h3; omega
            · simp only at h3; omega

/-! ## Recordings -/

/-- Everything the parser needs of the events. -/
structure Parsable (page : Nat) (R : List (Nat × Nat)) (l : List Msg) : Prop where
  shaped : ∀ m ∈ l, Shaped m
  kept : ∀ m ∈ l, MsgKept page R m
  address : ∀ m ∈ l, ∀ s, m.body = .sample s → ∀ a ∈ addresses s, a < 2 ^ 64

theorem view_mmap {l : List Msg} (h : Parsable page R l) {e : Parser.Ev} (he : e ∈ views parserView 0 l) (hm : Parser.isMmap e = true) :
    ∃ b m, m ∈ l ∧ m.body = .mmap b ∧ e.mmap = some (hugeMap true b) := by
  obtain ⟨i, m, h1, -, -, rfl⟩ := views_mem he
  unfold Parser.isMmap at hm
  simp only [Bool.or_eq_true, decide_eq_true_eq] at hm
  obtain ⟨b, hb⟩ := (h.shaped m h1).mmap hm
  exact ⟨b, m, h1, hb, by unfold parserView; rw [hb]⟩

theorem processed_mem {evs : List Parser.Ev} {e : Parser.Ev} (h : e ∈ Parser.processed evs) : e ∈ evs :=
  (List.mem_filter.1 ((List.takeWhile_sublist (l := Parser.relevant evs) Parser.known).subset h)).1

theorem before_mem {evs : List Parser.Ev} {i : Nat} {e : Parser.Ev} (h : e ∈ Parser.before evs i) : e ∈ evs :=
  processed_mem (List.mem_of_mem_take (List.mem_reverse.1 h))

/-- A sample as the parser sees it. -/
def parserSample (i : Nat) (s : Serial.SampleEvent) : Parser.Sample :=
  { ip := s.ip.getD 0, pid := s.pid.getD 0, tid := s.tid.getD 0, addr := s.addr, callchain := s.callchain,
    branches := s.branches.map parserBranch, rest := i }

theorem lookups_sub {s : Serial.SampleEvent} {i : Nat} {p : Parser.Sample} (hp : p = parserSample i s) {a : Nat} (ha : a ∈ Parser.lookups p) :
    a ∈ addresses s := by
  subst hp
  unfold parserSample at ha
  unfold Parser.lookups at ha
  unfold addresses
  simp only [List.mem_cons, List.mem_append, List.mem_flatMap] at ha ⊢
  rcases ha with rfl | (ha | ha) | ⟨b, hb, ha⟩
  · exact .inl rfl
  · right; left
    cases hs : s.addr with
    | none => rw [hs] at ha; cases ha
    | some x =>
      rw [hs] at ha
      simp only [Option.mem_toList, Option.filter_eq_some_iff] at ha
      rw [Option.some.inj ha.1]; rfl
  · exact .inr (.inr (.inl (List.mem_filter.1 ha).1))
  · right; right; right
    have : b ∈ s.branches.map parserBranch := by
      unfold Parser.usable at hb
      split at hb
      · exact (List.takeWhile_sublist _).subset hb
      · cases hb
    obtain ⟨c, hc, rfl⟩ := List.mem_map.1 this
    refine ⟨c, hc, ?_⟩
    simpa [parserBranch] using ha

theorem count_views {l : List Msg} (hs : ∀ m ∈ l, Shaped m) : ∀ n, ((views parserView n l).filter Parser.isMmap).length ≤ (l.map oneMsg).sum := by
  induction l with
  | nil => intro n; exact Nat.le_refl _
  | cons m l ih =>
    intro n
    have ih := ih (fun x hx => hs x (List.mem_cons_of_mem _ hx)) (n + 1)
    simp only [views, List.map_cons, List.sum_cons]
    cases hm : Parser.isMmap (parserView n m) with
    | false => rw [List.filter_cons_of_neg (by simp [hm])]; omega
    | true =>
      rw [List.filter_cons_of_pos hm, List.length_cons]
      have : oneMsg m = 1 := by
        unfold Parser.isMmap at hm
        simp only [Bool.or_eq_true, decide_eq_true_eq] at hm
        obtain ⟨b, hb⟩ := (hs m List.mem_cons_self).mmap hm
        unfold oneMsg; rw [hb]
      omega

theorem len_le {l : List Msg} {m : Msg} (h : m ∈ l) : lenMsg m ≤ (l.map lenMsg).sum := by
  induction l with
  | nil => cases h
  | cons x l ih =>
    rw [List.map_cons, List.sum_cons]
    rcases List.mem_cons.1 h with rfl | h
    · omega
    · have := ih h; omega

/-- What the parser is asked for. -/
theorem asked {O : Parser.Opts} {l : List Msg} (h : Parsable page R l) : ∀ e ∈ views parserView 0 l, Parser.isMmap e = true → ∀ h',
    ∃ m, Within page R (Parser.requestAt O h' e) m ∧ m.len ≤ (l.map lenMsg).sum := by
  intro e he hm h'
  obtain ⟨b, m, h1, h2, h3⟩ := view_mmap h he hm
  refine ⟨hugeMap true b, ?_, ?_⟩
  · unfold Parser.requestAt
    rw [h3]
    exact request_within (h.kept m h1 b h2)
  · have := len_le h1
    unfold lenMsg at this
    rw [h2] at this
    exact this

/-- What the parser gets is in order. -/
theorem sensible {O : Parser.Opts} (hp : O.page = page) (hk : ∃ k, k ≤ 60 ∧ page = 2 ^ k) {l : List Msg}
    (h : Parsable page R l) (hroom : (l.map oneMsg).sum * ((l.map lenMsg).sum + 6 * page) < 2 ^ 64) :
    Parser.Sensible O (l.map lenMsg).sum (views parserView 0 l) := by
  refine ⟨by rw [hp]; exact hk, fun i e hi hm => ?_, ?_, fun e he s hs a ha => ?_⟩
  · obtain ⟨m, h1, h2⟩ := asked (O := O) h e (processed_mem (List.mem_of_getElem? hi)) hm (Parser.before (views parserView 0 l) i)
    have g1 := h1.kept.stop
    have g2 := h1.stop
    have g3 := h1.start
    have g4 := h1.pos
    exact ⟨⟨by omega, by omega, by omega⟩, by omega⟩
  · refine Nat.lt_of_le_of_lt (Nat.mul_le_mul_right _ ?_) (by rw [hp]; exact hroom)
    refine Nat.le_trans ?_ (count_views h.shaped 0)
    unfold Parser.mmapCount Parser.processed Parser.relevant
    exact (((List.takeWhile_sublist _).trans List.filter_sublist).filter _).length_le
  · obtain ⟨i, m, h1, -, -, rfl⟩ := views_mem (processed_mem he)
    unfold parserView at hs
    simp only at hs
    split at hs
    · rename_i x hx
      exact h.address m h1 x hx a (lookups_sub (Option.some.inj hs).symm ha)
    · cases hs

/-- The parser finishes. -/
theorem parses (hR : Places page R) {O : Parser.Opts} (hp : O.page = page) (hk : ∃ k, k ≤ 60 ∧ page = 2 ^ k) (hd : O.discard = false) {l : List Msg}
    (h : Parsable page R l) (hroom : (l.map oneMsg).sum * ((l.map lenMsg).sum + 6 * page) < 2 ^ 64) :
    ∃ P, Parser.parse O (views parserView 0 l) = some P := by
  have hw := asked (O := O) h
  have hS := sensible hp hk h hroom
  cases hr : Parser.parse O (views parserView 0 l) with
  | some P => exact ⟨P, rfl⟩
  | none =>
    exfalso
    obtain ⟨i, e, h1, h2, h3⟩ := (Parser.fails_iff_refused hS hd).1 hr
    obtain ⟨m, h4, -⟩ := hw e (processed_mem (List.mem_of_getElem? h1)) h2 (Parser.before (views parserView 0 l) i)
    rw [accepts hR hp (fun x hx hm h' => by
      obtain ⟨n, hn, -⟩ := hw x (before_mem hx) hm h'
      exact ⟨n, hn⟩) h4] at h3
    cases h3

end Verif.Whole
