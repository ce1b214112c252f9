import Verif.Attr.Props

/-!
# An event is decoded with its own attribute (C43)
-/

namespace Verif.Attr
open Verif.Buffer Verif.Event Verif.Sample

/-! ## The table -/

theorem find_insert (id id' : Nat) (r : InfoReader) : ∀ m,
    find id' (insert id r m) = if id' = id then some r else find id' m
  | [] => by simp [insert, find, eq_comm]
  | (k, x) :: l => by
    unfold insert
    split
    · by_cases h : id' = id <;> simp [find, h, eq_comm] <;> omega
    · split
      · rename_i h1 h2
        subst h2
        by_cases h : id' = id <;> simp [find, h, eq_comm] <;> simp_all [eq_comm]
      · rename_i h1 h2
        have ih := find_insert id id' r l
        simp only [find, ih]
        by_cases h : k = id'
        · simp only [h, if_true]; rw [if_neg (by omega)]
        · simp only [h, if_false]

def Sorted (m : List (Nat × InfoReader)) : Prop := m.Pairwise (fun a b => a.1 < b.1)

theorem mem_insert {id : Nat} {r : InfoReader} : ∀ {m : List (Nat × InfoReader)} {p}, p ∈ insert id r m → p = (id, r) ∨ p ∈ m
  | [], p, h => by simp [insert] at h; exact Or.inl h
  | (k, x) :: l, p, h => by
    unfold insert at h
    split at h
    · rcases List.mem_cons.mp h with h | h
      · exact Or.inl h
      · exact Or.inr h
    · split at h
      · rcases List.mem_cons.mp h with h | h
        · exact Or.inl h
        · exact Or.inr (List.mem_cons_of_mem _ h)
      · rcases List.mem_cons.mp h with h | h
        · exact Or.inr (h ▸ List.mem_cons_self)
        · rcases mem_insert h with h | h
          · exact Or.inl h
          · exact Or.inr (List.mem_cons_of_mem _ h)

theorem sorted_insert {id : Nat} {r : InfoReader} : ∀ {m : List (Nat × InfoReader)}, Sorted m → Sorted (insert id r m)
  | [], _ => by simp [insert, Sorted]
  | (k, x) :: l, h => by
    unfold Sorted at h
    rw [List.pairwise_cons] at h
    unfold insert
    split
    · refine List.pairwise_cons.mpr ⟨?_, List.pairwise_cons.mpr h⟩
      intro p hp
      rcases List.mem_cons.mp hp with hp | hp
      · subst hp; assumption
      · have := h.1 p hp; simp only at this ⊢; omega
    · split
      · rename_i h1 h2; subst h2; exact List.pairwise_cons.mpr h
      · refine List.pairwise_cons.mpr ⟨?_, sorted_insert h.2⟩
        intro p hp
        rcases mem_insert hp with hp | hp
        · subst hp; simp only; omega
        · exact h.1 p hp

/-- The readers of a table are those of registered attributes. -/
structure Inv (fs : List FileAttr) (cross : Bool) (s : Ser) : Prop where
  sorted : Sorted s.readers
  mem : ∀ p ∈ s.readers, ∃ f ∈ fs, p.2 = ⟨f.attr, cross⟩
  find : ∀ id, find id s.readers = (owner fs id).map (fun f => ⟨f.attr, cross⟩)
  pos : ∀ f ∈ fs, s.samplePos = some (positions f.attr.sampleType).1 ∧
    s.otherPos = some (positions f.attr.sampleType).2
  none : fs = [] → s.samplePos = none ∧ s.otherPos = none

theorem foldl_insert (ids : List Nat) (r : InfoReader) : ∀ (m : List (Nat × InfoReader)), Sorted m →
    Sorted (ids.foldl (fun m id => insert id r m) m) ∧
    (∀ p ∈ ids.foldl (fun m id => insert id r m) m, p.2 = r ∨ p ∈ m) ∧
    ∀ id, find id (ids.foldl (fun m id => insert id r m) m) = if ids.contains id then some r else find id m := by
  induction ids with
  | nil => intro m h; exact ⟨h, fun p hp => Or.inr hp, fun id => rfl⟩
  | cons i ids ih =>
    intro m h
    obtain ⟨a, b, c⟩ := ih (insert i r m) (sorted_insert h)
    refine ⟨a, ?_, ?_⟩
    · intro p hp
      rcases b p hp with hp | hp
      · exact Or.inl hp
      · rcases mem_insert hp with hp | hp
        · exact Or.inl (by rw [hp])
        · exact Or.inr hp
    · intro id
      rw [List.foldl_cons, c id, find_insert]
      simp only [List.contains_cons]
      by_cases h1 : id = i
      · subst h1; simp
      · rw [if_neg h1]; simp [h1]

theorem owner_append (fs : List FileAttr) (f : FileAttr) (id : Nat) :
    owner (fs ++ [f]) id = if (regIds f).contains id then some f else owner fs id := by
  unfold owner
  rw [List.reverse_append, List.reverse_singleton, List.singleton_append, List.find?_cons]
  cases (regIds f).contains id <;> rfl

theorem update_spec {t t' : Ser} {a : EventAttr} (hu : updatePositions t a = (true, t')) :
    t'.readers = t.readers ∧ t'.samplePos = some (positions a.sampleType).1 ∧
      t'.otherPos = some (positions a.sampleType).2 ∧
      (∀ p, t.samplePos = some p → p = (positions a.sampleType).1) ∧
      (∀ p, t.otherPos = some p → p = (positions a.sampleType).2) := by
  unfold updatePositions at hu
  cases g1 : t.samplePos <;> cases g2 : t.otherPos <;> simp only [g1, g2] at hu
  · have := (Prod.mk.inj hu).2; subst this; simp
  · have := (Prod.mk.inj hu).2; have hh := (Prod.mk.inj hu).1; subst this; simp_all
  · split at hu
    · cases hu
    · rename_i hne
      have := (Prod.mk.inj hu).2; subst this; simp_all
  · split at hu
    · cases hu
    · rename_i hne
      have := (Prod.mk.inj hu).2; have hh := (Prod.mk.inj hu).1; subst this; simp_all

theorem create_inv {fs : List FileAttr} {cross : Bool} {s s' : Ser} {f : FileAttr} (h : Inv fs cross s)
    (hc : createReader s f cross = (true, s')) : Inv (fs ++ [f]) cross s' := by
  obtain ⟨h1, h2, h3, h4, h5⟩ := h
  obtain ⟨a, b, c⟩ := foldl_insert (regIds f) ⟨f.attr, cross⟩ s.readers h1
  obtain ⟨p1, p2, p3, p4, p5⟩ := update_spec (t := { s with readers := (regIds f).foldl (fun m id => insert id ⟨f.attr, cross⟩ m) s.readers }) hc
  refine ⟨?_, ?_, ?_, ?_, by simp⟩
  · rw [p1]; exact a
  · intro p hp
    rw [p1] at hp
    rcases b p hp with hp | hp
    · exact ⟨f, by simp, hp⟩
    · obtain ⟨g, hg, e⟩ := h2 p hp; exact ⟨g, by simp [hg], e⟩
  · intro id
    rw [p1]
    show Attr.find id ((regIds f).foldl _ _) = _
    rw [c id, owner_append]
    split
    · rfl
    · exact h3 id
  · intro g hg
    rcases List.mem_append.mp hg with hg | hg
    · obtain ⟨q1, q2⟩ := h4 g hg
      rw [p2, p3, ← p4 _ q1, ← p5 _ q2]
      exact ⟨rfl, rfl⟩
    · rw [List.mem_singleton.mp hg]; exact ⟨p2, p3⟩

theorem register_inv {cross : Bool} : ∀ (gs : List FileAttr) {fs : List FileAttr} {s s' : Ser}, Inv fs cross s →
    registerAll s cross gs = some s' → Inv (fs ++ gs) cross s'
  | [], fs, s, s', h, hr => by
    simp only [registerAll, Option.some.injEq] at hr
    subst hr; simpa using h
  | g :: gs, fs, s, s', h, hr => by
    unfold registerAll at hr
    cases hc : createReader s g cross with
    | mk b t =>
      cases b
      · rw [hc] at hr; cases hr
      · rw [hc] at hr
        have := register_inv gs (create_inv h hc) hr
        simpa using this

theorem empty_inv (cross : Bool) : Inv [] cross {} :=
  ⟨List.Pairwise.nil, by simp, by simp [find, owner], by simp, fun _ => ⟨rfl, rfl⟩⟩

theorem find_head {m : List (Nat × InfoReader)} {r : InfoReader} (hs : Sorted m) (h : find 0 m = some r) :
    m.head?.map (·.2) = some r := by
  cases m with
  | nil => cases h
  | cons p l =>
    obtain ⟨k, x⟩ := p
    unfold find at h
    by_cases hk : k = 0
    · rw [if_pos hk] at h; simpa using h
    · rw [if_neg hk] at h
      exfalso
      have hlt := (List.pairwise_cons.mp hs).1
      have : ∀ l : List (Nat × InfoReader), (∀ p ∈ l, k < p.1) → find 0 l = none := by
        intro l
        induction l with
        | nil => intro _; rfl
        | cons q l ih =>
          intro hq
          obtain ⟨k', x'⟩ := q
          have := hq (k', x') (by simp)
          simp only at this
          rw [find, if_neg (by omega), ih (fun p hp => hq p (by simp [hp]))]
      rw [this l (fun p hp => hlt p hp)] at h
      cases h

theorem readerForId_owner {fs : List FileAttr} {cross : Bool} {s : Ser} (h : Inv fs cross s) {id : Nat} {f : FileAttr}
    (ho : owner fs id = some f) : readerForId s id = some ⟨f.attr, cross⟩ := by
  have hf := h.find id
  rw [ho] at hf
  unfold readerForId
  by_cases h0 : id ≠ 0
  · rw [if_pos h0, hf]; rfl
  · rw [if_neg h0]
    have : id = 0 := by omega
    subst this
    exact find_head h.sorted hf

/-! ## The position of the id -/

theorem split6 {α : Type} (a b c d e T : List α) (x : α) :
    [] ++ (a ++ (b ++ (c ++ (d ++ (e ++ ([x] ++ T)))))) = (a ++ (b ++ (c ++ (d ++ e)))) ++ x :: T := by simp

theorem sample_pos (a : Sample.Attr) (s : Sample) {pos : Nat} (h : (positions a.sampleType).1 = some pos) :
    ∃ A B, layout a true s = A ++ .u64 s.id :: B ∧ total A = 8 * pos := by
  unfold positions at h
  unfold layout layoutIds
  simp only [Bool.true_or, if_true, has, Bool.true_and, Bool.and_true, Bool.not_true, Bool.false_and]
  by_cases c : a.sampleType.testBit 16 = true
  · simp only [c, if_true, Option.some.injEq] at h
    subst h
    rw [c]
    exact ⟨[], _, rfl, rfl⟩
  · have c' : a.sampleType.testBit 16 = false := by simpa using c
    rw [if_neg c] at h
    by_cases d : a.sampleType.testBit 6 = true
    · rw [if_pos d] at h
      simp only [Option.some.injEq] at h
      rw [c', d]
      refine ⟨_, _, split6 (only (a.sampleType.testBit 0) [.u64 s.ip]) (only (a.sampleType.testBit 1) [.u32 s.pid])
        (only (a.sampleType.testBit 1) [.u32 s.tid]) (only (a.sampleType.testBit 2) [.u64 s.time])
        (only (a.sampleType.testBit 3) [.u64 s.addr]) _ _, ?_⟩
      · rw [← h]
        unfold bit
        simp only [total_append]
        cases a.sampleType.testBit 0 <;> cases a.sampleType.testBit 1 <;> cases a.sampleType.testBit 2 <;>
          cases a.sampleType.testBit 3 <;> simp [only, total, Piece.len]
    · rw [if_neg d] at h; cases h

theorem other_pos (a : Sample.Attr) (s : Sample) (hall : a.sampleIdAll = true) {pos : Nat}
    (h : (positions a.sampleType).2 = some pos) :
    ∃ A B, layout a false s = A ++ .u64 s.id :: B ∧ total B + 8 = 8 * pos := by
  unfold positions at h
  unfold layout layoutIds
  have n0 : ∀ b, [1, 2, 6, 7, 9, 16].contains b = false → (a.sampleType.testBit b && (false || [1, 2, 6, 7, 9, 16].contains b)) = false := by
    intro b hb; rw [hb]; simp
  simp only [hall, Bool.or_true, if_true, has]
  rw [n0 0 rfl, n0 3 rfl, n0 8 rfl, n0 4 rfl, n0 5 rfl, n0 10 rfl, n0 11 rfl, n0 14 rfl, n0 24 rfl, n0 15 rfl, n0 17 rfl,
    n0 19 rfl, n0 21 rfl, n0 22 rfl, n0 23 rfl]
  simp only [Bool.false_or, Bool.false_and, Bool.not_false, Bool.true_and, only, Bool.false_eq_true, if_false,
    List.nil_append, List.append_nil,
    show ([1, 2, 6, 7, 9, 16] : List Nat).contains 1 = true from rfl, show ([1, 2, 6, 7, 9, 16] : List Nat).contains 2 = true from rfl,
    show ([1, 2, 6, 7, 9, 16] : List Nat).contains 6 = true from rfl, show ([1, 2, 6, 7, 9, 16] : List Nat).contains 7 = true from rfl,
    show ([1, 2, 6, 7, 9, 16] : List Nat).contains 9 = true from rfl, show ([1, 2, 6, 7, 9, 16] : List Nat).contains 16 = true from rfl,
    Bool.and_true]
  by_cases c : a.sampleType.testBit 16 = true
  · simp only [c, if_true, Option.some.injEq] at h
    subst h
    simp only [c, if_true]
    refine ⟨(if a.sampleType.testBit 1 = true then [.u32 s.pid] else []) ++
      ((if a.sampleType.testBit 1 = true then [.u32 s.tid] else []) ++
      ((if a.sampleType.testBit 2 = true then [.u64 s.time] else []) ++
      ((if a.sampleType.testBit 6 = true then [.u64 s.id] else []) ++
      ((if a.sampleType.testBit 9 = true then [.u64 s.streamId] else []) ++
      ((if a.sampleType.testBit 7 = true then [.u32 s.cpu] else []) ++
      (if a.sampleType.testBit 7 = true then [.pad 4] else [])))))), [], by simp only [List.append_assoc], rfl⟩
  · rw [if_neg c] at h
    by_cases d : a.sampleType.testBit 6 = true
    · rw [if_pos d] at h
      simp only [Option.some.injEq] at h
      simp only [c, d, if_true, Bool.false_eq_true, if_false, List.append_nil]
      refine ⟨(if a.sampleType.testBit 1 = true then [.u32 s.pid] else []) ++
        ((if a.sampleType.testBit 1 = true then [.u32 s.tid] else []) ++
        ((if a.sampleType.testBit 2 = true then [.u64 s.time] else []))),
        (if a.sampleType.testBit 9 = true then [.u64 s.streamId] else []) ++
        ((if a.sampleType.testBit 7 = true then [.u32 s.cpu] else []) ++
        (if a.sampleType.testBit 7 = true then [.pad 4] else [])), by simp only [List.append_assoc, List.singleton_append], ?_⟩
      rw [← h]
      unfold bit
      simp only [total_append]
      cases a.sampleType.testBit 9 <;> cases a.sampleType.testBit 7 <;> simp [total, Piece.len]
    · rw [if_neg d] at h; cases h

/-! ## C43 -/

theorem int_at {e : RawEvent} {own bs : List UInt8} {A B : List Piece} {id : Nat} (hp : e.payload = own ++ bs)
    (hm : Matches false (A ++ .u64 id :: B) bs) (o : Nat) (ho : o = 8 + own.length + total A) :
    e.int o 8 = some id := by
  have hi : Piece.Is _ _ (.u64 id) := matches_at hm
  have hl := matches_len hm
  simp only [total_append, total_cons, Piece.len] at hl
  unfold RawEvent.int fetch
  rw [if_pos (by omega), hp, if_pos (by simp; omega)]
  simp only [Option.map_some, Option.some.injEq]
  rw [show o - 8 = own.length + total A by omega, ← List.drop_drop, List.drop_left]
  exact hi.2

/-- C43: an event with an id, recorded on a machine of this byte order, is decoded with the attribute that was
registered for this id (the last one, should there be several), wherever the attribute puts the id; reading gives the
sample fields in the event and the sample type of the attribute. The attributes have been accepted, so they agree on the
position of the id; it is required that they also agree on `sample_id_all`, the only flag the choice depends on. -/
theorem own_attribute (fs : List FileAttr) (ser : Ser) (e : RawEvent) (header : List UInt8) (f : FileAttr)
    (s s₀ : Sample) (own bs : List UInt8)
    (hreg : registerAll {} false fs = some ser) (hown : owner fs s.id = some f)
    (hall : ∀ g ∈ fs, g.attr.flags.testBit 18 = f.attr.flags.testBit 18)
    (hid : f.attr.sampleType.testBit 16 = true ∨ f.attr.sampleType.testBit 6 = true)
    (hok : e.Ok) (hh : header.length = 8) (hty : carriesSample e.type = true)
    (hst : f.attr.sampleType < 2 ^ 64) (hsup : Supported f.attr.sample (e.type = SAMPLE)) (h0 : s₀.Empty)
    (hcarry : e.type = SAMPLE ∨ f.attr.flags.testBit 18 = true)
    (hp : e.payload = own ++ bs) (hd : eventDataSize e = some (8 + own.length))
    (hbs : Matches false (layout f.attr.sample (e.type = SAMPLE) s) bs) :
    readerForEvent ser e = some (some ⟨f.attr, false⟩) ∧
    readInfoAndType ser e header s₀ =
      some (some (pick f.attr.sample (e.type = SAMPLE) s s₀, f.attr.sampleType)) := by
  have inv := register_inv fs (empty_inv false) hreg
  rw [List.nil_append] at inv
  have hfs : f ∈ fs := by
    have := List.mem_of_find?_eq_some hown
    simpa using this
  have hreader : readerForEvent ser e = some (some ⟨f.attr, false⟩) := by
    obtain ⟨q1, q2⟩ := inv.pos f hfs
    obtain ⟨n, hn, hle, h8⟩ := eventDataSize_safe e hok
    rw [hd] at hn
    simp only [Option.some.injEq] at hn
    subst hn
    have hsz : e.size = 8 + own.length + bs.length := by unfold RawEvent.size; rw [hp]; simp; omega
    have hr := readerForId_owner inv hown
    unfold readerForEvent
    by_cases ht : e.type = SAMPLE
    · simp only [ht, if_true, q1, hd]
      simp only [ht, decide_true] at hbs
      have hp1 : ∃ pos, (positions f.attr.sampleType).1 = some pos := by
        unfold positions
        rcases hid with h | h
        · rw [if_pos h]; exact ⟨_, rfl⟩
        · by_cases g : f.attr.sampleType.testBit 16 = true
          · rw [if_pos g]; exact ⟨_, rfl⟩
          · rw [if_neg g, if_pos h]; exact ⟨_, rfl⟩
      obtain ⟨pos, hpos⟩ := hp1
      obtain ⟨A, B, hL, hA⟩ := sample_pos f.attr.sample s (pos := pos) hpos
      rw [hL] at hbs
      have hlen := matches_len hbs
      simp only [total_append, total_cons, Piece.len] at hlen
      rw [hpos]
      simp only
      rw [if_neg (by omega), if_neg (by omega), if_neg (by omega),
        int_at hp hbs _ (by omega)]
      simp [hr]
    · have hc : containsSampleInfo ser e.type = true := by
        unfold containsSampleInfo
        rw [if_neg ht, if_neg (by simp [supported_carries, hty])]
        have h18 : f.attr.flags.testBit 18 = true := by rcases hcarry with h | h; exact absurd h ht; exact h
        have hf := inv.find s.id
        rw [hown] at hf
        have hm := inv.mem
        cases hm' : ser.readers with
        | nil => rw [hm'] at hf; cases hf
        | cons p l =>
          rw [hm'] at hm
          obtain ⟨g, hg, eg⟩ := hm p (by simp)
          simp only [eg]
          rw [hall g hg, h18]
      simp only [ht, if_false, hc, if_true, q2, hd]
      simp only [ht, decide_false] at hbs
      have h18 : f.attr.flags.testBit 18 = true := by rcases hcarry with h | h; exact absurd h ht; exact h
      have hp1 : ∃ pos, (positions f.attr.sampleType).2 = some pos := by
        unfold positions
        rcases hid with h | h
        · rw [if_pos h]; exact ⟨_, rfl⟩
        · by_cases g : f.attr.sampleType.testBit 16 = true
          · rw [if_pos g]; exact ⟨_, rfl⟩
          · rw [if_neg g, if_pos h]; exact ⟨_, rfl⟩
      obtain ⟨pos, hpos⟩ := hp1
      obtain ⟨A, B, hL, hB⟩ := other_pos f.attr.sample s h18 (pos := pos) hpos
      have h8b := m8_layout (.u64 s.id) (.u64 s.id) rfl rfl f.attr.sample false s
      have h8b' : total (layout f.attr.sample false s) % 8 = 0 := h8b
      rw [hL] at hbs h8b'
      have hlen := matches_len hbs
      simp only [total_append, total_cons, Piece.len] at hlen h8b'
      rw [hpos]
      simp only
      rw [if_neg (by omega), if_neg (by omega), if_neg (by omega),
        int_at hp hbs _ (by omega)]
      simp [hr]
  refine ⟨hreader, ?_⟩
  unfold readInfoAndType
  rw [hreader]
  simp only
  rw [read_layout e header f.attr.sample false s s₀ own bs hok hh hty hst hsup (by simp) h0 hp hd hbs]

/-- Two events, `cycles` with id 5 and `faults` with ids 6 and 7, with different fields; both have the id behind the
time. -/
def exAttrs : List FileAttr :=
  [⟨{ type := 0, config := 0, sampleType := 2 + 4 + 64 + 128, flags := 2 ^ 18 }, [5]⟩,
   ⟨{ type := 1, config := 2, sampleType := 2 + 4 + 64 + 128 + 256, flags := 2 ^ 18 }, [6, 7]⟩]
def exSer : Ser := (registerAll {} false exAttrs).getD {}
def exEvent : RawEvent := { type := SAMPLE, payload := toLE 4 10 ++ toLE 4 11 ++ toLE 8 12 ++ toLE 8 7 ++ toLE 8 3 ++ toLE 8 100 }
def exInfo : Sample := { pid := 10, tid := 11, time := 12, id := 7, cpu := 3, period := 100 }

example : readInfoAndType exSer exEvent [9, 0, 0, 0, 0, 0, 48, 0] {} =
    some (some (exInfo, 2 + 4 + 64 + 128 + 256)) := by
  have := (own_attribute exAttrs exSer exEvent [9, 0, 0, 0, 0, 0, 48, 0]
    ⟨{ type := 1, config := 2, sampleType := 2 + 4 + 64 + 128 + 256, flags := 2 ^ 18 }, [6, 7]⟩ exInfo {} []
    exEvent.payload (by decide +kernel) (by decide) (by decide) (by decide) (by decide) rfl (by decide) (by decide)
    ⟨by decide, by decide, by decide, by decide, by
      intro b hb
      simp only [has]
      rw [Nat.testBit_lt_two_pow (Nat.lt_of_lt_of_le (show Sample.Attr.sampleType _ < 2 ^ 25 by decide)
        (Nat.pow_le_pow_right (by decide) hb))]
      rfl⟩ ⟨rfl, rfl, rfl⟩ (Or.inl rfl) rfl (by decide +kernel)
    (matches_ok (by decide +kernel))).2
  exact this

/-- An event that is not a sample. -/
def exExit : RawEvent :=
  { type := EXIT, payload := List.replicate 24 0 ++ toLE 4 10 ++ toLE 4 11 ++ toLE 8 12 ++ toLE 8 5 ++ toLE 8 3 }
example : readInfoAndType exSer exExit [4, 0, 0, 0, 0, 0, 64, 0] {} =
    some (some ({ exInfo with id := 5, period := 0 }, 2 + 4 + 64 + 128)) := by decide +kernel

theorem place_positions (st : Nat) : positions st =
    ((idPlace st).map (fun p => p.1 / 8), (idPlace st).map (fun p => p.2 / 8)) := by
  unfold positions idPlace
  split
  · rfl
  · split
    · simp only [Option.map_some, Prod.mk.injEq, Option.some.injEq, bit]
      simp only [List.filter_cons, List.filter_nil]
      constructor
      · cases st.testBit 0 <;> cases st.testBit 1 <;> cases st.testBit 2 <;> cases st.testBit 3 <;> rfl
      · cases st.testBit 7 <;> cases st.testBit 9 <;> rfl
    · rfl

theorem place_inj {a b : Nat} (h : positions a = positions b) : idPlace a = idPlace b := by
  rw [place_positions, place_positions] at h
  have h8 : ∀ st p, idPlace st = some p → p.1 % 8 = 0 ∧ p.2 % 8 = 0 := by
    intro st p hp
    unfold idPlace at hp
    split at hp
    · simp only [Option.some.injEq] at hp; subst hp; decide
    · split at hp
      · simp only [Option.some.injEq] at hp; subst hp; simp only; omega
      · cases hp
  cases ha : idPlace a with
  | none =>
    rw [ha] at h
    cases hb : idPlace b with
    | none => rfl
    | some q => rw [hb] at h; simp at h
  | some p =>
    rw [ha] at h
    cases hb : idPlace b with
    | none => rw [hb] at h; simp at h
    | some q =>
      rw [hb] at h
      simp only [Option.map_some, Prod.mk.injEq, Option.some.injEq] at h
      have h1 := h8 a p ha
      have h2 := h8 b q hb
      congr 1
      exact Prod.ext (by omega) (by omega)

theorem update_ok {t : Ser} {a : EventAttr} (h1 : ∀ p, t.samplePos = some p → p = (positions a.sampleType).1)
    (h2 : ∀ p, t.otherPos = some p → p = (positions a.sampleType).2) : ∃ t', updatePositions t a = (true, t') := by
  unfold updatePositions
  cases g1 : t.samplePos with
  | none =>
    cases g2 : t.otherPos with
    | none => simp only; exact ⟨_, rfl⟩
    | some q => simp only [h2 q g2, decide_true]; exact ⟨_, rfl⟩
  | some p =>
    have e1 := h1 p g1
    subst e1
    simp only [ne_eq, not_true, if_false]
    cases g2 : t.otherPos with
    | none => simp only; exact ⟨_, rfl⟩
    | some q => simp only [h2 q g2, decide_true]; exact ⟨_, rfl⟩

/-- C43: attributes are accepted exactly if they agree on where the id is. -/
theorem accepted_iff (fs : List FileAttr) (cross : Bool) :
    (∃ ser, registerAll {} cross fs = some ser) ↔
      ∀ f ∈ fs, ∀ g ∈ fs, idPlace f.attr.sampleType = idPlace g.attr.sampleType := by
  constructor
  · rintro ⟨ser, h⟩ f hf g hg
    have inv := register_inv fs (empty_inv cross) h
    rw [List.nil_append] at inv
    have hf' := inv.pos f hf
    have hg' := inv.pos g hg
    apply place_inj
    rw [hf'.1, hf'.2] at hg'
    simp only [Option.some.injEq] at hg'
    exact Prod.ext hg'.1 hg'.2
  · intro h
    have key : ∀ (gs fs : List FileAttr) (s : Ser), Inv fs cross s →
        (∀ f ∈ fs ++ gs, ∀ g ∈ fs ++ gs, idPlace f.attr.sampleType = idPlace g.attr.sampleType) →
        ∃ ser, registerAll s cross gs = some ser := by
      intro gs
      induction gs with
      | nil => intro fs s _ _; exact ⟨s, rfl⟩
      | cons g gs ih =>
        intro fs s inv hag
        have hpos : ∀ f ∈ fs, positions f.attr.sampleType = positions g.attr.sampleType := by
          intro f hf
          rw [place_positions, place_positions, hag f (by simp [hf]) g (by simp)]
        have : ∃ t', createReader s g cross = (true, t') := by
          unfold createReader
          apply update_ok
          · intro p hp
            cases fs with
            | nil => have := (inv.none rfl).1; simp only at hp; rw [this] at hp; cases hp
            | cons f fs =>
              have h1 := (inv.pos f (by simp)).1
              simp only at hp
              rw [h1] at hp
              rw [← hpos f (by simp)]
              simpa using hp.symm
          · intro p hp
            cases fs with
            | nil => have := (inv.none rfl).2; simp only at hp; rw [this] at hp; cases hp
            | cons f fs =>
              have h1 := (inv.pos f (by simp)).2
              simp only at hp
              rw [h1] at hp
              rw [← hpos f (by simp)]
              simpa using hp.symm
        obtain ⟨t', ht⟩ := this
        unfold registerAll
        rw [ht]
        exact ih (fs ++ [g]) t' (create_inv inv ht) (by simpa using hag)
    exact key fs [] {} (empty_inv cross) (by simpa using h)

example : (∃ ser, registerAll {} false exAttrs = some ser) ∧
    ¬ ∃ ser, registerAll {} false (⟨{ sampleType := 64 }, [9]⟩ :: exAttrs) = some ser := by
  rw [accepted_iff, accepted_iff]
  decide

/-- C43: if there is only one attribute, and it does not have events carry an id, it is used for all events. -/
theorem only_attribute (f : FileAttr) (cross : Bool) (ser : Ser) (e : RawEvent) (hids : f.ids = [])
    (hreg : registerAll {} cross [f] = some ser)
    (hid : f.attr.sampleType.testBit 16 = false ∧ f.attr.sampleType.testBit 6 = false) :
    readerForEvent ser e = some (some ⟨f.attr, cross⟩) := by
  have inv := register_inv [f] (empty_inv cross) hreg
  have hp := inv.pos f (by simp)
  have hpos : positions f.attr.sampleType = (none, none) := by
    unfold positions
    rw [if_neg (by simp [hid.1]), if_neg (by simp [hid.2])]
  rw [hpos] at hp
  have hr := readerForId_owner inv (id := 0) (f := f) (by simp [owner, regIds, hids])
  unfold readerForEvent
  by_cases ht : e.type = SAMPLE
  · simp only [ht, if_true, hp.1, hr]
  · simp only [ht, if_false]
    cases containsSampleInfo ser e.type
    · simp [hr]
    · simp [hp.2, hr]

example : ∃ ser, registerAll {} false [⟨{ sampleType := 7 }, []⟩] = some ser ∧
    readerForEvent ser { type := SAMPLE, payload := [] } = some (some ⟨{ sampleType := 7 }, false⟩) :=
  ⟨_, rfl, only_attribute ⟨{ sampleType := 7 }, []⟩ false _ _ rfl rfl (by decide)⟩

/-- C43 fails for data of the other byte order: the id in the event is not converted, so the attribute registered for
it is not found. -/
theorem own_attribute_foreign_violated :
    ∃ (f : FileAttr) (ser : Ser) (e : RawEvent) (s : Sample), registerAll {} true [f] = some ser ∧ f.ids = [s.id] ∧
      f.attr.sampleType = 65536 ∧ e.type = SAMPLE ∧ e.Ok ∧ eventDataSize e = some 8 ∧
      Matches true (layout f.attr.sample true s) e.payload ∧ readerForEvent ser e = some none :=
  ⟨⟨{ sampleType := 65536 }, [5]⟩, (registerAll {} true [⟨{ sampleType := 65536 }, [5]⟩]).getD {},
    { type := SAMPLE, payload := [0, 0, 0, 0, 0, 0, 0, 5] }, { id := 5 }, by decide +kernel, rfl, rfl, rfl, by decide,
    by decide +kernel, matches_ok (by decide +kernel), by decide +kernel⟩

/-- C43 fails where attributes disagree on `sample_id_all`: an EXIT event of the second attribute, which has the id,
is decoded with the first. -/
theorem own_attribute_mixed_violated :
    ∃ (f g : FileAttr) (ser : Ser) (e : RawEvent) (s : Sample), registerAll {} false [f, g] = some ser ∧ g.ids = [s.id] ∧
      e.type = EXIT ∧ e.Ok ∧ eventDataSize e = some 32 ∧ g.attr.flags.testBit 18 = true ∧
      Matches false (layout g.attr.sample false s) (e.payload.drop 24) ∧
      readerForEvent ser e = some (some ⟨f.attr, false⟩) ∧ f.attr ≠ g.attr :=
  ⟨⟨{ sampleType := 65536 }, [5]⟩, ⟨{ sampleType := 65536, flags := 2 ^ 18 }, [6]⟩,
    (registerAll {} false [⟨{ sampleType := 65536 }, [5]⟩, ⟨{ sampleType := 65536, flags := 2 ^ 18 }, [6]⟩]).getD {},
    { type := EXIT, payload := List.replicate 24 0 ++ toLE 8 6 }, { id := 6 }, by decide +kernel, rfl, rfl, by decide,
    by decide +kernel, by decide, matches_ok (by decide +kernel), by decide +kernel, by decide⟩

/-- C43: once an attribute has been accepted, the choice for any event reads nothing outside of the event and does
not abort. -/
theorem choice_safe (fs : List FileAttr) (cross : Bool) (ser : Ser) (e : RawEvent) (hfs : fs ≠ [])
    (hreg : registerAll {} cross fs = some ser) (hok : e.Ok) : ∃ x, readerForEvent ser e = some x := by
  have inv := register_inv fs (empty_inv cross) hreg
  rw [List.nil_append] at inv
  obtain ⟨f, hf⟩ : ∃ f, f ∈ fs := by
    cases fs with
    | nil => exact absurd rfl hfs
    | cons f _ => exact ⟨f, by simp⟩
  obtain ⟨q1, q2⟩ := inv.pos f hf
  obtain ⟨n, hn, hle, h8⟩ := eventDataSize_safe e hok
  have pos_ge : ∀ p, (positions f.attr.sampleType).2 = some p → 1 ≤ p := by
    intro p hp
    unfold positions at hp
    split at hp
    · simp at hp; omega
    · split at hp
      · simp at hp; omega
      · cases hp
  unfold readerForEvent
  by_cases ht : e.type = SAMPLE
  · simp only [ht, if_true, q1, hn]
    cases (positions f.attr.sampleType).1 with
    | none => exact ⟨_, rfl⟩
    | some p =>
      simp only
      by_cases c1 : n = 0
      · rw [if_pos c1]; exact ⟨_, rfl⟩
      by_cases c2 : e.size ≤ n
      · rw [if_neg c1, if_pos c2]; exact ⟨_, rfl⟩
      by_cases c3 : (e.size - n) / 8 ≤ p
      · rw [if_neg c1, if_neg c2, if_pos c3]; exact ⟨_, rfl⟩
      obtain ⟨v, hv⟩ := int_some (e := e) (off := 8 * (n / 8 + p)) (n := 8) (by omega) (by omega)
      rw [if_neg c1, if_neg c2, if_neg c3]
      exact ⟨readerForId ser v, by rw [hv.1]; rfl⟩
  · simp only [ht, if_false]
    cases containsSampleInfo ser e.type with
    | false => exact ⟨_, rfl⟩
    | true =>
      simp only [if_true, q2, hn]
      cases hp : (positions f.attr.sampleType).2 with
      | none => exact ⟨_, rfl⟩
      | some p =>
        simp only
        have := pos_ge p hp
        by_cases c1 : n = 0
        · rw [if_pos c1]; exact ⟨_, rfl⟩
        by_cases c2 : e.size ≤ n
        · rw [if_neg c1, if_pos c2]; exact ⟨_, rfl⟩
        by_cases c3 : (e.size - n) / 8 < p
        · rw [if_neg c1, if_neg c2, if_pos c3]; exact ⟨_, rfl⟩
        obtain ⟨v, hv⟩ := int_some (e := e) (off := 8 * (n / 8 + ((e.size - n) / 8 - p))) (n := 8) (by omega) (by omega)
        rw [if_neg c1, if_neg c2, if_neg c3]
        exact ⟨readerForId ser v, by rw [hv.1]; rfl⟩

/-- Before any attribute has been accepted the choice for a sample event aborts the program. -/
theorem choice_needs_attribute : readerForEvent {} { type := SAMPLE, payload := [] } = none := rfl

/-- C43: if all attributes agree on `sample_id_all`, sample events carry sample data, and other events do exactly if they
are of a kind that may and `sample_id_all` is set. -/
theorem carries_info (fs : List FileAttr) (cross all : Bool) (ser : Ser) (hfs : fs ≠ [])
    (hreg : registerAll {} cross fs = some ser) (hall : ∀ f ∈ fs, f.attr.flags.testBit 18 = all) (t : Nat) :
    containsSampleInfo ser t = (decide (t = SAMPLE) || (carriesSample t && all)) := by
  have inv := register_inv fs (empty_inv cross) hreg
  rw [List.nil_append] at inv
  obtain ⟨f, hf⟩ : ∃ f, f ∈ fs := by
    cases fs with
    | nil => exact absurd rfl hfs
    | cons f _ => exact ⟨f, by simp⟩
  have hne : ser.readers ≠ [] := by
    intro he
    obtain ⟨id, hid⟩ : ∃ id, (regIds f).contains id = true := by
      unfold regIds
      split
      · exact ⟨0, rfl⟩
      · rename_i h
        cases hi : f.ids with
        | nil => exact absurd hi h
        | cons x l => exact ⟨x, by simp⟩
    have h1 := inv.find id
    rw [he] at h1
    have : (owner fs id).isSome := by
      unfold owner
      rw [List.find?_isSome]
      exact ⟨f, by simpa using hf, hid⟩
    cases ho : owner fs id with
    | none => rw [ho] at this; cases this
    | some g => rw [ho] at h1; simp [find] at h1
  unfold containsSampleInfo
  by_cases h : t = SAMPLE
  · rw [if_pos h]; simp [h]
  · rw [if_neg h]
    have hc : isSupportedEventType t = carriesSample t := rfl
    simp only [h, decide_false, Bool.false_or, hc]
    cases carriesSample t with
    | false => simp
    | true =>
      simp only [not_true, if_false, Bool.true_and]
      cases hr : ser.readers with
      | nil => exact absurd hr hne
      | cons p l =>
        obtain ⟨g, hg, he⟩ := inv.mem p (by rw [hr]; simp)
        show p.2.attr.flags.testBit 18 = all
        rw [he]
        exact hall g hg

example : containsSampleInfo exSer EXIT = true ∧ containsSampleInfo exSer 68 = false := by
  have h : ∀ f ∈ exAttrs, f.attr.flags.testBit 18 = true := by decide
  rw [carries_info exAttrs false true exSer (by decide) (by decide +kernel) h,
    carries_info exAttrs false true exSer (by decide) (by decide +kernel) h]
  decide

/-- C97: the ids of an attribute are read as stored, in either byte order. -/
theorem read_ids (r : Reader) (ids : List Nat) (bs tail : List UInt8) (hr : r.Ok) (hd : r.buf.drop r.off = bs ++ tail)
    (hm : Matches r.cross (ids.map Piece.u64) bs) :
    readUniqueIDs ids.length r = some (some ids, { r with off := r.off + bs.length }) := by
  have e : ids.flatMap (fun v => [Piece.u64 v]) = ids.map Piece.u64 := by
    clear hm
    induction ids with
    | nil => rfl
    | cons a l ih => rw [List.flatMap_cons, List.map_cons, ih]; rfl
  have h : Reads r.cross (times u64 ids.length) (ids.flatMap (fun v => [Piece.u64 v])) (ids.map id) :=
    Reads.times ids fun a _ => reads_u64 r.cross a
  rw [List.map_id, e] at h
  exact h r bs tail hr rfl hd hm

example : readUniqueIDs 2 ⟨[9, 1, 0, 0, 0, 0, 0, 0, 0, 2, 0, 0, 0, 0, 0, 0, 0, 7], 18, 1, false⟩ =
    some (some [1, 2], ⟨[9, 1, 0, 0, 0, 0, 0, 0, 0, 2, 0, 0, 0, 0, 0, 0, 0, 7], 18, 17, false⟩) :=
  read_ids ⟨[9, 1, 0, 0, 0, 0, 0, 0, 0, 2, 0, 0, 0, 0, 0, 0, 0, 7], 18, 1, false⟩ [1, 2]
    [1, 0, 0, 0, 0, 0, 0, 0, 2, 0, 0, 0, 0, 0, 0, 0] [7] (by unfold Reader.Ok; decide) rfl (matches_ok (by decide +kernel))

end Verif.Attr
