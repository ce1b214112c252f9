import Verif.Whole.Settle
import Verif.Whole.Props4

/-!
# Mappings that are recorded in pieces

The kernel may tell of one mapping of a file in several records, each of which goes on where the last one ended. Profiles show them as one.
Histories are lists of records, newest first, as in `StackSpec`.
-/

namespace Verif.Whole
open Verif.Serial (Msg Body)

/-! ## Specification -/

/-- A mapping is the next piece of another one: it goes on where that ends, is not one of a device, and may be used in the same way — with the
same protection or one of them with and the other one without writing, and, unless it may be executed, shared in the same way. -/
structure Piece (a b : Serial.MMap) : Prop where
  next : Continues a b
  file : ¬ ascii "/dev/" <+: a.filename
  prot : a.prot = b.prot ∨ (a.prot = 1 ∧ b.prot = 3) ∨ (a.prot = 3 ∧ b.prot = 1)
  kind : a.flags % 16 = b.flags % 16 ∨ a.prot.testBit 2 = true

instance (a b : Serial.MMap) : Decidable (Piece a b) :=
  decidable_of_iff (Continues a b ∧ ¬ ascii "/dev/" <+: a.filename ∧ (a.prot = b.prot ∨ (a.prot = 1 ∧ b.prot = 3) ∨ (a.prot = 3 ∧ b.prot = 1)) ∧
    (a.flags % 16 = b.flags % 16 ∨ a.prot.testBit 2 = true)) ⟨fun ⟨h1, h2, h3, h4⟩ => ⟨h1, h2, h3, h4⟩, fun ⟨h1, h2, h3, h4⟩ => ⟨h1, h2, h3, h4⟩⟩

/-- The newest mapping of the process, made longer, if the mapping is the next piece of it. -/
def lengthen (b : Serial.MMap) : List Msg → Option (List Msg)
  | [] => none
  | m :: h =>
    match m.body with
    | .mmap a =>
      if a.pid = b.pid then
        if Piece a b then some ({ m with body := .mmap { a with len := (a.len + b.len) % 2 ^ 64 } } :: h) else none
      else (lengthen b h).map (m :: ·)
    | _ => (lengthen b h).map (m :: ·)

/-- A history with the pieces of each mapping in one. -/
def joined : List Msg → List Msg
  | [] => []
  | m :: h =>
    match m.body with
    | .mmap b => (lengthen b (joined h)).getD (m :: joined h)
    | _ => m :: joined h

/-- The mappings of a recording have names, unless they are not where programs used to be loaded, none of them that of a huge page. -/
structure Regular (l : List Msg) : Prop where
  named : ∀ m ∈ l, ∀ b, areaOf m = some b → Nameable b
  small : ∀ m ∈ l, ∀ b, m.body = .mmap b → ¬ HugePages.HugeName b.filename

/-- The pieces of each mapping follow each other (oldest first) with nothing but mappings between them. -/
def Together (t : List Msg) : Prop :=
  ∀ u ma v mb w a b, t = u ++ ma :: (v ++ mb :: w) → ma.body = .mmap a → mb.body = .mmap b → Continues a b →
    (∀ x ∈ v, ∀ c, x.body = .mmap c → c.pid ≠ a.pid) → ∀ x ∈ v, ∃ c, x.body = .mmap c

/-- Pieces end before the end of memory and of the file, and are not those of old kernels, which tell of themselves in another way. -/
def Ordinary (t : List Msg) : Prop :=
  ∀ m ∈ t, ∀ m' ∈ t, ∀ a b, m.body = .mmap a → m'.body = .mmap b → Continues a b →
    a.start + a.len < 2 ^ 64 ∧ a.pgoff + a.len < 2 ^ 63 ∧ b.start + b.len < 2 ^ 64 ∧ b.pgoff + b.len < 2 ^ 63

/-- A mapping has another one in it: that of the same process and file, at the same addresses with the same offsets. -/
structure Comprises (c b : Serial.MMap) : Prop where
  pid : c.pid = b.pid
  name : c.filename = b.filename
  start : firstOf c ≤ firstOf b
  limit : b.start + b.len ≤ c.start + c.len
  offset : c.pgoff + (b.start - c.start) = b.pgoff
  early : c.start ≤ b.start

/-! ## The mappings of events -/

/-- `combineMappings` for a history of events. -/
def lengthenE (m : HugePages.MMap) : List HugePages.Ev → Option (List HugePages.Ev)
  | [] => none
  | e :: h =>
    match e.mmap with
    | some p => if p.key = m.key then (if HugePages.shouldMerge p m then some (HugePages.merge e p m :: h) else none) else (lengthenE m h).map (e :: ·)
    | none => (lengthenE m h).map (e :: ·)

def joinedE : List HugePages.Ev → List HugePages.Ev
  | [] => []
  | e :: h =>
    match e.mmap with
    | some m => (lengthenE m (joinedE h)).getD (e :: joinedE h)
    | none => e :: joinedE h

/-- The place of the newest mapping of a process. -/
def newestAt (k : Nat) : List HugePages.Ev → Option Nat
  | [] => none
  | e :: h => match e.mmap with | some p => if p.key = k then some h.length else newestAt k h | none => newestAt k h

theorem newest_split {k : Nat} : ∀ {r : List HugePages.Ev} {i : Nat}, newestAt k r = some i →
    ∃ n e h p, r = n ++ e :: h ∧ i = h.length ∧ e.mmap = some p ∧ p.key = k ∧ ∀ x ∈ n, ∀ q, x.mmap = some q → q.key ≠ k
  | [], _, h => by cases h
  | e :: r, i, h => by
    have later : newestAt k r = some i → (∀ q, e.mmap = some q → q.key ≠ k) → ∃ n e' h p, e :: r = n ++ e' :: h ∧ i = h.length ∧ e'.mmap = some p ∧
        p.key = k ∧ ∀ x ∈ n, ∀ q, x.mmap = some q → q.key ≠ k := fun h hq => by
      obtain ⟨n, e', h', p, rfl, h2, h3, h4, h5⟩ := newest_split h
      refine ⟨e :: n, e', h', p, rfl, h2, h3, h4, fun x hx => ?_⟩
      rcases List.mem_cons.1 hx with rfl | hx
      · exact hq
      · exact h5 x hx
    cases hm : e.mmap with
    | none => exact later (by simpa only [newestAt, hm] using h) (fun q hq => by rw [hm] at hq; cases hq)
    | some p =>
      by_cases hk : p.key = k
      · simp only [newestAt, hm, if_pos hk, Option.some.injEq] at h
        exact ⟨[], e, r, p, rfl, h.symm, hm, hk, fun x hx => by cases hx⟩
      · exact later (by simpa only [newestAt, hm, if_neg hk] using h) (fun q hq => by rw [hm] at hq; cases hq; exact hk)

theorem lengthenE_skip {m : HugePages.MMap} {r : List HugePages.Ev} : ∀ {n : List HugePages.Ev},
    (∀ x ∈ n, ∀ q, x.mmap = some q → q.key ≠ m.key) → lengthenE m (n ++ r) = (lengthenE m r).map (n ++ ·)
  | [], _ => by simp
  | x :: n, h => by
    have ih := lengthenE_skip (r := r) (fun y hy => h y (List.mem_cons_of_mem _ hy))
    show lengthenE m (x :: (n ++ r)) = _
    cases hm : x.mmap with
    | none =>
      simp only [lengthenE, hm, ih, Option.map_map]
      rfl
    | some p =>
      have hk := h x List.mem_cons_self p hm
      simp only [lengthenE, hm, if_neg hk, ih, Option.map_map]
      rfl

theorem lengthenE_none {m : HugePages.MMap} : ∀ {r : List HugePages.Ev}, newestAt m.key r = none → lengthenE m r = none
  | [], _ => rfl
  | e :: r, h => by
    cases hm : e.mmap with
    | none =>
      simp only [newestAt, hm] at h
      simp only [lengthenE, hm, lengthenE_none h, Option.map_none]
    | some p =>
      by_cases hk : p.key = m.key
      · simp only [newestAt, hm, if_pos hk] at h
        cases h
      · simp only [newestAt, hm, if_neg hk] at h
        simp only [lengthenE, hm, if_neg hk, lengthenE_none h, Option.map_none]

theorem newest_same {k : Nat} {e e' : HugePages.Ev} {h : List HugePages.Ev} {p p' : HugePages.MMap} (he : e.mmap = some p) (he' : e'.mmap = some p')
    (hk : p'.key = p.key) : ∀ {n : List HugePages.Ev}, newestAt k (n ++ e' :: h) = newestAt k (n ++ e :: h)
  | [] => by simp only [List.nil_append, newestAt, he, he', hk]
  | x :: n => by
    have ih := newest_same (k := k) (h := h) he he' hk (n := n)
    show newestAt k (x :: (n ++ e' :: h)) = newestAt k (x :: (n ++ e :: h))
    cases hx : x.mmap with
    | none => simp only [newestAt, hx, ih]
    | some q =>
      simp only [newestAt, hx, ih, List.length_append, List.length_cons]

theorem merge_mmap (e : HugePages.Ev) (p m : HugePages.MMap) : ∃ p', (HugePages.merge e p m).mmap = some p' ∧ p'.key = p.key := by
  unfold HugePages.merge
  split
  · exact ⟨_, rfl, rfl⟩
  · exact ⟨_, rfl, rfl⟩

theorem combineStep_joined {st : List HugePages.Ev × (Nat → Option Nat)} {r : List HugePages.Ev} (h1 : st.1 = r.reverse)
    (h2 : ∀ k, st.2 k = newestAt k r) (e : HugePages.Ev) : ∃ r', (HugePages.combineStep st e).1 = r'.reverse ∧
      (∀ k, (HugePages.combineStep st e).2 k = newestAt k r') ∧
      r' = (match e.mmap with | some m => (lengthenE m r).getD (e :: r) | none => e :: r) := by
  refine ⟨_, ?_, ?_, rfl⟩
  all_goals
    unfold HugePages.combineStep
    cases hm : e.mmap with
    | none =>
      simp only [h1, h2, List.reverse_cons, newestAt, hm, implies_true]
    | some m =>
      simp only [h2]
      cases hn : newestAt m.key r with
      | none =>
        simp only [lengthenE_none hn, Option.getD_none, h1, List.reverse_cons, newestAt, hm, List.length_reverse]
        try (intro k; by_cases hk : k = m.key
             · subst hk; simp
             · rw [if_neg hk, if_neg (fun e => hk e.symm)])
      | some i =>
        obtain ⟨n, e0, h, p, rfl, rfl, he0, hk0, hn'⟩ := newest_split hn
        have hi : st.1[h.length]? = some e0 := by
          rw [h1]
          simp
        simp only [hi, he0]
        rw [lengthenE_skip hn']
        by_cases hs : HugePages.shouldMerge p m = true
        · simp only [lengthenE, he0, if_pos hk0, if_pos hs, Option.map_some, Option.getD_some]
          try (rw [h1]; simp [List.set_append])
          try (intro k
               obtain ⟨p', hp', hkp⟩ := merge_mmap e0 p m
               rw [h2]
               exact (newest_same he0 hp' hkp).symm)
        · simp only [lengthenE, he0, if_pos hk0, if_neg hs, Option.map_none, Option.getD_none, h1]
          try (simp only [List.reverse_cons])
          try (intro k
               simp only [newestAt, hm, List.length_reverse]
               by_cases hk : k = m.key
               · subst hk; simp
               · rw [if_neg hk, if_neg (fun e => hk e.symm)])

theorem combine_joined_aux : ∀ (r : List HugePages.Ev), ∃ st, r.foldr (fun e st => HugePages.combineStep st e) ([], fun _ => none) = st ∧
    st.1 = (joinedE r).reverse ∧ ∀ k, st.2 k = newestAt k (joinedE r)
  | [] => ⟨_, rfl, rfl, fun _ => rfl⟩
  | e :: r => by
    obtain ⟨st, h1, h2, h3⟩ := combine_joined_aux r
    obtain ⟨r', k1, k2, k3⟩ := combineStep_joined h2 h3 e
    have : joinedE (e :: r) = r' := by rw [k3]; rfl
    refine ⟨_, rfl, ?_, ?_⟩
    · rw [List.foldr_cons, h1, k1, this]
    · rw [List.foldr_cons, h1, this]
      exact k2

theorem combine_joined (es : List HugePages.Ev) : HugePages.combineMappings es = (joinedE es.reverse).reverse := by
  obtain ⟨st, h1, h2, -⟩ := combine_joined_aux es.reverse
  unfold HugePages.combineMappings
  rw [← h2, ← h1, List.foldr_reverse]

/-! ## The mappings of messages -/

theorem piece_iff {a b : Serial.MMap} {x y : Bool} (ha : ¬ HugePages.HugeName a.filename) (hb : ¬ HugePages.HugeName b.filename) :
    HugePages.shouldMerge (hugeMap x a) (hugeMap y b) = true ↔ Piece a b := by
  have ha' : HugePages.isHugePage (hugeMap x a) = false := small_huge ha
  have hb' : HugePages.isHugePage (hugeMap y b) = false := small_huge hb
  have anon : ∀ {m : HugePages.MMap}, HugePages.isHugePage m = false → HugePages.isAnon m = false := fun {m} h => by
    cases e : HugePages.isAnon m with
    | false => rfl
    | true => unfold HugePages.isHugePage at h; rw [e] at h; cases h
  unfold HugePages.shouldMerge HugePages.equivalentFile HugePages.fileContiguous HugePages.vmaContiguous HugePages.equivalentProt
    HugePages.combinableFile HugePages.hasExec
  rw [ha', hb', anon ha', anon hb']
  simp only [Bool.and_eq_true, Bool.or_eq_true, Bool.or_false, Bool.and_false, Bool.not_false, Bool.and_true, beq_iff_eq, Bool.not_eq_true', hugeMap,
    Option.getD_some, HugePages.add64]
  have pre : ∀ l : List UInt8, (ascii "/dev/").isPrefixOf l = false ↔ ¬ ascii "/dev/" <+: l := fun l => by
    rw [← List.isPrefixOf_iff_prefix]
    cases (ascii "/dev/").isPrefixOf l <;> decide
  constructor
  · rintro ⟨⟨⟨⟨⟨-, h1⟩, h2⟩, h3, h4⟩, h5⟩, h6, h7⟩
    exact ⟨⟨h6, h2, h7, h5⟩, (pre _).1 h1, by rcases h4 with (h | h) | h <;> simp [h], h3⟩
  · rintro ⟨⟨h6, h2, h7, h5⟩, h1, h4, h3⟩
    refine ⟨⟨⟨⟨⟨(pre _).2 (h2 ▸ h1), (pre _).2 h1⟩, h2⟩, h3, ?_⟩, h5⟩, h6, h7⟩
    rcases h4 with h | h | h <;> simp [h]

/-- An event stands for a message of the recording. -/
def Stands (events : List Msg) (e : HugePages.Ev) (m : Msg) : Prop :=
  ∃ m0, events[e.other]? = some m0 ∧ putHuge e m0 = m ∧ e.mmap = (match m.body with | .mmap b => some (hugeMap true b) | _ => none)

theorem lengthen_stands {events : List Msg} {b : Serial.MMap} (hb : ¬ HugePages.HugeName b.filename) : ∀ {H : List HugePages.Ev} {h : List Msg},
    All₂ (Stands events) H h → (∀ m ∈ h, ∀ a, m.body = .mmap a → ¬ HugePages.HugeName a.filename) →
    (lengthenE (hugeMap true b) H = none ∧ lengthen b h = none) ∨
    ∃ H' h', lengthenE (hugeMap true b) H = some H' ∧ lengthen b h = some h' ∧ All₂ (Stands events) H' h'
  | _, _, .nil, _ => .inl ⟨rfl, rfl⟩
  | _, _, .cons (a := e) (s := H) (b := m) (t := h) hs hl, hn => by
    have ih := lengthen_stands hb hl (fun x hx => hn x (List.mem_cons_of_mem _ hx))
    have later : lengthenE (hugeMap true b) (e :: H) = (lengthenE (hugeMap true b) H).map (e :: ·) → lengthen b (m :: h) = (lengthen b h).map (m :: ·) →
        (lengthenE (hugeMap true b) (e :: H) = none ∧ lengthen b (m :: h) = none) ∨
        ∃ H' h', lengthenE (hugeMap true b) (e :: H) = some H' ∧ lengthen b (m :: h) = some h' ∧ All₂ (Stands events) H' h' := fun h1 h2 => by
      rw [h1, h2]
      rcases ih with ⟨g1, g2⟩ | ⟨H', h', g1, g2, g3⟩
      · rw [g1, g2]; exact .inl ⟨rfl, rfl⟩
      · rw [g1, g2]; exact .inr ⟨_, _, rfl, rfl, .cons hs g3⟩
    obtain ⟨m0, h0, hp, hm⟩ := hs
    cases hbody : m.body with
    | mmap a =>
      rw [hbody] at hm
      simp only at hm
      have hkey : (hugeMap true a).key = (hugeMap true b).key ↔ a.pid = b.pid := Iff.rfl
      by_cases hk : a.pid = b.pid
      · have iff := piece_iff (x := true) (y := true) (hn m List.mem_cons_self a hbody) hb
        by_cases hc : Piece a b
        · right
          refine ⟨HugePages.merge e (hugeMap true a) (hugeMap true b) :: H, { m with body := .mmap { a with len := (a.len + b.len) % 2 ^ 64 } } :: h,
            by simp only [lengthenE, hm, if_pos (hkey.2 hk), if_pos (iff.2 hc)], by simp only [lengthen, hbody, if_pos hk, if_pos hc], .cons ?_ hl⟩
          have hmerge : HugePages.merge e (hugeMap true a) (hugeMap true b) =
              { e with mmap := some { hugeMap true a with len := HugePages.add64 a.len b.len } } := by
            unfold HugePages.merge
            rw [small_huge (h := hugeMap true a) (hn m List.mem_cons_self a hbody)]
            rfl
          rw [hmerge]
          refine ⟨m0, h0, ?_, rfl⟩
          unfold putHuge at hp ⊢
          rw [hm] at hp
          simp only at hp ⊢
          cases hb0 : m0.body with
          | mmap b0 =>
            rw [hb0] at hp
            simp only at hp ⊢
            subst hp
            simp only [Body.mmap.injEq] at hbody
            have : putMap { hugeMap true a with len := HugePages.add64 a.len b.len } b0 =
                { putMap (hugeMap true a) b0 with len := (a.len + b.len) % 2 ^ 64 } := rfl
            rw [this, hbody]
          | _ => rw [hb0] at hp; simp only at hp; subst hp; rw [hb0] at hbody; cases hbody
        · left
          exact ⟨by simp only [lengthenE, hm, if_pos (hkey.2 hk), if_neg (fun hh => hc (iff.1 hh))], by simp only [lengthen, hbody, if_pos hk, if_neg hc]⟩
      · exact later (by simp only [lengthenE, hm, if_neg (fun hh => hk (hkey.1 hh))]) (by simp only [lengthen, hbody, if_neg hk])
    | _ =>
      rw [hbody] at hm
      exact later (by simp only [lengthenE, hm]) (by simp only [lengthen, hbody])

theorem lengthen_from {b : Serial.MMap} : ∀ {h h' : List Msg}, lengthen b h = some h' → ∃ n m a r, h = n ++ m :: r ∧ m.body = .mmap a ∧ a.pid = b.pid ∧
    Piece a b ∧ h' = n ++ { m with body := .mmap { a with len := (a.len + b.len) % 2 ^ 64 } } :: r ∧ ∀ x ∈ n, ∀ c, x.body = .mmap c → c.pid ≠ b.pid
  | [], _, h => by cases h
  | m :: h, h', hh => by
    have later : (lengthen b h).map (m :: ·) = some h' → (∀ c, m.body = .mmap c → c.pid ≠ b.pid) → ∃ n m' a r, m :: h = n ++ m' :: r ∧ m'.body = .mmap a ∧
        a.pid = b.pid ∧ Piece a b ∧ h' = n ++ { m' with body := .mmap { a with len := (a.len + b.len) % 2 ^ 64 } } :: r ∧
        ∀ x ∈ n, ∀ c, x.body = .mmap c → c.pid ≠ b.pid := fun hh hc => by
      obtain ⟨h1, h2, rfl⟩ := Option.map_eq_some_iff.1 hh
      obtain ⟨n, m', a, r, rfl, g2, g3, g4, rfl, g5⟩ := lengthen_from h2
      refine ⟨m :: n, m', a, r, rfl, g2, g3, g4, rfl, fun x hx => ?_⟩
      rcases List.mem_cons.1 hx with rfl | hx
      · exact hc
      · exact g5 x hx
    cases hbody : m.body with
    | mmap a =>
      by_cases hk : a.pid = b.pid
      · by_cases hc : Piece a b
        · simp only [lengthen, hbody, if_pos hk, if_pos hc, Option.some.injEq] at hh
          exact ⟨[], m, a, h, rfl, hbody, hk, hc, hh.symm, fun x hx => by cases hx⟩
        · simp only [lengthen, hbody, if_pos hk, if_neg hc] at hh
          cases hh
      · exact later (by simpa only [lengthen, hbody, if_neg hk] using hh) (fun c hc => by rw [hbody] at hc; cases hc; exact hk)
    | _ => exact later (by simpa only [lengthen, hbody] using hh) (fun c hc => by rw [hbody] at hc; cases hc)

/-- Every record of a history with joined pieces is one of the history, but for the length of mappings. -/
theorem joined_from : ∀ {h : List Msg} {m : Msg}, m ∈ joined h → ∃ m0 ∈ h, m0 = m ∨ ∃ a0 n, m0.body = .mmap a0 ∧
    m = { m0 with body := .mmap { a0 with len := n } }
  | [], _, h => by cases h
  | x :: h, m, hm => by
    have old : m ∈ joined h → ∃ m0 ∈ x :: h, m0 = m ∨ ∃ a0 n, m0.body = .mmap a0 ∧ m = { m0 with body := .mmap { a0 with len := n } } := fun hm => by
      obtain ⟨m0, h1, h2⟩ := joined_from hm
      exact ⟨m0, List.mem_cons_of_mem _ h1, h2⟩
    have plain : m ∈ x :: joined h → ∃ m0 ∈ x :: h, m0 = m ∨ ∃ a0 n, m0.body = .mmap a0 ∧ m = { m0 with body := .mmap { a0 with len := n } } := fun hm => by
      rcases List.mem_cons.1 hm with rfl | hm
      · exact ⟨m, List.mem_cons_self, .inl rfl⟩
      · exact old hm
    cases hb : x.body with
    | mmap b =>
      simp only [joined, hb] at hm
      cases hl : lengthen b (joined h) with
      | none => rw [hl] at hm; exact plain hm
      | some h' =>
        rw [hl, Option.getD_some] at hm
        obtain ⟨n, mm, a, r, g1, g2, g3, g4, rfl, g5⟩ := lengthen_from hl
        rcases List.mem_append.1 hm with hm | hm
        · exact old (by rw [g1]; exact List.mem_append_left _ hm)
        · rcases List.mem_cons.1 hm with rfl | hm
          · obtain ⟨m0, k1, k2⟩ := joined_from (h := h) (m := mm) (by rw [g1]; simp)
            refine ⟨m0, List.mem_cons_of_mem _ k1, .inr ?_⟩
            rcases k2 with rfl | ⟨a0, l0, k2, rfl⟩
            · exact ⟨a, _, g2, rfl⟩
            · cases g2
              exact ⟨a0, _, k2, rfl⟩
          · exact old (by rw [g1]; simp [hm])
    | _ => simp only [joined, hb] at hm; exact plain hm

theorem joined_small {h : List Msg} (hn : ∀ m ∈ h, ∀ a, m.body = .mmap a → ¬ HugePages.HugeName a.filename) :
    ∀ m ∈ joined h, ∀ a, m.body = .mmap a → ¬ HugePages.HugeName a.filename := by
  intro m hm a ha
  obtain ⟨m0, h1, rfl | ⟨a0, n, h2, rfl⟩⟩ := joined_from hm
  · exact hn _ h1 a ha
  · cases ha
    exact hn _ h1 a0 h2

theorem joined_named {h : List Msg} (hn : ∀ m ∈ h, ∀ b, areaOf m = some b → Nameable b) :
    ∀ m ∈ joined h, ∀ b, areaOf m = some b → Nameable b := by
  intro m hm b hb
  obtain ⟨m0, h1, rfl | ⟨a0, n, h2, rfl⟩⟩ := joined_from hm
  · exact hn _ h1 b hb
  · cases hb
    exact hn _ h1 a0 (by unfold areaOf; rw [h2])

theorem joined_stands {events : List Msg} : ∀ {H : List HugePages.Ev} {h : List Msg}, All₂ (Stands events) H h →
    (∀ m ∈ h, ∀ a, m.body = .mmap a → ¬ HugePages.HugeName a.filename) → All₂ (Stands events) (joinedE H) (joined h)
  | _, _, .nil, _ => .nil
  | _, _, .cons (a := e) (s := H) (b := m) (t := h) hs hl, hn => by
    have hn' : ∀ x ∈ h, ∀ a, x.body = .mmap a → ¬ HugePages.HugeName a.filename := fun x hx => hn x (List.mem_cons_of_mem _ hx)
    have ih := joined_stands hl hn'
    obtain ⟨m0, h0, hp, hm⟩ := id hs
    cases hb : m.body with
    | mmap b =>
      rw [hb] at hm
      simp only at hm
      simp only [joinedE, joined, hm, hb]
      rcases lengthen_stands (hn m List.mem_cons_self b hb) ih (joined_small hn') with ⟨g1, g2⟩ | ⟨H', h', g1, g2, g3⟩
      · rw [g1, g2]; exact .cons hs ih
      · rw [g1, g2]; exact g3
    | _ =>
      rw [hb] at hm
      simp only [joinedE, joined, hm, hb]
      exact .cons hs ih

theorem stands_from {events : List Msg} : ∀ {H : List HugePages.Ev} {h : List Msg}, All₂ (Stands events) H h → fromHuge events H = h
  | _, _, .nil => rfl
  | _, _, .cons ⟨m0, h0, hp, _⟩ hl => by
    have ih := stands_from hl
    unfold fromHuge at ih ⊢
    rw [List.filterMap_cons, h0, Option.map_some]
    simp only [hp, ih]

theorem views_stand {events : List Msg} : ∀ {pre l : List Msg}, events = pre ++ l → All₂ (Stands events) (views combView pre.length l) l
  | _, [], _ => .nil
  | pre, m :: l, h => by
    refine .cons ⟨m, ?_, putHuge_combView _ _, ?_⟩ ?_
    · rw [combView_view.place, h]
      simp
    · unfold combView hugeView
      cases hb : m.body <;> rfl
    · have := views_stand (events := events) (pre := pre ++ [m]) (l := l) (by rw [h]; simp)
      rw [List.length_append] at this
      exact this

theorem all2_reverse {α β : Type} {R : α → β → Prop} : ∀ {s : List α} {t : List β}, All₂ R s t → All₂ R s.reverse t.reverse
  | _, _, .nil => .nil
  | _, _, .cons h hl => by
    rw [List.reverse_cons, List.reverse_cons]
    exact (all2_reverse hl).append (.cons h .nil)

/-- Without huge pages, mappings are combined piece by piece. -/
theorem combine_pieces {l : List Msg} (hl : ∀ m ∈ l, ∀ a, m.body = .mmap a → ¬ HugePages.HugeName a.filename) :
    combine l = (joined l.reverse).reverse := by
  have e : combine l = fromHuge l (HugePages.combineMappings (views combView 0 l)) := rfl
  rw [e, combine_joined]
  refine stands_from (all2_reverse (joined_stands (all2_reverse (views_stand (pre := []) rfl)) fun m hm => hl m (List.mem_reverse.1 hm)))

theorem clean_body (m : Msg) : (∃ a, m.body = .mmap a ∧ ∃ a', (clean m).body = .mmap a' ∧ a'.pid = a.pid ∧ a'.filename = a.filename ∧ a'.start = a.start ∧
    a'.len = a.len ∧ a'.pgoff = a.pgoff ∧ a'.prot = a.prot ∧ a'.flags = a.flags) ∨ ((∀ a, m.body ≠ .mmap a) ∧ clean m = m) := by
  obtain ⟨type, misc, size, body, time⟩ := m
  cases body with
  | mmap a => exact .inl ⟨a, rfl, _, rfl, rfl, rfl, rfl, rfl, rfl, rfl, rfl⟩
  | _ => exact .inr ⟨fun a h => (by cases h), rfl⟩

theorem clean_longer {m : Msg} {a a' : Serial.MMap} {n : Nat} (h : m.body = .mmap a) (h' : (clean m).body = .mmap a') :
    clean { m with body := .mmap { a with len := n } } = { clean m with body := .mmap { a' with len := n } } := by
  obtain ⟨type, misc, size, body, time⟩ := m
  cases h
  cases h'
  rfl

theorem piece_congr {a b a' b' : Serial.MMap} (h1 : a'.pid = a.pid) (h2 : a'.filename = a.filename) (h3 : a'.start = a.start) (h4 : a'.len = a.len)
    (h5 : a'.pgoff = a.pgoff) (h6 : a'.prot = a.prot) (h7 : a'.flags = a.flags) (k1 : b'.pid = b.pid) (k2 : b'.filename = b.filename)
    (k3 : b'.start = b.start) (k5 : b'.pgoff = b.pgoff) (k6 : b'.prot = b.prot) (k7 : b'.flags = b.flags) : Piece a' b' ↔ Piece a b := by
  have : Continues a' b' ↔ Continues a b := by unfold Continues; rw [h1, h2, h3, h4, h5, k1, k2, k3, k5]
  constructor
  · rintro ⟨g1, g2, g3, g4⟩
    exact ⟨this.1 g1, h2 ▸ g2, by rwa [h6, k6] at g3, by rwa [h6, h7, k7] at g4⟩
  · rintro ⟨g1, g2, g3, g4⟩
    exact ⟨this.2 g1, h2 ▸ g2, by rwa [h6, k6], by rwa [h6, h7, k7]⟩

theorem lengthen_clean {b b' : Serial.MMap} (k1 : b'.pid = b.pid) (k2 : b'.filename = b.filename) (k3 : b'.start = b.start) (k4 : b'.len = b.len)
    (k5 : b'.pgoff = b.pgoff) (k6 : b'.prot = b.prot) (k7 : b'.flags = b.flags) : ∀ h : List Msg, lengthen b' (h.map clean) = (lengthen b h).map (·.map clean)
  | [] => rfl
  | m :: h => by
    have ih := lengthen_clean k1 k2 k3 k4 k5 k6 k7 h
    rw [List.map_cons]
    rcases clean_body m with ⟨a, ha, a', ha', h1, h2, h3, h4, h5, h6, h7⟩ | ⟨hno, hc⟩
    · simp only [lengthen, ha, ha']
      by_cases hk : a.pid = b.pid
      · rw [if_pos hk, if_pos (show a'.pid = b'.pid by rw [h1, k1, hk])]
        have iff := piece_congr h1 h2 h3 h4 h5 h6 h7 k1 k2 k3 k5 k6 k7
        by_cases hp : Piece a b
        · rw [if_pos hp, if_pos (iff.2 hp), Option.map_some, List.map_cons, clean_longer ha ha', h4, k4]
        · rw [if_neg hp, if_neg (fun x => hp (iff.1 x))]
          rfl
      · rw [if_neg hk, if_neg (show ¬ a'.pid = b'.pid by rw [h1, k1]; exact hk), ih, Option.map_map, Option.map_map]
        rfl
    · have hl : ∀ {b : Serial.MMap} {h : List Msg}, lengthen b (m :: h) = (lengthen b h).map (m :: ·) := by
        intro b h
        cases hb : m.body with
        | mmap a => exact absurd hb (hno a)
        | _ => simp only [lengthen, hb]
      rw [hc, hl, hl, ih, Option.map_map, Option.map_map]
      congr 1
      funext x
      simp [hc]

theorem joined_clean : ∀ h : List Msg, joined (h.map clean) = (joined h).map clean
  | [] => rfl
  | m :: h => by
    have ih := joined_clean h
    rw [List.map_cons]
    rcases clean_body m with ⟨a, ha, a', ha', h1, h2, h3, h4, h5, h6, h7⟩ | ⟨hno, hc⟩
    · simp only [joined, ha, ha', ih, lengthen_clean h1 h2 h3 h4 h5 h6 h7]
      cases lengthen a (joined h) <;> rfl
    · have hl : ∀ {h : List Msg}, joined (m :: h) = m :: joined h := by
        intro h
        cases hb : m.body with
        | mmap a => exact absurd hb (hno a)
        | _ => simp only [joined, hb]
      rw [hc, hl, hl, ih, List.map_cons, hc]

theorem deduce_regular {M : Machine} {l : List Msg} (hl : ∀ m ∈ l, ∀ a, m.body = .mmap a → ¬ HugePages.HugeName a.filename) :
    deduce M l = some (l.map clean) := by
  unfold deduce
  simp only
  rw [deduce_small (fun e he m hm => by
    obtain ⟨i, x, hx, -, -, rfl⟩ := views_mem he
    unfold hugeView at hm
    simp only at hm
    split at hm
    · rename_i b hb
      cases hm
      exact small_huge (hl x hx b hb)
    · cases hm)]
  simp only [Option.map_some]
  unfold fromHuge
  rw [views_back hugeView (·.other) putHuge (fun _ _ => rfl) l]
  rw [show (fun i m => putHuge (hugeView i m) m) = fun _ m => clean m from funext fun i => funext fun m => putHuge_hugeView i m]
  rw [views_map clean 0 l]

/-- The events reach the converter with the pieces of mappings joined, in order of time. -/
theorem prep_joined {M : Machine} {options : Nat} {i : Meta.Info} {l : List Msg} (hl : ∀ m ∈ l, Shaped m)
    (hs : ∀ m ∈ l, ∀ a, m.body = .mmap a → ¬ HugePages.HugeName a.filename)
    {r : List Msg × Parser.Stats} (h : parseEvents M (rawOpts M options) true true true i l = some r) :
    r.1.map normView = (joined (sortEvents i l).reverse).reverse.map normView := by
  rw [parseEvents_eq] at h
  simp only [if_true] at h
  have hp := sort_perm i l
  have hs' : ∀ m ∈ sortEvents i l, ∀ a, m.body = .mmap a → ¬ HugePages.HugeName a.filename := fun m hm => hs m (hp.mem_iff.1 hm)
  rw [deduce_regular hs', Option.bind_some, combine_pieces (fun m hm a ha => by
    obtain ⟨m0, h0, rfl⟩ := List.mem_map.1 hm
    rcases clean_body m0 with ⟨a0, g1, a1, g2, -, g3, -⟩ | ⟨g1, g2⟩
    · rw [g2] at ha
      cases ha
      rw [g3]
      exact hs' m0 h0 a0 g1
    · rw [g2] at ha
      exact absurd ha (g1 a)), ← List.map_reverse, joined_clean, ← List.map_reverse] at h
  generalize hj : (joined (sortEvents i l).reverse).reverse = j at h
  have hj' : ∀ m ∈ j, m.type = 1 ∨ m.type = 10 → ∃ b, m.body = .mmap b := by
    intro m hm ht
    rw [← hj, List.mem_reverse] at hm
    obtain ⟨m0, h0, rfl | ⟨a0, n, h2, rfl⟩⟩ := joined_from hm
    · exact (hl _ (hp.mem_iff.1 (List.mem_reverse.1 h0))).mmap ht
    · exact ⟨_, rfl⟩
  obtain ⟨R, h4, h⟩ := Option.bind_eq_some_iff.1 h
  have h5 : R.events = views parserView 0 (j.map clean) := by
    refine Parser.parse_keep rfl rfl (fun e he => ?_) h4
    obtain ⟨k, m, hm, -, -, rfl⟩ := views_mem he
    intro ht
    obtain ⟨x, hx, rfl⟩ := List.mem_map.1 hm
    rcases clean_body x with ⟨a0, g1, a1, g2, -⟩ | ⟨g1, g2⟩
    · simp [parserView, g2]
    · rw [g2] at ht
      obtain ⟨b, hb⟩ := hj' x hx ht
      exact absurd hb (g1 b)
  have h6 : r.1 = (j.map clean).map touch := by
    rw [← Option.some.inj h]
    unfold parsed
    simp only
    rw [h5, views_back parserView (·.rest) putParsed (fun _ _ => rfl)]
    rw [show (fun i m => putParsed (parserView i m) m) = fun _ m => touch m from funext fun i => funext fun m => putParsed_view i m]
    exact views_map touch 0 _
  rw [h6, List.map_map, List.map_map]
  refine List.map_congr_left fun m _ => ?_
  simp only [Function.comp, touch_norm, clean_norm]

/-! ## What profiles show -/

/-- C128. What the profiles made from the bytes of a recording show of a sample, if mappings are recorded in pieces: that which C109 says, of the
records with the pieces of each mapping in one (`joined`). -/
theorem pieces_shown_partial {M : Machine} {ids : List (Bytes × Bytes)} {labels options : Nat} {threadTypes : List (Nat × Bytes)} {b : Bytes}
    {ps : List Converter.ProcessProfile} {st : Data.St} (hb : File.readBytes { env := M.env } b = some (some st))
    (hc : Calm options st.events) (hr : Regular st.events) (hspe : speTrace st.events = false)
    (h : rawToProfiles M ids labels options threadTypes b = some ps) {t pre post : List Msg} {m : Msg} {s : Serial.SampleEvent} {k : Nat}
    (ht : Timeline st.base.info.attrs st.events t) (hm : (joined t.reverse).reverse = pre ++ m :: post) (hbody : m.body = .sample s)
    (hk : owner st.base.info.attrs s.id = some k) :
    ∃ p ∈ ps, p.pid = (if options.testBit 0 then s.pid.getD 0 else 0) ∧ ∃ smp ∈ p.data.sample, 1 ≤ smp.value.getD (2 * k) 0 ∧
      All₂ (ShowsSpot ShowsArea (Held st.base.info.attrs (options.testBit 3) (pre ++ [m]) (s.pid.getD 0)) p.data)
        (stackOf (options.testBit 3) pre.reverse m.misc s) smp.locationId := by
  have hts : t = sortEvents (withBuildIds M.env.md5 ids st.base.info st.events) st.events := timeline_sort (by rw [attrs_kept]; exact ht)
  have hp := sort_perm (withBuildIds M.env.md5 ids st.base.info st.events) st.events
  refine sample_shown_from hb hc hspe h (fun r hr' => by rw [prep_joined (read_shaped hb) hr.small hr', ← hts]) (fun x hx b hb => ?_) hm hbody hk
    fun _ _ _ _ _ _ hsh => by
      obtain ⟨hn, o, x, y, h1, h2, h3, h4, h5, h6⟩ := hsh
      exact shown_area h1 h2 h3 h4 hn h5 h6
  refine joined_named (h := t.reverse) (fun m hm => hr.named m ?_) x (List.mem_reverse.1 hx) b hb
  rw [hts, List.mem_reverse] at hm
  exact hp.mem_iff.1 hm

/-! ## Which mapping an address is in -/

/-- The newest mapping of a process. -/
def newest (p : Nat) : List Msg → Option Serial.MMap
  | [] => none
  | m :: h => match m.body with | .mmap a => if a.pid = p then some a else newest p h | _ => newest p h

/-- The records after the newest mapping of a process. -/
def top (p : Nat) : List Msg → List Msg
  | [] => []
  | m :: h => match m.body with | .mmap a => if a.pid = p then [] else m :: top p h | _ => m :: top p h

/-- Two mappings of one file end at the same place. -/
structure Ends (A a : Serial.MMap) : Prop where
  pid : A.pid = a.pid
  name : A.filename = a.filename
  memory : A.start + A.len = a.start + a.len
  file : A.pgoff + A.len = a.pgoff + a.len

theorem newest_mmap {p : Nat} {m : Msg} {a : Serial.MMap} {h : List Msg} (hm : m.body = .mmap a) :
    newest p (m :: h) = if a.pid = p then some a else newest p h := by simp only [newest, hm]

theorem newest_other {p : Nat} {m : Msg} {h : List Msg} (hm : ∀ a, m.body ≠ .mmap a) : newest p (m :: h) = newest p h := by
  cases hb : m.body with
  | mmap a => exact absurd hb (hm a)
  | _ => simp only [newest, hb]

theorem joined_other {m : Msg} {h : List Msg} (hm : ∀ a, m.body ≠ .mmap a) : joined (m :: h) = m :: joined h := by
  cases hb : m.body with
  | mmap a => exact absurd hb (hm a)
  | _ => simp only [joined, hb]

theorem joined_mmap {m : Msg} {b : Serial.MMap} {h : List Msg} (hm : m.body = .mmap b) :
    (lengthen b (joined h) = none ∧ joined (m :: h) = m :: joined h) ∨
    ∃ n x a r, joined h = n ++ x :: r ∧ x.body = .mmap a ∧ a.pid = b.pid ∧ Piece a b ∧
      joined (m :: h) = n ++ { x with body := .mmap { a with len := (a.len + b.len) % 2 ^ 64 } } :: r ∧ ∀ y ∈ n, ∀ c, y.body = .mmap c → c.pid ≠ b.pid := by
  cases hl : lengthen b (joined h) with
  | none => exact .inl ⟨rfl, by simp only [joined, hm, hl, Option.getD_none]⟩
  | some h' =>
    obtain ⟨n, x, a, r, g1, g2, g3, g4, g5, g6⟩ := lengthen_from hl
    exact .inr ⟨n, x, a, r, g1, g2, g3, g4, by simp only [joined, hm, hl, Option.getD_some, g5], g6⟩

theorem newest_skip {p : Nat} {h : List Msg} : ∀ {n : List Msg}, (∀ y ∈ n, ∀ c, y.body = .mmap c → c.pid ≠ p) → newest p (n ++ h) = newest p h
  | [], _ => rfl
  | m :: n, hn => by
    have ih := newest_skip (h := h) (fun y hy => hn y (List.mem_cons_of_mem _ hy))
    show newest p (m :: (n ++ h)) = _
    cases hb : m.body with
    | mmap a => rw [newest_mmap hb, if_neg (hn m List.mem_cons_self a hb), ih]
    | _ => rw [newest_other (by intro a ha; rw [hb] at ha; cases ha), ih]

theorem newest_replace {p : Nat} {x x' : Msg} {a a' : Serial.MMap} {r : List Msg} (hx : x.body = .mmap a) (hx' : x'.body = .mmap a') (hp : a'.pid = a.pid)
    (hne : a.pid ≠ p) : ∀ n : List Msg, newest p (n ++ x' :: r) = newest p (n ++ x :: r)
  | [] => by rw [List.nil_append, List.nil_append, newest_mmap hx, newest_mmap hx', if_neg hne, if_neg (hp ▸ hne)]
  | m :: n => by
    have ih := newest_replace (r := r) hx hx' hp hne n
    show newest p (m :: (n ++ x' :: r)) = newest p (m :: (n ++ x :: r))
    cases hb : m.body with
    | mmap c => rw [newest_mmap hb, newest_mmap hb, ih]
    | _ => rw [newest_other (by intro a ha; rw [hb] at ha; cases ha), newest_other (by intro a ha; rw [hb] at ha; cases ha), ih]

theorem newest_mem {p : Nat} {a : Serial.MMap} : ∀ {h : List Msg}, newest p h = some a → ∃ ma u, h = top p h ++ ma :: u ∧ ma.body = .mmap a ∧ a.pid = p ∧
    ∀ y ∈ top p h, ∀ c, y.body = .mmap c → c.pid ≠ p
  | [], h => by cases h
  | m :: h, hh => by
    have later : newest p h = some a → top p (m :: h) = m :: top p h → (∀ c, m.body = .mmap c → c.pid ≠ p) →
        ∃ ma u, m :: h = top p (m :: h) ++ ma :: u ∧ ma.body = .mmap a ∧ a.pid = p ∧ ∀ y ∈ top p (m :: h), ∀ c, y.body = .mmap c → c.pid ≠ p :=
      fun h1 h2 h3 => by
        obtain ⟨ma, u, g1, g2, g3, g4⟩ := newest_mem h1
        refine ⟨ma, u, by rw [h2, List.cons_append, ← g1], g2, g3, fun y hy => ?_⟩
        rw [h2] at hy
        rcases List.mem_cons.1 hy with rfl | hy
        · exact h3
        · exact g4 y hy
    cases hb : m.body with
    | mmap c =>
      rw [newest_mmap hb] at hh
      by_cases hc : c.pid = p
      · rw [if_pos hc] at hh
        cases hh
        have ht : top p (m :: h) = [] := by simp only [top, hb, if_pos hc]
        exact ⟨m, h, by rw [ht]; rfl, hb, hc, fun y hy => by rw [ht] at hy; cases hy⟩
      · rw [if_neg hc] at hh
        exact later hh (by simp only [top, hb, if_neg hc]) (fun c' h' => by rw [hb] at h'; cases h'; exact hc)
    | _ =>
      rw [newest_other (by intro a ha; rw [hb] at ha; cases ha)] at hh
      exact later hh (by simp only [top, hb]) (fun c' h' => by rw [hb] at h'; cases h')

theorem ordinary_tail {m : Msg} {h : List Msg} (ho : Ordinary (m :: h)) : Ordinary h :=
  fun x hx y hy => ho x (List.mem_cons_of_mem _ hx) y (List.mem_cons_of_mem _ hy)

/-- The newest mapping of a process after joining ends where the newest record of a mapping of it does. -/
theorem newest_ends (p : Nat) : ∀ {h : List Msg}, Ordinary h → (newest p (joined h) = none ∧ newest p h = none) ∨
    ∃ A a, newest p (joined h) = some A ∧ newest p h = some a ∧ Ends A a
  | [], _ => .inl ⟨rfl, rfl⟩
  | m :: h, ho => by
    have ih := newest_ends p (ordinary_tail ho)
    by_cases hb : ∃ b, m.body = .mmap b
    · obtain ⟨b, hb⟩ := hb
      rw [newest_mmap hb]
      rcases joined_mmap (h := h) hb with ⟨-, hj⟩ | ⟨n, x, a, r, g1, g2, g3, g4, g5, g6⟩
      · rw [hj, newest_mmap hb]
        by_cases hp : b.pid = p
        · rw [if_pos hp, if_pos hp]
          exact .inr ⟨b, b, rfl, rfl, rfl, rfl, rfl, rfl⟩
        · rw [if_neg hp, if_neg hp]
          exact ih
      · rw [g5]
        by_cases hp : b.pid = p
        · rw [if_pos hp, newest_skip (fun y hy c hc => hp ▸ g6 y hy c hc), newest_mmap rfl, if_pos (show a.pid = p by rw [g3, hp])]
          refine .inr ⟨_, b, rfl, rfl, ?_⟩
          rw [g1, newest_skip (fun y hy c hc => hp ▸ g6 y hy c hc), newest_mmap g2, if_pos (show a.pid = p by rw [g3, hp])] at ih
          rcases ih with ⟨h1, -⟩ | ⟨A, a0, h1, h2, h3⟩
          · cases h1
          · cases h1
            obtain ⟨ma, u, k1, k2, k3, -⟩ := newest_mem h2
            obtain ⟨c1, c2, c3, c4⟩ := g4.next
            have hcont : Continues a0 b := ⟨by rw [← h3.pid, c1], by rw [← h3.name, c2], by rw [← h3.memory, c3], by rw [← h3.file, c4]⟩
            obtain ⟨o1, o2, o3, o4⟩ := ho ma (List.mem_cons_of_mem _ (by rw [k1]; simp)) m List.mem_cons_self a0 b k2 hb hcont
            have e1 := h3.memory
            have e2 := h3.file
            refine ⟨c1, c2, ?_, ?_⟩
            · show a.start + (a.len + b.len) % 2 ^ 64 = b.start + b.len
              omega
            · show a.pgoff + (a.len + b.len) % 2 ^ 64 = b.pgoff + b.len
              omega
        · rw [if_neg hp, newest_replace (x := x) (a := a) (a' := { a with len := (a.len + b.len) % 2 ^ 64 }) g2 rfl rfl (show a.pid ≠ p by rw [g3]; exact hp), ← g1]
          exact ih
    · have hb' : ∀ a, m.body ≠ .mmap a := fun a h => hb ⟨a, h⟩
      rw [joined_other hb', newest_other hb', newest_other hb']
      exact ih

/-- A piece goes on where the newest record of a mapping of the process ends. -/
theorem piece_continues {h : List Msg} {m x : Msg} {a b : Serial.MMap} {n r : List Msg} (ho : Ordinary (m :: h)) (hm : m.body = .mmap b)
    (g1 : joined h = n ++ x :: r) (g2 : x.body = .mmap a) (g3 : a.pid = b.pid) (g4 : Piece a b) (g6 : ∀ y ∈ n, ∀ c, y.body = .mmap c → c.pid ≠ b.pid) :
    ∃ ma a0 u, h = top b.pid h ++ ma :: u ∧ ma.body = .mmap a0 ∧ (∀ y ∈ top b.pid h, ∀ c, y.body = .mmap c → c.pid ≠ b.pid) ∧ Continues a0 b ∧ Ends a a0 ∧
      a0.start + a0.len < 2 ^ 64 ∧ a0.pgoff + a0.len < 2 ^ 63 ∧ b.start + b.len < 2 ^ 64 ∧ b.pgoff + b.len < 2 ^ 63 := by
  have ih := newest_ends b.pid (ordinary_tail ho)
  rw [g1, newest_skip g6, newest_mmap g2, if_pos g3] at ih
  rcases ih with ⟨h1, -⟩ | ⟨A, a0, h1, h2, h3⟩
  · cases h1
  · cases h1
    obtain ⟨ma, u, k1, k2, k3, k4⟩ := newest_mem h2
    obtain ⟨c1, c2, c3, c4⟩ := g4.next
    have hcont : Continues a0 b := ⟨by rw [← h3.pid, c1], by rw [← h3.name, c2], by rw [← h3.memory, c3], by rw [← h3.file, c4]⟩
    obtain ⟨o1, o2, o3, o4⟩ := ho ma (List.mem_cons_of_mem _ (by rw [k1]; simp)) m List.mem_cons_self a0 b k2 hm hcont
    exact ⟨ma, a0, u, k1, k2, k4, hcont, h3, o1, o2, o3, o4⟩

/-- `Together` for a history. -/
def TogetherH (h : List Msg) : Prop :=
  ∀ w mb v ma u a b, h = w ++ mb :: (v ++ ma :: u) → ma.body = .mmap a → mb.body = .mmap b → Continues a b →
    (∀ x ∈ v, ∀ c, x.body = .mmap c → c.pid ≠ a.pid) → ∀ x ∈ v, ∃ c, x.body = .mmap c

theorem together_history {t : List Msg} (h : Together t) : TogetherH t.reverse := by
  intro w mb v ma u a b hh ha hb hc hv x hx
  refine h u.reverse ma v.reverse mb w.reverse a b ?_ ha hb hc (fun y hy => hv y (List.mem_reverse.1 hy)) x (List.mem_reverse.2 hx)
  have := congrArg List.reverse hh
  rw [List.reverse_reverse] at this
  rw [this]
  simp

theorem togetherH_drop {n h : List Msg} (ht : TogetherH (n ++ h)) : TogetherH h := by
  intro w mb v ma u a b hh
  exact ht (n ++ w) mb v ma u a b (by rw [hh, List.append_assoc])

theorem ordinary_drop {n h : List Msg} (ht : Ordinary (n ++ h)) : Ordinary h :=
  fun x hx y hy => ht x (List.mem_append_right _ hx) y (List.mem_append_right _ hy)

/-- Nothing is joined across a record that is no mapping. -/
theorem joined_place {m : Msg} (hm : ∀ a, m.body ≠ .mmap a) {h : List Msg} : ∀ {q : List Msg}, TogetherH (q ++ m :: h) → Ordinary (q ++ m :: h) →
    ∃ P, joined (q ++ m :: h) = P ++ m :: joined h ∧ ∀ p, (∀ y ∈ P, ∀ c, y.body = .mmap c → c.pid ≠ p) → ∀ y ∈ q, ∀ c, y.body = .mmap c → c.pid ≠ p
  | [], _, _ => ⟨[], joined_other hm, fun p _ y hy => by cases hy⟩
  | x :: q, ht, ho => by
    obtain ⟨P, h1, h2⟩ := joined_place hm (togetherH_drop (n := [x]) ht) (ordinary_tail ho)
    by_cases hb : ∃ b, x.body = .mmap b
    · obtain ⟨b, hb⟩ := hb
      rcases joined_mmap (h := q ++ m :: h) hb with ⟨-, hj⟩ | ⟨n, x0, a, r, g1, g2, g3, g4, g5, g6⟩
      · refine ⟨x :: P, ?_, fun p hp y hy => ?_⟩
        · show joined (x :: (q ++ m :: h)) = _
          rw [hj, h1]
          rfl
        · rcases List.mem_cons.1 hy with rfl | hy
          · exact hp y List.mem_cons_self
          · exact h2 p (fun y hy => hp y (List.mem_cons_of_mem _ hy)) y hy
      · obtain ⟨ma, a0, u, k1, k2, k3, k4, k5, -⟩ := piece_continues (h := q ++ m :: h) ho hb g1 g2 g3 g4 g6
        have hall := ht [] x (top b.pid (q ++ m :: h)) ma u a0 b (by rw [← k1]; rfl) k2 hb k4 (by rw [← k5.pid, g3]; exact k3)
        rw [h1] at g1
        rcases List.append_eq_append_iff.1 g1 with ⟨c, e1, e2⟩ | ⟨c, e1, e2⟩
        · exfalso
          have hPn : ∀ y ∈ P, ∀ c, y.body = .mmap c → c.pid ≠ b.pid := fun y hy => g6 y (by rw [e1]; exact List.mem_append_left _ hy)
          have hq := h2 b.pid hPn
          have hmem : m ∈ top b.pid (q ++ m :: h) := by
            have : ∀ q : List Msg, (∀ y ∈ q, ∀ c, y.body = .mmap c → c.pid ≠ b.pid) → m ∈ top b.pid (q ++ m :: h) := by
              intro q hq
              induction q with
              | nil =>
                cases hmb : m.body with
                | mmap a => exact absurd hmb (hm a)
                | _ => simp [top, hmb]
              | cons y q ih =>
                have := ih (fun z hz => hq z (List.mem_cons_of_mem _ hz))
                show m ∈ top b.pid (y :: (q ++ m :: h))
                cases hyb : y.body with
                | mmap c => simp only [top, hyb, if_neg (hq y List.mem_cons_self c hyb)]; exact List.mem_cons_of_mem _ this
                | _ => simp only [top, hyb]; exact List.mem_cons_of_mem _ this
            exact this q hq
          obtain ⟨c, hc⟩ := hall m hmem
          exact hm c hc
        · cases c with
          | nil =>
            exfalso
            rw [List.nil_append] at e2
            cases e2
            exact hm a g2
          | cons z c =>
            rw [List.cons_append] at e2
            cases e2
            refine ⟨n ++ { x0 with body := .mmap { a with len := (a.len + b.len) % 2 ^ 64 } } :: c, ?_, fun p hp y hy => ?_⟩
            · show joined (x :: (q ++ m :: h)) = _
              rw [g5]
              simp
            · have key : a.pid ≠ p := hp { x0 with body := .mmap { a with len := (a.len + b.len) % 2 ^ 64 } }
                (List.mem_append_right _ List.mem_cons_self) { a with len := (a.len + b.len) % 2 ^ 64 } rfl
              rcases List.mem_cons.1 hy with rfl | hy
              · intro d hd
                rw [hb] at hd
                cases hd
                rw [← g3]
                exact key
              · refine h2 p (fun y hy d hd => ?_) y hy
                rw [e1] at hy
                rcases List.mem_append.1 hy with hy | hy
                · exact hp y (List.mem_append_left _ hy) d hd
                · rcases List.mem_cons.1 hy with rfl | hy
                  · rw [g2] at hd
                    cases hd
                    exact key
                  · exact hp y (List.mem_append_right _ (List.mem_cons_of_mem _ hy)) d hd
    · have hb' : ∀ a, x.body ≠ .mmap a := fun a h => hb ⟨a, h⟩
      refine ⟨x :: P, ?_, fun p hp y hy => ?_⟩
      · show joined (x :: (q ++ m :: h)) = _
        rw [joined_other hb', h1]
        rfl
      · rcases List.mem_cons.1 hy with rfl | hy
        · exact fun c hc => absurd hc (hb' c)
        · exact h2 p (fun y hy => hp y (List.mem_cons_of_mem _ hy)) y hy

theorem top_mmap {p : Nat} {m : Msg} {a : Serial.MMap} {h : List Msg} (hm : m.body = .mmap a) :
    top p (m :: h) = if a.pid = p then [] else m :: top p h := by simp only [top, hm]

theorem top_other {p : Nat} {m : Msg} {h : List Msg} (hm : ∀ a, m.body ≠ .mmap a) : top p (m :: h) = m :: top p h := by
  cases hb : m.body with
  | mmap a => exact absurd hb (hm a)
  | _ => simp only [top, hb]

/-- Are all records those of mappings? -/
def AllMaps (l : List Msg) : Prop := ∀ x ∈ l, ∃ c, x.body = .mmap c

theorem top_split {p : Nat} {x : Msg} {a : Serial.MMap} {r : List Msg} (hx : x.body = .mmap a) (ha : a.pid = p) : ∀ {n : List Msg},
    (∀ y ∈ n, ∀ c, y.body = .mmap c → c.pid ≠ p) → top p (n ++ x :: r) = n
  | [], _ => by rw [List.nil_append, top_mmap hx, if_pos ha]
  | m :: n, hn => by
    have ih := top_split (r := r) hx ha (fun y hy => hn y (List.mem_cons_of_mem _ hy))
    show top p (m :: (n ++ x :: r)) = _
    by_cases hb : ∃ b, m.body = .mmap b
    · obtain ⟨b, hb⟩ := hb
      rw [top_mmap hb, if_neg (hn m List.mem_cons_self b hb), ih]
    · rw [top_other (fun a h => hb ⟨a, h⟩), ih]

theorem top_replace {p : Nat} {x x' : Msg} {a a' : Serial.MMap} {r : List Msg} (hx : x.body = .mmap a) (hx' : x'.body = .mmap a') (hp : a'.pid = a.pid) :
    ∀ n : List Msg, AllMaps (top p (n ++ x :: r)) → AllMaps (top p (n ++ x' :: r))
  | [], h => by
    rw [List.nil_append, top_mmap hx] at h
    rw [List.nil_append, top_mmap hx', hp]
    by_cases ha : a.pid = p
    · rw [if_pos ha]
      intro y hy
      cases hy
    · rw [if_neg ha] at h ⊢
      intro y hy
      rcases List.mem_cons.1 hy with rfl | hy
      · exact ⟨a', hx'⟩
      · exact h y (List.mem_cons_of_mem _ hy)
  | m :: n, h => by
    have ih := top_replace (p := p) (r := r) hx hx' hp n
    change AllMaps (top p (m :: (n ++ x :: r))) at h
    show AllMaps (top p (m :: (n ++ x' :: r)))
    have step : ∀ {l l' : List Msg}, (AllMaps l → AllMaps l') → AllMaps (m :: l) → AllMaps (m :: l') := fun f h y hy => by
      rcases List.mem_cons.1 hy with rfl | hy
      · exact h y List.mem_cons_self
      · exact f (fun z hz => h z (List.mem_cons_of_mem _ hz)) y hy
    by_cases hb : ∃ b, m.body = .mmap b
    · obtain ⟨b, hb⟩ := hb
      rw [top_mmap hb] at h ⊢
      split
      · intro y hy
        cases hy
      · rename_i hne
        rw [if_neg hne] at h
        exact step ih h
    · rw [top_other (fun a h => hb ⟨a, h⟩)] at h ⊢
      exact step ih h

/-- If nothing but mappings follows the newest record of a mapping of a process, then so it is after joining. -/
theorem top_maps (p : Nat) : ∀ {h : List Msg}, TogetherH h → Ordinary h → AllMaps (top p h) → AllMaps (top p (joined h))
  | [], _, _, _ => fun y hy => by cases hy
  | m :: h, ht, ho, hall => by
    have ih := top_maps p (togetherH_drop (n := [m]) ht) (ordinary_tail ho)
    by_cases hb : ∃ b, m.body = .mmap b
    · obtain ⟨b, hb⟩ := hb
      rcases joined_mmap (h := h) hb with ⟨-, hj⟩ | ⟨n, x, a, r, g1, g2, g3, g4, g5, g6⟩
      · rw [hj, top_mmap hb]
        rw [top_mmap hb] at hall
        split
        · intro y hy
          cases hy
        · rename_i hne
          rw [if_neg hne] at hall
          intro y hy
          rcases List.mem_cons.1 hy with rfl | hy
          · exact ⟨b, hb⟩
          · exact ih (fun z hz => hall z (List.mem_cons_of_mem _ hz)) y hy
      · have hJ : AllMaps (top p (joined h)) := by
          by_cases hp : b.pid = p
          · obtain ⟨ma, a0, u, k1, k2, k3, k4, k5, -⟩ := piece_continues ho hb g1 g2 g3 g4 g6
            exact ih (hp ▸ ht [] m (top b.pid h) ma u a0 b (by rw [← k1]; rfl) k2 hb k4 (by rw [← k5.pid, g3]; exact k3))
          · rw [top_mmap hb, if_neg hp] at hall
            exact ih (fun z hz => hall z (List.mem_cons_of_mem _ hz))
        rw [g5]
        rw [g1] at hJ
        exact top_replace (a' := { a with len := (a.len + b.len) % 2 ^ 64 }) g2 rfl rfl n hJ
    · have hb' : ∀ a, m.body ≠ .mmap a := fun a h => hb ⟨a, h⟩
      rw [top_other hb'] at hall
      exact absurd (hall m List.mem_cons_self) hb

/-- Two answers to the question which mapping an address is in agree. -/
def Agree : Option Serial.MMap → Option Serial.MMap → Prop
  | none, none => True
  | some b, some c => Comprises c b
  | _, _ => False

theorem comprises_refl (b : Serial.MMap) : Comprises b b := ⟨rfl, rfl, Nat.le_refl _, Nat.le_refl _, by omega, Nat.le_refl _⟩

theorem agree_refl : ∀ o, Agree o o
  | none => trivial
  | some b => comprises_refl b

theorem agree_trans : ∀ {x y z}, Agree x y → Agree y z → Agree x z
  | none, none, none, _, _ => trivial
  | some b, some c, some d, h1, h2 => by
    have h1' : Comprises c b := h1
    have h2' : Comprises d c := h2
    exact ⟨h2'.pid.trans h1'.pid, h2'.name.trans h1'.name, Nat.le_trans h2'.start h1'.start, Nat.le_trans h1'.limit h2'.limit,
      by have := h1'.offset; have := h2'.offset; have := h1'.early; have := h2'.early; omega, Nat.le_trans h2'.early h1'.early⟩
  | none, some _, _, h, _ => h.elim
  | some _, none, _, h, _ => h.elim
  | none, none, some _, _, h => h.elim
  | some _, some _, none, _, h => h.elim

/-- Two histories agree. -/
def Same (h h' : List Msg) : Prop := ∀ p, hasArea h p = hasArea h' p ∧ ∀ x, Agree (areaAt h p x) (areaAt h' p x)

theorem same_refl (h : List Msg) : Same h h := fun _ => ⟨rfl, fun _ => agree_refl _⟩

theorem same_trans {h1 h2 h3 : List Msg} (a : Same h1 h2) (b : Same h2 h3) : Same h1 h3 := fun p =>
  ⟨(a p).1.trans (b p).1, fun x => agree_trans ((a p).2 x) ((b p).2 x)⟩

theorem same_cons (m : Msg) {h h' : List Msg} (a : Same h h') : Same (m :: h) (m :: h') := by
  intro p
  refine ⟨?_, fun x => ?_⟩
  · simp only [hasArea]
    rw [(a p).1]
    cases forkOf m with
    | none => rfl
    | some f => simp only [(a f.2).1]
  · simp only [areaAt]
    cases forkOf m with
    | none =>
      simp only
      cases areaOf m with
      | none => exact (a p).2 x
      | some b =>
        simp only
        split
        · exact agree_refl _
        · exact (a p).2 x
    | some f =>
      simp only [(a f.2).1]
      split
      · exact (a f.2).2 x
      · exact (a p).2 x

theorem same_append {h h' : List Msg} (a : Same h h') : ∀ n : List Msg, Same (n ++ h) (n ++ h')
  | [] => a
  | m :: n => same_cons m (same_append a n)

theorem area_mmap {m : Msg} {b : Serial.MMap} (hm : m.body = .mmap b) (h : List Msg) (p x : Nat) :
    hasArea (m :: h) p = ((b.pid == p && b.len != 0) || hasArea h p) ∧
    areaAt (m :: h) p x = if b.pid = p ∧ coversOf b x then some b else areaAt h p x := by
  have h1 : areaOf m = some b := by unfold areaOf; rw [hm]
  have h2 : forkOf m = none := by unfold forkOf; rw [hm]
  simp only [hasArea, areaAt, h1, h2, Bool.or_false, and_self]

theorem same_swap {m y : Msg} {b c : Serial.MMap} (hm : m.body = .mmap b) (hy : y.body = .mmap c) (hne : c.pid ≠ b.pid) (h : List Msg) :
    Same (m :: y :: h) (y :: m :: h) := by
  intro p
  refine ⟨?_, fun x => ?_⟩
  · rw [(area_mmap hm _ p 0).1, (area_mmap hy _ p 0).1, (area_mmap hy _ p 0).1, (area_mmap hm _ p 0).1, ← Bool.or_assoc, ← Bool.or_assoc]
    congr 1
    exact Bool.or_comm _ _
  · rw [(area_mmap hm _ p x).2, (area_mmap hy _ p x).2, (area_mmap hy _ p x).2, (area_mmap hm _ p x).2]
    by_cases h1 : b.pid = p ∧ coversOf b x = true
    · rw [if_pos h1, if_neg (fun h2 : c.pid = p ∧ _ => hne (by rw [h2.1, h1.1])), if_pos h1]
      exact agree_refl _
    · simp only [if_neg h1]
      exact agree_refl _

theorem same_skip {m : Msg} {b : Serial.MMap} (hm : m.body = .mmap b) (h : List Msg) : ∀ {n : List Msg}, AllMaps n →
    (∀ y ∈ n, ∀ c, y.body = .mmap c → c.pid ≠ b.pid) → Same (m :: (n ++ h)) (n ++ m :: h)
  | [], _, _ => same_refl _
  | y :: n, ha, hn => by
    obtain ⟨c, hc⟩ := ha y List.mem_cons_self
    exact same_trans (same_swap hm hc (hn y List.mem_cons_self c hc) (n ++ h))
      (same_cons y (same_skip hm h (fun z hz => ha z (List.mem_cons_of_mem _ hz)) (fun z hz => hn z (List.mem_cons_of_mem _ hz))))

theorem first_plain {b : Serial.MMap} (h : b.pgoff ≤ 2 ^ 63) : firstOf b = b.start := by
  unfold firstOf
  rw [if_neg (by omega)]

/-- A mapping and its next piece are as good as both in one. -/
theorem same_lengthen {m x : Msg} {a b : Serial.MMap} (hm : m.body = .mmap b) (hx : x.body = .mmap a) (hc : Continues a b)
    (h1 : a.start + a.len = b.start) (h2 : a.pgoff + a.len = b.pgoff) (h3 : b.start + b.len < 2 ^ 64) (h4 : b.pgoff + b.len < 2 ^ 63) (r : List Msg) :
    Same (m :: x :: r) ({ x with body := .mmap { a with len := (a.len + b.len) % 2 ^ 64 } } :: r) := by
  obtain ⟨c, hcd⟩ : ∃ c, c = { a with len := (a.len + b.len) % 2 ^ 64 } := ⟨_, rfl⟩
  have cp : c.pid = a.pid := by rw [hcd]
  have cn : c.filename = a.filename := by rw [hcd]
  have cs : c.start = a.start := by rw [hcd]
  have co : c.pgoff = a.pgoff := by rw [hcd]
  have cl : c.len = a.len + b.len := by rw [hcd]; show (a.len + b.len) % 2 ^ 64 = _; omega
  rw [← hcd]
  have fa : firstOf a = a.start := first_plain (by omega)
  have fb : firstOf b = b.start := first_plain (by omega)
  have fc : firstOf c = a.start := by rw [first_plain (by omega), cs]
  intro p
  refine ⟨?_, fun y => ?_⟩
  · rw [(area_mmap hm _ p 0).1, (area_mmap hx _ p 0).1, (area_mmap (b := c) rfl _ p 0).1, ← Bool.or_assoc]
    congr 1
    rw [cp, cl, ← hc.1]
    cases (a.pid == p)
    · rfl
    · simp only [Bool.true_and]
      rw [Bool.eq_iff_iff]
      simp only [Bool.or_eq_true, bne_iff_ne, ne_eq]
      omega
  · rw [(area_mmap hm _ p y).2, (area_mmap hx _ p y).2, (area_mmap (b := c) rfl _ p y).2]
    simp only [coversOf, fa, fb, fc, decide_eq_true_eq, cp, ← hc.1]
    by_cases hp : a.pid = p
    · simp only [hp, true_and]
      by_cases k1 : b.len ≠ 0 ∧ b.start ≤ y ∧ y < b.start + b.len
      · rw [if_pos k1, if_pos (by omega)]
        exact ⟨cp.trans hc.1, cn.trans hc.2.1, by omega, by omega, by omega, by omega⟩
      · rw [if_neg k1]
        by_cases k2 : a.len ≠ 0 ∧ a.start ≤ y ∧ y < a.start + a.len
        · rw [if_pos k2, if_pos (by omega)]
          exact ⟨cp, cn, by omega, by omega, by omega, by omega⟩
        · rw [if_neg k2, if_neg (by omega)]
          exact agree_refl _
    · simp only [hp, false_and, if_false]
      exact agree_refl _

/-- Every address is in the same mapping after joining as before, but for the pieces. -/
theorem same_joined : ∀ {h : List Msg}, TogetherH h → Ordinary h → Same h (joined h)
  | [], _, _ => same_refl _
  | m :: h, ht, ho => by
    have ih := same_cons m (same_joined (togetherH_drop (n := [m]) ht) (ordinary_tail ho))
    by_cases hb : ∃ b, m.body = .mmap b
    · obtain ⟨b, hb⟩ := hb
      rcases joined_mmap (h := h) hb with ⟨-, hj⟩ | ⟨n, x, a, r, g1, g2, g3, g4, g5, g6⟩
      · rw [hj]
        exact ih
      · refine same_trans ih ?_
        rw [g5, g1]
        obtain ⟨ma, a0, u, k1, k2, k3, k4, k5, o1, o2, o3, o4⟩ := piece_continues ho hb g1 g2 g3 g4 g6
        have hall := top_maps b.pid (togetherH_drop (n := [m]) ht) (ordinary_tail ho)
          (ht [] m (top b.pid h) ma u a0 b (by rw [← k1]; rfl) k2 hb k4 (by rw [← k5.pid, g3]; exact k3))
        rw [g1, top_split g2 g3 g6] at hall
        refine same_trans (same_skip hb _ hall g6) (same_append ?_ n)
        have e1 := k5.memory
        have e2 := k5.file
        obtain ⟨c1, c2, c3, c4⟩ := id g4.next
        exact same_lengthen hb g2 g4.next (by omega) (by omega) o3 o4 r
    · rw [joined_other (fun a h => hb ⟨a, h⟩)]
      exact ih

/-- C128. If the pieces of each mapping follow each other with nothing but mappings between them, and they do not reach the end of memory
or of the file, then records that are no mappings stand among the joined ones as they do among those of the recording: what comes before is what
came before, joined. And every address of a process is then in a mapping if it was in one before: in one of the same file that has the same
addresses and more, each at the same offset in the file. -/
theorem pieces_area {t pre post : List Msg} {m : Msg} (ht : Together t) (ho : Ordinary t) (hm : t = pre ++ m :: post) (hno : ∀ a, m.body ≠ .mmap a) :
    (∃ post', (joined t.reverse).reverse = (joined pre.reverse).reverse ++ m :: post') ∧ ∀ pid x,
      (areaAt pre.reverse pid x = none ∧ areaAt (joined pre.reverse) pid x = none) ∨
      ∃ b c, areaAt pre.reverse pid x = some b ∧ areaAt (joined pre.reverse) pid x = some c ∧ Comprises c b := by
  have htr : t.reverse = post.reverse ++ m :: pre.reverse := by rw [hm]; simp
  have ht' := together_history ht
  have ho' : Ordinary t.reverse := fun x hx y hy => ho x (List.mem_reverse.1 hx) y (List.mem_reverse.1 hy)
  rw [htr] at ht' ho'
  refine ⟨?_, fun pid x => ?_⟩
  · obtain ⟨P, h1, -⟩ := joined_place hno ht' ho'
    exact ⟨P.reverse, by rw [htr, h1]; simp⟩
  · have := (same_joined (togetherH_drop (n := post.reverse ++ [m]) (h := pre.reverse) (by simpa using ht'))
      (ordinary_drop (n := post.reverse ++ [m]) (by simpa using ho')) pid).2 x
    cases h1 : areaAt pre.reverse pid x with
    | none =>
      cases h2 : areaAt (joined pre.reverse) pid x with
      | none => exact .inl ⟨rfl, rfl⟩
      | some c => rw [h1, h2] at this; exact this.elim
    | some b =>
      cases h2 : areaAt (joined pre.reverse) pid x with
      | none => rw [h1, h2] at this; exact this.elim
      | some c => rw [h1, h2] at this; exact .inr ⟨b, c, rfl, rfl, this⟩

end Verif.Whole
