import Verif.Whole.Pieces
import Verif.Whole.Tidy
import Verif.HugePages.Effect
import Verif.HugePages.Combine
import Verif.HugePages.Dynamic

/-!
# Recordings with huge pages

Programs may move their code to huge pages, of which the kernel tells as of anonymous memory. Profiles show it as a part of the file again.
Whatever a recording has, this file tells which records the converter sees: those of the recording, with huge pages named after files (`Renames`), and
with mappings that go on where others end put into one (`grown`).
-/

namespace Verif.Whole
open Verif.Serial (Msg Body)
open Verif.HugePages (HugeName AnonName)

/-! ## Specification -/

/-- The mappings of a process have names, or none of them is where programs used to be loaded. -/
def NamedProcs (h : List Msg) : Prop :=
  ∀ m ∈ h, ∀ m' ∈ h, ∀ b b', areaOf m = some b → areaOf m' = some b' → b.pid = b'.pid → b.filename ≠ [] ∨ b'.start ≠ 0x400000

/-- A mapping of a huge page that has got the name of the file of another mapping. If it had no offset in the file, it gets that of the other one, moved
by the distance of the two in memory. -/
structure Renamed (a n a' : Serial.MMap) : Prop where
  pid : a'.pid = a.pid
  start : a'.start = a.start
  len : a'.len = a.len
  prot : a'.prot = a.prot
  flags : a'.flags = a.flags
  name : a'.filename = n.filename
  buildId : a'.buildId = n.buildId ∨ (n.buildId = none ∧ a'.buildId = a.buildId)
  offset : if a.pgoff = 0 then (a'.pgoff + n.start) % 2 ^ 64 = (n.pgoff + a.start) % 2 ^ 64 else a'.pgoff = a.pgoff

/-- A record stays, or it is that of a huge page and gets the name of a file that the same process maps later. -/
def Rename (later : List Msg) (m m' : Msg) : Prop :=
  m' = m ∨ ∃ a n a' mn, m.body = .mmap a ∧ m' = { m with body := .mmap a' } ∧ mn ∈ later ∧ mn.body = .mmap n ∧ HugeName a.filename ∧
    ¬ HugeName n.filename ∧ n.pid = a.pid ∧ Renamed a n a'

/-- This is all that happens to the records, oldest first. -/
def Renames : List Msg → List Msg → Prop
  | [], [] => True
  | m :: l, m' :: l' => Rename l m m' ∧ Renames l l'
  | _, _ => False

/-- The mappings of a process. -/
def mapsFor (k : Nat) (t : List Msg) : List Serial.MMap :=
  t.filterMap (fun m => match m.body with | .mmap b => if b.pid = k then some b else none | _ => none)

/-- Mappings without gaps between them from one address to another. -/
def Gapless (x : Nat) : List Serial.MMap → Nat → Prop
  | [], y => x = y
  | h :: hs, y => h.start = x ∧ Gapless (x + h.len) hs y

/-- Huge pages of one name fill the gap between two mappings of a file, whose offsets fit. -/
structure FillsGap (a n : Serial.MMap) (hs : List Serial.MMap) : Prop where
  file : n.filename = a.filename
  notHuge : ¬ HugeName a.filename
  huge : ∃ f, HugeName f ∧ ∀ h ∈ hs, h.filename = f
  nonempty : hs ≠ []
  noOffset : ∀ h ∈ hs, h.pgoff = 0
  gapless : Gapless (a.start + a.len) hs n.start
  offset : n.pgoff = a.pgoff + (n.start - a.start)

/-- What a huge page in the gap becomes. -/
structure Became (a n h h' : Serial.MMap) : Prop where
  start : h'.start = h.start
  len : h'.len = h.len
  prot : h'.prot = h.prot
  name : h'.filename = n.filename
  offset : h'.pgoff = a.pgoff + (h.start - a.start)
  buildId : h'.buildId = n.buildId ∨ (n.buildId = none ∧ h'.buildId = h.buildId)

/-- All gaps are closed that huge pages fill, of processes whose mappings perf found when it started. -/
def Closed (t t' : List Msg) : Prop :=
  ∀ k p1 a hs n p2, mapsFor k t = p1 ++ a :: (hs ++ n :: p2) → (∀ m ∈ t, ∀ b, m.body = .mmap b → b.pid = k → m.timestamp = 0) → FillsGap a n hs →
    ∃ p1' hs' p2', mapsFor k t' = p1' ++ a :: (hs' ++ n :: p2') ∧ p1'.length = p1.length ∧ All₂ (Became a n) hs hs'

/-- A mapping that a process made while perf ran stays as it is, before the first and after the last of its mappings that perf found when it
started. -/
def Still (t t' : List Msg) : Prop :=
  ∀ (i : Nat) (m : Msg) (a : Serial.MMap), t[i]? = some m → m.body = .mmap a →
    ((∀ (j : Nat) (m' : Msg) (a' : Serial.MMap), j ≤ i → t[j]? = some m' → m'.body = .mmap a' → a'.pid = a.pid → m'.timestamp ≠ 0) ∨
     (∀ (j : Nat) (m' : Msg) (a' : Serial.MMap), i ≤ j → t[j]? = some m' → m'.body = .mmap a' → a'.pid = a.pid → m'.timestamp ≠ 0)) → t'[i]? = some m

instance (f : List UInt8) : Decidable (AnonName f) := inferInstanceAs (Decidable (_ ∨ _))
instance (f : List UInt8) : Decidable (HugeName f) := decidable_of_iff _ (HugePages.isHugePage_iff { filename := f })

/-- A mapping is put into one with another one before it: in memory it goes on where that ends, and so it does in the file, or it is anonymous and
the other one not executable; the names are the same or one is that of a huge page; protection and sharing fit, and none is of a device. -/
structure Joins (a b : Serial.MMap) : Prop where
  pid : a.pid = b.pid
  memory : (a.start + a.len) % 2 ^ 64 = b.start
  name : a.filename = b.filename ∨ HugeName a.filename ∨ HugeName b.filename
  file : ¬ AnonName a.filename ∧ ((a.pgoff + a.len) % 2 ^ 64 = b.pgoff ∨ (a.prot.testBit 2 = false ∧ AnonName b.filename))
  devices : ¬ ascii "/dev/" <+: a.filename ∧ ¬ ascii "/dev/" <+: b.filename
  prot : a.prot = b.prot ∨ (a.prot = 1 ∧ b.prot = 3) ∨ (a.prot = 3 ∧ b.prot = 1)
  kind : a.flags % 16 = b.flags % 16 ∨ a.prot.testBit 2 = true

instance (a b : Serial.MMap) : Decidable (Joins a b) :=
  decidable_of_iff (a.pid = b.pid ∧ (a.start + a.len) % 2 ^ 64 = b.start ∧ (a.filename = b.filename ∨ HugeName a.filename ∨ HugeName b.filename) ∧
    (¬ AnonName a.filename ∧ ((a.pgoff + a.len) % 2 ^ 64 = b.pgoff ∨ (a.prot.testBit 2 = false ∧ AnonName b.filename))) ∧
    (¬ ascii "/dev/" <+: a.filename ∧ ¬ ascii "/dev/" <+: b.filename) ∧ (a.prot = b.prot ∨ (a.prot = 1 ∧ b.prot = 3) ∨ (a.prot = 3 ∧ b.prot = 1)) ∧
    (a.flags % 16 = b.flags % 16 ∨ a.prot.testBit 2 = true))
    ⟨fun ⟨h1, h2, h3, h4, h5, h6, h7⟩ => ⟨h1, h2, h3, h4, h5, h6, h7⟩, fun ⟨h1, h2, h3, h4, h5, h6, h7⟩ => ⟨h1, h2, h3, h4, h5, h6, h7⟩⟩

/-- Both in one. A huge page gets the name of a file. -/
def both (a b : Serial.MMap) : Serial.MMap :=
  if HugeName a.filename ∧ ¬ HugeName b.filename then
    { a with len := (a.len + b.len) % 2 ^ 64, pgoff := (b.pgoff + 2 ^ 64 - a.len) % 2 ^ 64, filename := b.filename, filenameMd5 := b.filenameMd5,
             buildId := b.buildId.orElse fun _ => a.buildId }
  else { a with len := (a.len + b.len) % 2 ^ 64 }

/-- A history with a mapping put into one with the newest of the process, if they belong together. -/
def grow (b : Serial.MMap) : List Msg → Option (List Msg)
  | [] => none
  | m :: h =>
    match m.body with
    | .mmap a => if a.pid = b.pid then (if Joins a b then some ({ m with body := .mmap (both a b) } :: h) else none) else (grow b h).map (m :: ·)
    | _ => (grow b h).map (m :: ·)

/-- A history with all mappings put into one that belong together. -/
def grown : List Msg → List Msg
  | [] => []
  | m :: h =>
    match m.body with
    | .mmap b => (grow b (grown h)).getD (m :: grown h)
    | _ => m :: grown h

/-! ## What events tell of messages -/

/-- A mapping as the functions for huge pages see it. -/
structure SeesMap (h : HugePages.MMap) (b : Serial.MMap) : Prop where
  pid : h.pid = some b.pid
  start : h.start = b.start
  len : h.len = b.len
  pgoff : h.pgoff = b.pgoff
  buildId : h.buildId = b.buildId
  prot : h.prot = b.prot
  flags : h.flags = b.flags
  name : h.filename = b.filename
  md5 : h.md5 = b.filenameMd5

theorem sees_huge (x : Bool) (b : Serial.MMap) : SeesMap (hugeMap x b) b := ⟨rfl, rfl, rfl, rfl, rfl, rfl, rfl, rfl, rfl⟩

def Sees (o : Option HugePages.MMap) (b : Body) : Prop := match b with | .mmap b => ∃ h, o = some h ∧ SeesMap h b | _ => o = none

/-- A message without its size and the members that identify a file. -/
def strip (m : Msg) : Msg :=
  match m.body with
  | .mmap b => { m with size := 0, body := .mmap { b with maj := 0, min := 0, ino := 0, inoGeneration := 0 } }
  | _ => { m with size := 0 }

theorem strip_norm (m : Msg) : normView (strip m) = normView m := by
  obtain ⟨type, misc, size, body, time⟩ := m
  cases body <;> rfl

theorem strip_clean (m : Msg) : strip (clean m) = strip m := by
  obtain ⟨type, misc, size, body, time⟩ := m
  cases body <;> rfl

theorem strip_mmap {m : Msg} {b : Serial.MMap} (h : m.body = .mmap b) :
    strip m = { m with size := 0, body := .mmap { b with maj := 0, min := 0, ino := 0, inoGeneration := 0 } } := by
  unfold strip
  rw [h]

theorem strip_other {m : Msg} (h : ∀ b, m.body ≠ .mmap b) : strip m = { m with size := 0 } := by
  unfold strip
  cases hb : m.body with
  | mmap b => exact absurd hb (h b)
  | _ => rfl

theorem strip_type {x y : Msg} (h : strip x = strip y) : x.type = y.type := by
  have e : ∀ m : Msg, (strip m).type = m.type := fun m => by unfold strip; split <;> rfl
  rw [← e x, ← e y, h]

theorem strip_body {x y : Msg} {b : Serial.MMap} (h : strip x = strip y) (hy : y.body = .mmap b) : ∃ a, x.body = .mmap a ∧
    { a with maj := 0, min := 0, ino := 0, inoGeneration := 0 } = { b with maj := 0, min := 0, ino := 0, inoGeneration := 0 } ∧
    x.type = y.type ∧ x.misc = y.misc ∧ x.timestamp = y.timestamp := by
  rw [strip_mmap hy] at h
  by_cases hx : ∃ a, x.body = .mmap a
  · obtain ⟨a, hx⟩ := hx
    rw [strip_mmap hx] at h
    simp only [Msg.mk.injEq, Body.mmap.injEq] at h
    exact ⟨a, hx, h.2.2.2.1, h.1, h.2.1, h.2.2.2.2⟩
  · rw [strip_other (fun b hb => hx ⟨b, hb⟩)] at h
    simp only [Msg.mk.injEq] at h
    exact absurd ⟨_, h.2.2.2.1⟩ hx

/-- An event stands for a message, which is one of the recording but for what the functions for huge pages change. -/
def Means (events : List Msg) (e : HugePages.Ev) (m : Msg) : Prop :=
  ∃ m0, events[e.other]? = some m0 ∧ strip (putHuge e m0) = strip m ∧ Sees e.mmap m.body

theorem joins_iff {p q : HugePages.MMap} {a b : Serial.MMap} (hp : SeesMap p a) (hq : SeesMap q b) : HugePages.shouldMerge p q = true ↔ Joins a b := by
  have pre : ∀ l : List UInt8, (ascii "/dev/").isPrefixOf l = false ↔ ¬ ascii "/dev/" <+: l := fun l => by
    rw [← List.isPrefixOf_iff_prefix]
    cases (ascii "/dev/").isPrefixOf l <;> decide
  have anonF : ∀ m : HugePages.MMap, HugePages.isAnon m = false ↔ ¬ AnonName m.filename := fun m => by
    rw [← HugePages.isAnon_iff]
    cases HugePages.isAnon m <;> decide
  unfold HugePages.shouldMerge HugePages.equivalentFile HugePages.fileContiguous HugePages.vmaContiguous HugePages.equivalentProt
    HugePages.combinableFile HugePages.hasExec HugePages.add64
  simp only [Bool.and_eq_true, Bool.or_eq_true, beq_iff_eq, Bool.not_eq_true', pre, anonF, HugePages.isAnon_iff, HugePages.isHugePage_iff,
    hp.pid, hq.pid, hp.start, hq.start, hp.len, hp.pgoff, hq.pgoff, hp.prot, hq.prot, hp.flags, hq.flags, hp.name, hq.name, Option.getD_some]
  constructor
  · rintro ⟨⟨⟨⟨⟨h1, h2⟩, h3⟩, h4, h5⟩, h6⟩, h7, h8⟩
    refine ⟨h7, h8, ?_, ?_, ⟨h2, h1⟩, ?_, h4⟩
    · rcases h3 with (h | h) | h
      · exact .inl h
      · exact .inr (.inl h)
      · exact .inr (.inr h)
    · rcases h6 with ⟨h, h'⟩ | ⟨⟨h, h'⟩, h''⟩
      · exact ⟨h', .inl h⟩
      · exact ⟨h', .inr ⟨h, h''⟩⟩
    · rcases h5 with (h | h) | h
      · exact .inl h
      · exact .inr (.inl h)
      · exact .inr (.inr h)
  · rintro ⟨h7, h8, h3, ⟨hna, h6⟩, ⟨h2, h1⟩, h5, h4⟩
    refine ⟨⟨⟨⟨⟨h1, h2⟩, ?_⟩, h4, ?_⟩, ?_⟩, h7, h8⟩
    · rcases h3 with h | h | h
      · exact .inl (.inl h)
      · exact .inl (.inr h)
      · exact .inr h
    · rcases h5 with h | h | h
      · exact .inl (.inl h)
      · exact .inl (.inr h)
      · exact .inr h
    · rcases h6 with h | ⟨h, h'⟩
      · exact .inl ⟨h, hna⟩
      · exact .inr ⟨⟨h, hna⟩, h'⟩

theorem merge_both {e : HugePages.Ev} {p q : HugePages.MMap} {a b : Serial.MMap} (hp : SeesMap p a) (hq : SeesMap q b) :
    ∃ p', (HugePages.merge e p q).mmap = some p' ∧ SeesMap p' (both a b) ∧ (HugePages.merge e p q).other = e.other := by
  have hn : (HugePages.isHugePage p && !HugePages.isHugePage q) = true ↔ HugeName a.filename ∧ ¬ HugeName b.filename := by
    rw [← hp.name, ← hq.name, ← HugePages.isHugePage_iff, ← HugePages.isHugePage_iff]
    cases HugePages.isHugePage p <;> cases HugePages.isHugePage q <;> decide
  unfold HugePages.merge both
  by_cases hc : HugeName a.filename ∧ ¬ HugeName b.filename
  · rw [if_pos (hn.2 hc), if_pos hc]
    exact ⟨_, rfl, ⟨hp.pid, hp.start, by show HugePages.add64 _ _ = _; rw [hp.len, hq.len]; rfl,
      by show HugePages.sub64 _ _ = _; rw [hp.len, hq.pgoff]; rfl,
      by show Option.orElse _ _ = Option.orElse _ _; rw [hp.buildId, hq.buildId], hp.prot, hp.flags, hq.name, hq.md5⟩, rfl⟩
  · rw [if_neg (fun h => hc (hn.1 h)), if_neg hc]
    exact ⟨_, rfl, ⟨hp.pid, hp.start, by show HugePages.add64 _ _ = _; rw [hp.len, hq.len]; rfl, hp.pgoff, hp.buildId, hp.prot, hp.flags, hp.name,
      hp.md5⟩, rfl⟩

theorem both_keeps (a b : Serial.MMap) : (both a b).tid = a.tid ∧ (both a b).rootPath = a.rootPath ∧ (both a b).rootPathMd5 = a.rootPathMd5 ∧
    (both a b).info = a.info ∧ (both a b).pid = a.pid ∧ (both a b).prot = a.prot ∧ (both a b).flags = a.flags := by
  unfold both
  split <;> exact ⟨rfl, rfl, rfl, rfl, rfl, rfl, rfl⟩

/-- A message with a mapping changed by the functions for huge pages. -/
theorem means_put {events : List Msg} {e e' : HugePages.Ev} {m : Msg} {a c : Serial.MMap} {p p' : HugePages.MMap} (h : Means events e m)
    (hm : m.body = .mmap a) (hp : e.mmap = some p) (he : e'.mmap = some p') (ho : e'.other = e.other) (hs : SeesMap p' c)
    (hk : c.tid = a.tid ∧ c.rootPath = a.rootPath ∧ c.rootPathMd5 = a.rootPathMd5 ∧ c.info = a.info ∧ c.pid = a.pid ∧ c.prot = a.prot ∧ c.flags = a.flags) :
    Means events e' { m with body := .mmap c } := by
  obtain ⟨m0, h0, h1, h2⟩ := h
  refine ⟨m0, by rw [ho]; exact h0, ?_, ⟨p', he, hs⟩⟩
  obtain ⟨x, hx, hx', g1, g2, g3⟩ := strip_body h1 hm
  unfold putHuge at hx g1 g2 g3 ⊢
  rw [hp] at hx g1 g2 g3
  rw [he]
  cases hb : m0.body with
  | mmap b0 =>
    rw [hb] at hx g1 g2 g3
    simp only at hx g1 g2 g3 ⊢
    rw [strip_mmap rfl, strip_mmap rfl]
    cases hx
    obtain ⟨q1, q2, q3, q4, q5, q6, q7⟩ := hk
    obtain ⟨t1, t2, t3, t4, t5⟩ := m0
    obtain ⟨u1, u2, u3, u4, u5⟩ := m
    simp only [Msg.mk.injEq, Body.mmap.injEq] at g1 g2 g3 ⊢
    refine ⟨g1, g2, trivial, ?_, g3⟩
    obtain ⟨a1, a2, a3, a4, a5, a6, a7, a8, a9, a10, a11, a12, a13, a14, a15, a16, a17⟩ := a
    obtain ⟨c1, c2, c3, c4, c5, c6, c7, c8, c9, c10, c11, c12, c13, c14, c15, c16, c17⟩ := c
    obtain ⟨d1, d2, d3, d4, d5, d6, d7, d8, d9, d10, d11, d12, d13, d14, d15, d16, d17⟩ := b0
    obtain ⟨s1, s2, s3, s4, s5, s6, s7, s8, s9⟩ := hs
    simp only [putMap, Serial.MMap.mk.injEq] at hx' q1 q2 q3 q4 q5 q6 q7 s1 s2 s3 s4 s5 s6 s7 s8 s9 ⊢
    obtain ⟨y1, y2, y3, y4, y5, -, -, -, -, y6, y7, y8, y9, y10, y11, y12, y13⟩ := hx'
    exact ⟨y1.trans q5.symm, y2.trans q1.symm, s2, s3, s4, trivial, trivial, trivial, trivial, s5, y7.trans q6.symm, y8.trans q7.symm, s8, s9, y11.trans q2.symm,
      y12.trans q3.symm, y13.trans q4.symm⟩
  | _ =>
    rw [hb] at hx
    simp only at hx
    rw [hb] at hx
    cases hx

theorem grow_means {events : List Msg} {q : HugePages.MMap} {b : Serial.MMap} (hq : SeesMap q b) : ∀ {H : List HugePages.Ev} {h : List Msg},
    All₂ (Means events) H h → (lengthenE q H = none ∧ grow b h = none) ∨
    ∃ H' h', lengthenE q H = some H' ∧ grow b h = some h' ∧ All₂ (Means events) H' h'
  | _, _, .nil => .inl ⟨rfl, rfl⟩
  | _, _, .cons (a := e) (s := H) (b := m) (t := h) hs hl => by
    have ih := grow_means hq hl
    have later : lengthenE q (e :: H) = (lengthenE q H).map (e :: ·) → grow b (m :: h) = (grow b h).map (m :: ·) →
        (lengthenE q (e :: H) = none ∧ grow b (m :: h) = none) ∨
        ∃ H' h', lengthenE q (e :: H) = some H' ∧ grow b (m :: h) = some h' ∧ All₂ (Means events) H' h' := fun h1 h2 => by
      rw [h1, h2]
      rcases ih with ⟨g1, g2⟩ | ⟨H', h', g1, g2, g3⟩
      · rw [g1, g2]; exact .inl ⟨rfl, rfl⟩
      · rw [g1, g2]; exact .inr ⟨_, _, rfl, rfl, .cons hs g3⟩
    obtain ⟨m0, h0, hp, hm⟩ := id hs
    cases hbody : m.body with
    | mmap a =>
      rw [hbody] at hm
      obtain ⟨p, hep, hpa⟩ := hm
      have hkey : p.key = q.key ↔ a.pid = b.pid := by
        unfold HugePages.MMap.key
        rw [hpa.pid, hq.pid]
        exact Iff.rfl
      by_cases hk : a.pid = b.pid
      · have iff := joins_iff hpa hq
        by_cases hc : Joins a b
        · right
          refine ⟨HugePages.merge e p q :: H, { m with body := .mmap (both a b) } :: h,
            by simp only [lengthenE, hep, if_pos (hkey.2 hk), if_pos (iff.2 hc)], by simp only [grow, hbody, if_pos hk, if_pos hc], .cons ?_ hl⟩
          obtain ⟨p', k1, k2, k3⟩ := merge_both (e := e) hpa hq
          exact means_put hs hbody hep k1 k3 k2 (both_keeps a b)
        · left
          exact ⟨by simp only [lengthenE, hep, if_pos (hkey.2 hk), if_neg (fun hh => hc (iff.1 hh))], by simp only [grow, hbody, if_pos hk, if_neg hc]⟩
      · exact later (by simp only [lengthenE, hep, if_neg (fun hh => hk (hkey.1 hh))]) (by simp only [grow, hbody, if_neg hk])
    | _ =>
      rw [hbody] at hm
      have hm : e.mmap = none := hm
      exact later (by simp only [lengthenE, hm]) (by simp only [grow, hbody])

theorem grown_means {events : List Msg} : ∀ {H : List HugePages.Ev} {h : List Msg}, All₂ (Means events) H h →
    All₂ (Means events) (joinedE H) (grown h)
  | _, _, .nil => .nil
  | _, _, .cons (a := e) (s := H) (b := m) (t := h) hs hl => by
    have ih := grown_means hl
    obtain ⟨m0, h0, hp, hm⟩ := id hs
    cases hb : m.body with
    | mmap b =>
      rw [hb] at hm
      obtain ⟨q, hq, hqb⟩ := hm
      simp only [joinedE, grown, hq, hb]
      rcases grow_means hqb ih with ⟨g1, g2⟩ | ⟨H', h', g1, g2, g3⟩
      · rw [g1, g2]; exact .cons hs ih
      · rw [g1, g2]; exact g3
    | _ =>
      rw [hb] at hm
      have hm : e.mmap = none := hm
      simp only [joinedE, grown, hm, hb]
      exact .cons hs ih

theorem means_from {events : List Msg} : ∀ {H : List HugePages.Ev} {h : List Msg}, All₂ (Means events) H h →
    (fromHuge events H).map strip = h.map strip
  | _, _, .nil => rfl
  | _, _, .cons ⟨m0, h0, hp, _⟩ hl => by
    have ih := means_from hl
    unfold fromHuge at ih ⊢
    rw [List.filterMap_cons, h0, Option.map_some]
    simp only [List.map_cons, hp, ih]

theorem views_mean {events : List Msg} : ∀ {pre l t : List Msg}, events = pre ++ l → l.map strip = t.map strip →
    All₂ (Means events) (views combView pre.length l) t
  | _, [], [], _, _ => .nil
  | _, [], _ :: _, _, h => by cases h
  | _, _ :: _, [], _, h => by cases h
  | pre, m :: l, m' :: t, h, hs => by
    simp only [List.map_cons, List.cons.injEq] at hs
    refine .cons ⟨m, ?_, by rw [putHuge_combView]; exact hs.1, ?_⟩ ?_
    · rw [combView_view.place, h]
      simp
    · unfold Sees
      cases hb : m'.body with
      | mmap b =>
        obtain ⟨a, ha, hab, -⟩ := strip_body hs.1 hb
        simp only
        refine ⟨hugeMap true a, ?_, ?_⟩
        · unfold combView
          rw [ha]
          rfl
        · simp only [Serial.MMap.mk.injEq] at hab
          obtain ⟨y1, y2, y3, y4, y5, -, -, -, -, y6, y7, y8, y9, y10, -⟩ := hab
          exact ⟨congrArg some y1, y3, y4, y5, y6, y7, y8, y9, y10⟩
      | _ =>
        simp only
        have hno : ∀ a, m.body ≠ .mmap a := fun a ha => by
          obtain ⟨x, hx, -⟩ := strip_body hs.1.symm ha
          rw [hb] at hx
          cases hx
        unfold combView hugeView
        cases hm : m.body with
        | mmap a => exact absurd hm (hno a)
        | _ => rfl
    · have := views_mean (events := events) (pre := pre ++ [m]) (l := l) (t := t) (by rw [h]; simp) hs.2
      rw [List.length_append] at this
      exact this

/-- What is left of the mappings by the merging. -/
theorem combine_grown {l t : List Msg} (h : l.map strip = t.map strip) : (combine l).map strip = (grown t.reverse).reverse.map strip := by
  have e : combine l = fromHuge l (HugePages.combineMappings (views combView 0 l)) := rfl
  rw [e, combine_joined]
  exact means_from (all2_reverse (grown_means (all2_reverse (views_mean (pre := []) rfl h))))

/-! ## Huge pages -/

theorem hugeView_sees (i : Nat) (m : Msg) : Sees (hugeView i m).mmap m.body := by
  unfold Sees hugeView
  cases hb : m.body with
  | mmap b => exact ⟨_, rfl, sees_huge _ b⟩
  | _ => rfl

theorem renames_of {all : List Msg} : ∀ {pre l : List Msg} {es' : List HugePages.Ev}, all = pre ++ l → HugePages.Changed (views hugeView pre.length l) es' →
    ∃ t, Renames l t ∧ All₂ (Means all) es' t
  | _, [], [], _, _ => ⟨[], trivial, .nil⟩
  | _, [], _ :: _, _, h => h.elim
  | _, _ :: _, [], _, h => h.elim
  | pre, m :: l, e' :: es', hall, h => by
    obtain ⟨h1, h2⟩ := h
    have h2' : HugePages.Changed (views hugeView (pre ++ [m]).length l) es' := by rw [List.length_append]; exact h2
    obtain ⟨t, g1, g2⟩ := renames_of (all := all) (pre := pre ++ [m]) (by rw [hall]; simp) h2'
    have hget : all[pre.length]? = some m := by rw [hall]; simp
    rcases h1 with rfl | ⟨hm, hm', n, ne, k1, k2, k3, k4, k5, k6, k7, k8, k9, k10, -⟩
    · refine ⟨m :: t, ⟨.inl rfl, g1⟩, .cons ⟨m, hget, ?_, hugeView_sees _ m⟩ g2⟩
      rw [putHuge_hugeView, strip_clean]
    · have view : ∀ {i : Nat} {m : Msg} {x : HugePages.MMap}, (hugeView i m).mmap = some x → ∃ a, m.body = .mmap a ∧ x = hugeMap (hasInode m) a := by
        intro i m x hx
        unfold hugeView at hx
        simp only at hx
        split at hx
        · rename_i a ha
          cases hx
          exact ⟨a, ha, rfl⟩
        · cases hx
      obtain ⟨a, ha, rfl⟩ := view k1
      obtain ⟨i, mn, hmn, -, -, rfl⟩ := views_mem k3
      obtain ⟨b, hb, rfl⟩ := view k4
      have hput : putHuge e' m = { m with size := e'.size, body := .mmap (putMap hm' a) } := by
        unfold putHuge
        rw [k2, ha]
      have hsees : SeesMap hm' (putMap hm' a) := ⟨k8.pid, rfl, rfl, rfl, rfl, k8.prot, k8.flags, rfl, rfl⟩
      refine ⟨{ m with body := .mmap (putMap hm' a) } :: t, ⟨.inr ⟨a, b, putMap hm' a, mn, ha, rfl, hmn, hb, k5, k6, k7, ?_⟩, g1⟩,
        .cons ⟨m, by rw [k10]; exact hget, ?_, hm', k2, hsees⟩ g2⟩
      · refine ⟨rfl, k8.start, k8.len, rfl, rfl, k8.filename, k8.buildId, ?_⟩
        have := k8.pgoff
        show if a.pgoff = 0 then (hm'.pgoff + b.start) % 2 ^ 64 = (b.pgoff + a.start) % 2 ^ 64 else hm'.pgoff = a.pgoff
        by_cases h0 : a.pgoff = 0
        · rw [if_pos (show (hugeMap (hasInode m) a).pgoff = 0 from h0)] at this
          rw [if_pos h0]
          exact this.2
        · rw [if_neg (show ¬ (hugeMap (hasInode m) a).pgoff = 0 from h0)] at this
          rw [if_neg h0]
          exact this
      · rw [hput]
        rfl

theorem view_ok {l : List Msg} (hsh : ∀ m ∈ l, Shaped m) (hsz : ∀ m ∈ l, Sized m) : ∀ e ∈ views hugeView 0 l, HugePages.EvOk e := by
  intro e he x hx
  obtain ⟨i, m, hm, -, -, rfl⟩ := views_mem he
  unfold hugeView at hx
  simp only at hx
  split at hx
  · rename_i b hb
    cases hx
    obtain ⟨-, k2, k3, k4⟩ := (hsh m hm).range b hb
    have k5 := (hsz m hm).name b hb
    have k6 := (hsz m hm).size
    refine ⟨k2, k3, k4, ?_, ?_⟩
    · show b.filename.length < 2 ^ 32
      omega
    · show m.size < 2 ^ 32
      omega
  · cases hx

/-- The mappings of a process, as the functions for huge pages see them. -/
theorem maps_seen {l : List Msg} {k : Nat} : ∀ {es : List HugePages.Ev} {t : List Msg}, All₂ (fun e m => Sees e.mmap m.body) es t →
    All₂ (fun it b => SeesMap it.1 b) (HugePages.mapsOf k es) (mapsFor k t)
  | _, _, .nil => .nil
  | _, _, .cons (a := e) (s := es) (b := m) (t := t) hs hl => by
    have ih := maps_seen (l := l) (k := k) hl
    unfold HugePages.mapsOf mapsFor at ih ⊢
    rw [List.filterMap_cons, List.filterMap_cons]
    cases hb : m.body with
    | mmap b =>
      rw [hb] at hs
      obtain ⟨h, h1, h2⟩ := hs
      have hkey : h.key = b.pid := by unfold HugePages.MMap.key; rw [h2.pid]; rfl
      rw [h1]
      simp only [Option.bind_some, hkey]
      by_cases hk : b.pid = k
      · simp only [if_pos hk]
        exact .cons h2 ih
      · simp only [if_neg hk]
        exact ih
    | _ =>
      rw [hb] at hs
      have hs : e.mmap = none := hs
      rw [hs]
      exact ih

/-- The mappings of a process and what becomes of them. -/
theorem maps_renamed {k : Nat} : ∀ {l t : List Msg}, Renames l t → All₂ (fun b b' => HugeName b.filename ∨ b' = b) (mapsFor k l) (mapsFor k t)
  | [], [], _ => .nil
  | [], _ :: _, h => h.elim
  | _ :: _, [], h => h.elim
  | m :: l, m' :: t, ⟨h1, h2⟩ => by
    have ih := maps_renamed (k := k) h2
    unfold mapsFor at ih ⊢
    rw [List.filterMap_cons, List.filterMap_cons]
    rcases h1 with rfl | ⟨a, n, a', mn, k1, rfl, -, -, k3, -, -, k5⟩
    · cases hb : m'.body with
      | mmap b =>
        by_cases hk : b.pid = k
        · simp only [if_pos hk]
          exact .cons (.inr rfl) ih
        · simp only [if_neg hk]
          exact ih
      | _ => exact ih
    · rw [k1]
      simp only [k5.pid]
      by_cases hk : a.pid = k
      · simp only [if_pos hk]
        exact .cons (.inl k3) ih
      · simp only [if_neg hk]
        exact ih

theorem all2_split {α β : Type} {R : α → β → Prop} : ∀ {s s' : List α} {t : List β}, All₂ R (s ++ s') t →
    ∃ u u', t = u ++ u' ∧ All₂ R s u ∧ All₂ R s' u'
  | [], s', t, h => ⟨[], t, rfl, .nil, h⟩
  | a :: s, s', _, .cons (b := b) h hl => by
    obtain ⟨u, u', rfl, h1, h2⟩ := all2_split hl
    exact ⟨b :: u, u', rfl, .cons h h1, h2⟩

theorem all2_length {α β : Type} {R : α → β → Prop} : ∀ {s : List α} {t : List β}, All₂ R s t → s.length = t.length
  | _, _, .nil => rfl
  | _, _, .cons _ hl => by rw [List.length_cons, List.length_cons, all2_length hl]

theorem all2_unmap {α α' β : Type} {R : α' → β → Prop} (f : α → α') : ∀ {s : List α} {t : List β}, All₂ R (s.map f) t → All₂ (fun a b => R (f a) b) s t
  | [], _, .nil => .nil
  | _ :: _, _, .cons h hl => .cons h (all2_unmap f hl)

theorem all2_comp {α β γ : Type} {R : α → β → Prop} {S : α → γ → Prop} {T : β → γ → Prop} (hT : ∀ a b c, R a b → S a c → T b c) :
    ∀ {s : List α} {t : List β} {u : List γ}, All₂ R s t → All₂ S s u → All₂ T t u
  | _, _, _, .nil, .nil => .nil
  | _, _, _, .cons h hl, .cons h' hl' => .cons (hT _ _ _ h h') (all2_comp hT hl hl')

theorem gapless_runs : ∀ {is : List HugePages.Item} {hs : List Serial.MMap} {x y : Nat}, All₂ (fun it b => SeesMap it.1 b) is hs → Gapless x hs y →
    HugePages.Runs x (is.map (·.1)) y
  | _, _, _, _, .nil, h => h
  | _, _, x, y, .cons (a := i) (b := b) h hl, hg => by
    obtain ⟨h1, h2⟩ := hg
    refine ⟨h.start.trans h1, ?_⟩
    rw [h.len]
    exact gapless_runs hl h2

theorem all2_right {α β : Type} {R : α → β → Prop} : ∀ {s : List α} {t : List β}, All₂ R s t → ∀ a ∈ s, ∃ b ∈ t, R a b
  | _, _, .nil, a, h => by cases h
  | _, _, .cons h hl, a, ha => by
    rcases List.mem_cons.1 ha with rfl | ha
    · exact ⟨_, List.mem_cons_self, h⟩
    · obtain ⟨b, h1, h2⟩ := all2_right hl a ha
      exact ⟨b, List.mem_cons_of_mem _ h1, h2⟩

theorem startKeys_mem {k : Nat} {x : HugePages.MMap} : ∀ {es : List HugePages.Ev} {e : HugePages.Ev}, e ∈ es → e.mmap = some x → x.key = k → e.time = 0 →
    k ∈ startKeys es
  | e0 :: es, e, he, hx, hk, ht => by
    rcases List.mem_cons.1 he with rfl | he
    · unfold startKeys
      rw [hx]
      simp only
      split
      · rw [hk]; exact List.mem_cons_self
      · rename_i hno
        rw [hk] at hno
        by_cases h : k ∈ startKeys es
        · exact h
        · exact absurd ⟨ht, h⟩ hno
    · have ih := startKeys_mem he hx hk ht
      unfold startKeys
      split
      · split
        · exact List.mem_cons_of_mem _ ih
        · exact ih
      · exact ih

theorem views_see : ∀ {i : Nat} {l : List Msg}, All₂ (fun e m => Sees e.mmap m.body) (views hugeView i l) l
  | _, [] => .nil
  | i, m :: l => .cons (hugeView_sees i m) views_see

theorem maps_mem {k : Nat} {t : List Msg} {b : Serial.MMap} (h : b ∈ mapsFor k t) : b.pid = k ∧ ∃ m ∈ t, m.body = .mmap b := by
  obtain ⟨m, hm, h⟩ := List.mem_filterMap.1 h
  split at h
  · rename_i b' hb
    split at h
    · rename_i hk
      cases h
      exact ⟨hk, m, hm, hb⟩
    · cases h
  · cases h

theorem all2_parts {α β : Type} {R : α → β → Prop} {s s' : List α} {t t' : List β} (h : All₂ R (s ++ s') (t ++ t')) (hl : s.length = t.length) :
    All₂ R s t ∧ All₂ R s' t' := by
  obtain ⟨u, u', h1, h2, h3⟩ := all2_split h
  obtain ⟨rfl, rfl⟩ := List.append_inj h1 (by rw [← hl, all2_length h2])
  exact ⟨h2, h3⟩

theorem all2_swap {α β : Type} {R : α → β → Prop} : ∀ {s : List α} {t : List β}, All₂ R s t → All₂ (fun b a => R a b) t s
  | _, _, .nil => .nil
  | _, _, .cons h hl => .cons h (all2_swap hl)

theorem all2_get {α β : Type} {R : α → β → Prop} : ∀ {s : List α} {t : List β}, All₂ R s t → ∀ (i : Nat) (a : α), s[i]? = some a → ∃ b, t[i]? = some b ∧ R a b
  | _, _, .cons h _, 0, _, ha => by cases ha; exact ⟨_, rfl, h⟩
  | _, _, .cons _ hl, i + 1, a, ha => all2_get hl i a ha

theorem renames_get : ∀ {l t : List Msg}, Renames l t → ∀ (i : Nat) (m m' : Msg), l[i]? = some m → t[i]? = some m' → ∃ later, Rename later m m'
  | m0 :: l, _ :: t, h, 0, _, _, h1, h2 => by cases h1; cases h2; exact ⟨l, h.1⟩
  | _ :: l, _ :: t, h, i + 1, m, m', h1, h2 => renames_get h.2 i m m' h1 h2
  | [], _, _, i, _, _, h1, _ => by simp at h1
  | _ :: _, [], h, _, _, _, _, _ => h.elim

theorem views_get (f : Nat → Msg → α) : ∀ (l : List Msg) (k i : Nat), (views f k l)[i]? = l[i]?.map (f (k + i))
  | [], k, i => by simp [views]
  | m :: l, k, 0 => by simp [views]
  | m :: l, k, i + 1 => by
    have := views_get f l (k + 1) i
    simp only [views, List.getElem?_cons_succ, this, Nat.add_right_comm k 1 i, Nat.add_assoc]

/-- What the search for huge pages makes of a recording. -/
theorem deduce_renames {M : Machine} (hM : ∀ l, (M.order l).Perm l) {l : List Msg} (hsh : ∀ m ∈ l, Shaped m) (hsz : ∀ m ∈ l, Sized m) :
    ∃ l' t, deduce M l = some l' ∧ Renames l t ∧ l'.map strip = t.map strip ∧ Closed l t ∧ Still l t := by
  have hn : (M.order (startKeys (views hugeView 0 l))).Nodup := (hM _).nodup_iff.2 (startKeys_nodup _)
  have hok := view_ok hsh hsz
  obtain ⟨es', h1, -, h2⟩ := HugePages.deduce_relabels _ (views hugeView 0 l) hn hok
  obtain ⟨t, g1, g2⟩ := renames_of (all := l) (pre := []) rfl h2
  refine ⟨fromHuge l es', t, ?_, g1, means_from g2, ?_, ?_⟩
  · unfold deduce
    simp only [h1, Option.map_some]
  rotate_left
  · intro i m a hi hb htimes
    have view : ∀ (j : Nat) (e' : HugePages.Ev) (x : HugePages.MMap), (views hugeView 0 l)[j]? = some e' → e'.mmap = some x →
        ∃ m' b, l[j]? = some m' ∧ m'.body = .mmap b ∧ x.key = b.pid ∧ e'.time = m'.timestamp := by
      intro j e' x he hx
      rw [views_get] at he
      obtain ⟨m', hm', rfl⟩ := Option.map_eq_some_iff.1 he
      unfold hugeView at hx
      simp only at hx
      split at hx
      · rename_i b hb
        cases hx
        exact ⟨m', b, hm', hb, rfl, rfl⟩
      · cases hx
    have hget : (views hugeView 0 l)[i]? = some (hugeView (0 + i) m) := by rw [views_get, hi]; rfl
    have hmm : (hugeView (0 + i) m).mmap = some (hugeMap (hasInode m) a) := by unfold hugeView; simp only [hb]
    have hd := HugePages.deduce_dynamic _ _ _ hok h1 i _ _ hget hmm (by
      rcases htimes with ht | ht
      · refine .inl fun j e' x hj he hx hk => ?_
        obtain ⟨m', b, k1, k2, k3, k4⟩ := view j e' x he hx
        rw [k4]
        exact ht j m' b hj k1 k2 (k3.symm.trans hk)
      · refine .inr fun j e' x hj he hx hk => ?_
        obtain ⟨m', b, k1, k2, k3, k4⟩ := view j e' x he hx
        rw [k4]
        exact ht j m' b hj k1 k2 (k3.symm.trans hk))
    obtain ⟨m', k1, m0, k2, k3, k4⟩ := all2_get g2 i _ hd
    obtain ⟨later, k5⟩ := renames_get g1 i m m' hi k1
    rcases k5 with rfl | ⟨a0, n, a', mn, j1, rfl, -, -, j2, j3, -, j4⟩
    · exact k1
    · rw [hmm] at k4
      obtain ⟨y, hy, k4⟩ := k4
      cases hy
      rw [hb] at j1
      cases j1
      have := k4.name
      rw [j4.name] at this
      exact absurd (show HugeName n.filename by rw [← this]; exact j2) j3
  · intro k p1 a hs n p2 hm htime hf
    have s1 := maps_seen (l := l) (k := k) (views_see (i := 0) (l := l))
    have s2 := maps_seen (l := l) (k := k) (g2.imp fun _ _ ⟨_, _, _, h⟩ => h)
    have s3 := maps_renamed (k := k) g1
    have ht0 : ∀ e ∈ views hugeView 0 l, ∀ x, e.mmap = some x → x.key = k → e.time = 0 := by
      intro e he x hx hk
      obtain ⟨i, m, hm, -, -, rfl⟩ := views_mem he
      unfold hugeView at hx
      simp only at hx
      split at hx
      · rename_i b hb
        cases hx
        exact htime m hm b hb hk
      · cases hx
    have bounds : ∀ b ∈ mapsFor k l, b.pid = k ∧ b.start < 2 ^ 64 ∧ b.pgoff < 2 ^ 64 := by
      intro b hb
      obtain ⟨hk, m, h1, h2⟩ := maps_mem hb
      obtain ⟨-, h3, -, h4⟩ := (hsh m h1).range b h2
      exact ⟨hk, h3, h4⟩
    have hkey : k ∈ M.order (startKeys (views hugeView 0 l)) := by
      refine (hM _).mem_iff.2 ?_
      obtain ⟨hk, m, h1, h2⟩ := maps_mem (k := k) (t := l) (b := a) (by rw [hm]; simp)
      obtain ⟨e, he, h3⟩ := all2_right (all2_swap (views_see (i := 0) (l := l))) m h1
      rw [h2] at h3
      obtain ⟨x, hx, h3⟩ := h3
      have hxk : x.key = k := by unfold HugePages.MMap.key; rw [h3.pid]; exact hk
      exact startKeys_mem he hx hxk (ht0 e he x hx hxk)
    rw [hm] at s1 s3 bounds
    obtain ⟨q1, r1, f1, c1, c2⟩ := all2_split (all2_swap s1)
    cases c2
    rename_i A r2 ca c2
    obtain ⟨HS, r3, rfl, ch, c3⟩ := all2_split c2
    cases c3
    rename_i N q2 cn c4
    obtain ⟨z1, y1, w1, d1, d2⟩ := all2_split s3
    cases d2
    rename_i a' y2 da d2
    obtain ⟨hs', y3, rfl, dh, d3⟩ := all2_split d2
    cases d3
    rename_i n' z2 dn d4
    obtain rfl := da.resolve_left hf.notHuge
    obtain rfl := dn.resolve_left (by rw [hf.file]; exact hf.notHuge)
    have ca' : SeesMap A.1 a' := ca
    have cn' : SeesMap N.1 n' := cn
    have ch' := all2_swap ch
    have hff : HugePages.Fills A.1 N.1 (HS.map (·.1)) := by
      refine ⟨by rw [ca'.name, cn'.name]; exact hf.file, by rw [ca'.name]; exact hf.notHuge, ?_, ?_, ?_, ⟨some k, ?_, ?_, ?_⟩, ?_, ?_, ?_⟩
      · obtain ⟨f, h1, h2⟩ := hf.huge
        refine ⟨f, h1, fun h hh => ?_⟩
        obtain ⟨i, hi, rfl⟩ := List.mem_map.1 hh
        obtain ⟨b, hb, hsb⟩ := all2_right ch' i hi
        exact (SeesMap.name hsb).trans (h2 b hb)
      · intro hnil
        apply hf.nonempty
        have := all2_length ch'
        rw [List.map_eq_nil_iff.1 hnil] at this
        exact List.length_eq_zero_iff.1 this.symm
      · intro h hh
        obtain ⟨i, hi, rfl⟩ := List.mem_map.1 hh
        obtain ⟨b, hb, hsb⟩ := all2_right ch' i hi
        exact (SeesMap.pgoff hsb).trans (hf.noOffset b hb)
      · rw [ca'.pid, (bounds a' (by simp)).1]
      · rw [cn'.pid, (bounds n' (by simp)).1]
      · intro h hh
        obtain ⟨i, hi, rfl⟩ := List.mem_map.1 hh
        obtain ⟨b, hb, hsb⟩ := all2_right ch' i hi
        rw [SeesMap.pid hsb, (bounds b (by simp [hb])).1]
      · rw [ca'.start, ca'.len, cn'.start]
        exact gapless_runs ch' hf.gapless
      · rw [cn'.pgoff, cn'.start, ca'.pgoff, ca'.start]
        exact hf.offset
      · rw [cn'.start, cn'.pgoff]
        exact (bounds n' (by simp)).2
    obtain ⟨es2, l1', l2', e1, e2, e3⟩ := HugePages.deduce_fills _ k (views hugeView 0 l) hn hkey hok ht0 q1 q2 HS A N f1 hff
    obtain rfl : es2 = es' := Option.some.inj (e1.symm.trans h1)
    rw [e2, w1] at s2
    obtain ⟨-, s2⟩ := all2_parts s2 (by rw [e3, ← all2_length c1, all2_length d1])
    cases s2
    rename_i s2
    obtain ⟨s4, -⟩ := all2_parts s2 (by rw [List.length_map, all2_length ch', all2_length dh])
    refine ⟨z1, hs', z2, w1, (all2_length d1).symm, ?_⟩
    refine all2_comp ?_ ch' (all2_unmap _ s4)
    intro i b b' hb hb'
    have hb : SeesMap i.1 b := hb
    have hb' : SeesMap (HugePages.between A.1 N.1 i.1) b' := hb'
    refine ⟨by rw [← hb'.start, ← hb.start]; rfl, by rw [← hb'.len, ← hb.len]; rfl, by rw [← hb'.prot, ← hb.prot]; rfl,
      by rw [← hb'.name, ← cn'.name]; rfl, by rw [← hb'.pgoff, ← hb.start, ← ca'.pgoff, ← ca'.start]; rfl, ?_⟩
    rw [← hb'.buildId, ← cn'.buildId, ← hb.buildId]
    unfold HugePages.between
    simp only
    cases N.1.buildId with
    | none => exact .inr ⟨rfl, rfl⟩
    | some x => exact .inl rfl

/-! ## What reaches the converter -/

/-- Where the records of a grown history come from. -/
def From (h : List Msg) (m : Msg) : Prop :=
  ∃ m0 ∈ h, m = m0 ∨ ∃ a b, m0.body = .mmap a ∧ m = { m0 with body := .mmap b } ∧ (b.pid = a.pid ∧ b.start = a.start) ∧
    ∃ mn ∈ h, ∃ n, mn.body = .mmap n ∧ n.pid = b.pid ∧ b.filename = n.filename

theorem From.mono {h h' : List Msg} (hs : ∀ m ∈ h, m ∈ h') {m : Msg} (hm : From h m) : From h' m := by
  obtain ⟨m0, k1, k2⟩ := hm
  refine ⟨m0, hs _ k1, ?_⟩
  rcases k2 with k2 | ⟨a, b, k3, k4⟩
  · exact .inl k2
  · exact .inr ⟨a, b, k3, k4.1, k4.2.1, k4.2.2.choose, hs _ k4.2.2.choose_spec.1, k4.2.2.choose_spec.2⟩

theorem From.name {h : List Msg} {m : Msg} {b : Serial.MMap} (hm : From h m) (hb : m.body = .mmap b) :
    ∃ mn ∈ h, ∃ n, mn.body = .mmap n ∧ n.pid = b.pid ∧ b.filename = n.filename := by
  obtain ⟨m0, k1, rfl | ⟨a, b', k3, rfl, -, k5⟩⟩ := hm
  · exact ⟨m, k1, b, hb, rfl, rfl⟩
  · cases hb
    exact k5

theorem both_start (a b : Serial.MMap) : (both a b).pid = a.pid ∧ (both a b).start = a.start := by
  unfold both; split <;> exact ⟨rfl, rfl⟩

theorem grow_from {H : List Msg} {mb : Msg} {b : Serial.MMap} (hH : mb ∈ H) (hb : mb.body = .mmap b) : ∀ {h h' : List Msg}, grow b h = some h' →
    (∀ m ∈ h, From H m) → ∀ m ∈ h', From H m
  | m0 :: h, h', hg, hf, m, hm => by
    have here := hf m0 List.mem_cons_self
    unfold grow at hg
    split at hg
    · rename_i a ha
      split at hg
      · rename_i hpid
        split at hg
        · cases hg
          rcases List.mem_cons.1 hm with rfl | hm
          · obtain ⟨mn, k3, n, k4, k5, k6⟩ := here.name ha
            obtain ⟨x, k1, k2⟩ := here
            have hname : ∃ mn ∈ H, ∃ n, mn.body = .mmap n ∧ n.pid = (both a b).pid ∧ (both a b).filename = n.filename := by
              rw [(both_start a b).1]
              unfold both
              split
              · exact ⟨mb, hH, b, hb, hpid.symm, rfl⟩
              · exact ⟨mn, k3, n, k4, k5, k6⟩
            rcases k2 with rfl | ⟨c, d, k6, rfl, k7, -⟩
            · exact ⟨m0, k1, .inr ⟨a, _, ha, rfl, both_start a b, hname⟩⟩
            · cases ha
              exact ⟨x, k1, .inr ⟨c, _, k6, rfl, ⟨(both_start _ b).1.trans k7.1, (both_start _ b).2.trans k7.2⟩, hname⟩⟩
          · exact hf m (List.mem_cons_of_mem _ hm)
        · cases hg
      · obtain ⟨h2, k1, rfl⟩ := Option.map_eq_some_iff.1 hg
        rcases List.mem_cons.1 hm with rfl | hm
        · exact here
        · exact grow_from hH hb k1 (fun x hx => hf x (List.mem_cons_of_mem _ hx)) m hm
    · obtain ⟨h2, k1, rfl⟩ := Option.map_eq_some_iff.1 hg
      rcases List.mem_cons.1 hm with rfl | hm
      · exact here
      · exact grow_from hH hb k1 (fun x hx => hf x (List.mem_cons_of_mem _ hx)) m hm

theorem grown_from {h : List Msg} : ∀ m ∈ grown h, From h m := by
  induction h with
  | nil => intro m hm; cases hm
  | cons m0 h ih =>
    have ih' : ∀ m ∈ grown h, From (m0 :: h) m := fun x hx => (ih x hx).mono fun y hy => List.mem_cons_of_mem _ hy
    have plain : ∀ m ∈ m0 :: grown h, From (m0 :: h) m := by
      intro x hx
      rcases List.mem_cons.1 hx with rfl | hx
      · exact ⟨x, List.mem_cons_self, .inl rfl⟩
      · exact ih' x hx
    intro m hm
    rw [grown] at hm
    cases hb : m0.body with
    | mmap b =>
      rw [hb] at hm
      simp only at hm
      cases hg : grow b (grown h) with
      | none => rw [hg] at hm; exact plain m hm
      | some h2 =>
        rw [hg] at hm
        exact grow_from List.mem_cons_self hb hg ih' m hm
    | _ => rw [hb] at hm; exact plain m hm

/-- Renaming leaves the types of records and takes names of the recording. -/
theorem renames_from : ∀ {l t : List Msg}, Renames l t → ∀ m ∈ t, From l m
  | m0 :: l, m1 :: t, ⟨h1, h2⟩, m, hm => by
    rcases List.mem_cons.1 hm with rfl | hm
    · rcases h1 with rfl | ⟨a, n, a', mn, k1, rfl, k2, k3, -, -, k4, k5⟩
      · exact ⟨m, List.mem_cons_self, .inl rfl⟩
      · exact ⟨m0, List.mem_cons_self, .inr ⟨a, a', k1, rfl, ⟨k5.pid, k5.start⟩, mn, List.mem_cons_of_mem _ k2, n, k3, k4.trans k5.pid.symm, k5.name⟩⟩
    · exact (renames_from h2 m hm).mono fun y hy => List.mem_cons_of_mem _ hy
  | [], [], _, _, hm => by cases hm
  | [], _ :: _, h, _, _ => h.elim
  | _ :: _, [], h, _, _ => h.elim

theorem From.shape {l : List Msg} (hl : ∀ m ∈ l, m.type = 1 ∨ m.type = 10 → ∃ b, m.body = .mmap b) {m : Msg} (hm : From l m) (ht : m.type = 1 ∨ m.type = 10) :
    ∃ b, m.body = .mmap b := by
  obtain ⟨m0, k1, rfl | ⟨a, b', k3, rfl, k5⟩⟩ := hm
  · exact hl m k1 ht
  · exact ⟨b', rfl⟩

/-- Where names and addresses come from. -/
theorem From.area {l : List Msg} {m : Msg} (hm : From l m) {b : Serial.MMap} (hb : areaOf m = some b) :
    (∃ x ∈ l, ∃ a, areaOf x = some a ∧ a.pid = b.pid ∧ a.start = b.start) ∧
    ∃ x ∈ l, ∃ a, areaOf x = some a ∧ a.pid = b.pid ∧ a.filename = b.filename := by
  obtain ⟨m0, k1, rfl | ⟨a, b', k3, rfl, ⟨k4, k5⟩, mn, k6, n, k7, k8, k9⟩⟩ := hm
  · exact ⟨⟨m, k1, b, hb, rfl, rfl⟩, m, k1, b, hb, rfl, rfl⟩
  · cases hb
    exact ⟨⟨m0, k1, a, by unfold areaOf; rw [k3], k4.symm, k5.symm⟩, mn, k6, n, by unfold areaOf; rw [k7], k8, k9.symm⟩

theorem NamedProcs.from {l t : List Msg} (hl : NamedProcs l) (ht : ∀ m ∈ t, From l m) : NamedProcs t := by
  intro m hm m' hm' b b' hb hb' hp
  obtain ⟨-, x, hx, a, ha, h1, h2⟩ := (ht m hm).area hb
  obtain ⟨⟨x', hx', a', ha', h3, h4⟩, -⟩ := (ht m' hm').area hb'
  rw [← h2, ← h4]
  exact hl x hx x' hx' a a' ha ha' (h1.trans (hp.trans h3.symm))

theorem NamedProcs.mono {l t : List Msg} (hl : NamedProcs l) (ht : ∀ m ∈ t, m ∈ l) : NamedProcs t :=
  fun m hm m' hm' => hl m (ht m hm) m' (ht m' hm')

/-- It is enough that all have names. -/
theorem NamedProcs.of {l : List Msg} (hl : ∀ m ∈ l, ∀ b, areaOf m = some b → b.filename ≠ []) : NamedProcs l :=
  fun m hm _ _ b _ hb _ _ => .inl (hl m hm b hb)

theorem NamedProcs.all {l : List Msg} (hl : NamedProcs l) : AllNamed l := fun m hm b hb => hl m hm m hm b b hb hb rfl

/-- Whatever becomes of mappings, they have names if they must. -/
theorem NamedProcs.grown {t t1 : List Msg} (hn : NamedProcs t) (h1 : Renames t t1) : AllNamed (grown t1.reverse).reverse :=
  ((hn.from fun m hm => renames_from h1 m (List.mem_reverse.1 hm)).from (t := (Whole.grown t1.reverse).reverse)
    fun m hm => grown_from m (List.mem_reverse.1 hm)).all

/-- The events reach the converter with huge pages named after files and with mappings put into one, in order of time. -/
theorem prep_grown {M : Machine} (hM : ∀ l, (M.order l).Perm l) {options : Nat} {i : Meta.Info} {l : List Msg} (hl : ∀ m ∈ l, Shaped m)
    (hz : ∀ m ∈ l, Sized m) :
    ∃ t1, Renames (sortEvents i l) t1 ∧ Closed (sortEvents i l) t1 ∧ Still (sortEvents i l) t1 ∧
      ∀ r, parseEvents M (rawOpts M options) true true true i l = some r → r.1.map normView = (grown t1.reverse).reverse.map normView := by
  have hp := sort_perm i l
  obtain ⟨l', t1, h1, h2, h3, h4, h5⟩ := deduce_renames hM (l := sortEvents i l) (fun m hm => hl m (hp.mem_iff.1 hm)) (fun m hm => hz m (hp.mem_iff.1 hm))
  refine ⟨t1, h2, h4, h5, fun r h => ?_⟩
  rw [parseEvents_eq] at h
  simp only [if_true] at h
  rw [h1, Option.bind_some] at h
  have hj := combine_grown h3
  generalize combine l' = j at h hj
  have hj' : ∀ m ∈ j, m.type = 1 ∨ m.type = 10 → ∃ b, m.body = .mmap b := by
    intro m hm ht
    have : strip m ∈ (grown t1.reverse).reverse.map strip := by rw [← hj]; exact List.mem_map_of_mem hm
    obtain ⟨g, hg, he⟩ := List.mem_map.1 this
    have hty := strip_type he
    obtain ⟨b, hb⟩ := (grown_from g (List.mem_reverse.1 hg)).shape (fun x hx => (renames_from h2 x (List.mem_reverse.1 hx)).shape
      fun y hy => (hl y (hp.mem_iff.1 hy)).mmap) (by rw [hty]; exact ht)
    obtain ⟨a, ha, -⟩ := strip_body he.symm hb
    exact ⟨a, ha⟩
  obtain ⟨R, g4, h⟩ := Option.bind_eq_some_iff.1 h
  have g5 : R.events = views parserView 0 j := by
    refine Parser.parse_keep rfl rfl (fun e he => ?_) g4
    obtain ⟨k, m, hm, -, -, rfl⟩ := views_mem he
    intro ht
    obtain ⟨b, hb⟩ := hj' m hm ht
    simp [parserView, hb]
  have h6 : r.1 = j.map touch := by
    rw [← Option.some.inj h]
    unfold parsed
    simp only
    rw [g5, views_back parserView (·.rest) putParsed (fun _ _ => rfl)]
    rw [show (fun i m => putParsed (parserView i m) m) = fun _ m => touch m from funext fun i => funext fun m => putParsed_view i m]
    exact views_map touch 0 _
  have key : ∀ u : List Msg, u.map normView = (u.map strip).map normView := by
    intro u
    rw [List.map_map]
    exact List.map_congr_left fun m _ => (strip_norm m).symm
  rw [h6, List.map_map, key (grown t1.reverse).reverse, ← hj, ← key]
  exact List.map_congr_left fun m _ => touch_norm m

/-! ## What profiles show -/

/-- C129. What the profiles made from the bytes of a recording show of a sample, whatever mappings the recording has: that which C109 says, of the
records with huge pages named after files (`Renames`; at least those that fill the gaps in files, `Closed`, and none of those mapped later,
`Still`) and with the mappings in one that go on where others end (`grown`). -/
theorem huge_shown_partial {M : Machine} (hM : ∀ l, (M.order l).Perm l) {ids : List (Bytes × Bytes)} {labels options : Nat}
    {threadTypes : List (Nat × Bytes)} {b : Bytes} {ps : List Converter.ProcessProfile} {st : Data.St}
    (hb : File.readBytes { env := M.env } b = some (some st)) (hc : Calm options st.events) (hn : NamedProcs st.events)
    (hspe : speTrace st.events = false) (h : rawToProfiles M ids labels options threadTypes b = some ps) {t : List Msg}
    (ht : Timeline st.base.info.attrs st.events t) :
    ∃ t1, Renames t t1 ∧ Closed t t1 ∧ Still t t1 ∧
      ∀ {pre post : List Msg} {m : Msg} {s : Serial.SampleEvent} {k : Nat}, (grown t1.reverse).reverse = pre ++ m :: post → m.body = .sample s →
        owner st.base.info.attrs s.id = some k →
        ∃ p ∈ ps, p.pid = (if options.testBit 0 then s.pid.getD 0 else 0) ∧ ∃ smp ∈ p.data.sample, 1 ≤ smp.value.getD (2 * k) 0 ∧
          All₂ (ShowsSpot ShowsArea (Held st.base.info.attrs (options.testBit 3) (pre ++ [m]) (s.pid.getD 0)) p.data)
            (stackOf (options.testBit 3) pre.reverse m.misc s) smp.locationId := by
  have hts : t = sortEvents (withBuildIds M.env.md5 ids st.base.info st.events) st.events := timeline_sort (by rw [attrs_kept]; exact ht)
  have hp := sort_perm (withBuildIds M.env.md5 ids st.base.info st.events) st.events
  obtain ⟨t1, h1, h2, h3, h4⟩ := prep_grown hM (options := options) (i := withBuildIds M.env.md5 ids st.base.info st.events) (read_shaped hb)
    (read_sized hb)
  rw [← hts] at h1 h2 h3
  refine ⟨t1, h1, h2, h3, fun {pre post m s k} hm hbody hk => ?_⟩
  refine sample_shown_from hb hc hspe h h4 (fun x hx b hb => ?_) hm hbody hk fun _ _ _ _ _ _ hsh => by
    obtain ⟨hn, o, x, y, h1, h2, h3, h4, h5, h6⟩ := hsh
    exact shown_area h1 h2 h3 h4 hn h5 h6
  exact (hn.mono fun m hm => by rw [hts] at hm; exact hp.mem_iff.1 hm).grown h1 x hx b hb

end Verif.Whole
