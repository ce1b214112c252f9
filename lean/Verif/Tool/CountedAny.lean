import Verif.Whole.Picture
import Verif.Tool.Counted

/-!
# The counters of a message, for any mappings
-/

namespace Verif.Whole
open Verif.Serial (Msg)

/-! ## Counting does not look at devices and inodes -/

theorem strip_back {m : Msg} {b : Serial.MMap} (h : (strip m).body = .mmap b) : ∃ a, m.body = .mmap a ∧
    b = { a with maj := 0, min := 0, ino := 0, inoGeneration := 0 } := by
  obtain ⟨type, misc, size, body, time⟩ := m
  cases body <;> first | (cases h; exact ⟨_, rfl, rfl⟩) | cases h

theorem strip_class {m : Msg} : Class (strip m) ↔ Class m := by
  obtain ⟨type, misc, size, body, time⟩ := m
  cases body <;> exact Iff.rfl

/-- A record made from another one belongs to the same type. -/
theorem from_class {t : List Msg} {m : Msg} (h : From t m) (hc : ∀ x ∈ t, Class x) (hl : ∀ x ∈ t, lookedAt x.type = true) :
    Class m ∧ lookedAt m.type = true := by
  obtain ⟨m0, h0, rfl | ⟨a, b, ha, rfl, -⟩⟩ := h
  · exact ⟨hc _ h0, hl _ h0⟩
  · refine ⟨?_, hl m0 h0⟩
    have := hc _ h0
    unfold Class at this ⊢
    rw [ha] at this
    exact this

theorem kernelMap_strip (m : Msg) : kernelMap (strip m) = kernelMap m := by
  obtain ⟨type, misc, size, body, time⟩ := m
  cases body <;> rfl

theorem mentions_strip (p : Nat) (m : Msg) : mentions p (strip m) = mentions p m := by
  obtain ⟨type, misc, size, body, time⟩ := m
  cases body <;> rfl

theorem any_strip {f : Msg → Bool} (hf : ∀ m, f (strip m) = f m) (h : List Msg) : (h.map strip).any f = h.any f := by
  rw [List.any_map]
  congr 1
  exact funext hf

theorem concerns_strip (h : List Msg) (p q : Nat) : concerns (h.map strip) p q = concerns h p q := by
  unfold concerns
  rw [any_strip (mentions_strip p)]

theorem places_strip : ∀ (h : List Msg) (p : Nat), places (h.map strip) p = places h p
  | [], _ => rfl
  | m :: h, p => by
    have ih := places_strip h
    rw [List.map_cons]
    cases hb : m.body with
    | mmap b =>
      have hs : (strip m).body = .mmap { b with maj := 0, min := 0, ino := 0, inoGeneration := 0 } := by rw [strip_mmap hb]
      have hp : placeOf (h.map strip) (strip m) { b with maj := 0, min := 0, ino := 0, inoGeneration := 0 } = placeOf h m b := by
        unfold placeOf
        rw [kernelMap_strip, any_strip kernelMap_strip]
      rw [places, places, hb, hs]
      simp only [hp, concerns_strip, ih]
    | fork f =>
      have hs : (strip m).body = .fork f := by rw [strip_other (by rw [hb]; intro b h; cases h)]; exact hb
      rw [places, places, hb, hs]
      simp only [concerns_strip, any_strip (mentions_strip _), ih]
    | _ =>
      have hs : (strip m).body = m.body := by rw [strip_other (by rw [hb]; intro b h; cases h)]
      rw [places, places, hs, hb]
      exact ih p

theorem reached_strip (h : List Msg) (p a : Nat) : reached (h.map strip) p a = reached h p a := by
  unfold reached
  rw [places_strip]

theorem covered_strip (h : List Msg) (s : Serial.SampleEvent) : covered (h.map strip) s = covered h s := by
  unfold covered
  congr 2
  exact funext fun a => reached_strip h _ a

theorem coveredIn_strip : ∀ h : List Msg, coveredIn (h.map strip) = coveredIn h
  | [] => rfl
  | m :: h => by
    rw [List.map_cons, coveredIn, coveredIn, coveredIn_strip h]
    cases hb : m.body with
    | mmap b =>
      have hs : (strip m).body = .mmap { b with maj := 0, min := 0, ino := 0, inoGeneration := 0 } := by rw [strip_mmap hb]
      rw [hs]
    | _ =>
      have hs : (strip m).body = m.body := by rw [strip_other (by rw [hb]; intro b h; cases h)]
      rw [hs, hb]
      try simp only [covered_strip]

theorem countP_strip {f : Msg → Bool} (hf : ∀ m, f (strip m) = f m) (h : List Msg) : (h.map strip).countP f = h.countP f := by
  rw [List.countP_map]
  congr 1
  exact funext hf

/-- What is counted is the same in lists of records that differ in devices and inodes only. -/
theorem counts_strip {l u : List Msg} (h : l.map strip = u.map strip) : l.countP sampleRecord = u.countP sampleRecord ∧
    l.countP mapRecord = u.countP mapRecord ∧ l.countP forkRecord = u.countP forkRecord ∧ l.countP exitRecord = u.countP exitRecord ∧
    coveredIn l.reverse = coveredIn u.reverse := by
  have one : ∀ {f : Msg → Bool}, (∀ m, f (strip m) = f m) → l.countP f = u.countP f := fun hf => by
    rw [← countP_strip hf l, ← countP_strip hf u, h]
  refine ⟨one fun m => ?_, one fun m => ?_, one fun m => ?_, one fun m => ?_, ?_⟩
  all_goals try (obtain ⟨type, misc, size, body, time⟩ := m; cases body <;> rfl)
  rw [← coveredIn_strip l.reverse, ← coveredIn_strip u.reverse, List.map_reverse, List.map_reverse, h]

theorem countP_rest {f : Msg → Bool} (hf : ∀ m, f m = true → notMap m = true) (l : List Msg) : (l.filter notMap).countP f = l.countP f := by
  rw [List.countP_filter]
  congr 1
  funext m
  cases h : f m with
  | true => rw [hf m h]; rfl
  | false => rfl

/-- Records other than mappings count the same if they are the same. -/
theorem counts_rest {l u : List Msg} (h : l.filter notMap = u.filter notMap) : l.countP sampleRecord = u.countP sampleRecord ∧
    l.countP forkRecord = u.countP forkRecord ∧ l.countP exitRecord = u.countP exitRecord := by
  have one : ∀ {f : Msg → Bool}, (∀ m, f m = true → notMap m = true) → l.countP f = u.countP f := fun hf => by
    rw [← countP_rest hf l, ← countP_rest hf u, h]
  refine ⟨one fun m => ?_, one fun m => ?_, one fun m => ?_⟩
  all_goals (obtain ⟨type, misc, size, body, time⟩ := m; cases body <;> intro h <;> first | rfl | cases h)

end Verif.Whole

namespace Verif.Tool
open Verif.Serial (Msg)
open Verif.Whole (Machine Tidy Timeline Renames Closed Still grown strip coveredIn sampleRecord mapRecord forkRecord exitRecord)

/-- C118: the counters in the message of a recording, for any mappings. Samples, forks and exits are counted as they are. The mappings that are counted, and
to which the addresses of the samples may belong, are those after huge pages got the names of their neighbours (`t1`), and pieces of one mapping were put
together (`u`). -/
theorem message_counts_any_partial {M : Machine} (hM : ∀ l, (M.order l).Perm l) (hk : ∃ k, k ≤ 60 ∧ M.page = 2 ^ k) {o : ParseOpts} (hd : o.discard = false)
    (now : Nat) {b : Bytes} {st : Data.St} (hb : File.readBytes { env := M.env } b = some (some st)) (ht : Tidy M.page st.events) :
    ∃ m t t1 u, serializeFrom M o now b = some (some m) ∧ (o.sort = true → Timeline st.base.info.attrs st.events t) ∧
      (o.sort = false → t = st.events) ∧ (o.huge = true → Renames t t1 ∧ Closed t t1 ∧ Still t t1) ∧ (o.huge = false → t1 = t) ∧
      (o.combine = true → u = (grown t1.reverse).reverse) ∧ (o.combine = false → u = t1) ∧
      m.stats = some
        { samples := t.countP sampleRecord
          mmaps := u.countP mapRecord
          forks := t.countP forkRecord
          exits := t.countP exitRecord
          remapped := o.remap
          mapped := coveredIn u.reverse } := by
  have hki := Whole.read_kind hb
  obtain ⟨l3, P, S, h1, h2, h3, h4, -, -, h7, l2, h8, h9⟩ := Whole.prep_any hM hk (O := o.parser M.page) rfl hd o.sort o.huge o.combine st.base.info
    (Whole.read_shaped hb) (Whole.read_sized hb) ht
  have hp := Whole.ordered_perm o.sort st.base.info st.events
  have hlo := Whole.read_looked hb
  have htl : o.sort = true → Timeline st.base.info.attrs st.events (Whole.ordered o.sort st.base.info st.events) := fun h => by
    rw [h]; exact Whole.sort_timeline _ _
  have htf : o.sort = false → Whole.ordered o.sort st.base.info st.events = st.events := fun h => by rw [h]; rfl
  generalize Whole.ordered o.sort st.base.info st.events = t at *
  obtain ⟨t1, a1, a2, a3, a4, a5⟩ : ∃ t1, (o.huge = true → Renames t t1 ∧ Closed t t1 ∧ Still t t1) ∧ (o.huge = false → t1 = t) ∧
      l2.map strip = t1.map strip ∧ (∀ m ∈ t1, Whole.From t m) ∧ t1.filter Whole.notMap = t.filter Whole.notMap := by
    cases hh : o.huge with
    | true =>
      rw [hh, if_pos rfl] at h8
      obtain ⟨l', t1, g1, g2, g3, g4, g5⟩ := Whole.deduce_renames hM (l := t) (fun m hm => Whole.read_shaped hb m (hp.mem_iff.1 hm))
        (fun m hm => Whole.read_sized hb m (hp.mem_iff.1 hm))
      rw [h8] at g1
      cases g1
      exact ⟨t1, fun _ => ⟨g2, g4, g5⟩, fun h => (by cases h), g3, Whole.renames_from g2, Whole.renames_rest g2⟩
    | false =>
      rw [hh, if_neg (by decide)] at h8
      have h8 := Option.some.inj h8
      subst h8
      exact ⟨t, fun h => (by cases h), fun _ => rfl, rfl, fun m hm => ⟨m, hm, .inl rfl⟩, rfl⟩
  obtain ⟨u, c1, c2, c3, c4, c5⟩ : ∃ u, (o.combine = true → u = (grown t1.reverse).reverse) ∧ (o.combine = false → u = t1) ∧
      l3.map strip = u.map strip ∧ (∀ m ∈ u, Whole.From t1 m) ∧ u.filter Whole.notMap = t1.filter Whole.notMap := by
    cases hc : o.combine with
    | true =>
      rw [hc, if_pos rfl] at h9
      refine ⟨_, fun _ => rfl, fun h => (by cases h), by rw [h9]; exact Whole.combine_grown a3, fun m hm => ?_, ?_⟩
      · exact (Whole.grown_from m (List.mem_reverse.1 hm)).mono fun y hy => List.mem_reverse.1 hy
      · rw [List.filter_reverse, Whole.grown_rest, ← List.filter_reverse, List.reverse_reverse]
    | false =>
      rw [hc, if_neg (by decide)] at h9
      exact ⟨t1, fun h => (by cases h), fun _ => rfl, by rw [h9]; exact a3, fun m hm => ⟨m, hm, .inl rfl⟩, rfl⟩
  have hin : ∀ m ∈ l3, Whole.Class m ∧ Whole.lookedAt m.type = true := fun m hm => by
    have : strip m ∈ u.map strip := by rw [← c3]; exact List.mem_map_of_mem hm
    obtain ⟨m', hm', e⟩ := List.mem_map.1 this
    have q1 := fun x (hx : x ∈ t) => (hki x (hp.mem_iff.1 hx)).cls
    have q2 := fun x (hx : x ∈ t) => hlo x (hp.mem_iff.1 hx)
    have r1 := fun x (hx : x ∈ t1) => Whole.from_class (a4 x hx) q1 q2
    have r2 := Whole.from_class (c4 m' hm') (fun x hx => (r1 x hx).1) (fun x hx => (r1 x hx).2)
    exact ⟨Whole.strip_class.1 (e ▸ Whole.strip_class.2 r2.1), by rw [← Whole.strip_type e]; exact r2.2⟩
  have hc := Whole.parser_tally h3 hd h2 (fun m hm => ⟨(hin m hm).1, fun b hb' => ⟨h7 m hm b hb', ((h4 m hm).range b hb').2.2.2⟩⟩)
  obtain ⟨n1, n2, n3, n4, n5⟩ := Whole.counts_strip c3
  obtain ⟨k1, k2, k3⟩ := Whole.counts_rest (c5.trans a5)
  refine ⟨_, t, t1, u, by rw [serialize_of hb, h1]; rfl, htl, htf, a1, a2, c1, c2, ?_⟩
  show some (MsgStats.mk P.stats.samples P.stats.mmaps P.stats.forks P.stats.exits o.remap P.stats.mapped) = _
  rw [hc, Whole.count_seen (fun m hm => (hin m hm).2) (fun m hm => (hin m hm).1)]
  unfold Whole.countAll
  simp only [List.countP_reverse, n1, n2, n3, n4, n5, k1, k2, k3]

/-- C118: no more samples are mapped than there are. -/
theorem mapped_le_any {M : Machine} (hM : ∀ l, (M.order l).Perm l) (hk : ∃ k, k ≤ 60 ∧ M.page = 2 ^ k) {o : ParseOpts} (hd : o.discard = false)
    {now : Nat} {b : Bytes} {st : Data.St} (hb : File.readBytes { env := M.env } b = some (some st)) (ht : Tidy M.page st.events)
    {m : Message} (hm : serializeFrom M o now b = some (some m)) : ∃ s, m.stats = some s ∧ s.mapped ≤ s.samples ∧ s.samples = st.events.countP sampleRecord := by
  obtain ⟨m', t, t1, u, h1, h2, h3, h4, h5, h6, h7, h8⟩ := message_counts_any_partial hM hk hd now hb ht
  rw [hm] at h1
  cases h1
  have r1 : t1.filter Whole.notMap = t.filter Whole.notMap := by
    cases hh : o.huge with
    | true => exact Whole.renames_rest (h4 hh).1
    | false => rw [h5 hh]
  have r2 : u.filter Whole.notMap = t1.filter Whole.notMap := by
    cases hc : o.combine with
    | true => rw [h6 hc, List.filter_reverse, Whole.grown_rest, ← List.filter_reverse, List.reverse_reverse]
    | false => rw [h7 hc]
  have hp : t.Perm st.events := by
    cases hs : o.sort with
    | true => rw [Whole.timeline_sort (h2 hs)]; exact Whole.ordered_perm true st.base.info st.events
    | false => rw [h3 hs]
  refine ⟨_, h8, ?_, hp.countP_eq _⟩
  have := covered_le u.reverse
  rw [List.countP_reverse, (Whole.counts_rest (r2.trans r1)).1] at this
  exact this

section
open Verif.File (fileImage)
open Verif.Whole (exMachine recordingOf exGap)
open Verif.Serial (exEnv)

/-- `message_counts_any_partial` applies to a recording with a huge page between two parts of a file. -/
example (now : Nat) : ∃ m t t1 u st, File.readBytes { env := exEnv } (fileImage (recordingOf exGap)) = some (some st) ∧
    serializeFrom exMachine {} now (fileImage (recordingOf exGap)) = some (some m) ∧ Timeline st.base.info.attrs st.events t ∧
    Renames t t1 ∧ Closed t t1 ∧ Still t t1 ∧ u = (grown t1.reverse).reverse ∧
    m.stats = some ⟨t.countP sampleRecord, u.countP mapRecord, t.countP forkRecord, t.countP exitRecord, false, coveredIn u.reverse⟩ := by
  have h : ((File.readBytes { env := exEnv } (fileImage (recordingOf exGap))).bind id).map (fun st => decide (Tidy 4096 st.events)) = some true := by
    decide +kernel
  generalize fileImage (recordingOf exGap) = b at *
  cases hr : File.readBytes { env := exEnv } b with
  | none => rw [hr] at h; cases h
  | some o =>
    cases o with
    | none => rw [hr] at h; cases h
    | some st =>
      rw [hr] at h
      have h := of_decide_eq_true (Option.some.inj h)
      obtain ⟨m, t, t1, u, h1, h2, -, h4, -, h6, -, h8⟩ := message_counts_any_partial (M := exMachine) (o := {}) (fun _ => .refl _) ⟨12, by decide, rfl⟩ rfl
        now hr h
      exact ⟨m, t, t1, u, st, rfl, h1, h2 rfl, (h4 rfl).1, (h4 rfl).2.1, (h4 rfl).2.2, h6 rfl, h8⟩

/-- C118 fails for the mappings of a recording with huge pages: three are counted as one, and its sample belongs to that. -/
theorem mappings_joined_violated :
    ((serializeFrom exMachine {} 5 (fileImage (recordingOf exGap))).bind id).map (·.stats) = some (some ⟨1, 1, 0, 0, false, 1⟩) ∧
    ((serializeFrom exMachine { huge := false, combine := false } 5 (fileImage (recordingOf exGap))).bind id).map (·.stats) =
      some (some ⟨1, 3, 0, 0, false, 1⟩) := by decide +kernel

end

end Verif.Tool
