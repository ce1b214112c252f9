import Verif.Missing.Spec
import Verif.Names.Props
import Verif.Parser.Outcome
import Verif.Disk.Props
import Verif.Whole.Titles

/-!
# Missing build IDs
-/

namespace Verif.Missing
open Verif.Parser (Ev Parsed)
open Verif.Util (cStr rawDataToHexString)
open Verif.Names (find toBuildIDs IsTable HexTexts PlainNames Says)

/-! ## Threads -/

theorem root_eq (id : Nat) (name : Bytes) : inRoot id name = rootPath id name := rfl

theorem notes_eq (m : Bytes) : moduleNotes m = notesPath m := rfl

theorem named_iff (p : Parsed) (name : Bytes) : Touches p name ↔ name ∈ named p := by
  unfold Touches named
  rw [List.mem_filterMap]
  constructor
  · rintro ⟨a, h, ha⟩
    refine ⟨a, ?_, ha⟩
    rcases h with rfl | rfl | h | ⟨b, hb, rfl | rfl⟩
    · exact List.mem_cons_self
    · exact List.mem_cons_of_mem _ List.mem_cons_self
    · exact List.mem_cons_of_mem _ (List.mem_cons_of_mem _ (List.mem_append_left _ h))
    · exact List.mem_cons_of_mem _ (List.mem_cons_of_mem _ (List.mem_append_right _ (List.mem_flatMap.2 ⟨b, hb, List.mem_cons_self⟩)))
    · exact List.mem_cons_of_mem _ (List.mem_cons_of_mem _ (List.mem_append_right _
        (List.mem_flatMap.2 ⟨b, hb, List.mem_cons_of_mem _ List.mem_cons_self⟩)))
  · rintro ⟨a, h, ha⟩
    refine ⟨a, ?_, ha⟩
    rcases List.mem_cons.1 h with h | h
    · exact .inl h
    · rcases List.mem_cons.1 h with h | h
      · exact .inr (.inl h)
      · rcases List.mem_append.1 h with h | h
        · exact .inr (.inr (.inl h))
        · obtain ⟨b, hb, h⟩ := List.mem_flatMap.1 h
          refine .inr (.inr (.inr ⟨b, hb, ?_⟩))
          rcases List.mem_cons.1 h with h | h
          · exact .inl h
          · rcases List.mem_cons.1 h with h | h
            · exact .inr h
            · cases h

theorem first_eq (name : Bytes) : (fun e : Ev => decide (e.type = 1 ∨ e.type = 10) && (e.mmap.getD {}).filename == name) =
    (fun e => isMap e && fileOf e == name) := by
  funext e
  unfold isMap fileOf
  rw [Bool.decide_or]

theorem insertNum_mem (n : Nat) : ∀ (l : List Nat) (x : Nat), x ∈ insertNum n l ↔ x = n ∨ x ∈ l
  | [], x => by simp [insertNum]
  | a :: l, x => by
    have ih := insertNum_mem n l x
    unfold insertNum
    by_cases h1 : n < a
    · rw [if_pos h1]; simp
    · rw [if_neg h1]
      by_cases h2 : n = a
      · rw [if_pos h2]; subst h2; simp
      · rw [if_neg h2, List.mem_cons, ih, List.mem_cons]
        constructor
        · rintro (h | h | h)
          · exact .inr (.inl h)
          · exact .inl h
          · exact .inr (.inr h)
        · rintro (h | h | h)
          · exact .inr (.inl h)
          · exact .inl h
          · exact .inr (.inr h)

theorem insertNum_sorted (n : Nat) : ∀ {l : List Nat}, l.Pairwise (· < ·) → (insertNum n l).Pairwise (· < ·)
  | [], _ => by simp [insertNum]
  | a :: l, h => by
    obtain ⟨h1, h2⟩ := List.pairwise_cons.1 h
    unfold insertNum
    by_cases k1 : n < a
    · rw [if_pos k1]
      refine List.pairwise_cons.2 ⟨fun b hb => ?_, h⟩
      rcases List.mem_cons.1 hb with rfl | hb
      · exact k1
      · exact Nat.lt_trans k1 (h1 b hb)
    · rw [if_neg k1]
      by_cases k2 : n = a
      · rw [if_pos k2]; exact h
      · rw [if_neg k2]
        refine List.pairwise_cons.2 ⟨fun b hb => ?_, insertNum_sorted n h2⟩
        rcases (insertNum_mem n l b).1 hb with rfl | hb
        · omega
        · exact h1 b hb

/-- The number that a sample enters. -/
def entry (e : Ev) : Nat := merge ((e.sample.map (·.pid)).getD 0) ((e.sample.map (·.tid)).getD 0)

theorem threadsOf_spec (name : Bytes) : ∀ (out : List (Ev × Parsed)) (acc : List Nat), acc.Pairwise (· < ·) →
    (threadsOf name out acc).Pairwise (· < ·) ∧ ∀ v, v ∈ threadsOf name out acc ↔ v ∈ acc ∨ ∃ x ∈ out, name ∈ named x.2 ∧ v = entry x.1
  | [], acc, h => ⟨h, fun v => by simp [threadsOf]⟩
  | (e, p) :: l, acc, h => by
    rw [threadsOf]
    by_cases hn : name ∈ named p
    · rw [if_pos hn]
      obtain ⟨h1, h2⟩ := threadsOf_spec name l _ (insertNum_sorted (entry e) h)
      refine ⟨h1, fun v => (h2 v).trans ?_⟩
      rw [insertNum_mem]
      constructor
      · rintro ((rfl | h) | ⟨x, hx, h⟩)
        · exact .inr ⟨_, List.mem_cons_self, hn, rfl⟩
        · exact .inl h
        · exact .inr ⟨x, List.mem_cons_of_mem _ hx, h⟩
      · rintro (h | ⟨x, hx, h, rfl⟩)
        · exact .inl (.inr h)
        · rcases List.mem_cons.1 hx with rfl | hx
          · exact .inl (.inl rfl)
          · exact .inr ⟨x, hx, h, rfl⟩
    · rw [if_neg hn]
      obtain ⟨h1, h2⟩ := threadsOf_spec name l acc h
      refine ⟨h1, fun v => (h2 v).trans ?_⟩
      constructor
      · rintro (h | ⟨x, hx, h⟩)
        · exact .inl h
        · exact .inr ⟨x, List.mem_cons_of_mem _ hx, h⟩
      · rintro (h | ⟨x, hx, h, rfl⟩)
        · exact .inl h
        · rcases List.mem_cons.1 hx with rfl | hx
          · exact absurd h hn
          · exact .inr ⟨x, hx, h, rfl⟩

theorem split_merge {p t : Nat} (ht : t < 2 ^ 32) : split (merge p t) = (p, t) := by
  unfold split merge
  generalize 2 ^ 32 = k at *
  have hk : 0 < k := by omega
  rw [Nat.mul_comm, Nat.mul_add_div hk, Nat.div_eq_of_lt ht, Nat.mul_add_mod, Nat.mod_eq_of_lt ht]
  simp

/-- Only samples have files noted, and their threads are numbers of 32 bits. -/
structure Noted (out : List (Ev × Parsed)) : Prop where
  sample : ∀ x ∈ out, named x.2 ≠ [] → ∃ s, x.1.sample = some s
  narrow : ∀ x ∈ out, ∀ s, x.1.sample = some s → s.tid < 2 ^ 32

theorem threads_in {out : List (Ev × Parsed)} (h : Noted out) (name : Bytes) : ThreadsIn out name ((threadsOf name out []).map split) := by
  obtain ⟨h1, h2⟩ := threadsOf_spec name out [] List.Pairwise.nil
  refine ⟨?_, fun pid tid => ?_⟩
  · refine List.pairwise_map.2 (h1.imp fun {a b} hab => ?_)
    unfold split
    generalize 2 ^ 32 = k
    simp only
    have e1 := Nat.div_add_mod a k
    have e2 := Nat.div_add_mod b k
    rcases Nat.lt_trichotomy (a / k) (b / k) with h | h | h
    · exact .inl h
    · right; refine ⟨h, ?_⟩
      rw [h] at e1
      omega
    · exfalso
      have : b / k ≤ a / k := Nat.le_of_lt h
      have h' := Nat.div_le_div_right (c := k) (Nat.le_of_lt hab)
      omega
  · rw [List.mem_map]
    constructor
    · rintro ⟨v, hv, e⟩
      rcases (h2 v).1 hv with hv | ⟨x, hx, hn, rfl⟩
      · cases hv
      · obtain ⟨s, hs⟩ := h.sample x hx (List.ne_nil_of_mem hn)
        have hw := h.narrow x hx s hs
        unfold entry at e
        rw [hs] at e
        simp only [Option.map_some, Option.getD_some] at e
        rw [split_merge hw] at e
        cases e
        exact ⟨x, hx, s, hs, rfl, rfl, (named_iff _ _).2 hn⟩
    · rintro ⟨x, hx, s, hs, rfl, rfl, hn⟩
      rw [named_iff] at hn
      refine ⟨entry x.1, (h2 _).2 (.inr ⟨x, hx, hn, rfl⟩), ?_⟩
      unfold entry
      rw [hs]
      simp only [Option.map_some, Option.getD_some]
      exact split_merge (h.narrow x hx s hs)

/-! ## Looking for a file -/

theorem readIfSame_eq (fs : Files) (d : Dso) {path : Bytes} (hp : (0 : UInt8) ∉ path) : readIfSame fs d path = idAt fs d.maj d.min d.ino path := by
  unfold readIfSame idAt
  rw [Names.cStr_plain hp]
  cases fs.node path with
  | none => rfl
  | some n =>
    simp only [Option.bind_some]
    have : (d.maj ≠ 0 ∧ d.min ≠ 0 ∧ sameInode d n = false) ↔ ¬ MayBe d.maj d.min d.ino n := by
      unfold MayBe sameInode
      by_cases h1 : d.maj = 0
      · simp [h1]
      · by_cases h2 : d.min = 0
        · simp [h2]
        · simp only [h1, h2, ne_eq, not_false_eq_true, true_and, false_or, eq_comm (a := n.maj), eq_comm (a := n.min), eq_comm (a := n.ino)]
          by_cases k1 : d.maj = n.maj <;> by_cases k2 : d.min = n.min <;> by_cases k3 : d.ino = n.ino <;> simp [k1, k2, k3]
    by_cases hm : MayBe d.maj d.min d.ino n
    · rw [if_pos hm, if_neg (fun h => this.1 h hm)]
    · rw [if_neg hm, if_pos (this.2 hm)]

theorem ascii_proc : (0 : UInt8) ∉ ascii "/proc/" ∧ (0 : UInt8) ∉ ascii "/root/" ∧ (0 : UInt8) ∉ ascii "/sys/module/" ∧
    (0 : UInt8) ∉ ascii "/notes/.note.gnu.build-id" := by decide +kernel

theorem root_plain {name : Bytes} (h : (0 : UInt8) ∉ name) (id : Nat) : (0 : UInt8) ∉ rootPath id name := by
  unfold rootPath
  simp only [List.mem_append, not_or]
  exact ⟨⟨⟨ascii_proc.1, Whole.decimal_no_nul id⟩, ascii_proc.2.1⟩, h⟩

theorem tryThreads_eq (fs : Files) (d : Dso) (hn : (0 : UInt8) ∉ d.name) : ∀ (l : List Nat) (last : Nat),
    idAt fs d.maj d.min d.ino (rootPath last d.name) = none →
    tryThreads fs d last l = ((l.map split).flatMap (fun t => [rootPath t.2 d.name, rootPath t.1 d.name])).findSome? (idAt fs d.maj d.min d.ino)
  | [], _, _ => rfl
  | v :: l, last, hl => by
    rw [tryThreads, readIfSame_eq fs d (root_plain hn _), List.map_cons, List.flatMap_cons, List.cons_append, List.cons_append, List.nil_append,
      List.findSome?_cons]
    cases h1 : idAt fs d.maj d.min d.ino (rootPath (split v).2 d.name) with
    | some id => rfl
    | none =>
      simp only
      by_cases h2 : (split v).1 = last ∨ (split v).1 = (split v).2
      · rw [if_pos h2, List.findSome?_cons]
        have : idAt fs d.maj d.min d.ino (rootPath (split v).1 d.name) = none := by
          rcases h2 with h | h
          · rw [h]; exact hl
          · rw [h]; exact h1
        rw [this]
        exact tryThreads_eq fs d hn l last hl
      · rw [if_neg h2, readIfSame_eq fs d (root_plain hn _), List.findSome?_cons]
        cases h3 : idAt fs d.maj d.min d.ino (rootPath (split v).1 d.name) with
        | some id => rfl
        | none => exact tryThreads_eq fs d hn l _ h3

theorem module_iff (name : Bytes) : (name.length ≥ 2 ∧ name.head? = some 91 ∧ name.getLast? = some 93) ↔ ∃ m, ModuleName name m := by
  constructor
  · rintro ⟨h1, h2, h3⟩
    obtain ⟨t, rfl⟩ : ∃ t, name = 91 :: t := by
      cases name with
      | nil => cases h2
      | cons a t => cases h2; exact ⟨t, rfl⟩
    have ht : t ≠ [] := fun h => by subst h; simp at h1
    rw [List.getLast?_cons] at h3
    refine ⟨t.dropLast, ?_⟩
    have e : t.getLast ht = 93 := by
      rw [List.getLast?_eq_some_getLast ht] at h3
      exact Option.some.inj h3
    show 91 :: t = 91 :: (t.dropLast ++ [93])
    rw [← e, List.dropLast_concat_getLast ht]
  · rintro ⟨m, rfl⟩
    refine ⟨by simp, rfl, ?_⟩
    exact List.getLast?_concat (l := 91 :: m)

theorem module_inner (m : Bytes) : ((91 :: m ++ [93]).drop 1).take ((91 :: m ++ [93]).length - 2) = m := by
  simp

/-- What is found for a file. -/
theorem found {fs : Files} {out : List (Ev × Parsed)} {name : Bytes} (ho : Noted out) (hn : (0 : UInt8) ∉ name)
    (h0 : fs.node (rootPath 0 name) = none) (hm : ∃ x ∈ out, isMap x.1 = true ∧ fileOf x.1 = name) {id : Bytes}
    (h : findBuildId fs (dsoOf out name) = some id) : Finds fs out name id := by
  have hname : (dsoOf out name).name = name := by
    unfold dsoOf; split
    · split <;> rfl
    · rfl
  have hthr : (dsoOf out name).threads = threadsOf name out [] := by
    unfold dsoOf; split
    · split <;> rfl
    · rfl
  unfold findBuildId at h
  rw [hname, hthr] at h
  cases hk : Normalizer.isKernelNonModuleName name with
  | true =>
    rw [hk, if_pos rfl] at h
    cases h
    exact .kernel hk
  | false =>
    rw [hk, if_neg (by decide)] at h
    by_cases hmod : ∃ m, ModuleName name m
    · rw [if_pos ((module_iff name).2 hmod)] at h
      obtain ⟨m, hmm⟩ := hmod
      obtain ⟨id', h', rfl⟩ := Option.map_eq_some_iff.1 h
      have hm0 : (0 : UInt8) ∉ m := fun hc => hn (by rw [hmm]; simp [hc])
      have e : (name.drop 1).take (name.length - 2) = m := by rw [hmm]; exact module_inner m
      have hp : (0 : UInt8) ∉ notesPath m := by
        unfold notesPath
        simp only [List.mem_append, not_or]
        exact ⟨⟨ascii_proc.2.2.1, hm0⟩, ascii_proc.2.2.2⟩
      rw [e, Names.cStr_plain hp] at h'
      exact .module m id' hk hmm h'
    · rw [if_neg (fun hc => hmod ((module_iff name).1 hc))] at h
      obtain ⟨maj, min, ino, hid, he⟩ : ∃ maj min ino, Identity out name maj min ino ∧
          ((dsoOf out name).maj = maj ∧ (dsoOf out name).min = min ∧ (dsoOf out name).ino = ino) := by
        refine ⟨_, _, _, ?_, rfl, rfl, rfl⟩
        obtain ⟨x, hx, hx1, hx2⟩ := hm
        cases hf : (out.map (·.1)).find? (fun e => isMap e && fileOf e == name) with
        | none =>
          have := List.find?_eq_none.1 hf x.1 (List.mem_map_of_mem hx)
          rw [hx1, hx2] at this
          simp at this
        | some e =>
          refine ⟨e, (by rw [first_eq]; exact hf), fun ht => ?_, fun ht => ?_⟩
          · unfold dsoOf; rw [hf]; simp only; rw [if_pos ht]; exact ⟨rfl, rfl, rfl⟩
          · unfold dsoOf; rw [hf]; simp only; rw [if_neg (by omega)]; exact ⟨rfl, rfl, rfl⟩
      have hi0 : idAt fs (dsoOf out name).maj (dsoOf out name).min (dsoOf out name).ino (rootPath 0 (dsoOf out name).name) = none := by
        rw [hname]; unfold idAt; rw [h0]; rfl
      have key := tryThreads_eq fs (dsoOf out name) (by rw [hname]; exact hn) (threadsOf name out []) 0 hi0
      rw [hname] at key
      have hown := readIfSame_eq fs (dsoOf out name) hn
      have hall : some id = some (((pathsFor ((threadsOf name out []).map split) name).findSome?
          (idAt fs (dsoOf out name).maj (dsoOf out name).min (dsoOf out name).ino)).getD []) := by
        rw [← h, key, hown]
        unfold pathsFor
        simp only [root_eq]
        rw [List.findSome?_append]
        cases (((threadsOf name out []).map split).flatMap (fun t => [rootPath t.2 name, rootPath t.1 name])).findSome?
            (idAt fs (dsoOf out name).maj (dsoOf out name).min (dsoOf out name).ino) with
        | some v => rfl
        | none =>
          simp only [Option.none_or, List.findSome?_cons, List.findSome?_nil]
          cases idAt fs (dsoOf out name).maj (dsoOf out name).min (dsoOf out name).ino name <;> rfl
      have := Option.some.inj hall
      rw [this]
      obtain ⟨rfl, rfl, rfl⟩ := he
      exact .file _ _ _ _ hk (fun m hc => hmod ⟨m, hc⟩) (threads_in ho name) hid

end Verif.Missing
