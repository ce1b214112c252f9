import Verif.Missing.Walk

/-!
# Build IDs read from files
-/

namespace Verif.Missing
open Verif.Parser (Ev Parsed State)
open Verif.Names (Says IsTable HexTexts PlainNames toBuildIDs buildIdText)

/-- What can be read as a file has less than `2 ^ 63` bytes. -/
def Readable (fs : Files) : Prop := ∀ p, fs.source p = none ∨ ∃ b, fs.source p = some (.file b) ∧ b.length < 2 ^ 63

/-- There is no `/proc/0`. -/
def NoIdle (fs : Files) : Prop := ∀ name, fs.node (inRoot 0 name) = none

theorem find_total {fs : Files} (h : Readable fs) (d : Dso) : ∃ id, findBuildId fs d = some id := by
  unfold findBuildId
  split
  · exact ⟨_, rfl⟩
  · split
    · have : ∀ p, ∃ x, Disk.readModuleBuildId (fs.source p) = some x := by
        intro p
        rcases h p with h1 | ⟨b, h1, h2⟩
        · rw [h1]; exact ⟨none, rfl⟩
        · rw [h1]; exact (Disk.module_safe h2).1
      obtain ⟨x, hx⟩ := this _
      rw [hx]
      exact ⟨_, rfl⟩
    · split <;> exact ⟨_, rfl⟩

theorem dsoNames_spec : ∀ (out : List (Ev × Parsed)) (acc : List Bytes), acc.Pairwise (fun a b => Names.less a b = true) →
    (dsoNames out acc).Pairwise (fun a b => Names.less a b = true) ∧
    ∀ n, n ∈ dsoNames out acc ↔ n ∈ acc ∨ ∃ x ∈ out, isMap x.1 = true ∧ fileOf x.1 = n
  | [], acc, h => ⟨h, fun n => by simp [dsoNames]⟩
  | (e, p) :: l, acc, h => by
    rw [dsoNames]
    by_cases hm : isMap e = true
    · rw [if_pos hm]
      obtain ⟨h1, h2⟩ := dsoNames_spec l _ (Names.insert_sorted (fileOf e) h)
      refine ⟨h1, fun n => ?_⟩
      rw [h2, Names.insert_mem]
      constructor
      · rintro ((rfl | h) | ⟨x, hx, h⟩)
        · exact .inr ⟨_, List.mem_cons_self, hm, rfl⟩
        · exact .inl h
        · exact .inr ⟨x, List.mem_cons_of_mem _ hx, h⟩
      · rintro (h | ⟨x, hx, h⟩)
        · exact .inl (.inr h)
        · rcases List.mem_cons.1 hx with rfl | hx
          · exact .inl (.inl h.2.symm)
          · exact .inr ⟨x, hx, h⟩
    · rw [if_neg hm]
      obtain ⟨h1, h2⟩ := dsoNames_spec l _ h
      refine ⟨h1, fun n => ?_⟩
      rw [h2]
      constructor
      · rintro (h | ⟨x, hx, h⟩)
        · exact .inl h
        · exact .inr ⟨x, List.mem_cons_of_mem _ hx, h⟩
      · rintro (h | ⟨x, hx, h⟩)
        · exact .inl h
        · rcases List.mem_cons.1 hx with rfl | hx
          · exact absurd h.1 hm
          · exact .inr ⟨x, hx, h⟩

theorem dso_nodup (out : List (Ev × Parsed)) : (dsoNames out []).Nodup := by
  have := (dsoNames_spec out [] List.Pairwise.nil).1
  exact this.imp fun {a b} h hab => by rw [hab, Names.less_irrefl] at h; cases h

theorem newIds_spec {fs : Files} (h : Readable fs) (out : List (Ev × Parsed)) : ∀ (names : List Bytes), names.Nodup →
    ∃ ids, newIds fs out names = some ids ∧ IsTable ids ∧ HexTexts ids ∧ (∀ p ∈ ids, p.1 ∈ names) ∧
    ∀ n t, Says ids n t ↔ n ∈ names ∧ (dsoOf out n).threads ≠ [] ∧ ∃ id, findBuildId fs (dsoOf out n) = some id ∧ id ≠ [] ∧
      t = Util.rawDataToHexString id
  | [], _ => ⟨[], rfl, List.nodup_nil, fun p hp => (by cases hp), fun p hp => (by cases hp), fun n t => by
      constructor
      · intro hc; cases hc
      · rintro ⟨hc, -⟩; cases hc⟩
  | n :: l, hn => by
    obtain ⟨hn1, hn2⟩ := List.nodup_cons.1 hn
    obtain ⟨ids, h1, h2, h3, h4, h5⟩ := newIds_spec h out l hn2
    rw [newIds]
    have skip : ∀ (P : Bytes → Prop), ¬ P n → ∀ k, (k ∈ n :: l ∧ P k) ↔ (k ∈ l ∧ P k) := by
      intro P hP k
      constructor
      · rintro ⟨hk, hp⟩
        rcases List.mem_cons.1 hk with rfl | hk
        · exact absurd hp hP
        · exact ⟨hk, hp⟩
      · rintro ⟨hk, hp⟩; exact ⟨List.mem_cons_of_mem _ hk, hp⟩
    by_cases ht : (dsoOf out n).threads = []
    · rw [if_pos ht]
      refine ⟨ids, h1, h2, h3, fun p hp => List.mem_cons_of_mem _ (h4 p hp), fun k t => ?_⟩
      rw [h5]
      exact (skip (fun k => (dsoOf out k).threads ≠ [] ∧ ∃ id, findBuildId fs (dsoOf out k) = some id ∧ id ≠ [] ∧
        t = Util.rawDataToHexString id) (fun hc => hc.1 ht) k).symm
    · rw [if_neg ht]
      obtain ⟨id, hid⟩ := find_total h (dsoOf out n)
      rw [hid, h1]
      by_cases he : id = []
      · refine ⟨ids, by simp [he], h2, h3, fun p hp => List.mem_cons_of_mem _ (h4 p hp), fun k t => ?_⟩
        rw [h5]
        refine (skip (fun k => (dsoOf out k).threads ≠ [] ∧ ∃ id, findBuildId fs (dsoOf out k) = some id ∧ id ≠ [] ∧
          t = Util.rawDataToHexString id) ?_ k).symm
        rintro ⟨-, id', hid', hne, -⟩
        rw [hid] at hid'
        exact hne (Option.some.inj hid' ▸ he)
      · refine ⟨(n, Util.rawDataToHexString id) :: ids, by simp [he], ?_, ?_, ?_, fun k t => ?_⟩
        · refine List.nodup_cons.2 ⟨fun hc => ?_, h2⟩
          obtain ⟨p, hp, hpn⟩ := List.mem_map.1 hc
          simp only at hpn
          rw [← hpn] at hn1
          exact hn1 (h4 p hp)
        · intro p hp
          rcases List.mem_cons.1 hp with rfl | hp
          · exact ⟨id, rfl⟩
          · exact h3 p hp
        · intro p hp
          rcases List.mem_cons.1 hp with rfl | hp
          · exact List.mem_cons_self
          · exact List.mem_cons_of_mem _ (h4 p hp)
        · constructor
          · intro hs
            rcases List.mem_cons.1 hs with hs | hs
            · obtain ⟨rfl, rfl⟩ := Prod.mk.inj hs
              exact ⟨List.mem_cons_self, ht, id, hid, he, rfl⟩
            · obtain ⟨k1, k2⟩ := (h5 k t).1 hs
              exact ⟨List.mem_cons_of_mem _ k1, k2⟩
          · rintro ⟨hk, k2, id', k3, k4, k5⟩
            rcases List.mem_cons.1 hk with rfl | hk
            · rw [hid] at k3
              cases k3
              rw [k5]
              exact List.mem_cons_self
            · exact List.mem_cons_of_mem _ ((h5 k t).2 ⟨hk, k2, id', k3, k4, k5⟩)

/-- What the parser noted: files of mappings, and samples of threads. -/
structure Walked (out : List (Ev × Parsed)) : Prop where
  noted : Noted out
  maps : ∀ x ∈ out, ∀ n ∈ named x.2, ∃ y ∈ out, isMap y.1 = true ∧ fileOf y.1 = n
  plain : ∀ x ∈ out, isMap x.1 = true → (0 : UInt8) ∉ fileOf x.1

theorem dso_threads (out : List (Ev × Parsed)) (n : Bytes) : (dsoOf out n).threads = threadsOf n out [] := by
  unfold dsoOf
  split
  · split <;> rfl
  · rfl

theorem threads_hit {out : List (Ev × Parsed)} (h : Noted out) (n : Bytes) :
    (dsoOf out n).threads ≠ [] ↔ ∃ p t, SampledIn out n p t := by
  rw [dso_threads]
  have k := threads_in h n
  constructor
  · intro hne
    obtain ⟨v, l, hv⟩ := List.exists_cons_of_ne_nil hne
    have : split v ∈ (threadsOf n out []).map split := by rw [hv]; exact List.mem_cons_self
    exact ⟨_, _, (k.mem _ _).1 this⟩
  · rintro ⟨p, t, hpt⟩ hc
    have := (k.mem _ _).2 hpt
    rw [hc] at this
    cases this

/-- The table of build IDs afterwards. -/
theorem fill_spec (md5 : Bytes → Nat) {fs : Files} (hr : Readable fs) (hi : NoIdle fs) {out : List (Ev × Parsed)} (d : Names.Data) :
    ∃ d', fillIn md5 fs out d = some d' ∧ d'.events = d.events ∧ d'.sampleTypes = d.sampleTypes ∧
      (∀ i, i ≠ 2 → d'.mask.testBit i = d.mask.testBit i) ∧ (Walked out → ∀ n,
        ((∃ p t, SampledIn out n p t) → ∃ id, Finds fs out n id ∧ Names.find (toBuildIDs d'.buildIds []) n =
          if id = [] then Names.find (toBuildIDs d.buildIds []) n else some (buildIdText id)) ∧
        ((∀ p t, ¬ SampledIn out n p t) → Names.find (toBuildIDs d'.buildIds []) n = Names.find (toBuildIDs d.buildIds []) n)) := by
  obtain ⟨ids, h1, h2, h3, h4, h5⟩ := newIds_spec hr out _ (dso_nodup out)
  have hnames := (dsoNames_spec out [] List.Pairwise.nil).2
  unfold fillIn
  rw [h1]
  refine ⟨if ids = [] then d else (Names.injectBuildIDs md5 ids d).1, rfl, ?_⟩
  have hfr := Names.inject_frame md5 ids d
  refine ⟨?_, ?_, ?_, fun hw n => ?_⟩
  · by_cases h : ids = []
    · rw [if_pos h]
    · rw [if_neg h]; exact hfr.2.1
  · by_cases h : ids = []
    · rw [if_pos h]
    · rw [if_neg h]; exact hfr.2.2
  · intro i hi2
    by_cases h : ids = []
    · rw [if_pos h]
    · rw [if_neg h, hfr.1]; simp [hi2]
  · have hpl : PlainNames ids := by
      intro p hp
      rcases (hnames p.1).1 (h4 p hp) with hc | ⟨x, hx, hx1, hx2⟩
      · cases hc
      · rw [← hx2]; exact hw.plain x hx hx1
    have same : (∀ s, ¬ Says ids n s) → Names.find (toBuildIDs (if ids = [] then d else (Names.injectBuildIDs md5 ids d).1).buildIds []) n =
        Names.find (toBuildIDs d.buildIds []) n := by
      intro hno
      by_cases h : ids = []
      · rw [if_pos h]
      · rw [if_neg h]; exact Names.inject_others md5 h2 h3 hpl d n hno
    constructor
    · intro hit
      obtain ⟨p, t, hpt⟩ := id hit
      obtain ⟨id, hid⟩ := find_total hr (dsoOf out n)
      obtain ⟨x, hx, s, hs, hs1, hs2, hxn⟩ := hpt
      obtain ⟨y, hy, hy1, hy2⟩ := hw.maps x hx n ((named_iff _ _).1 hxn)
      have hn0 : (0 : UInt8) ∉ n := by rw [← hy2]; exact hw.plain y hy hy1
      refine ⟨id, found hw.noted hn0 (hi n) ⟨y, hy, hy1, hy2⟩ hid, ?_⟩
      by_cases he : id = []
      · rw [if_pos he]
        refine same fun s hc => ?_
        obtain ⟨-, -, id', k1, k2, -⟩ := (h5 n s).1 hc
        rw [hid] at k1
        exact k2 (Option.some.inj k1 ▸ he)
      · rw [if_neg he]
        have hsay : Says ids n (Util.rawDataToHexString id) :=
          (h5 n _).2 ⟨(hnames n).2 (.inr ⟨y, hy, hy1, hy2⟩), (threads_hit hw.noted n).2 hit, id, hid, he, rfl⟩
        have hne : ids ≠ [] := fun hc => by rw [hc] at hsay; cases hsay
        rw [if_neg hne, (Names.inject_reported md5 h2 h3 hpl d).2 n _ hsay]
        unfold buildIdText
        rw [Names.hex_length]
    · intro hno
      refine same fun s hc => ?_
      obtain ⟨-, k, -⟩ := (h5 n s).1 hc
      obtain ⟨p, t, hpt⟩ := (threads_hit hw.noted n).1 k
      exact hno p t hpt

end Verif.Missing
