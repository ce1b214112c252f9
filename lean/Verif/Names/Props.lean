import Verif.Names.Spec
import Verif.Util.Props
import Verif.Text.Props

/-!
# Theorems about file names, build IDs and the order of events

C29 `sorted`, `stable_unique`; C30 `renamed_events`, `renamed_entries`, `rename_too_big_violated`; C50
`inject_reported`, `inject_others`, `inject_entries`, `inject_ok_iff`; C93 `localized`; C94 `alternates`; C95
`filenames_spec`; C96 `hash_violated`.
-/

namespace Verif.Names
open Verif.Util (rawDataToHexString hexStringToRawData cStr align)
open Verif.Text (perfizeBuildID trimZeroes zeros)

/-! ## Tables -/

theorem find_cons {β : Type} (p : Bytes × β) (m : List (Bytes × β)) (k : Bytes) :
    find (p :: m) k = if p.1 = k then some p.2 else find m k := by
  unfold find
  rw [List.find?_cons]
  by_cases h : p.1 = k
  · simp [h]
  · have hb : (p.1 == k) = false := by simpa using h
    rw [hb, if_neg h]

theorem find_mem {β : Type} {m : List (Bytes × β)} {k : Bytes} {v : β} (h : find m k = some v) : (k, v) ∈ m := by
  induction m with
  | nil => simp [find] at h
  | cons p m ih =>
    rw [find_cons] at h
    split at h
    · rename_i hk
      simp only [Option.some.injEq] at h
      subst hk; subst h
      exact List.mem_cons_self ..
    · exact List.mem_cons_of_mem _ (ih h)

theorem find_iff {β : Type} {m : List (Bytes × β)} (hm : IsTable m) {k : Bytes} {v : β} :
    find m k = some v ↔ (k, v) ∈ m := by
  refine ⟨find_mem, ?_⟩
  induction m with
  | nil => simp
  | cons p m ih =>
    unfold IsTable at hm ih
    simp only [List.map_cons, List.nodup_cons] at hm
    intro h
    rw [find_cons]
    rcases List.mem_cons.1 h with rfl | h
    · simp
    · rw [if_neg, ih hm.2 h]
      rintro rfl
      exact hm.1 (List.mem_map.2 ⟨_, h, rfl⟩)

theorem find_none_iff {β : Type} {m : List (Bytes × β)} {k : Bytes} : find m k = none ↔ ∀ v, (k, v) ∉ m := by
  induction m with
  | nil => simp [find]
  | cons p m ih =>
    rw [find_cons]
    split
    · rename_i h
      subst h
      simp only [reduceCtorEq, false_iff]
      exact fun h => h p.2 (List.mem_cons_self ..)
    · rename_i h
      rw [ih]
      constructor
      · intro h' v hv
        rcases List.mem_cons.1 hv with e | hv
        · exact h (by rw [← e])
        · exact h' v hv
      · exact fun h' v hv => h' v (List.mem_cons_of_mem _ hv)

/-! ## Build ID texts -/

theorem hex_length (bs : Bytes) : (rawDataToHexString bs).length = 2 * bs.length := (Util.C15_digits bs).1

theorem perfize_hex (bs : Bytes) : perfizeBuildID (rawDataToHexString bs) = buildIdText bs := by
  unfold perfizeBuildID buildIdText
  rw [hex_length]

theorem hex_append (a b : Bytes) : rawDataToHexString (a ++ b) = rawDataToHexString a ++ rawDataToHexString b := by
  induction a with
  | nil => rfl
  | cons x a ih => simp [rawDataToHexString, ih]

theorem hex_take (a : Bytes) (k : Nat) : rawDataToHexString (a.take k) = (rawDataToHexString a).take (2 * k) := by
  induction a generalizing k with
  | nil => simp [rawDataToHexString]
  | cons x a ih =>
    cases k with
    | zero => simp [rawDataToHexString]
    | succ k =>
      rw [List.take_succ_cons, rawDataToHexString, ih, rawDataToHexString, show 2 * (k + 1) = 2 * k + 1 + 1 by omega]
      simp

/-- The table of the code and that of the specification. -/
theorem toBuildIDs_find (l : List BuildId) (m : List (Bytes × Bytes)) (n : Bytes) :
    find (toBuildIDs l m) n = (reported l n).or (find m n) := by
  induction l generalizing m with
  | nil => simp [toBuildIDs, reported]
  | cons b t ih =>
    rw [toBuildIDs, ih, set, find_cons, perfize_hex]
    unfold reported
    by_cases h : b.filename = n
    · subst h
      rw [if_pos rfl, List.filter_cons_of_pos (by simp), List.getLast?_cons]
      cases (List.filter (fun b' => decide (b'.filename = b.filename)) t).getLast? <;> simp
    · rw [if_neg h, List.filter_cons_of_neg (by simpa using h)]

/-- C50: the table from names to build IDs reports for a name the build ID of its last entry, as 40 digits, and
nothing else. -/
theorem table_spec (d : Data) (n : Bytes) : find (toBuildIDs d.buildIds []) n = reported d.buildIds n := by
  rw [toBuildIDs_find]
  simp [find]

/-! ## New entries -/

/-- What a new entry looks like; there always is one. -/
theorem newEntry_ok (md5 : Bytes → Nat) (s f : Bytes) (misc : Nat) :
    ∃ b, newEntry md5 s f misc = some b ∧ b.misc = misc ∧ b.pid = 2 ^ 32 - 1 ∧ b.filename = cStr f ∧
      b.md5 = md5 (cStr f) ∧ b.injected = true ∧ b.size = (if misc.testBit 15 then some 0 else none) ∧
      buildIdText b.hash = rawDataToHexString (hexStringToRawData s (List.replicate 20 0) 20).2 ∧
      b.hash.length % 4 = 0 ∧ ¬ zeros 8 <:+ rawDataToHexString b.hash := by
  unfold newEntry
  have hl : (hexStringToRawData s (List.replicate 20 0) 20).2.length = 20 := by
    rw [(Util.C15_writes_within s (List.replicate 20 0) 20).1]; simp
  generalize (hexStringToRawData s (List.replicate 20 0) 20).2 = array at hl
  obtain ⟨⟨k, hk⟩, hz⟩ := Text.trimZeroes_spec (rawDataToHexString array)
  have hlen : (trimZeroes (rawDataToHexString array)).length + 8 * k = 40 := by
    have := congrArg List.length hk
    rw [hex_length, List.length_append, zeros, List.length_replicate] at this
    omega
  have ht : trimZeroes (rawDataToHexString array) = rawDataToHexString (array.take (20 - 4 * k)) := by
    rw [hex_take]
    conv => rhs; rw [hk]
    rw [List.take_append_of_le_length (by omega), List.take_of_length_le (by omega)]
  have hround := Util.C15_roundtrip (array.take (20 - 4 * k)) (List.replicate 20 0) 20
    (by rw [List.length_take]; omega) (by simp)
  have hp := Text.C21_perfize_trim (rawDataToHexString array) (by rw [hex_length, hl])
  simp only
  rw [ht, hround]
  have htk : (array.take (20 - 4 * k)).length = 20 - 4 * k := by rw [List.length_take]; omega
  have hh : (array.take (20 - 4 * k) ++ List.drop (array.take (20 - 4 * k)).length (List.replicate 20 (0 : UInt8))).take
      ((rawDataToHexString (array.take (20 - 4 * k))).length / 2) = array.take (20 - 4 * k) := by
    rw [hex_length, Nat.mul_div_cancel_left _ (by decide : 0 < 2), List.take_left']
    rfl
  refine ⟨_, if_pos rfl, rfl, rfl, rfl, rfl, rfl, rfl, ?_, ?_, ?_⟩
  · simp only [hh]
    rw [← perfize_hex, ← ht]
    exact hp
  · show (List.take _ (_ ++ _)).length % 4 = 0
    rw [hh, htk]; omega
  · simp only [hh]
    rw [← ht]
    exact hz

/-- Digits of a build ID in an array of 20 zeros. -/
theorem array_text (bs : Bytes) : rawDataToHexString (hexStringToRawData (rawDataToHexString bs) (List.replicate 20 0) 20).2 =
    buildIdText bs := by
  by_cases h : bs.length ≤ 20
  · rw [Util.C15_roundtrip bs _ 20 h (by simp)]
    simp only [List.drop_replicate]
    rw [hex_append]
    unfold buildIdText
    rw [List.take_of_length_le (by rw [hex_length]; omega)]
    congr 1
    have : ∀ n, rawDataToHexString (List.replicate n 0) = List.replicate (2 * n) 48 := by
      intro n
      induction n with
      | zero => rfl
      | succ n ih =>
        rw [List.replicate_succ, rawDataToHexString, ih, show 2 * (n + 1) = 2 * n + 1 + 1 by omega,
          List.replicate_succ, List.replicate_succ]
        rfl
    rw [this]
    congr 1
    omega
  · have hr := (Util.C15_rejects_non_hex_partial (rawDataToHexString bs) (List.replicate 20 0) 20 (by simp)
      (Util.rawDataToHexString_special bs)).2 _ (Util.hexSpec_rawData bs 20)
    rw [hr]
    have hlen : (bs.take 20).length = 20 := by rw [List.length_take]; omega
    rw [hlen, show List.drop 20 (List.replicate 20 (0 : UInt8)) = [] by rfl, List.append_nil, hex_take]
    unfold buildIdText
    rw [show 40 - 2 * bs.length = 0 by omega]
    simp

/-! ## Injection -/

/-- The existing entries, if every text for one of their names can be read. -/
theorem updateEntries_ok (ids : List (Bytes × Bytes)) (l : List BuildId) :
    (updateEntries ids l).2.2 = true ↔ ∀ b ∈ l, ∀ s, find ids b.filename = some s →
      (hexStringToRawData s (List.replicate (s.length / 2) 0) (s.length / 2)).1 = true := by
  induction l with
  | nil => simp [updateEntries]
  | cons b t ih =>
    rw [updateEntries]
    cases hf : find ids b.filename with
    | none =>
      simp only [ih]
      constructor
      · intro h b' hb' s hs
        rcases List.mem_cons.1 hb' with rfl | hb'
        · rw [hf] at hs; cases hs
        · exact h b' hb' s hs
      · exact fun h b' hb' => h b' (List.mem_cons_of_mem _ hb')
    | some s =>
      simp only
      by_cases hok : (hexStringToRawData s (List.replicate (s.length / 2) 0) (s.length / 2)).1 = true
      · rw [if_pos hok]
        simp only [ih]
        constructor
        · intro h b' hb' s' hs
          rcases List.mem_cons.1 hb' with rfl | hb'
          · rw [hf] at hs; simp only [Option.some.injEq] at hs; subst hs; exact hok
          · exact h b' hb' s' hs
        · exact fun h b' hb' => h b' (List.mem_cons_of_mem _ hb')
      · rw [if_neg hok]
        simp only [Bool.false_eq_true, false_iff]
        exact fun h => hok (h b (List.mem_cons_self ..) s hf)

/-- An entry after the update. -/
def updated (ids : List (Bytes × Bytes)) (b : BuildId) : BuildId :=
  match find ids b.filename with
  | none => b
  | some s =>
    let data := (hexStringToRawData s (List.replicate (s.length / 2) 0) (s.length / 2)).2
    { b with hash := data, injected := true }

theorem updateEntries_eq {ids : List (Bytes × Bytes)} {l : List BuildId} (h : (updateEntries ids l).2.2 = true) :
    (updateEntries ids l).1 = l.map (updated ids) ∧
      ∀ f, f ∈ (updateEntries ids l).2.1 ↔ (find ids f).isSome ∧ ∃ b ∈ l, b.filename = f := by
  induction l with
  | nil => simp [updateEntries]
  | cons b t ih =>
    rw [updateEntries] at h ⊢
    cases hf : find ids b.filename with
    | none =>
      rw [hf] at h
      simp only at h ⊢
      obtain ⟨h1, h2⟩ := ih h
      refine ⟨by rw [h1, List.map_cons, updated, hf], fun f => ?_⟩
      rw [h2]
      constructor
      · rintro ⟨hs, b', hb', hn⟩; exact ⟨hs, b', List.mem_cons_of_mem _ hb', hn⟩
      · rintro ⟨hs, b', hb', hn⟩
        rcases List.mem_cons.1 hb' with rfl | hb'
        · rw [← hn, hf] at hs; cases hs
        · exact ⟨hs, b', hb', hn⟩
    | some s =>
      rw [hf] at h
      simp only at h ⊢
      by_cases hok : (hexStringToRawData s (List.replicate (s.length / 2) 0) (s.length / 2)).1 = true
      · rw [if_pos hok] at h ⊢
        obtain ⟨h1, h2⟩ := ih h
        refine ⟨by rw [h1, List.map_cons, updated, hf], fun f => ?_⟩
        simp only [List.mem_cons, h2]
        constructor
        · rintro (rfl | ⟨hs, b', hb', hn⟩)
          · exact ⟨by rw [hf]; rfl, b, .inl rfl, rfl⟩
          · exact ⟨hs, b', .inr hb', hn⟩
        · rintro ⟨hs, b', hb' | hb', hn⟩
          · left; rw [← hn, hb']
          · exact .inr ⟨hs, b', hb', hn⟩
      · rw [if_neg hok] at h; cases h

theorem addEntries_cons_in {md5 : Bytes → Nat} {miscs : List (Bytes × Nat)} {up : List Bytes} {f s : Bytes}
    {t : List (Bytes × Bytes)} (h : f ∈ up) : addEntries md5 miscs up ((f, s) :: t) = addEntries md5 miscs up t := by
  rw [addEntries, if_pos h]

theorem addEntries_cons_out {md5 : Bytes → Nat} {miscs : List (Bytes × Nat)} {up : List Bytes} {f s : Bytes}
    {t : List (Bytes × Bytes)} (h : f ∉ up) : ∃ b, newEntry md5 s f ((find miscs f).getD 1) = some b ∧
      addEntries md5 miscs up ((f, s) :: t) = (b :: (addEntries md5 miscs up t).1, (addEntries md5 miscs up t).2) := by
  obtain ⟨b, hb, -⟩ := newEntry_ok md5 s f ((find miscs f).getD 1)
  exact ⟨b, hb, by rw [addEntries, if_neg h, hb]⟩

theorem addEntries_ok (md5 : Bytes → Nat) (miscs : List (Bytes × Nat)) (up : List Bytes) (ids : List (Bytes × Bytes)) :
    (addEntries md5 miscs up ids).2 = true := by
  induction ids with
  | nil => rfl
  | cons p t ih =>
    obtain ⟨f, s⟩ := p
    by_cases h : f ∈ up
    · rw [addEntries_cons_in h]; exact ih
    · obtain ⟨b, -, h2⟩ := addEntries_cons_out (md5 := md5) (miscs := miscs) (s := s) (t := t) h
      rw [h2]; exact ih

/-- C50: the injection fails exactly if the text given for a file that already has an entry cannot be read. -/
theorem inject_ok_iff (md5 : Bytes → Nat) (ids : List (Bytes × Bytes)) (d : Data) :
    (injectBuildIDs md5 ids d).2 = true ↔ ∀ b ∈ d.buildIds, ∀ s, find ids b.filename = some s →
      (hexStringToRawData s (List.replicate (s.length / 2) 0) (s.length / 2)).1 = true := by
  rw [← updateEntries_ok]
  unfold injectBuildIDs
  simp only
  by_cases h : (updateEntries ids d.buildIds).2.2 = true
  · simp [h, addEntries_ok]
  · simp [h]

/-- Texts of build IDs: two lower-case digits for each byte. -/
def HexTexts (ids : List (Bytes × Bytes)) : Prop := ∀ p ∈ ids, ∃ bs, p.2 = rawDataToHexString bs

/-- Names without NUL. -/
def PlainNames (ids : List (Bytes × Bytes)) : Prop := ∀ p ∈ ids, (0 : UInt8) ∉ p.1

theorem hex_read (bs : Bytes) : hexStringToRawData (rawDataToHexString bs)
    (List.replicate ((rawDataToHexString bs).length / 2) 0) ((rawDataToHexString bs).length / 2) = (true, bs) := by
  rw [hex_length, Nat.mul_div_cancel_left _ (by decide : 0 < 2), Util.C15_roundtrip bs _ _ (Nat.le_refl _) (by simp)]
  simp

theorem inject_hex (md5 : Bytes → Nat) {ids : List (Bytes × Bytes)} (hx : HexTexts ids) (d : Data) :
    (updateEntries ids d.buildIds).2.2 = true := by
  rw [updateEntries_ok]
  intro b _ s hs
  obtain ⟨bs, h⟩ := hx _ (find_mem hs)
  simp only at h
  subst h
  rw [hex_read]

theorem inject_buildIds {md5 : Bytes → Nat} {ids : List (Bytes × Bytes)} {d : Data}
    (h : (updateEntries ids d.buildIds).2.2 = true) :
    (injectBuildIDs md5 ids d).1.buildIds = d.buildIds.map (updated ids) ++
      (addEntries md5 (miscOf d.events []) (updateEntries ids d.buildIds).2.1 ids).1 := by
  unfold injectBuildIDs
  simp only [h, Bool.not_true, Bool.false_eq_true, if_false]
  rw [(updateEntries_eq h).1]

theorem cStr_plain {f : Bytes} (h : (0 : UInt8) ∉ f) : cStr f = f := by
  unfold cStr
  induction f with
  | nil => rfl
  | cons a t ih =>
    simp only [List.mem_cons, not_or] at h
    rw [List.takeWhile_cons_of_pos (by simpa using fun e => h.1 e.symm), ih h.2]

theorem reported_append (a b : List BuildId) (n : Bytes) : reported (a ++ b) n = (reported b n).or (reported a n) := by
  unfold reported
  rw [List.filter_append, List.getLast?_append]
  cases (List.filter (fun b => decide (b.filename = n)) b).getLast? <;> simp

theorem reported_cons (b : BuildId) (t : List BuildId) (n : Bytes) :
    reported (b :: t) n = (reported t n).or (if b.filename = n then some (buildIdText b.hash) else none) := by
  rw [show b :: t = [b] ++ t from rfl, reported_append]
  congr 1
  unfold reported
  by_cases h : b.filename = n <;> simp [h]

theorem updated_name (ids : List (Bytes × Bytes)) (b : BuildId) : (updated ids b).filename = b.filename := by
  unfold updated
  cases find ids b.filename <;> rfl

/-- The old entries report the injected build IDs. -/
theorem reported_updated {ids : List (Bytes × Bytes)} (hx : HexTexts ids) (l : List BuildId) (n : Bytes) :
    reported (l.map (updated ids)) n =
      match find ids n with
      | none => reported l n
      | some s => if ∃ b ∈ l, b.filename = n then some (perfizeBuildID s) else none := by
  induction l with
  | nil => cases find ids n <;> simp [reported]
  | cons b t ih =>
    rw [List.map_cons, reported_cons, ih, updated_name]
    cases hf : find ids n with
    | none =>
      simp only
      rw [reported_cons]
      by_cases h : b.filename = n
      · subst h
        rw [updated, hf]
      · rw [if_neg h, if_neg h]
    | some s =>
      simp only
      by_cases h : b.filename = n
      · subst h
        obtain ⟨bs, hbs⟩ := hx _ (find_mem hf)
        simp only at hbs
        subst hbs
        have hex : ∃ b' ∈ b :: t, b'.filename = b.filename := ⟨b, List.mem_cons_self .., rfl⟩
        rw [if_pos rfl, if_pos hex, updated, hf]
        simp only [hex_read]
        rw [perfize_hex]
        split <;> rfl
      · have : (∃ b' ∈ b :: t, b'.filename = n) ↔ ∃ b' ∈ t, b'.filename = n := by
          constructor
          · rintro ⟨b', hb', hn⟩
            rcases List.mem_cons.1 hb' with rfl | hb'
            · exact absurd hn h
            · exact ⟨b', hb', hn⟩
          · rintro ⟨b', hb', hn⟩; exact ⟨b', List.mem_cons_of_mem _ hb', hn⟩
        rw [if_neg h]
        by_cases h2 : ∃ b' ∈ t, b'.filename = n
        · rw [if_pos h2, if_pos (this.2 h2)]; rfl
        · rw [if_neg h2, if_neg (fun h3 => h2 (this.1 h3))]; rfl

/-- The new entries report theirs. -/
theorem reported_added {md5 : Bytes → Nat} {miscs : List (Bytes × Nat)} {up : List Bytes} {ids : List (Bytes × Bytes)}
    (ht : IsTable ids) (hx : HexTexts ids) (hn : PlainNames ids) (n : Bytes) :
    reported (addEntries md5 miscs up ids).1 n = if n ∈ up then none else (find ids n).map perfizeBuildID := by
  induction ids with
  | nil => simp [addEntries, reported, find]
  | cons p t ih =>
    obtain ⟨f, s⟩ := p
    have htt : IsTable t := by unfold IsTable at ht ⊢; simp only [List.map_cons, List.nodup_cons] at ht; exact ht.2
    have ih := ih htt (fun p hp => hx p (List.mem_cons_of_mem _ hp)) (fun p hp => hn p (List.mem_cons_of_mem _ hp))
    have hnf : find t f = none := by
      rw [find_none_iff]
      intro v hv
      unfold IsTable at ht
      simp only [List.map_cons, List.nodup_cons] at ht
      exact ht.1 (List.mem_map.2 ⟨_, hv, rfl⟩)
    rw [find_cons]
    by_cases h : f ∈ up
    · rw [addEntries_cons_in h, ih]
      by_cases e : f = n
      · subst e; rw [if_pos h, if_pos h]
      · simp only [if_neg e]
    · obtain ⟨b, hb, h2⟩ := addEntries_cons_out (md5 := md5) (miscs := miscs) (s := s) (t := t) h
      rw [h2, reported_cons, ih]
      obtain ⟨b', hb', -, -, h3, -, -, -, h4, -⟩ := newEntry_ok md5 s f ((find miscs f).getD 1)
      rw [hb] at hb'
      simp only [Option.some.injEq] at hb'
      subst hb'
      have hname : b.filename = f := by rw [h3, cStr_plain (hn _ (List.mem_cons_self ..))]
      obtain ⟨bs, hbs⟩ := hx _ (List.mem_cons_self ..)
      simp only at hbs
      subst hbs
      rw [array_text] at h4
      by_cases e : f = n
      · subst e
        rw [if_neg h, if_neg h, hnf, if_pos hname, if_pos rfl, h4, ← perfize_hex]
        rfl
      · rw [hname]
        simp only [if_neg e]
        split <;> simp

/-- C50: after a successful injection every injected name has the injected build ID, filled up to 40 digits. -/
theorem inject_reported (md5 : Bytes → Nat) {ids : List (Bytes × Bytes)} (ht : IsTable ids) (hx : HexTexts ids)
    (hn : PlainNames ids) (d : Data) :
    (injectBuildIDs md5 ids d).2 = true ∧ ∀ f s, Says ids f s →
      find (toBuildIDs (injectBuildIDs md5 ids d).1.buildIds []) f = some (s.take 40 ++ List.replicate (40 - s.length) 48) := by
  have hok := inject_hex md5 hx d
  constructor
  · rw [inject_ok_iff, ← updateEntries_ok]; exact hok
  intro f s hs
  rw [table_spec, inject_buildIds hok, reported_append, reported_added ht hx hn, reported_updated hx,
    (find_iff ht).2 hs]
  simp only
  have hup := (updateEntries_eq hok).2 f
  rw [(find_iff ht).2 hs] at hup
  by_cases h : ∃ b ∈ d.buildIds, b.filename = f
  · rw [if_pos (hup.2 ⟨rfl, h⟩), if_pos h]; rfl
  · rw [if_neg (fun h' => h (hup.1 h').2)]; rfl

/-- C50: all other names keep what was reported. -/
theorem inject_others (md5 : Bytes → Nat) {ids : List (Bytes × Bytes)} (ht : IsTable ids) (hx : HexTexts ids)
    (hn : PlainNames ids) (d : Data) (f : Bytes) (hf : ∀ s, ¬ Says ids f s) :
    find (toBuildIDs (injectBuildIDs md5 ids d).1.buildIds []) f = find (toBuildIDs d.buildIds []) f := by
  have hok := inject_hex md5 hx d
  have hnone : find ids f = none := find_none_iff.2 hf
  rw [table_spec, table_spec, inject_buildIds hok, reported_append, reported_added ht hx hn, reported_updated hx, hnone]
  simp

/-- C50: whatever the outcome, the set of features written gains the build IDs (bit 2) and nothing else, and events and
attributes stay as they are. -/
theorem inject_frame (md5 : Bytes → Nat) (ids : List (Bytes × Bytes)) (d : Data) :
    (∀ i, (injectBuildIDs md5 ids d).1.mask.testBit i = (decide (i = 2) || d.mask.testBit i)) ∧
    (injectBuildIDs md5 ids d).1.events = d.events ∧ (injectBuildIDs md5 ids d).1.sampleTypes = d.sampleTypes := by
  have hm : ∀ i, (d.mask ||| 4).testBit i = (decide (i = 2) || d.mask.testBit i) := by
    intro i
    rw [Nat.testBit_or, show (4 : Nat) = 2 ^ 2 by rfl, Nat.testBit_two_pow, Bool.or_comm]
    simp only [eq_comm]
  unfold injectBuildIDs
  simp only
  split
  · exact ⟨hm, rfl, rfl⟩
  · exact ⟨hm, rfl, rfl⟩

example : (injectBuildIDs (fun _ => 7) [(ascii "/b", ascii "ff")] { mask := 9 }).1.mask = 13 := by decide +kernel

theorem miscOf_find (l : List Event) (m : List (Bytes × Nat)) (n : Bytes) :
    find (miscOf l m) n = ((lastMapping l n).map (fun e => e.misc % 2 ^ 16)).or (find m n) := by
  induction l generalizing m with
  | nil => simp [miscOf, lastMapping]
  | cons e t ih =>
    rw [miscOf, ih]
    unfold lastMapping
    by_cases h : (e.type = 1 ∨ e.type = 10) ∧ e.filename = n
    · have hm : e.isMmap = true := by unfold Event.isMmap; simpa using h.1
      rw [if_pos hm, set, find_cons, List.filter_cons_of_pos (by simpa using h), List.getLast?_cons]
      simp only [h.2, if_true]
      cases (List.filter (fun e' : Event => decide ((e'.type = 1 ∨ e'.type = 10) ∧ e'.filename = n)) t).getLast? <;> simp
    · rw [List.filter_cons_of_neg (by simpa using h)]
      by_cases hm : e.isMmap = true
      · have hm' : e.type = 1 ∨ e.type = 10 := by unfold Event.isMmap at hm; simpa using hm
        rw [if_pos hm, set, find_cons, if_neg (fun e' => h ⟨hm', e'⟩)]
      · rw [if_neg hm]

/-- C50: the entries after an injection. The old ones stay in place and keep everything but, if their name is given, the
build ID and the mark; for every given name without an entry there is one more, for all processes, with the mode of
the newest mapping of the file, or of the kernel. -/
theorem inject_entries (md5 : Bytes → Nat) {ids : List (Bytes × Bytes)} (ht : IsTable ids) (hx : HexTexts ids)
    (hn : PlainNames ids) (d : Data) :
    ∃ old new, (injectBuildIDs md5 ids d).1.buildIds = old ++ new ∧ old.length = d.buildIds.length ∧
      (∀ (i : Nat) (b : BuildId), d.buildIds[i]? = some b → (∀ bs, Says ids b.filename (rawDataToHexString bs) →
          old[i]? = some { b with hash := bs, injected := true }) ∧
        ((∀ s, ¬ Says ids b.filename s) → old[i]? = some b)) ∧
      new.map (·.filename) = (ids.filter (fun p => ¬ ∃ b ∈ d.buildIds, b.filename = p.1)).map (·.1) ∧
      ∀ b ∈ new, b.pid = 2 ^ 32 - 1 ∧ b.injected = true ∧ b.md5 = md5 b.filename ∧
        b.misc = (match lastMapping d.events b.filename with
          | some e => e.misc % 2 ^ 16
          | none => 1) := by
  have hok := inject_hex md5 hx d
  refine ⟨_, _, inject_buildIds hok, by simp, ?_, ?_, ?_⟩
  · intro i b hb
    constructor
    · intro bs hs
      rw [List.getElem?_map, hb]
      simp only [Option.map_some, Option.some.injEq]
      rw [updated, (find_iff ht).2 hs]
      simp only [hex_read]
    · intro hs
      rw [List.getElem?_map, hb]
      simp only [Option.map_some, Option.some.injEq]
      rw [updated, find_none_iff.2 hs]
  · have key : ∀ l : List (Bytes × Bytes), (∀ p ∈ l, p ∈ ids) →
        (addEntries md5 (miscOf d.events []) (updateEntries ids d.buildIds).2.1 l).1.map (·.filename) =
          (l.filter (fun p => ¬ ∃ b ∈ d.buildIds, b.filename = p.1)).map (·.1) := by
      intro l
      induction l with
      | nil => intro _; rfl
      | cons p t ih =>
        intro hl
        obtain ⟨f, s⟩ := p
        have hm := hl _ (List.mem_cons_self ..)
        have ih := ih (fun p hp => hl p (List.mem_cons_of_mem _ hp))
        have hup := (updateEntries_eq hok).2 f
        rw [(find_iff ht).2 hm] at hup
        by_cases h : ∃ b ∈ d.buildIds, b.filename = f
        · rw [addEntries_cons_in (hup.2 ⟨rfl, h⟩), ih, List.filter_cons_of_neg (by simpa using h)]
        · obtain ⟨b, hb, h2⟩ := addEntries_cons_out (md5 := md5) (miscs := miscOf d.events []) (s := s) (t := t)
            (up := (updateEntries ids d.buildIds).2.1) (f := f) (fun h' => h (hup.1 h').2)
          obtain ⟨b', hb', -, -, h3, -⟩ := newEntry_ok md5 s f ((find (miscOf d.events []) f).getD 1)
          rw [hb] at hb'
          simp only [Option.some.injEq] at hb'
          subst hb'
          rw [h2, List.map_cons, ih, List.filter_cons_of_pos (by simpa using h), List.map_cons, h3, cStr_plain (hn _ hm)]
    exact key ids (fun _ h => h)
  · have key : ∀ l : List (Bytes × Bytes), (∀ p ∈ l, p ∈ ids) →
        ∀ b ∈ (addEntries md5 (miscOf d.events []) (updateEntries ids d.buildIds).2.1 l).1, b.pid = 2 ^ 32 - 1 ∧
          b.injected = true ∧ b.md5 = md5 b.filename ∧
          b.misc = (match lastMapping d.events b.filename with
            | some e => e.misc % 2 ^ 16
            | none => 1) := by
      intro l
      induction l with
      | nil => intro _ b hb; cases hb
      | cons p t ih =>
        intro hl
        obtain ⟨f, s⟩ := p
        have hm := hl _ (List.mem_cons_self ..)
        have ih := ih (fun p hp => hl p (List.mem_cons_of_mem _ hp))
        by_cases h : f ∈ (updateEntries ids d.buildIds).2.1
        · rw [addEntries_cons_in h]; exact ih
        · obtain ⟨b, hb, h2⟩ := addEntries_cons_out (md5 := md5) (miscs := miscOf d.events []) (s := s) (t := t) h
          rw [h2]
          intro b' hb'
          rcases List.mem_cons.1 hb' with rfl | hb'
          · obtain ⟨b'', hb'', k1, k2, k3, k4, k5, -⟩ := newEntry_ok md5 s f ((find (miscOf d.events []) f).getD 1)
            rw [hb] at hb''
            simp only [Option.some.injEq] at hb''
            subst hb''
            rw [cStr_plain (hn _ hm)] at k3 k4
            refine ⟨k2, k5, by rw [k3]; exact k4, ?_⟩
            rw [k1, k3, miscOf_find]
            simp only [find, List.find?_nil, Option.map_none, Option.or_none]
            cases lastMapping d.events f <;> rfl
          · exact ih b' hb'
    exact key ids (fun _ h => h)

/-- An injection for a file with an entry and one without. -/
example :
    let ids := [(ascii "/a", ascii "deadbeef"), (ascii "/b", ascii "0123456789")]
    let d : Data := { events := [{ type := 10, misc := 2, filename := ascii "/b" }],
                      buildIds := [{ filename := ascii "/a", hash := [1, 2, 3] }, { filename := ascii "/c", hash := [5] }] }
    IsTable ids ∧ PlainNames ids ∧
    (injectBuildIDs (fun _ => 7) ids d).1.buildIds.map (fun b => (b.filename, b.misc, b.hash, b.injected)) =
      [(ascii "/a", 0, [0xde, 0xad, 0xbe, 0xef], true), (ascii "/c", 0, [5], false),
        (ascii "/b", 2, [1, 35, 69, 103, 137, 0, 0, 0], true)] := by
  refine ⟨by unfold IsTable; decide, by unfold PlainNames; decide, by decide +kernel⟩

/-- C50 for texts that are no build IDs: for a file without an entry the injection says that all is well and stores
zeros, for a file with an entry it fails. -/
theorem inject_malformed_violated :
    (injectBuildIDs (fun _ => 7) [(ascii "/b", ascii "xyz!")] {}).2 = true ∧
    find (toBuildIDs (injectBuildIDs (fun _ => 7) [(ascii "/b", ascii "xyz!")] {}).1.buildIds []) (ascii "/b") =
      some (List.replicate 40 48) ∧
    (injectBuildIDs (fun _ => 7) [(ascii "/b", ascii "xyz!")] { buildIds := [{ filename := ascii "/b" }] }).2 = false := by
  decide +kernel

/-- C50: a failed injection has changed the entries before the one it failed at. -/
theorem inject_failed_violated :
    let d : Data := { buildIds := [{ filename := ascii "/a", hash := [1] }, { filename := ascii "/b", hash := [2] }] }
    let r := injectBuildIDs (fun _ => 7) [(ascii "/a", ascii "ff"), (ascii "/b", ascii "xyz!")] d
    r.2 = false ∧ r.1 ≠ d ∧ r.1.buildIds.map (·.hash) = [[255], [2]] := by
  decide +kernel

/-- C50: a name with a NUL is cut off there, so nothing is reported for it. -/
theorem inject_nul_violated :
    let r := injectBuildIDs (fun _ => 7) [([47, 97, 0, 98], ascii "ff")] {}
    r.2 = true ∧ find (toBuildIDs r.1.buildIds []) [47, 97, 0, 98] = none ∧
    (find (toBuildIDs r.1.buildIds []) [47, 97]).isSome = true := by
  decide +kernel

/-! ## Renaming -/

theorem padded_eq {n : Nat} (h : n + 8 < 2 ^ 64) : padded n = (n / 8 + 1) * 8 := by
  have := Util.C16_align 3 (n + 1) ⟨(n / 8 + 1) * 8, ⟨n / 8 + 1, by omega⟩, by omega, by omega⟩ (by omega)
  unfold padded
  obtain ⟨⟨q, h1⟩, h2, h3⟩ := this
  have h4 := h3 ((n / 8 + 1) * 8) ⟨n / 8 + 1, by omega⟩ (by omega)
  omega

/-- C30: renaming replaces exactly the names of mapping events found in the table; nothing else of an event changes but
the size of the renamed, by the difference of the room for the names. -/
theorem renamed_events {names : List (Bytes × Bytes)} (ht : IsTable names) {d d' : Data} (h : localizeNames names d = some d')
    {i : Nat} {e : Event} (he : d.events[i]? = some e) :
    ∃ e', d'.events[i]? = some e' ∧
      (((e.type = 1 ∨ e.type = 10) → ∀ new, Says names e.filename new →
        e' = { e with filename := new, size := e'.size } ∧
        (new.length + 8 < 2 ^ 32 → room e.filename ≤ e.size → e.size + room new < 2 ^ 32 →
          e'.size + room e.filename = e.size + room new))) ∧
      (((e.type ≠ 1 ∧ e.type ≠ 10) ∨ ∀ new, ¬ Says names e.filename new) → e' = e) := by
  unfold localizeNames at h
  split at h
  · cases h
  simp only [Option.some.injEq] at h
  subst h
  refine ⟨renameEvent names e, by simp [he], ?_, ?_⟩
  · intro hm new hs
    have hm' : e.isMmap = true := by unfold Event.isMmap; simpa using hm
    unfold renameEvent
    rw [if_pos hm', (find_iff ht).2 hs]
    refine ⟨rfl, ?_⟩
    intro h1 h2 h3
    simp only
    unfold room at h2 h3 ⊢
    rw [padded_eq (by omega), padded_eq (by omega)]
    omega
  · intro hor
    unfold renameEvent
    split
    · rename_i hm
      have hm' : e.type = 1 ∨ e.type = 10 := by unfold Event.isMmap at hm; simpa using hm
      rcases hor with h | h
      · exact absurd hm' (by omega)
      · rw [find_none_iff.2 h]
    · rfl

/-- C30: the entries of build IDs found in the table get the new name, all others stay; everything else about the
recording stays, and so do the numbers of events and entries. -/
theorem renamed_entries {names : List (Bytes × Bytes)} (ht : IsTable names) {d d' : Data} (h : localizeNames names d = some d') :
    d'.events.length = d.events.length ∧ d'.buildIds.length = d.buildIds.length ∧ d'.sampleTypes = d.sampleTypes ∧
      d'.mask = d.mask ∧
      ∀ (i : Nat) (b : BuildId), d.buildIds[i]? = some b →
        (∀ new, Says names b.filename new → d'.buildIds[i]? = some { b with filename := new }) ∧
        ((∀ new, ¬ Says names b.filename new) → d'.buildIds[i]? = some b) := by
  unfold localizeNames at h
  split at h
  · cases h
  simp only [Option.some.injEq] at h
  subst h
  refine ⟨by simp, by simp, rfl, rfl, ?_⟩
  intro i b hb
  have hm : (d.buildIds.map (renameEntry names))[i]? = some (renameEntry names b) := by simp [hb]
  simp only
  rw [hm]
  constructor
  · intro new hs
    rw [renameEntry, (find_iff ht).2 hs]
  · intro hs
    rw [renameEntry, find_none_iff.2 hs]

/-- C30: renaming only aborts without attributes. -/
theorem rename_aborts_iff (names : List (Bytes × Bytes)) (d : Data) : localizeNames names d = none ↔ d.sampleTypes = [] := by
  unfold localizeNames
  split <;> simp_all

example :
    let names := [(ascii "/lib/a.so", ascii "/very/long/name/of/a.so")]
    let d : Data := { events := [{ type := 1, size := 64, filename := ascii "/lib/a.so" }, { type := 9, size := 40 }],
                      sampleTypes := [7] }
    IsTable names ∧ (localizeNames names d).map (fun d => d.events.map (fun e => (e.filename, e.size))) =
      some [(ascii "/very/long/name/of/a.so", 72), ([], 40)] := by
  refine ⟨by unfold IsTable; decide, by decide +kernel⟩

/-- C30: with a long name the new size does not fit the 16 bits it has in a file, although renaming succeeds. -/
theorem rename_too_big_violated (new : Bytes) (h1 : 2 ^ 16 ≤ new.length) (h2 : new.length < 2 ^ 31) :
    ∃ d', localizeNames [(ascii "/a", new)] { events := [{ type := 1, size := 64, filename := ascii "/a" }], sampleTypes := [7] } =
        some d' ∧ ∃ e ∈ d'.events, e.filename = new ∧ 2 ^ 16 ≤ e.size := by
  refine ⟨_, rfl, _, List.mem_cons_self .., ?_, ?_⟩
  · rw [renameEvent, if_pos (by decide), find_cons, if_pos rfl]
  · rw [renameEvent, if_pos (by decide), find_cons, if_pos rfl]
    simp only
    have h2' : (ascii "/a").length = 2 := by decide
    rw [h2', padded_eq (by omega : new.length + 8 < 2 ^ 64), padded_eq (by decide : 2 + 8 < 2 ^ 64)]
    omega

/-! ## Names by build ID -/

/-- The name a build ID stands for. -/
def newName (files : List (Bytes × Bytes)) (b : BuildId) : Option Bytes := find files (buildIdText b.hash)

theorem namesByBuildID_find (files : List (Bytes × Bytes)) (l : List BuildId) (m : List (Bytes × Bytes)) (n : Bytes) :
    find (namesByBuildID files l m) n =
      (((l.filter (fun b => b.filename = n)).filterMap (newName files)).getLast?).or (find m n) := by
  induction l generalizing m with
  | nil => simp [namesByBuildID]
  | cons b t ih =>
    rw [namesByBuildID, perfize_hex]
    by_cases h : b.filename = n
    · subst h
      rw [List.filter_cons_of_pos (by simp)]
      cases hf : find files (buildIdText b.hash) with
      | none =>
        simp only
        rw [ih, List.filterMap_cons_none (show newName files b = none from hf)]
      | some new =>
        simp only
        rw [ih, List.filterMap_cons_some (show newName files b = some new from hf), set, find_cons, if_pos rfl, List.getLast?_cons]
        cases (List.filterMap (newName files) (List.filter (fun b' => decide (b'.filename = b.filename)) t)).getLast? <;> simp
    · rw [List.filter_cons_of_neg (by simpa using h)]
      cases hf : find files (buildIdText b.hash) with
      | none => simp only; rw [ih]
      | some new => simp only; rw [ih, set, find_cons, if_neg h]

/-- C93: renaming by build ID gives a mapping the name found for the last entry of its file whose build ID is in the
table, and keeps the name if there is none. -/
theorem localized {files : List (Bytes × Bytes)} {d d' : Data} (h : localize files d = some d') {i : Nat} {e : Event}
    (he : d.events[i]? = some e) (hm : e.type = 1 ∨ e.type = 10) :
    (d'.events[i]?).map (·.filename) = some
      ((((d.buildIds.filter (fun b => b.filename = e.filename)).filterMap (newName files)).getLast?).getD e.filename) := by
  unfold localize localizeNames at h
  split at h
  · cases h
  simp only [Option.some.injEq] at h
  subst h
  simp only [List.getElem?_map, he, Option.map_some, Option.some.injEq]
  have hm' : e.isMmap = true := by unfold Event.isMmap; simpa using hm
  unfold renameEvent
  rw [if_pos hm', namesByBuildID_find]
  simp only [find, List.find?_nil, Option.map_none, Option.or_none]
  cases (List.filterMap (newName files) (List.filter (fun b => decide (b.filename = e.filename)) d.buildIds)).getLast? <;> rfl

/-- C93: the entries keep their build IDs, and a name stands for the same build ID as before under its new name. -/
theorem localized_ids {files : List (Bytes × Bytes)} {d d' : Data} (h : localize files d = some d') :
    d'.buildIds.map (fun b => (b.hash, b.pid, b.misc, b.size, b.injected)) =
      d.buildIds.map (fun b => (b.hash, b.pid, b.misc, b.size, b.injected)) ∧
    d'.events.map (fun e => (e.type, e.misc, e.time, e.rest)) = d.events.map (fun e => (e.type, e.misc, e.time, e.rest)) := by
  unfold localize localizeNames at h
  split at h
  · cases h
  simp only [Option.some.injEq] at h
  subst h
  constructor
  · simp only [List.map_map]
    apply List.map_congr_left
    intro b _
    simp only [Function.comp, renameEntry]
    split <;> rfl
  · simp only [List.map_map]
    apply List.map_congr_left
    intro e _
    simp only [Function.comp, renameEvent]
    split
    · split <;> rfl
    · rfl

example : (localize [(buildIdText [1, 2], ascii "/new")] { events := [{ type := 10, size := 80, filename := ascii "/old" }], buildIds := [{ filename := ascii "/old", hash := [1, 2] }], sampleTypes := [7] }).map
      (fun d => (d.events.map (·.filename), d.buildIds.map (·.filename))) = some ([ascii "/new"], [ascii "/new"]) := by
  decide +kernel

/-- C93 as promised, by joining on build IDs, is false: an entry with a build ID that is not in the table is renamed if
another entry of the same name is in it. -/
theorem localize_other_violated :
    (localize [(buildIdText [1], ascii "/new")] { buildIds := [{ filename := ascii "/a", hash := [1] }, { filename := ascii "/a", hash := [2] }], sampleTypes := [7] }).map (fun d => d.buildIds.map (fun b => (b.hash, b.filename))) =
      some [([1], ascii "/new"), ([2], ascii "/new")] ∧
    newName [(buildIdText [1], ascii "/new")] { filename := ascii "/a", hash := [2] } = none := by
  decide +kernel

/-! ## Alternative names -/

/-- C94: giving alternative names adds, behind the entries there are, one copy of an entry for each alternative of its
name, and changes nothing else. -/
theorem alternates (names : List (Bytes × Bytes)) (d : Data) :
    (alternateNames names d).events = d.events ∧
    ∃ new, (alternateNames names d).buildIds = d.buildIds ++ new ∧
      (∀ b', b' ∈ new ↔ ∃ b ∈ d.buildIds, ∃ alt, (b.filename, alt) ∈ names ∧ b' = { b with filename := alt }) ∧
      new.length = (d.buildIds.map (fun b => (names.filter (fun p => p.1 = b.filename)).length)).sum := by
  refine ⟨rfl, _, rfl, ?_, ?_⟩
  · intro b'
    simp only [List.mem_flatMap, List.mem_map, List.mem_filter]
    constructor
    · rintro ⟨b, hb, ⟨f, alt⟩, ⟨hp, hf⟩, rfl⟩
      have hf : f = b.filename := by simpa using hf
      exact ⟨b, hb, alt, hf ▸ hp, rfl⟩
    · rintro ⟨b, hb, alt, hp, rfl⟩
      exact ⟨b, hb, (b.filename, alt), ⟨hp, by simp⟩, rfl⟩
  · rw [List.length_flatMap]
    congr 1
    apply List.map_congr_left
    intro b _
    rw [List.length_map]
    congr 2
    funext p
    by_cases h : p.1 = b.filename <;> simp [h]

theorem reported_none {l : List BuildId} {n : Bytes} (h : ∀ b ∈ l, b.filename ≠ n) : reported l n = none := by
  unfold reported
  rw [List.filter_eq_nil_iff.2 (by simpa using h)]
  rfl

/-- C94: names that are nobody's alternative keep their build IDs. -/
theorem alternates_others (names : List (Bytes × Bytes)) (d : Data) (n : Bytes) (hn : ∀ f, (f, n) ∉ names) :
    find (toBuildIDs (alternateNames names d).buildIds []) n = find (toBuildIDs d.buildIds []) n := by
  rw [table_spec, table_spec]
  unfold alternateNames
  simp only
  rw [reported_append, reported_none]
  · rfl
  · intro b' hb' he
    simp only [List.mem_flatMap, List.mem_map, List.mem_filter] at hb'
    obtain ⟨b, -, ⟨f, alt⟩, ⟨hp, -⟩, rfl⟩ := hb'
    simp only at he
    subst he
    exact hn f hp

/-- C94: the alternative name of a file gets the build ID of the file, if it is the alternative of no other. -/
theorem alternates_reported (names : List (Bytes × Bytes)) (d : Data) (f n : Bytes) (h : (f, n) ∈ names)
    (hn : ∀ f', (f', n) ∈ names → f' = f) (hb : ∃ b ∈ d.buildIds, b.filename = f) :
    find (toBuildIDs (alternateNames names d).buildIds []) n = find (toBuildIDs d.buildIds []) f := by
  rw [table_spec, table_spec]
  unfold alternateNames
  simp only
  rw [reported_append]
  have key : ∀ l : List BuildId, reported (l.flatMap (fun b =>
      (names.filter (fun p => p.1 == b.filename)).map (fun p => { b with filename := p.2 }))) n = reported l f := by
    intro l
    induction l with
    | nil => rfl
    | cons b t ih =>
      rw [List.flatMap_cons, reported_append, ih, reported_cons]
      congr 1
      by_cases e : b.filename = f
      · subst e
        rw [if_pos rfl]
        unfold reported
        rw [List.filter_map]
        have hne : (n ∈ (names.filter (fun p => p.1 == b.filename)).map (·.2)) :=
          List.mem_map.2 ⟨(b.filename, n), List.mem_filter.2 ⟨h, by simp⟩, rfl⟩
        rw [List.getLast?_map]
        cases hg : (List.filter ((fun b' : BuildId => decide (b'.filename = n)) ∘ fun p : Bytes × Bytes => { b with filename := p.2 })
            (names.filter (fun p => p.1 == b.filename))).getLast? with
        | some p => rfl
        | none =>
          rw [List.getLast?_eq_none_iff, List.filter_eq_nil_iff] at hg
          obtain ⟨p, hp, hpn⟩ := List.mem_map.1 hne
          exact absurd (by simpa using hpn) (hg p hp)
      · rw [if_neg e, reported_none]
        intro b' hb' hbn
        simp only [List.mem_map, List.mem_filter] at hb'
        obtain ⟨⟨f', n'⟩, ⟨hp, hf'⟩, rfl⟩ := hb'
        simp only at hbn hf'
        subst hbn
        exact e ((by simpa using hf' : f' = b.filename) ▸ hn f' hp)
  rw [key]
  obtain ⟨b, hb, hf⟩ := hb
  have : (reported d.buildIds f).isSome := by
    unfold reported
    rw [Option.isSome_map]
    cases hg : (d.buildIds.filter (fun b => b.filename = f)).getLast? with
    | some x => rfl
    | none =>
      rw [List.getLast?_eq_none_iff] at hg
      exact absurd hf (by simpa using List.filter_eq_nil_iff.1 hg b hb)
  obtain ⟨x, hx⟩ := Option.isSome_iff_exists.1 this
  rw [hx]
  rfl

example : (alternateNames [(ascii "/a", ascii "/b"), (ascii "/a", ascii "/c")] { buildIds := [{ filename := ascii "/a", hash := [1] }] }).buildIds.map
    (fun b => (b.filename, b.hash)) = [(ascii "/a", [1]), (ascii "/b", [1]), (ascii "/c", [1])] := by decide +kernel

/-! ## File names -/

theorem less_irrefl : ∀ a, less a a = false
  | [] => rfl
  | x :: a => by rw [less, if_neg (by simp), if_neg (by simp), less_irrefl a]

theorem less_trans : ∀ {a b c}, less a b = true → less b c = true → less a c = true
  | [], [], _, h, _ => by simp [less] at h
  | [], _ :: _, [], _, h => by simp [less] at h
  | [], _ :: _, _ :: _, _, _ => rfl
  | _ :: _, [], _, h, _ => by simp [less] at h
  | _ :: _, _ :: _, [], _, h => by simp [less] at h
  | x :: a, y :: b, z :: c, h1, h2 => by
    rw [less] at h1 h2 ⊢
    have hn : ∀ u v : UInt8, u < v ↔ u.toNat < v.toNat := fun u v => UInt8.lt_iff_toNat_lt
    simp only [hn] at h1 h2 ⊢
    by_cases c1 : x.toNat < y.toNat
    · by_cases c2 : y.toNat < z.toNat
      · rw [if_pos (by omega)]
      · rw [if_neg c2] at h2
        by_cases c3 : z.toNat < y.toNat
        · rw [if_pos c3] at h2; cases h2
        · rw [if_pos (by omega)]
    · rw [if_neg c1] at h1
      by_cases c3 : y.toNat < x.toNat
      · rw [if_pos c3] at h1; cases h1
      · rw [if_neg c3] at h1
        by_cases c2 : y.toNat < z.toNat
        · rw [if_pos (by omega)]
        · rw [if_neg c2] at h2
          by_cases c4 : z.toNat < y.toNat
          · rw [if_pos c4] at h2; cases h2
          · rw [if_neg c4] at h2
            rw [if_neg (by omega), if_neg (by omega)]
            exact less_trans h1 h2

theorem less_total : ∀ {a b}, less a b = false → less b a = false → a = b
  | [], [], _, _ => rfl
  | [], _ :: _, h, _ => by simp [less] at h
  | _ :: _, [], _, h => by simp [less] at h
  | x :: a, y :: b, h1, h2 => by
    rw [less] at h1 h2
    have hn : ∀ u v : UInt8, u < v ↔ u.toNat < v.toNat := fun u v => UInt8.lt_iff_toNat_lt
    simp only [hn] at h1 h2
    by_cases c1 : x.toNat < y.toNat
    · rw [if_pos c1] at h1; cases h1
    · by_cases c2 : y.toNat < x.toNat
      · rw [if_pos c2] at h2; cases h2
      · rw [if_neg c1, if_neg c2] at h1
        rw [if_neg c2, if_neg c1] at h2
        rw [UInt8.toNat_inj.1 (by omega : x.toNat = y.toNat), less_total h1 h2]

theorem insert_mem (s x : Bytes) (l : List Bytes) : x ∈ insert s l ↔ x = s ∨ x ∈ l := by
  induction l with
  | nil => simp [insert]
  | cons a t ih =>
    rw [insert]
    split
    · simp
    · split
      · simp only [List.mem_cons, ih]
        constructor
        · rintro (h | h | h)
          · exact .inr (.inl h)
          · exact .inl h
          · exact .inr (.inr h)
        · rintro (h | h | h)
          · exact .inr (.inl h)
          · exact .inl h
          · exact .inr (.inr h)
      · rename_i h1 h2
        have := less_total (by simpa using h1) (by simpa using h2)
        subst this
        simp

theorem insert_sorted (s : Bytes) {l : List Bytes} (h : l.Pairwise (fun a b => less a b = true)) :
    (insert s l).Pairwise (fun a b => less a b = true) := by
  induction l with
  | nil => simp [insert]
  | cons a t ih =>
    rw [List.pairwise_cons] at h
    rw [insert]
    split
    · rename_i h1
      rw [List.pairwise_cons, List.pairwise_cons]
      exact ⟨fun b hb => by
        rcases List.mem_cons.1 hb with rfl | hb
        · exact h1
        · exact less_trans h1 (h.1 b hb), h⟩
    · split
      · rename_i h2
        rw [List.pairwise_cons]
        refine ⟨fun b hb => ?_, ih h.2⟩
        rcases (insert_mem s b t).1 hb with rfl | hb
        · exact h2
        · exact h.1 b hb
      · exact List.pairwise_cons.2 h

/-- C95: the list of file names has every name of a mapping event once, in increasing order of bytes, and no other. -/
theorem filenames_spec (d : Data) :
    (filenames d).Pairwise (fun a b => less a b = true) ∧ (filenames d).Nodup ∧
    ∀ n, n ∈ filenames d ↔ ∃ e ∈ d.events, (e.type = 1 ∨ e.type = 10) ∧ e.filename = n := by
  have key : ∀ (l : List Event) (acc : List Bytes), acc.Pairwise (fun a b => less a b = true) →
      (filenamesAsSet l acc).Pairwise (fun a b => less a b = true) ∧
      ∀ n, n ∈ filenamesAsSet l acc ↔ n ∈ acc ∨ ∃ e ∈ l, (e.type = 1 ∨ e.type = 10) ∧ e.filename = n := by
    intro l
    induction l with
    | nil => intro acc h; exact ⟨h, fun n => by simp [filenamesAsSet]⟩
    | cons e t ih =>
      intro acc h
      rw [filenamesAsSet]
      by_cases hm : e.isMmap = true
      · have hm' : e.type = 1 ∨ e.type = 10 := by unfold Event.isMmap at hm; simpa using hm
        rw [if_pos hm]
        obtain ⟨h1, h2⟩ := ih _ (insert_sorted e.filename h)
        refine ⟨h1, fun n => ?_⟩
        rw [h2, insert_mem]
        constructor
        · rintro ((rfl | h) | ⟨e', he', h⟩)
          · exact .inr ⟨e, List.mem_cons_self .., hm', rfl⟩
          · exact .inl h
          · exact .inr ⟨e', List.mem_cons_of_mem _ he', h⟩
        · rintro (h | ⟨e', he', h⟩)
          · exact .inl (.inr h)
          · rcases List.mem_cons.1 he' with rfl | he'
            · exact .inl (.inl h.2.symm)
            · exact .inr ⟨e', he', h⟩
      · have hm' : ¬ (e.type = 1 ∨ e.type = 10) := by unfold Event.isMmap at hm; simpa using hm
        rw [if_neg hm]
        obtain ⟨h1, h2⟩ := ih _ h
        refine ⟨h1, fun n => ?_⟩
        rw [h2]
        constructor
        · rintro (h | ⟨e', he', h⟩)
          · exact .inl h
          · exact .inr ⟨e', List.mem_cons_of_mem _ he', h⟩
        · rintro (h | ⟨e', he', h⟩)
          · exact .inl h
          · rcases List.mem_cons.1 he' with rfl | he'
            · exact absurd h.1 hm'
            · exact .inr ⟨e', he', h⟩
  obtain ⟨h1, h2⟩ := key d.events [] List.Pairwise.nil
  refine ⟨h1, ?_, fun n => by rw [filenames, h2]; simp⟩
  refine List.Pairwise.imp ?_ h1
  rintro a b h rfl
  rw [less_irrefl] at h
  cases h

example : filenames { events := [{ type := 1, filename := ascii "/b" }, { type := 10, filename := ascii "/a" }, { type := 3, filename := ascii "/x" },
    { type := 1, filename := ascii "/b" }] } = [ascii "/a", ascii "/b"] := by decide +kernel

/-! ## Order by time -/

theorem insertByTime_perm (e : Event) (l : List Event) : (insertByTime e l).Perm (e :: l) := by
  induction l with
  | nil => exact List.Perm.refl _
  | cons a t ih =>
    rw [insertByTime]
    split
    · exact List.Perm.refl _
    · exact (List.Perm.cons a ih).trans (List.Perm.swap e a t)

theorem insertByTime_order (e : Event) {l : List Event} (h : InOrder l) : InOrder (insertByTime e l) := by
  induction l with
  | nil => simp [insertByTime, InOrder]
  | cons a t ih =>
    unfold InOrder at h ih ⊢
    rw [List.pairwise_cons] at h
    rw [insertByTime]
    split
    · rename_i h1
      rw [List.pairwise_cons, List.pairwise_cons]
      exact ⟨fun b hb => by
        rcases List.mem_cons.1 hb with rfl | hb
        · omega
        · have := h.1 b hb; omega, h⟩
    · rename_i h1
      rw [List.pairwise_cons]
      refine ⟨fun b hb => ?_, ih h.2⟩
      rcases List.mem_cons.1 ((insertByTime_perm e t).mem_iff.1 hb) with rfl | hb
      · omega
      · exact h.1 b hb

theorem insertByTime_stable (e : Event) {l : List Event} (h : InOrder l) (t : Nat) :
    (insertByTime e l).filter (fun x => x.time = t) = l.filter (fun x => x.time = t) ++ [e].filter (fun x => x.time = t) := by
  induction l with
  | nil => simp [insertByTime]
  | cons a l ih =>
    unfold InOrder at h ih
    rw [List.pairwise_cons] at h
    rw [insertByTime]
    split
    · rename_i h1
      by_cases he : e.time = t
      · have : (a :: l).filter (fun x => decide (x.time = t)) = [] := by
          rw [List.filter_eq_nil_iff]
          intro b hb
          rcases List.mem_cons.1 hb with rfl | hb
          · simp; omega
          · have := h.1 b hb; simp; omega
        rw [List.filter_cons_of_pos (by simpa using he), this]
        simp [he]
      · rw [List.filter_cons_of_neg (by simpa using he)]
        simp [he]
    · by_cases ha : a.time = t
      · rw [List.filter_cons_of_pos (by simpa using ha), List.filter_cons_of_pos (by simpa using ha), ih h.2]
        rfl
      · rw [List.filter_cons_of_neg (by simpa using ha), List.filter_cons_of_neg (by simpa using ha), ih h.2]

theorem stableSort_spec (l acc : List Event) (h : InOrder acc) :
    (stableSort l acc).Perm (acc ++ l) ∧ InOrder (stableSort l acc) ∧
      ∀ t, (stableSort l acc).filter (fun x => x.time = t) = (acc ++ l).filter (fun x => x.time = t) := by
  induction l generalizing acc with
  | nil => simp [stableSort, h]
  | cons e l ih =>
    rw [stableSort]
    obtain ⟨h1, h2, h3⟩ := ih (insertByTime e acc) (insertByTime_order e h)
    refine ⟨h1.trans ?_, h2, fun t => ?_⟩
    · refine ((insertByTime_perm e acc).append_right l).trans ?_
      exact List.perm_middle.symm
    · rw [h3 t, List.filter_append, insertByTime_stable e h, List.append_assoc, ← List.filter_append, ← List.filter_append]
      rfl

/-- C29: if all attributes record the time, the events are put in order of time and events of the same time keep their
order; nothing else changes. If some attribute does not, nothing changes at all. -/
theorem sorted (d : Data) :
    (maybeSortByTime d).buildIds = d.buildIds ∧ (maybeSortByTime d).sampleTypes = d.sampleTypes ∧
    (maybeSortByTime d).mask = d.mask ∧
    ((∀ t ∈ d.sampleTypes, t.testBit 2 = true) → StableOrder d.events (maybeSortByTime d).events) ∧
    ((∃ t ∈ d.sampleTypes, t.testBit 2 = false) → maybeSortByTime d = d) := by
  unfold maybeSortByTime
  by_cases h : d.sampleTypes.all (fun t => t.testBit 2) = true
  · rw [if_pos h]
    refine ⟨rfl, rfl, rfl, fun _ => ?_, ?_⟩
    · obtain ⟨h1, h2, h3⟩ := stableSort_spec d.events [] List.Pairwise.nil
      exact ⟨h1, h2, h3⟩
    · rintro ⟨t, ht, hf⟩
      rw [List.all_eq_true] at h
      rw [h t ht] at hf
      cases hf
  · rw [if_neg h]
    refine ⟨rfl, rfl, rfl, fun h' => absurd (List.all_eq_true.2 h') h, fun _ => rfl⟩

/-- C29: there is only one such order. -/
theorem stable_unique {l r r' : List Event} (h : StableOrder l r) (h' : StableOrder l r') : r = r' := by
  have key : ∀ {r r' : List Event}, InOrder r → InOrder r' →
      (∀ t, r.filter (fun e => e.time = t) = r'.filter (fun e => e.time = t)) → r = r' := by
    intro r
    induction r with
    | nil =>
      intro r' _ _ hf
      cases r' with
      | nil => rfl
      | cons a t =>
        have := hf a.time
        simp at this
    | cons a r ih =>
      intro r' ho ho' hf
      unfold InOrder at ho ho'
      cases r' with
      | nil => have := hf a.time; simp at this
      | cons b r' =>
        rw [List.pairwise_cons] at ho ho'
        have hab : a.time = b.time := by
          have h1 : b ∈ (a :: r).filter (fun e => decide (e.time = b.time)) := by
            rw [hf b.time]; simp
          have h2 : a ∈ (b :: r').filter (fun e => decide (e.time = a.time)) := by
            rw [← hf a.time]; simp
          have h1 := (List.mem_filter.1 h1).1
          have h2 := (List.mem_filter.1 h2).1
          have l1 : a.time ≤ b.time := by
            rcases List.mem_cons.1 h1 with rfl | h1
            · exact Nat.le_refl _
            · exact ho.1 b h1
          have l2 : b.time ≤ a.time := by
            rcases List.mem_cons.1 h2 with rfl | h2
            · exact Nat.le_refl _
            · exact ho'.1 a h2
          omega
        have hhd := hf a.time
        rw [List.filter_cons_of_pos (by simp), List.filter_cons_of_pos (by simp [hab])] at hhd
        simp only [List.cons.injEq] at hhd
        obtain ⟨rfl, hhd⟩ := hhd
        rw [ih ho.2 ho'.2 (fun t => ?_)]
        have ht := hf t
        by_cases hat : a.time = t
        · rw [List.filter_cons_of_pos (by simpa using hat), List.filter_cons_of_pos (by simpa using hat)] at ht
          simpa using ht
        · rw [List.filter_cons_of_neg (by simpa using hat), List.filter_cons_of_neg (by simpa using hat)] at ht
          exact ht
  exact key h.order h'.order (fun t => by rw [h.stable, h'.stable])

example : (maybeSortByTime { events := [{ type := 9, time := 5, rest := 1 }, { type := 1, time := 0, rest := 2 }, { type := 9, time := 5, rest := 3 },
    { type := 3, time := 4, rest := 4 }], sampleTypes := [7, 0x87] }).events.map (·.rest) = [2, 4, 1, 3] := by decide +kernel

/-! ## Hashes of names -/

/-- Every name has its hash. -/
def Hashed (md5 : Bytes → Nat) (d : Data) : Prop :=
  (∀ e ∈ d.events, e.type = 1 ∨ e.type = 10 → e.md5 = md5 e.filename) ∧ ∀ b ∈ d.buildIds, b.md5 = md5 b.filename

theorem updateEntries_hashed {md5 : Bytes → Nat} (ids : List (Bytes × Bytes)) {l : List BuildId}
    (h : ∀ b ∈ l, b.md5 = md5 b.filename) : ∀ b ∈ (updateEntries ids l).1, b.md5 = md5 b.filename := by
  induction l with
  | nil => simp [updateEntries]
  | cons b t ih =>
    have hb := h b (List.mem_cons_self ..)
    have ih := ih (fun x hx => h x (List.mem_cons_of_mem _ hx))
    rw [updateEntries]
    cases find ids b.filename with
    | none =>
      intro x hx
      rcases List.mem_cons.1 hx with rfl | hx
      · exact hb
      · exact ih x hx
    | some s =>
      simp only
      split
      · intro x hx
        rcases List.mem_cons.1 hx with rfl | hx
        · exact hb
        · exact ih x hx
      · exact h

theorem addEntries_hashed (md5 : Bytes → Nat) (miscs : List (Bytes × Nat)) (up : List Bytes) (ids : List (Bytes × Bytes)) :
    ∀ b ∈ (addEntries md5 miscs up ids).1, b.md5 = md5 b.filename := by
  induction ids with
  | nil => simp [addEntries]
  | cons p t ih =>
    obtain ⟨f, s⟩ := p
    by_cases h : f ∈ up
    · rw [addEntries_cons_in h]; exact ih
    · obtain ⟨b, hb, h2⟩ := addEntries_cons_out (md5 := md5) (miscs := miscs) (s := s) (t := t) h
      rw [h2]
      obtain ⟨b', hb', -, -, hf, hm, -⟩ := newEntry_ok md5 s f ((find miscs f).getD 1)
      rw [hb] at hb'
      simp only [Option.some.injEq] at hb'
      subst hb'
      intro x hx
      rcases List.mem_cons.1 hx with rfl | hx
      · rw [hm, hf]
      · exact ih x hx

/-- C96 without renaming: an injection, whether it succeeds or not, and sorting keep the hashes right. -/
theorem hash_partial (md5 : Bytes → Nat) (ids : List (Bytes × Bytes)) {d : Data} (h : Hashed md5 d) :
    Hashed md5 (injectBuildIDs md5 ids d).1 ∧ Hashed md5 (maybeSortByTime d) := by
  constructor
  · unfold injectBuildIDs
    simp only
    split
    · exact ⟨h.1, updateEntries_hashed ids h.2⟩
    · refine ⟨h.1, fun b hb => ?_⟩
      rcases List.mem_append.1 hb with hb | hb
      · exact updateEntries_hashed ids h.2 b hb
      · exact addEntries_hashed _ _ _ _ b hb
  · unfold maybeSortByTime
    split
    · refine ⟨fun e he => h.1 e ?_, h.2⟩
      have := ((stableSort_spec d.events [] List.Pairwise.nil).1).mem_iff.1 he
      simpa using this
    · exact h

example : Hashed (fun s => s.length) { events := [{ type := 1, filename := ascii "/a", md5 := 2 }], buildIds := [{ filename := ascii "/b.so", md5 := 5 }] } := by
  unfold Hashed; decide

/-- C96: the hash stored with a name is not that of the name after renaming, neither in events nor in entries. -/
theorem hash_violated (md5 : Bytes → Nat) (a b : Bytes) (h : md5 a ≠ md5 b) :
    ∃ d', localizeNames [(a, b)] { events := [{ type := 1, size := 64, filename := a, md5 := md5 a }], buildIds := [{ filename := a, md5 := md5 a }], sampleTypes := [7] } = some d' ∧
      (∃ e ∈ d'.events, e.filename = b ∧ e.md5 ≠ md5 e.filename) ∧ ∃ e ∈ d'.buildIds, e.filename = b ∧ e.md5 ≠ md5 e.filename := by
  refine ⟨_, rfl, ⟨_, List.mem_cons_self .., ?_, ?_⟩, ⟨_, List.mem_cons_self .., ?_, ?_⟩⟩
  · rw [renameEvent, if_pos (by rfl), find_cons, if_pos rfl]
  · rw [renameEvent, if_pos (by rfl), find_cons, if_pos rfl]; exact h
  · rw [renameEntry, find_cons, if_pos rfl]
  · rw [renameEntry, find_cons, if_pos rfl]; exact h

end Verif.Names
