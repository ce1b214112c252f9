import Verif.Converter.Taken

/-! # Sample types, comments and the first mapping of a profile -/

namespace Verif.Converter
open Verif.Profile Verif.Builder
open Verif.Normalizer (Bytes Source MapRef Loc BranchPair SampleEv SampleCtx Callback ACtx AttrRec
  contextFromHeader nameOrMd5 upd)

/-- The two types of an event name. -/
def typePair (n : Bytes) : List Bytes :=
  [(n ++ ascii "sample").takeWhile (· ≠ 0), (n ++ ascii "event").takeWhile (· ≠ 0)]

/-- A type with a name, counted. -/
def TypeIs (b : Builder) (t : ValueType) (s : Bytes) : Prop :=
  (∃ i : Nat, t.type = i ∧ IsId b s i) ∧ ∃ i : Nat, t.unit = i ∧ IsId b (ascii "count") i

theorem TypeIs.ext {b b' : Builder} (h : Ext b b') {t : ValueType} {s : Bytes} (ht : TypeIs b t s) : TypeIs b' t s := by
  obtain ⟨⟨i, h1, h2⟩, j, h3, h4⟩ := ht
  exact ⟨⟨i, h1, h2.ext h⟩, j, h3, h4.ext h⟩

theorem addType_types {b : Builder} (h : SInv b) (n : Bytes) :
    ∃ ts, (addType b n).profile.sampleType = b.profile.sampleType ++ ts ∧
      All₂ (TypeIs (addType b n)) ts (typePair n) ∧
      ∃ t ∈ ts, t.type = (addType b n).profile.defaultSampleType ∧ TypeIs (addType b n) t ((n ++ ascii "event").takeWhile (· ≠ 0)) := by
  have h1 := utf8Id_str h (n ++ ascii "sample")
  have h2 := stringId_str h1.1.inv (ascii "count")
  have h3 := utf8Id_str h2.1.inv (n ++ ascii "event")
  have h4 := stringId_str h3.1.inv (ascii "count")
  simp only [addType]
  generalize utf8Id b (n ++ ascii "sample") = r1 at *
  generalize stringId r1.2 (ascii "count") = u1 at *
  generalize utf8Id u1.2 (n ++ ascii "event") = r2 at *
  generalize stringId r2.2 (ascii "count") = u2 at *
  have hp := (((h1.1.trans h2.1).trans h3.1).trans h4.1).prof
  have e24 := (h2.1.trans h3.1).trans h4.1
  have e34 := h3.1.trans h4.1
  have t2 : TypeIs { u2.2 with profile := { u2.2.profile with
      sampleType := u2.2.profile.sampleType ++ [⟨r1.1, u1.1⟩, ⟨r2.1, u2.1⟩]
      defaultSampleType := r2.1 } } ⟨r2.1, u2.1⟩ ((n ++ ascii "event").takeWhile (· ≠ 0)) :=
    ⟨⟨r2.1, rfl, h3.2.ext h4.1.ext⟩, u2.1, rfl, h4.2⟩
  refine ⟨[⟨r1.1, u1.1⟩, ⟨r2.1, u2.1⟩], ?_, .cons ⟨⟨r1.1, rfl, h1.2.ext e24.ext⟩, u1.1, rfl, h2.2.ext e34.ext⟩ (.cons t2 .nil),
    _, List.mem_cons_of_mem _ List.mem_cons_self, rfl, t2⟩
  show u2.2.profile.sampleType ++ _ = _
  rw [hp]

theorem addTypes_types (ns : List Bytes) : ∀ {b : Builder}, SInv b →
    ∃ ts, (addTypes b ns).profile.sampleType = b.profile.sampleType ++ ts ∧
      All₂ (TypeIs (addTypes b ns)) ts (ns.flatMap typePair) ∧
      (ns = [] → (addTypes b ns).profile.defaultSampleType = b.profile.defaultSampleType) ∧
      ∀ n, ns.getLast? = some n → ∃ t ∈ ts, t.type = (addTypes b ns).profile.defaultSampleType ∧
        TypeIs (addTypes b ns) t ((n ++ ascii "event").takeWhile (· ≠ 0)) := by
  induction ns with
  | nil =>
    intro b h
    exact ⟨[], by simp [addTypes], .nil, fun _ => rfl, fun n hn => by cases hn⟩
  | cons n t ih =>
    intro b h
    have hg := addType_grow h n
    obtain ⟨ts, h1, h2, t0, h3, h3', h3''⟩ := addType_types h n
    obtain ⟨ts', h4, h5, h6, h7⟩ := ih hg.inv
    have hx := (addTypes_grow t hg.inv).ext
    refine ⟨ts ++ ts', ?_, ?_, ?_, ?_⟩
    · rw [addTypes, h4, h1, List.append_assoc]
    · rw [List.flatMap_cons]
      exact All₂.append (All₂.imp (fun a s ht => ht.ext hx) h2) h5
    · intro e; cases e
    · intro x hl
      cases t with
      | nil =>
        cases hl
        exact ⟨t0, List.mem_append_left _ h3, h3', h3''⟩
      | cons y r =>
        rw [List.getLast?_cons_cons] at hl
        obtain ⟨t1, k1, k2, k3⟩ := h7 x hl
        exact ⟨t1, List.mem_append_right _ k1, k2, k3⟩

theorem eventNames_eq (S : Setup) : ∀ fuel idx unknown, idx + fuel = S.attrs.length →
    unknown = ((List.range idx).filter (anonymous S)).length →
    eventNames S fuel idx unknown = (List.range' idx fuel).map (eventPrefix S) := by
  intro fuel
  induction fuel with
  | zero => intro idx u _ _; rfl
  | succ n ih =>
    intro idx u h1 h2
    have hr : ((List.range (idx + 1)).filter (anonymous S)).length = u + if anonymous S idx then 1 else 0 := by
      rw [List.range_succ, List.filter_append, List.length_append, ← h2]
      cases h : anonymous S idx <;> simp [h]
    rw [eventNames, List.range'_succ, List.map_cons]
    have key : namedPrefix S idx = if anonymous S idx then [] else ((S.eventTypes[idx]?).bind id).getD [] ++ ascii "_" := by
      unfold namedPrefix
      unfold anonymous
      by_cases e : S.attrs.length = S.eventTypes.length
      · rw [if_pos e, if_pos e]
        rcases S.eventTypes[idx]? with _ | _ | x <;> rfl
      · rw [if_neg e, if_neg e]; rfl
    simp only [key]
    have ne : ∀ x : Bytes, x ++ ascii "_" ≠ [] := by
      intro x e; have := congrArg List.length e
      rw [List.length_append] at this
      have h : (ascii "_").length = 1 := by decide +kernel
      rw [h] at this; simp at this
    cases ha : anonymous S idx with
    | true =>
      rw [ha] at hr
      simp only [if_true] at hr ⊢
      rw [ih (idx + 1) (u + 1) (by omega) hr.symm]
      unfold eventPrefix
      rw [if_pos ha, h2]
    | false =>
      rw [ha] at hr
      simp only [Bool.false_eq_true, if_false] at hr ⊢
      rw [if_neg (ne _), ih (idx + 1) u (by omega) hr.symm]
      congr 1
      unfold eventPrefix
      rw [ha]; rfl

theorem newProfile_types (S : Setup) :
    All₂ (TypeIs (newProfile S)) (newProfile S).profile.sampleType ((List.range S.attrs.length).flatMap (typeNames S)) ∧
    ∀ n, S.attrs.length = n + 1 → ∃ t ∈ (newProfile S).profile.sampleType,
      t.type = (newProfile S).profile.defaultSampleType ∧
      TypeIs (newProfile S) t ((eventPrefix S n ++ ascii "event").takeWhile (· ≠ 0)) := by
  have he := eventNames_eq S S.attrs.length 0 0 (by omega) rfl
  obtain ⟨ts, h1, h2, -, h4⟩ := addTypes_types (eventNames S S.attrs.length 0 0) SInv.new
  have h1' : (newProfile S).profile.sampleType = ts := by
    unfold newProfile; rw [h1]; rfl
  have hflat : (eventNames S S.attrs.length 0 0).flatMap typePair = (List.range S.attrs.length).flatMap (typeNames S) := by
    rw [he, ← List.range_eq_range', List.flatMap_map]; rfl
  rw [h1']
  refine ⟨by rw [← hflat]; exact h2, ?_⟩
  intro n hn
  refine h4 _ ?_
  rw [he, hn, ← List.range_eq_range', List.range_succ]
  simp

/-! ## Comments -/

theorem addComment_comments {b : Builder} (h : SInv b) (pre : Bytes) (o : Option Bytes) :
    ∃ cs, (addComment b pre o).profile.comment = b.profile.comment ++ cs ∧
      All₂ (fun (i : Int) s => ∃ n : Nat, i = n ∧ IsId (addComment b pre o) s n) cs
        (o.map (fun v => (pre ++ v).takeWhile (· ≠ 0))).toList := by
  cases o with
  | none => exact ⟨[], by simp [addComment], .nil⟩
  | some v =>
    have h1 := utf8Id_str h (pre ++ v)
    simp only [addComment]
    generalize utf8Id b (pre ++ v) = r at *
    refine ⟨[(r.1 : Int)], ?_, .cons ⟨r.1, rfl, h1.2⟩ .nil⟩
    rw [h1.1.prof]

theorem addComments_comments (S : Setup) {b : Builder} (h : SInv b) (hc : b.profile.comment = []) :
    All₂ (fun (i : Int) s => ∃ n : Nat, i = n ∧ IsId (addComments S b) s n) (addComments S b).profile.comment (commentsOf S) := by
  have g1 := addComment_grow h (ascii "perf-version:") S.perfVersion
  have g2 := addComment_grow g1.inv (ascii "perf-command:") S.commandLine
  obtain ⟨c1, h1, h2⟩ := addComment_comments h (ascii "perf-version:") S.perfVersion
  obtain ⟨c2, h3, h4⟩ := addComment_comments g1.inv (ascii "perf-command:") S.commandLine
  unfold addComments
  rw [h3, h1, hc, List.nil_append]
  refine All₂.append (All₂.imp ?_ h2) h4
  rintro i s ⟨n, rfl, hn⟩
  exact ⟨n, rfl, hn.ext g2.ext⟩

theorem addTypes_comment (ns : List Bytes) : ∀ (b : Builder), SInv b → (addTypes b ns).profile.comment = b.profile.comment := by
  induction ns with
  | nil => intro b _; rfl
  | cons n t ih =>
    intro b h
    rw [addTypes, ih _ (addType_grow h n).inv]
    have h1 := (utf8Id_str h (n ++ ascii "sample")).1
    have h2 := (stringId_str h1.inv (ascii "count")).1
    have h3 := (utf8Id_str h2.inv (n ++ ascii "event")).1
    have h4 := (stringId_str h3.inv (ascii "count")).1
    have hp := (((h1.trans h2).trans h3).trans h4).prof
    simp only [addType]
    rw [hp]

/-! ## The first mapping -/

/-- What a new profile has: its types, comments and first mapping. -/
theorem created_spec {S : Setup} {r : Option MapRef} {maps : List (Nat × Nat)} {b : Builder}
    (hm : addMain [] (newProfile S) r = some (maps, b)) :
    BExt (newProfile S) b ∧ BOk b ∧ b.profile.mapping.length = 1 ∧ ∃ m, b.profile.mapping[0]? = some m ∧
      match r with
      | none => m.memoryStart = 0 ∧ m.memoryLimit = 1 ∧ m.filename = 0 ∧ m.buildId = 0
      | some x => ShowsMapping b.profile m x.mapping := by
  have hn := newProfile_bok S
  have hs := newProfile_same S
  cases r with
  | none =>
    simp only [addMain, Option.some.injEq, Prod.mk.injEq] at hm
    obtain ⟨rfl, rfl⟩ := hm
    obtain ⟨k1, k2, k3⟩ := append_mapping hn
      { id := (newProfile S).profile.mapping.length + 1, memoryStart := 0, memoryLimit := 1 } rfl
    refine ⟨k2, k1, by simp [hs.1], { id := 1, memoryStart := 0, memoryLimit := 1 }, ?_, rfl, rfl, rfl, rfl⟩
    show ((newProfile S).profile.mapping ++ [_])[0]? = _
    rw [hs.1]; rfl
  | some r =>
    simp only [addMain] at hm
    split at hm
    · cases hm
    · rename_i id maps1 b1 hx
      simp only [Option.some.injEq, Prod.mk.injEq] at hm
      obtain ⟨rfl, rfl⟩ := hm
      have hw : WorkOk (fun p mp => p = r.ptr ∧ mp = r.mapping) (fun _ _ => True) ⟨[], [], newProfile S⟩ := WorkOk.empty hn
      obtain ⟨k1, k2, -, -, k5, -⟩ := addMapping_spec hw (by intro x hx; cases hx; exact ⟨rfl, rfl⟩) hx
      have hlen : b1.profile.mapping.length = 1 := by
        have := hx
        simp only [addMapping, find] at this
        split at this
        · simp only [Option.some.injEq, Prod.mk.injEq] at this
          rw [← this.2.2]
          simp only [List.length_append, List.length_singleton]
          split
          · have e1 := (utf8Id_str hn.inv r.mapping.buildId.value).1
            have e2 := (utf8Id_str e1.inv (nameOrMd5 r.mapping.filename r.mapping.md5)).1
            rw [(e1.trans e2).prof]; simp [hs.1]
          · have e2 := (utf8Id_str hn.inv (nameOrMd5 r.mapping.filename r.mapping.md5)).1
            rw [e2.prof]; simp [hs.1]
        · cases this
      obtain ⟨q1, m, mp, q2, ⟨-, q3⟩, q4⟩ := k5
      have : id - 1 = 0 := by
        have := (List.getElem?_eq_some_iff.1 q2).1
        omega
      rw [this] at q2
      exact ⟨k2, k1.bok, hlen, m, q2, by show ShowsMapping _ _ r.mapping; rw [← q3]; exact q4⟩

end Verif.Converter
