import Verif.Builder.Model
import Verif.Builder.Spec

/-! # Lemmas about the builder -/

namespace Verif.Builder
open Verif.Profile

/-- Add an element at the end unless present. -/
def addNew {α : Type} [DecidableEq α] (acc : List α) (x : α) : List α :=
  if x ∈ acc then acc else acc ++ [x]

theorem firstUses_eq {α : Type} [DecidableEq α] (l : List α) : firstUses l = l.foldl addNew [] := rfl

theorem firstUses_append_one {α : Type} [DecidableEq α] (l : List α) (x : α) :
    firstUses (l ++ [x]) = addNew (firstUses l) x := by
  simp [firstUses_eq]

theorem addNew_get {α : Type} [DecidableEq α] (acc : List α) (x y : α) (i : Nat)
    (h : acc[i]? = some y) : (addNew acc x)[i]? = some y := by
  unfold addNew; split
  · exact h
  · rw [List.getElem?_append_left]; exact h
    exact (List.getElem?_eq_some_iff.1 h).1

theorem foldl_addNew_get {α : Type} [DecidableEq α] (l acc : List α) (y : α) (i : Nat)
    (h : acc[i]? = some y) : (l.foldl addNew acc)[i]? = some y := by
  induction l generalizing acc with
  | nil => exact h
  | cons x t ih => exact ih _ (addNew_get _ _ _ _ h)

theorem addNew_nodup {α : Type} [DecidableEq α] (acc : List α) (x : α) (h : acc.Nodup) :
    (addNew acc x).Nodup := by
  unfold addNew; split
  · exact h
  · rename_i hx
    rw [List.nodup_append]
    refine ⟨h, by simp, ?_⟩
    intro a ha b hb
    simp at hb; subst hb
    intro e; subst e; exact hx ha

theorem foldl_addNew_nodup {α : Type} [DecidableEq α] (l acc : List α) (h : acc.Nodup) :
    (l.foldl addNew acc).Nodup := by
  induction l generalizing acc with
  | nil => exact h
  | cons x t ih => exact ih _ (addNew_nodup _ _ h)

theorem mem_addNew {α : Type} [DecidableEq α] (acc : List α) (x y : α) :
    y ∈ addNew acc x ↔ y ∈ acc ∨ y = x := by
  unfold addNew; split
  · constructor
    · exact Or.inl
    · rintro (h | rfl) <;> assumption
  · simp

theorem mem_foldl_addNew {α : Type} [DecidableEq α] (l acc : List α) (y : α) :
    y ∈ l.foldl addNew acc ↔ y ∈ acc ∨ y ∈ l := by
  induction l generalizing acc with
  | nil => simp
  | cons x t ih => simp [ih, mem_addNew, or_assoc]

theorem firstUses_nodup {α : Type} [DecidableEq α] (l : List α) : (firstUses l).Nodup :=
  foldl_addNew_nodup _ _ List.nodup_nil

theorem mem_firstUses {α : Type} [DecidableEq α] (l : List α) (x : α) : x ∈ firstUses l ↔ x ∈ l := by
  rw [firstUses_eq, mem_foldl_addNew]; simp

/-! ## Strings -/

/-- The string map and the string table agree. -/
structure SInv (b : Builder) : Prop where
  zero : b.profile.stringTable[0]? = some []
  sound : ∀ s i, find b.strings s = some i → 0 < i ∧ b.profile.stringTable[i]? = some s
  complete : ∀ s i, 0 < i → b.profile.stringTable[i]? = some s → find b.strings s = some i

/-- `i` is the id of `s`. -/
def IsId (b : Builder) (s : List UInt8) (i : Nat) : Prop :=
  b.profile.stringTable[i]? = some s ∧ (i = 0 ↔ s = [])

theorem IsId.unique {b : Builder} (h : SInv b) {s : List UInt8} {i j : Nat} (hi : IsId b s i)
    (hj : IsId b s j) : i = j := by
  by_cases hs : s = []
  · rw [hi.2.2 hs, hj.2.2 hs]
  · have h1 := h.complete s i (Nat.pos_of_ne_zero fun e => hs (hi.2.1 e)) hi.1
    have h2 := h.complete s j (Nat.pos_of_ne_zero fun e => hs (hj.2.1 e)) hj.1
    simpa [h1] using h2

theorem SInv.new : SInv new := by
  refine ⟨rfl, ?_, ?_⟩
  · intro s i h; simp [Builder.new, find] at h
  · intro s i hi h
    obtain ⟨k, rfl⟩ : ∃ k, i = k + 1 := ⟨i - 1, by omega⟩
    simp [Builder.new] at h

/-- What a step leaves alone: table entries stay, and nothing but tables changes. -/
structure Ext (b b' : Builder) : Prop where
  table : ∀ (i : Nat) s, b.profile.stringTable[i]? = some s → b'.profile.stringTable[i]? = some s

theorem Ext.refl (b : Builder) : Ext b b := ⟨fun _ _ h => h⟩
theorem Ext.trans {a b c : Builder} (h : Ext a b) (h' : Ext b c) : Ext a c :=
  ⟨fun i s hi => h'.table i s (h.table i s hi)⟩

theorem IsId.ext {b b' : Builder} (h : Ext b b') {s : List UInt8} {i : Nat} (hi : IsId b s i) :
    IsId b' s i := ⟨h.table _ _ hi.1, hi.2⟩

theorem internal_spec (b : Builder) (s : List UInt8) (h : SInv b) :
    SInv (internalStringId b s).2 ∧ Ext b (internalStringId b s).2 ∧
    0 < (internalStringId b s).1 ∧
    (internalStringId b s).2.profile.stringTable[(internalStringId b s).1]? = some s ∧
    (internalStringId b s).2.functions = b.functions ∧
    (internalStringId b s).2.error = b.error ∧
    (internalStringId b s).2.profile =
      { b.profile with stringTable := (internalStringId b s).2.profile.stringTable } ∧
    (s ≠ [] → (internalStringId b s).2.profile.stringTable = addNew b.profile.stringTable s) := by
  have hlen : 0 < b.profile.stringTable.length := by
    have := List.getElem?_eq_some_iff.1 h.zero
    exact this.1
  cases hf : find b.strings s with
  | some id =>
    have hs := h.sound s id hf
    have e : internalStringId b s = (id, b) := by simp [internalStringId, hf]
    rw [e]
    refine ⟨h, Ext.refl b, hs.1, hs.2, rfl, rfl, rfl, ?_⟩
    intro _
    simp only [addNew]
    rw [if_pos (List.mem_of_getElem? hs.2)]
  | none =>
    have e : internalStringId b s = (b.profile.stringTable.length,
        { b with strings := (s, b.profile.stringTable.length) :: b.strings,
                 profile := { b.profile with stringTable := b.profile.stringTable ++ [s] } }) := by
      simp [internalStringId, hf]
    rw [e]
    have hext : Ext b (b.profile.stringTable.length,
        { b with strings := (s, b.profile.stringTable.length) :: b.strings,
                 profile := { b.profile with stringTable := b.profile.stringTable ++ [s] } }).2 := by
      refine ⟨fun i t hi => ?_⟩
      show (b.profile.stringTable ++ [s])[i]? = some t
      rw [List.getElem?_append_left (List.getElem?_eq_some_iff.1 hi).1]
      exact hi
    refine ⟨⟨hext.table _ _ h.zero, ?_, ?_⟩, hext, hlen, ?_, rfl, rfl, rfl, ?_⟩
    · intro t i ht
      simp only [find] at ht
      split at ht
      · rename_i e; subst e
        simp only [Option.some.injEq] at ht; subst ht
        exact ⟨hlen, by simp⟩
      · have := h.sound t i ht
        exact ⟨this.1, hext.table _ _ this.2⟩
    · intro t i hi ht
      simp only [find]
      have ht' : (b.profile.stringTable ++ [s])[i]? = some t := ht
      rw [List.getElem?_append] at ht'
      split at ht'
      · have := h.complete t i hi ht'
        rw [if_neg]; exact this
        intro e; subst e; rw [hf] at this; cases this
      · have hl := (List.getElem?_eq_some_iff.1 ht').1
        simp only [List.length_singleton] at hl
        have hi' : i = b.profile.stringTable.length := by omega
        subst hi'
        simp at ht'
        rw [if_pos ht']
    · simp
    · intro hne
      simp only [addNew]
      rw [if_neg]
      intro hm
      obtain ⟨i, hi⟩ := List.getElem?_of_mem hm
      rcases Nat.eq_zero_or_pos i with e | hpos
      · subst e; rw [h.zero] at hi; simp at hi; exact hne hi
      · rw [h.complete s i hpos hi] at hf; cases hf

theorem stringId_spec (b : Builder) (s : List UInt8) (h : SInv b) :
    SInv (stringId b s).2 ∧ Ext b (stringId b s).2 ∧ IsId (stringId b s).2 s (stringId b s).1 ∧
    (stringId b s).2.functions = b.functions ∧ (stringId b s).2.error = b.error ∧
    (stringId b s).2.profile =
      { b.profile with stringTable := (stringId b s).2.profile.stringTable } ∧
    (stringId b s).2.profile.stringTable = addNew b.profile.stringTable s := by
  unfold stringId
  by_cases hs : s = []
  · subst hs
    rw [if_pos rfl]
    refine ⟨h, Ext.refl b, ⟨h.zero, by simp⟩, rfl, rfl, rfl, ?_⟩
    simp only [addNew]
    rw [if_pos (List.mem_of_getElem? h.zero)]
  · rw [if_neg hs]
    obtain ⟨h1, h2, h3, h4, h5, h6, h7, h8⟩ := internal_spec b s h
    refine ⟨h1, h2, ⟨h4, ?_⟩, h5, h6, h7, h8 hs⟩
    constructor
    · intro e; omega
    · intro e; exact absurd e hs

/-! ## Functions -/

/-- The names of a function record. -/
def IsRec (b : Builder) (f : Function) (n sn fl : List UInt8) (l : Int) : Prop :=
  ∃ i j k : Nat, f.name = i ∧ f.systemName = j ∧ f.filename = k ∧ f.startLine = l ∧
    IsId b n i ∧ IsId b sn j ∧ IsId b fl k

def keyOf (f : Function) : FnKey := (f.name, f.systemName, f.filename, f.startLine)

theorem IsRec.ext {b b' : Builder} (h : Ext b b') {f : Function} {n sn fl : List UInt8} {l : Int}
    (hr : IsRec b f n sn fl l) : IsRec b' f n sn fl l := by
  obtain ⟨i, j, k, h1, h2, h3, h4, h5, h6, h7⟩ := hr
  exact ⟨i, j, k, h1, h2, h3, h4, h5.ext h, h6.ext h, h7.ext h⟩

theorem IsRec.resolve {b : Builder} {f : Function} {n sn fl : List UInt8} {l : Int}
    (hr : IsRec b f n sn fl l) : resolve b.profile f = some (n, sn, fl, l) := by
  obtain ⟨i, j, k, h1, h2, h3, h4, h5, h6, h7⟩ := hr
  simp [Builder.resolve, h1, h2, h3, h4, h5.1, h6.1, h7.1]

/-- The function map and the function table agree. -/
structure FInv (b : Builder) : Prop where
  recs : ∀ (k : Nat) f, b.profile.function[k]? = some f →
    f.id = k + 1 ∧ (∃ n sn fl l, IsRec b f n sn fl l) ∧ find b.functions (keyOf f) = some (k + 1)
  sound : ∀ key id, find b.functions key = some id →
    ∃ k f, id = k + 1 ∧ b.profile.function[k]? = some f ∧ keyOf f = key

theorem FInv.ext {b b' : Builder} (h : FInv b) (he : Ext b b') (hf : b'.functions = b.functions)
    (hp : b'.profile.function = b.profile.function) : FInv b' := by
  refine ⟨fun k f hk => ?_, fun key id hk => ?_⟩
  · rw [hp] at hk
    obtain ⟨h1, ⟨n, sn, fl, l, h2⟩, h3⟩ := h.recs k f hk
    exact ⟨h1, ⟨n, sn, fl, l, h2.ext he⟩, by rw [hf]; exact h3⟩
  · rw [hf] at hk; rw [hp]; exact h.sound key id hk

theorem intern_spec (b : Builder) (i j k : Nat) (n sn fl : List UInt8) (l : Int) (key : FnKey)
    (ek : key = ((i : Int), (j : Int), (k : Int), l)) (hs : SInv b)
    (h : FInv b) (hn : IsId b n i) (hsn : IsId b sn j) (hfl : IsId b fl k) :
    SInv (internFunction b key).2 ∧ FInv (internFunction b key).2 ∧
    (∃ f, 0 < (internFunction b key).1 ∧
      (internFunction b key).2.profile.function[(internFunction b key).1 - 1]? = some f ∧
      f.id = (internFunction b key).1 ∧ keyOf f = key ∧
      IsRec (internFunction b key).2 f n sn fl l) ∧
    ((internFunction b key).2.profile =
      { b.profile with function := (internFunction b key).2.profile.function }) ∧
    (internFunction b key).2.error = b.error ∧
    ((internFunction b key).2.profile.function = b.profile.function ∧
        (∃ f ∈ b.profile.function, keyOf f = key) ∨
     (¬ ∃ f ∈ b.profile.function, keyOf f = key) ∧
     ∃ f, (internFunction b key).2.profile.function = b.profile.function ++ [f] ∧
        keyOf f = key) := by
  have hrec : ∀ b' : Builder, b'.profile.stringTable = b.profile.stringTable →
      ∀ f : Function, keyOf f = key → IsRec b' f n sn fl l := by
    intro b' hb f hf
    rw [ek] at hf
    simp only [keyOf, Prod.mk.injEq] at hf
    refine ⟨i, j, k, hf.1, hf.2.1, hf.2.2.1, hf.2.2.2, ?_, ?_, ?_⟩ <;>
      (simp only [IsId, hb]; assumption)
  cases hf : find b.functions key with
  | some id =>
    obtain ⟨q, f, rfl, hq, hkey⟩ := h.sound _ _ hf
    have e : internFunction b key = (q + 1, b) := by simp [internFunction, hf]
    rw [e]
    refine ⟨hs, h, ⟨f, by omega, by simpa using hq, (h.recs q f hq).1, hkey, hrec b rfl f hkey⟩, rfl, rfl, ?_⟩
    exact Or.inl ⟨rfl, f, List.mem_of_getElem? hq, hkey⟩
  | none =>
    have hno : ¬ ∃ f ∈ b.profile.function, keyOf f = key := by
      rintro ⟨f, hm, hk⟩
      obtain ⟨q, hq⟩ := List.getElem?_of_mem hm
      have := (h.recs q f hq).2.2
      rw [hk, hf] at this; cases this
    have e : internFunction b key = (b.profile.function.length + 1,
      { b with
        functions := (key, b.profile.function.length + 1) :: b.functions
        profile := { b.profile with
          function := b.profile.function ++
            [{ id := b.profile.function.length + 1, name := key.1, systemName := key.2.1,
               filename := key.2.2.1, startLine := key.2.2.2 }] } }) := by
      simp [internFunction, hf]
    rw [e]
    refine ⟨⟨hs.zero, hs.sound, hs.complete⟩, ⟨?_, ?_⟩, ?_, rfl, rfl, Or.inr ⟨hno, _, rfl, rfl⟩⟩
    · intro q f hq
      simp only [find]
      rw [List.getElem?_append] at hq
      split at hq
      · obtain ⟨h1, ⟨n', sn', fl', l', h2⟩, h3⟩ := h.recs q f hq
        refine ⟨h1, ⟨n', sn', fl', l', h2.ext ⟨fun _ _ h => h⟩⟩, ?_⟩
        rw [if_neg]; exact h3
        intro e; exact hno ⟨f, List.mem_of_getElem? hq, e.symm⟩
      · have hl := (List.getElem?_eq_some_iff.1 hq).1
        simp only [List.length_singleton] at hl
        have hi' : q = b.profile.function.length := by omega
        subst hi'
        simp at hq
        subst hq
        refine ⟨rfl, ⟨n, sn, fl, l, hrec _ rfl _ rfl⟩, ?_⟩
        rw [if_pos]; rfl
    · intro key' id hk
      simp only [find] at hk
      split at hk
      · rename_i e; subst e
        simp only [Option.some.injEq] at hk; subst hk
        exact ⟨_, _, rfl, by simp; rfl, rfl⟩
      · obtain ⟨q, f, h1, h2, h3⟩ := h.sound _ id hk
        refine ⟨q, f, h1, ?_, h3⟩
        show (b.profile.function ++ _)[q]? = some f
        rw [List.getElem?_append_left (List.getElem?_eq_some_iff.1 h2).1]
        exact h2
    · refine ⟨_, by omega, by simp; rfl, rfl, rfl, hrec _ rfl _ rfl⟩

theorem functionId_spec (b : Builder) (n sn fl : List UInt8) (l : Int) (hs : SInv b) (h : FInv b) :
    SInv (functionId b n sn fl l).2 ∧ FInv (functionId b n sn fl l).2 ∧ Ext b (functionId b n sn fl l).2 ∧
    (functionId b n sn fl l).2.error = b.error ∧
    (functionId b n sn fl l).2.profile = { b.profile with
      stringTable := (functionId b n sn fl l).2.profile.stringTable
      function := (functionId b n sn fl l).2.profile.function } ∧
    (functionId b n sn fl l).2.profile.stringTable =
      addNew (addNew (addNew b.profile.stringTable n) sn) fl ∧
    (∃ f, 0 < (functionId b n sn fl l).1 ∧
      (functionId b n sn fl l).2.profile.function[(functionId b n sn fl l).1 - 1]? = some f ∧
      f.id = (functionId b n sn fl l).1 ∧ IsRec (functionId b n sn fl l).2 f n sn fl l) ∧
    ((functionId b n sn fl l).2.profile.function = b.profile.function ∧
        (∃ f ∈ b.profile.function, resolve (functionId b n sn fl l).2.profile f = some (n, sn, fl, l)) ∨
     (¬ ∃ f ∈ b.profile.function, resolve (functionId b n sn fl l).2.profile f = some (n, sn, fl, l)) ∧
     ∃ f, (functionId b n sn fl l).2.profile.function = b.profile.function ++ [f] ∧
        IsRec (functionId b n sn fl l).2 f n sn fl l) := by
  obtain ⟨s1, e1, i1, f1, er1, p1, t1⟩ := stringId_spec b n hs
  obtain ⟨s2, e2, i2, f2, er2, p2, t2⟩ := stringId_spec (stringId b n).2 sn s1
  obtain ⟨s3, e3, i3, f3, er3, p3, t3⟩ := stringId_spec (stringId (stringId b n).2 sn).2 fl s2
  have hfun : functionId b n sn fl l = internFunction (stringId (stringId (stringId b n).2 sn).2 fl).2
    (((stringId b n).1 : Nat), ((stringId (stringId b n).2 sn).1 : Nat),
      ((stringId (stringId (stringId b n).2 sn).2 fl).1 : Nat), l) := rfl
  have pf1 : (stringId b n).2.profile.function = b.profile.function := by rw [p1]
  have pf2 : (stringId (stringId b n).2 sn).2.profile.function = b.profile.function := by
    rw [p2]; exact pf1
  have pf3 : (stringId (stringId (stringId b n).2 sn).2 fl).2.profile.function = b.profile.function := by
    rw [p3]; exact pf2
  have hF3 : FInv (stringId (stringId (stringId b n).2 sn).2 fl).2 :=
    h.ext ((e1.trans e2).trans e3) (by rw [f3, f2, f1]) pf3
  have j1 := (i1.ext e2).ext e3
  have j2 := i2.ext e3
  obtain ⟨a1, a2, a3, a4, a5, a6⟩ := intern_spec _ _ _ _ n sn fl l _ rfl s3 hF3 j1 j2 i3
  rw [← hfun] at a1 a2 a3 a4 a5 a6
  have hst : (functionId b n sn fl l).2.profile.stringTable =
      (stringId (stringId (stringId b n).2 sn).2 fl).2.profile.stringTable := by rw [a4]
  have hext : Ext (stringId (stringId (stringId b n).2 sn).2 fl).2 (functionId b n sn fl l).2 :=
    ⟨fun i s hi => by rw [hst]; exact hi⟩
  have hrecs : ∀ f : Function, keyOf f = ((((stringId b n).1 : Nat) : Int),
      (((stringId (stringId b n).2 sn).1 : Nat) : Int),
      (((stringId (stringId (stringId b n).2 sn).2 fl).1 : Nat) : Int), l) →
      IsRec (functionId b n sn fl l).2 f n sn fl l := by
    intro f hf
    simp only [keyOf, Prod.mk.injEq] at hf
    exact ⟨_, _, _, hf.1, hf.2.1, hf.2.2.1, hf.2.2.2, j1.ext hext, j2.ext hext, i3.ext hext⟩
  have hkey : ∀ f ∈ b.profile.function, (resolve (functionId b n sn fl l).2.profile f = some (n, sn, fl, l) ↔
      keyOf f = ((((stringId b n).1 : Nat) : Int),
      (((stringId (stringId b n).2 sn).1 : Nat) : Int),
      (((stringId (stringId (stringId b n).2 sn).2 fl).1 : Nat) : Int), l)) := by
    intro f hf
    constructor
    · intro hr
      obtain ⟨q, hq⟩ := List.getElem?_of_mem hf
      rw [← pf3] at hq
      obtain ⟨_, ⟨n', sn', fl', l', hrec⟩, _⟩ := hF3.recs q f hq
      have hrec' := hrec.ext hext
      have hr' := hrec'.resolve
      rw [hr] at hr'
      simp only [Option.some.injEq, Prod.mk.injEq] at hr'
      obtain ⟨r1, r2, r3, r4⟩ := hr'
      subst r1; subst r2; subst r3; subst r4
      obtain ⟨i, j, k, h1, h2, h3, h4, h5, h6, h7⟩ := hrec'
      have u1 := h5.unique a1 (j1.ext hext)
      have u2 := h6.unique a1 (j2.ext hext)
      have u3 := h7.unique a1 (i3.ext hext)
      simp only [keyOf, h1, h2, h3, h4, u1, u2, u3]
    · intro hk
      exact (hrecs f hk).resolve
  refine ⟨a1, a2, ((e1.trans e2).trans e3).trans hext, ?_, ?_, ?_, ?_, ?_⟩
  · rw [a5, er3, er2, er1]
  · rw [a4, p3, p2, p1]
  · rw [hst, t3, t2, t1]
  · obtain ⟨f, b1, b2, b3, b4, b5⟩ := a3
    exact ⟨f, b1, b2, b3, b5⟩
  · rw [pf3] at a6
    rcases a6 with ⟨c1, f, c2, c3⟩ | ⟨c1, f, c2, c3⟩
    · exact Or.inl ⟨c1, f, c2, (hkey f c2).2 c3⟩
    · refine Or.inr ⟨?_, f, c2, hrecs f c3⟩
      rintro ⟨g, hg, hr⟩
      exact c1 ⟨g, hg, (hkey g hg).1 hr⟩

/-! ## Histories -/

theorem urlOk_iff (u : List UInt8) :
    (u ≠ [] ∧ ¬ (ascii "http://").isPrefixOf u ∧ ¬ (ascii "https://").isPrefixOf u) ↔ ¬ UrlOk u := by
  simp [UrlOk, List.isPrefixOf_iff_prefix]

theorem setDocURL_bad (b : Builder) (u : List UInt8) (h : ¬ UrlOk u) :
    setDocURL b u = { b with error := true } := by
  unfold setDocURL
  rw [if_pos ((urlOk_iff u).2 h)]

theorem setDocURL_ok (b : Builder) (u : List UInt8) (h : UrlOk u) :
    setDocURL b u = { (internalStringId b u).2 with
      profile := { (internalStringId b u).2.profile with docUrl := (internalStringId b u).1 } } := by
  unfold setDocURL
  rw [if_neg (fun hc => (urlOk_iff u).1 hc h)]

theorem step_spec (b : Builder) (op : Op) (hs : SInv b) (h : FInv b) :
    SInv (step b op).2 ∧ FInv (step b op).2 ∧ Ext b (step b op).2 ∧
    (∀ (i : Nat) f, b.profile.function[i]? = some f → (step b op).2.profile.function[i]? = some f) ∧
    (op ≠ .doc [] → (step b op).2.profile.stringTable = op.strings.foldl addNew b.profile.stringTable) ∧
    (∀ G : List (List UInt8 × List UInt8 × List UInt8 × Int), b.profile.function.map (resolve b.profile) = G.map some →
      (step b op).2.profile.function.map (resolve (step b op).2.profile) =
        (op.function?.toList.foldl addNew G).map some) := by
  -- records already there resolve to the same tuple in an extension
  have keep : ∀ b' : Builder, Ext b b' → ∀ G : List (List UInt8 × List UInt8 × List UInt8 × Int), b.profile.function.map (resolve b.profile) = G.map some →
      b.profile.function.map (resolve b'.profile) = G.map some := by
    intro b' he G hG
    rw [← hG]
    apply List.map_congr_left
    intro f hf
    obtain ⟨q, hq⟩ := List.getElem?_of_mem hf
    obtain ⟨_, ⟨n', sn', fl', l', hrec⟩, _⟩ := h.recs q f hq
    rw [hrec.resolve, (hrec.ext he).resolve]
  cases op with
  | str s =>
    obtain ⟨s1, e1, i1, f1, er1, p1, t1⟩ := stringId_spec b s hs
    have pf : (stringId b s).2.profile.function = b.profile.function := by rw [p1]
    refine ⟨s1, h.ext e1 f1 pf, e1, ?_, ?_, ?_⟩
    · intro i f hi; simp only [step]; rw [pf]; exact hi
    · intro _; exact t1
    · intro G hG
      simp only [step, Op.function?, Option.toList, List.foldl]
      rw [pf]; exact keep _ e1 G hG
  | fn n sn fl l =>
    obtain ⟨s1, f1, e1, _, p1, t1, _, c1⟩ := functionId_spec b n sn fl l hs h
    refine ⟨s1, f1, e1, ?_, ?_, ?_⟩
    · intro i f hi
      simp only [step]
      rcases c1 with ⟨c, _⟩ | ⟨_, g, c, _⟩
      · rw [c]; exact hi
      · rw [c, List.getElem?_append_left (List.getElem?_eq_some_iff.1 hi).1]; exact hi
    · intro _; exact t1
    · intro G hG
      simp only [step, Op.function?, Option.toList, List.foldl]
      have hk := keep _ e1 G hG
      rcases c1 with ⟨c, f, hf, hr⟩ | ⟨c0, g, c, hr⟩
      · have : (n, sn, fl, l) ∈ G := by
          have : some (n, sn, fl, l) ∈ G.map some := by
            rw [← hk, ← hr]; exact List.mem_map_of_mem hf
          simpa using this
        rw [addNew, if_pos this, c]; exact hk
      · have : (n, sn, fl, l) ∉ G := by
          intro hm
          apply c0
          have : some (n, sn, fl, l) ∈ G.map some := List.mem_map_of_mem hm
          rw [← hk] at this
          obtain ⟨f, hf, hfe⟩ := List.mem_map.1 this
          exact ⟨f, hf, hfe⟩
        rw [addNew, if_neg this, c, List.map_append, hk]
        simp [hr.resolve]
  | doc u =>
    simp only [step]
    by_cases hu : UrlOk u
    · obtain ⟨s1, e1, _, _, f1, _, p1, t1⟩ := internal_spec b u hs
      rw [setDocURL_ok b u hu]
      have pf : (internalStringId b u).2.profile.function = b.profile.function := by rw [p1]
      have e2 : Ext b { (internalStringId b u).2 with
        profile := { (internalStringId b u).2.profile with docUrl := (internalStringId b u).1 } } :=
        ⟨e1.table⟩
      refine ⟨⟨s1.zero, s1.sound, s1.complete⟩, h.ext e2 f1 pf, e2, ?_, ?_, ?_⟩
      · intro i f hi; simp only; rw [pf]; exact hi
      · intro hne
        simp only [Op.strings, if_pos hu, List.foldl]
        exact t1 (by intro e; subst e; exact hne rfl)
      · intro G hG
        simp only [Op.function?, Option.toList, List.foldl]
        rw [pf]; exact keep _ e2 G hG
    · rw [setDocURL_bad b u hu]
      refine ⟨⟨hs.zero, hs.sound, hs.complete⟩, h.ext ⟨fun _ _ h => h⟩ rfl rfl, ⟨fun _ _ h => h⟩, fun _ _ h => h, ?_, ?_⟩
      · intro _; simp [Op.strings, if_neg hu]
      · intro G hG; simpa [Op.function?] using hG

theorem FInv.new : FInv new := by
  refine ⟨?_, ?_⟩
  · intro k f h; simp [Builder.new] at h
  · intro key id h; simp [Builder.new, find] at h

theorem run_spec (ops : List Op) : ∀ b : Builder, SInv b → FInv b →
    SInv (run b ops) ∧ FInv (run b ops) ∧ Ext b (run b ops) ∧
    (∀ (i : Nat) f, b.profile.function[i]? = some f → (run b ops).profile.function[i]? = some f) ∧
    (Op.doc [] ∉ ops → (run b ops).profile.stringTable =
      (ops.flatMap Op.strings).foldl addNew b.profile.stringTable) ∧
    (∀ G : List (List UInt8 × List UInt8 × List UInt8 × Int), b.profile.function.map (resolve b.profile) = G.map some →
      (run b ops).profile.function.map (resolve (run b ops).profile) =
        ((ops.filterMap Op.function?).foldl addNew G).map some) := by
  induction ops with
  | nil =>
    intro b hs h
    exact ⟨hs, h, Ext.refl b, fun _ _ h => h, fun _ => rfl, fun G h => h⟩
  | cons op ops ih =>
    intro b hs h
    obtain ⟨a1, a2, a3, a4, a5, a6⟩ := step_spec b op hs h
    obtain ⟨b1, b2, b3, b4, b5, b6⟩ := ih _ a1 a2
    refine ⟨b1, b2, a3.trans b3, fun i f hi => b4 i f (a4 i f hi), ?_, ?_⟩
    · intro hno
      simp only [List.mem_cons, not_or] at hno
      simp only [run, List.flatMap_cons, List.foldl_append]
      rw [b5 hno.2, a5 (fun e => hno.1 e.symm)]
    · intro G hG
      simp only [run]
      rw [b6 _ (a6 G hG)]
      cases op <;> simp [Op.function?, List.filterMap_cons]

theorem run_new (ops : List Op) : SInv (run new ops) ∧ FInv (run new ops) :=
  ⟨(run_spec ops _ SInv.new FInv.new).1, (run_spec ops _ SInv.new FInv.new).2.1⟩

end Verif.Builder
