import Verif.Converter.Spec
import Verif.Builder.Lemmas
import Verif.Base.Lists

/-! # Lemmas on the steps of the converter -/

namespace Verif.Converter
open Verif.Profile Verif.Builder
open Verif.Normalizer (Bytes Source MapRef Loc BranchPair SampleEv SampleCtx Callback ACtx AttrRec
  contextFromHeader nameOrMd5 upd)

/-! ## Interning -/

/-- A step that only interns strings. -/
structure Str (b b' : Builder) : Prop where
  inv : SInv b'
  ext : Ext b b'
  err : b'.error = b.error
  prof : b'.profile = { b.profile with stringTable := b'.profile.stringTable }

theorem Str.refl {b : Builder} (h : SInv b) : Str b b := ⟨h, Ext.refl b, rfl, rfl⟩

theorem Str.trans {a b c : Builder} (h : Str a b) (h' : Str b c) : Str a c :=
  ⟨h'.inv, h.ext.trans h'.ext, h'.err.trans h.err, by rw [h'.prof, h.prof]⟩

theorem stringId_str {b : Builder} (h : SInv b) (s : Bytes) :
    Str b (stringId b s).2 ∧ IsId (stringId b s).2 s (stringId b s).1 := by
  obtain ⟨h1, h2, h3, -, h5, h6, -⟩ := stringId_spec b s h
  exact ⟨⟨h1, h2, h5, h6⟩, h3⟩

theorem utf8Id_str {b : Builder} (h : SInv b) (s : Bytes) :
    Str b (utf8Id b s).2 ∧ IsId (utf8Id b s).2 (Util.cStr s) (utf8Id b s).1 := stringId_str h _

theorem isId_empty {b : Builder} (h : SInv b) : IsId b [] 0 := ⟨h.zero, by simp⟩

theorem internOpt_str {b : Builder} (h : SInv b) (o : Option Bytes) :
    Str b (internOpt b o).2 ∧ IsId (internOpt b o).2 (Util.cStr (o.getD [])) (internOpt b o).1 := by
  cases o with
  | none => exact ⟨Str.refl h, isId_empty h⟩
  | some s => exact utf8Id_str h s

/-! ## Growth of a builder, without knowledge of its locations -/

/-- Strings are added, samples stay. -/
structure Grow (b b' : Builder) : Prop where
  inv : SInv b'
  ext : Ext b b'
  err : b'.error = b.error
  sample : b'.profile.sample = b.profile.sample

theorem Grow.refl {b : Builder} (h : SInv b) : Grow b b := ⟨h, Ext.refl b, rfl, rfl⟩

theorem Grow.trans {a b c : Builder} (h : Grow a b) (h' : Grow b c) : Grow a c :=
  ⟨h'.inv, h.ext.trans h'.ext, h'.err.trans h.err, h'.sample.trans h.sample⟩

theorem Str.grow {b b' : Builder} (h : Str b b') : Grow b b' :=
  ⟨h.inv, h.ext, h.err, by rw [h.prof]⟩

/-- The invariant of strings only depends on the strings. -/
theorem sinv_congr {b b' : Builder} (h : SInv b) (hs : b'.strings = b.strings)
    (ht : b'.profile.stringTable = b.profile.stringTable) : SInv b' := by
  refine ⟨?_, ?_, ?_⟩
  · rw [ht]; exact h.zero
  · rw [ht, hs]; exact h.sound
  · rw [ht, hs]; exact h.complete

theorem grow_congr {b b' : Builder} (h : SInv b) (hs : b'.strings = b.strings)
    (ht : b'.profile.stringTable = b.profile.stringTable) (he : b'.error = b.error)
    (hp : b'.profile.sample = b.profile.sample) : Grow b b' :=
  ⟨sinv_congr h hs ht, ⟨fun i s hi => by rw [ht]; exact hi⟩, he, hp⟩

theorem addMapping_grow {maps : List (Nat × Nat)} {b : Builder} (h : SInv b) {r : Option MapRef}
    {id : Nat} {maps' : List (Nat × Nat)} {b' : Builder} (hm : addMapping maps b r = some (id, maps', b')) :
    Grow b b' := by
  cases r with
  | none => simp only [addMapping, Option.some.injEq, Prod.mk.injEq] at hm; rw [← hm.2.2]; exact Grow.refl h
  | some r =>
    simp only [addMapping] at hm
    split at hm
    · simp only [Option.some.injEq, Prod.mk.injEq] at hm; rw [← hm.2.2]; exact Grow.refl h
    · rename_i hf
      split at hm
      · simp only [Option.some.injEq, Prod.mk.injEq] at hm
        rw [← hm.2.2]
        have h1 : Str b (if r.mapping.buildId.value ≠ [] then utf8Id b r.mapping.buildId.value else (0, b)).2 := by
          split
          · exact (utf8Id_str h _).1
          · exact Str.refl h
        have h2 := (utf8Id_str h1.inv (nameOrMd5 r.mapping.filename r.mapping.md5)).1
        have h3 := h1.trans h2
        refine h3.grow.trans ?_
        exact grow_congr h3.inv rfl rfl rfl rfl
      · cases hm

theorem addLocation_grow {w : Work} (h : SInv w.b) {addr : Nat} {r : Option MapRef} {id : Nat} {w' : Work}
    (hl : addLocation w addr r = some (id, w')) : Grow w.b w'.b := by
  unfold addLocation at hl
  split at hl
  · simp only [Option.some.injEq, Prod.mk.injEq] at hl; rw [← hl.2]; exact Grow.refl h
  · simp only at hl
    split at hl
    · cases hl
    · rename_i mid maps b hm
      split at hl
      · cases hl
      · simp only [Option.some.injEq, Prod.mk.injEq] at hl
        rw [← hl.2]
        have h1 := addMapping_grow h hm
        exact h1.trans (grow_congr h1.inv rfl rfl rfl rfl)

/-! ## Frames, as one list -/

/-- Push a list of frames, each counted or not. -/
def pushAll : List (Bool × Frame) → Acc → Option Acc
  | [], a => some a
  | f :: t, a =>
    match pushFrame a f.1 f.2.1 f.2.2 with
    | none => none
    | some a => pushAll t a

theorem pushAll_append (x y : List (Bool × Frame)) (a : Acc) :
    pushAll (x ++ y) a = (pushAll x a).bind (pushAll y) := by
  induction x generalizing a with
  | nil => rfl
  | cons f t ih =>
    simp only [List.cons_append, pushAll]
    cases pushFrame a f.1 f.2.1 f.2.2 with
    | none => rfl
    | some a => exact ih a

/-- The frames the loop over the call chain pushes. -/
def chainFrames (lbr : Bool) (skipped : Bool) (l : List Loc) : List Frame :=
  let part := if lbr then l.takeWhile (fun f => f.ip ≠ 0xfffffffffffffe00) else l
  let real := part.filter (fun f => f.ip ≤ 0xfffffffffffff000)
  (if skipped then real else real.drop 1).filterMap (fun f =>
    f.mapping.bind (fun r => if r.mapping.start < f.ip then some (f.ip - 1, some r) else none))

theorem pushChain_eq (lbr : Bool) (l : List Loc) : ∀ (skipped : Bool) (a : Acc),
    pushChain lbr skipped l a = pushAll ((chainFrames lbr skipped l).map (true, ·)) a := by
  induction l with
  | nil => intro sk a; cases lbr <;> cases sk <;> rfl
  | cons f t ih =>
    intro sk a
    unfold pushChain
    by_cases h1 : lbr = true ∧ f.ip = 2 ^ 64 - 512
    · rw [if_pos h1]
      obtain ⟨rfl, h1⟩ := h1
      have : chainFrames true sk (f :: t) = [] := by
        have : ¬ (f.ip ≠ 0xfffffffffffffe00) := by simp [h1]
        simp only [chainFrames, if_true, List.takeWhile_cons]
        simp [this]
      rw [this]; rfl
    · rw [if_neg h1]
      -- the part of the list up to the marker starts with this entry
      have hpart : (if lbr then (f :: t).takeWhile (fun f => f.ip ≠ 0xfffffffffffffe00) else f :: t) =
          f :: (if lbr then t.takeWhile (fun f => f.ip ≠ 0xfffffffffffffe00) else t) := by
        cases lbr with
        | false => rfl
        | true =>
          have : f.ip ≠ 0xfffffffffffffe00 := fun e => h1 ⟨rfl, e⟩
          simp [this]
      by_cases h2 : f.ip ≥ 2 ^ 64 - 4095
      · rw [if_pos h2, ih]
        congr 2
        have : ¬ f.ip ≤ 0xfffffffffffff000 := by omega
        simp only [chainFrames, hpart]
        rw [List.filter_cons_of_neg (by simpa using this)]
      · rw [if_neg h2]
        have h2' : f.ip ≤ 0xfffffffffffff000 := by omega
        have hreal := List.filter_cons_of_pos (p := fun f : Loc => decide (f.ip ≤ 0xfffffffffffff000))
          (l := if lbr then t.takeWhile (fun f => f.ip ≠ 0xfffffffffffffe00) else t) (a := f) (by simpa using h2')
        cases sk with
        | false =>
          rw [if_pos (by decide), ih]
          congr 2
          simp only [chainFrames, hpart]
          rw [hreal]
          simp
        | true =>
          rw [if_neg (by decide)]
          have hc : chainFrames lbr true (f :: t) =
              ((f.mapping.bind (fun r => if r.mapping.start < f.ip then some (f.ip - 1, some r) else none)).toList) ++
                chainFrames lbr true t := by
            simp only [chainFrames, hpart]
            rw [hreal]
            simp only [if_true, List.filterMap_cons]
            cases f.mapping.bind (fun r => if r.mapping.start < f.ip then some (f.ip - 1, some r) else none) <;> rfl
          rw [hc]
          cases hm : f.mapping with
          | none => simp only [Option.bind_none, Option.toList_none, List.nil_append]; exact ih _ _
          | some r =>
            simp only [Option.bind_some]
            by_cases h3 : f.ip ≤ r.mapping.start
            · rw [if_pos h3, if_neg (by omega)]
              simp only [Option.toList_none, List.nil_append]; exact ih _ _
            · rw [if_neg h3, if_pos (by omega)]
              simp only [Option.toList_some, List.singleton_append, List.map_cons, pushAll]
              cases pushFrame a true (f.ip - 1) (some r) with
              | none => rfl
              | some a => exact ih _ _

theorem pushBranches_eq (l : List BranchPair) : ∀ a : Acc,
    pushBranches l a = pushAll ((l.filterMap (fun b =>
      b.from_.mapping.bind (fun r => if r.mapping.start ≤ b.from_.ip then some (b.from_.ip, some r) else none))).map
        (true, ·)) a := by
  induction l with
  | nil => intro a; rfl
  | cons f t ih =>
    intro a
    unfold pushBranches
    cases hm : f.from_.mapping with
    | none => simp only [List.filterMap_cons, hm, Option.bind_none]; exact ih a
    | some r =>
      simp only [List.filterMap_cons, hm, Option.bind_some]
      by_cases h : f.from_.ip < r.mapping.start
      · rw [if_pos h, if_neg (by omega)]; exact ih a
      · rw [if_neg h, if_pos (by omega)]
        simp only [List.map_cons, pushAll]
        cases pushFrame a true f.from_.ip (some r) with
        | none => rfl
        | some a => exact ih a

theorem isLbr_iff (c : SampleCtx) : isLbr c = true ↔ LbrSample c := by
  unfold isLbr LbrSample
  cases c.branchStack <;> cases c.spe <;> simp

/-- The frames of a sample, with a flag for those that count in the build ID statistics. -/
def flagged (S : Setup) (c : SampleCtx) : List (Bool × Frame) :=
  (if S.options.testBit 3 then
    [(false, if c.addrMap = none then 0 else c.sample.addr.getD 0, c.addrMap)] else []) ++
  (codeFrames c).map (true, ·)

theorem flagged_frames (S : Setup) (c : SampleCtx) : (flagged S c).map (·.2) = frames S c := by
  unfold flagged frames
  cases S.options.testBit 3 <;> simp [Function.comp_def]

theorem flagged_counted (S : Setup) (c : SampleCtx) :
    ((flagged S c).filter (·.1)).map (·.2) = codeFrames c := by
  unfold flagged
  have : (((codeFrames c).map (true, ·)).filter (·.1)).map (·.2) = codeFrames c := by
    rw [List.filter_eq_self.2 (by simp), List.map_map]; simp [Function.comp_def]
  cases S.options.testBit 3 <;> simpa using this

theorem checkedAddr_ok {addr : Nat} {r : Option MapRef} (h : AddrOk addr r) :
    checkedAddr addr r = some (if r = none then 0 else addr) := by
  cases r with
  | none => simp [checkedAddr]
  | some m =>
    unfold checkedAddr
    by_cases h0 : addr = 0
    · simp [h0]
    · simp [h0, h m rfl h0]

theorem checkedAddr_some {addr x : Nat} {r : Option MapRef} (h : checkedAddr addr r = some x) : AddrOk addr r := by
  intro m hm h0
  subst hm
  simp only [checkedAddr, h0, if_false] at h
  split at h
  · assumption
  · cases h

/-- The stack of a sample whose addresses are in their mappings. -/
theorem pushStack_eq (S : Setup) (c : SampleCtx) (a : Acc) (hip : AddrOk c.sample.ip c.sampleMap)
    (had : S.options.testBit 3 = true → AddrOk (c.sample.addr.getD 0) c.addrMap) :
    pushStack S c a = pushAll (flagged S c) a := by
  unfold pushStack
  rw [checkedAddr_ok hip]
  simp only
  have hd : pushData S c a = pushAll (if S.options.testBit 3 then
      [(false, if c.addrMap = none then 0 else c.sample.addr.getD 0, c.addrMap)] else []) a := by
    unfold pushData Setup.dataFrames
    cases hb : S.options.testBit 3 with
    | false => rfl
    | true =>
      rw [if_pos rfl, checkedAddr_ok (had hb)]
      simp only [if_true, pushAll]
      cases pushFrame a false (if c.addrMap = none then 0 else c.sample.addr.getD 0) c.addrMap <;> rfl
  rw [flagged, pushAll_append, ← hd]
  cases pushData S c a with
  | none => rfl
  | some a =>
    simp only [Option.bind_some, codeFrames, leaf, List.map_cons, List.map_append, pushAll]
    cases pushFrame a true (if c.sampleMap = none then 0 else c.sample.ip) c.sampleMap with
    | none => rfl
    | some a =>
      simp only
      rw [pushAll_append, pushChain_eq]
      have hc : chainFrames (isLbr c) false c.callchain = callers c := by
        unfold chainFrames callers
        by_cases hl : LbrSample c
        · simp [hl, (isLbr_iff c).2 hl]
        · have : isLbr c = false := by
            cases h : isLbr c with
            | false => rfl
            | true => exact absurd ((isLbr_iff c).1 h) hl
          simp [hl, this]
      rw [hc]
      cases pushAll ((callers c).map (true, ·)) a with
      | none => rfl
      | some a =>
        simp only [Option.bind_some, branches]
        by_cases hl : LbrSample c
        · rw [if_pos ((isLbr_iff c).2 hl), if_pos hl, pushBranches_eq]
        · rw [if_neg (fun h => hl ((isLbr_iff c).1 h)), if_neg hl]; rfl

theorem pushStack_some {S : Setup} {c : SampleCtx} {a a' : Acc} (h : pushStack S c a = some a') :
    AddrOk c.sample.ip c.sampleMap ∧ (S.options.testBit 3 = true → AddrOk (c.sample.addr.getD 0) c.addrMap) ∧
      pushAll (flagged S c) a = some a' := by
  have h1 : AddrOk c.sample.ip c.sampleMap := by
    unfold pushStack at h
    split at h
    · cases h
    · rename_i ip hi; exact checkedAddr_some hi
  have h2 : S.options.testBit 3 = true → AddrOk (c.sample.addr.getD 0) c.addrMap := by
    intro hb
    unfold pushStack at h
    split at h
    · cases h
    · split at h
      · cases h
      · rename_i hd
        unfold pushData Setup.dataFrames at hd
        rw [if_pos hb] at hd
        split at hd
        · cases hd
        · rename_i hx; exact checkedAddr_some hx
  exact ⟨h1, h2, by rw [← pushStack_eq S c a h1 h2]; exact h⟩

theorem pushFrame_some {a a' : Acc} {f : Bool} {addr : Nat} {r : Option MapRef}
    (h : pushFrame a f addr r = some a') :
    ∃ id w, addLocation a.w addr r = some (id, w) ∧ a' =
      { stack := a.stack ++ [id], w, stats := if f then incStats a.stats r else a.stats } := by
  unfold pushFrame at h
  split at h
  · cases h
  · rename_i id w hl
    exact ⟨id, w, hl, (Option.some.inj h).symm⟩

/-- What pushing frames does to the builder and the counters. -/
theorem pushAll_grow (fs : List (Bool × Frame)) : ∀ {a a' : Acc}, SInv a.w.b → pushAll fs a = some a' →
    Grow a.w.b a'.w.b ∧
    a'.stats = ((fs.filter (·.1)).map (·.2.2)).foldl incStats a.stats := by
  induction fs with
  | nil => intro a a' hi h; cases h; exact ⟨Grow.refl hi, rfl⟩
  | cons f t ih =>
    intro a a' hi h
    unfold pushAll at h
    split at h
    · cases h
    · rename_i a1 hp
      obtain ⟨id, w, hl, rfl⟩ := pushFrame_some hp
      have g := addLocation_grow hi hl
      obtain ⟨g2, s2⟩ := ih (a := { stack := a.stack ++ [id], w, stats := if f.1 then incStats a.stats f.2.2 else a.stats }) g.inv h
      refine ⟨g.trans g2, ?_⟩
      rw [s2]
      cases hf : f.1 with
      | false => simp [hf]
      | true => simp [hf]

end Verif.Converter
