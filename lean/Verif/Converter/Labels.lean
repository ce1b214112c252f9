import Verif.Converter.Totals
import Verif.Base.Lists

/-! # Keys and labels of samples -/

namespace Verif.Converter
open Verif.Profile Verif.Builder
open Verif.Normalizer (Bytes Source MapRef Loc BranchPair SampleEv SampleCtx Callback ACtx AttrRec
  contextFromHeader nameOrMd5 upd)

/-- A sample key with strings instead of their ids, without the stack. -/
structure AKey where
  pid : Nat
  tid : Nat
  timeNs : Nat
  execMode : ACtx
  comm : Bytes
  threadType : Bytes
  threadComm : Bytes
  cgroup : Bytes
  codePageSize : Nat
  dataPageSize : Nat
  cpu : Nat
  cacheLatency : Nat
  dataSrc : Bytes
  snoopStatus : Bytes
  totalLatency : Nat
  issueLatency : Nat
  translationLatency : Nat

/-- A string of a key. -/
def txt (o : Option Bytes) : Bytes := Util.cStr (o.getD [])

/-- The thread's comm after a history. -/
def threadCommAt (S : Setup) (h : List Callback) (s : SampleEv) : Option Bytes :=
  if S.labels.testBit 6 then s.pid.bind (fun p => s.tid.map (fun t => commAt h p t)) else none

/-- The key of a sample after a history. -/
def akey (S : Setup) (h : List Callback) (c : SampleCtx) : AKey :=
  let s := c.sample
  { pid := s.pid.getD 0
    tid := if S.labels.testBit 1 then s.tid.getD 0 else 0
    timeNs := if S.labels.testBit 2 then s.timeNs.getD 0 else 0
    execMode := if S.labels.testBit 3 then contextFromHeader c.misc else .unknown
    comm := txt (if S.labels.testBit 4 then s.pid.map (fun p => commAt h p p) else none)
    threadType := txt (threadType? S s)
    threadComm := txt (threadCommAt S h s)
    cgroup := txt (if S.labels.testBit 7 then c.cgroup else none)
    codePageSize := if S.labels.testBit 8 then s.codePageSize.getD 0 else 0
    dataPageSize := if S.labels.testBit 9 then s.dataPageSize.getD 0 else 0
    cpu := if S.labels.testBit 10 then s.cpu.getD 0 else 0
    cacheLatency := if S.labels.testBit 11 then (s.weightStruct.bind (·.1)).getD 0 else 0
    dataSrc := txt ((dataSrc? S s).map (fun v => dataSrcString (v / 2 ^ 5 % 2 ^ 14)))
    snoopStatus := txt ((dataSrc? S s).map (fun v => snoopString (v / 2 ^ 19 % 2 ^ 5)))
    totalLatency := totalLatency S c
    issueLatency := if S.labels.testBit 14 then (c.spe.map (·.issueLat)).getD 0 else 0
    translationLatency := if S.labels.testBit 15 then (c.spe.map (·.translationLat)).getD 0 else 0 }

/-- A key of a sample with the ids of the strings. -/
structure KeyRel (b : Builder) (k : Key) (a : AKey) : Prop where
  pid : k.pid = a.pid
  tid : k.tid = a.tid
  timeNs : k.timeNs = a.timeNs
  execMode : k.execMode = a.execMode
  comm : IsId b a.comm k.comm
  threadType : IsId b a.threadType k.threadType
  threadComm : IsId b a.threadComm k.threadComm
  cgroup : IsId b a.cgroup k.cgroup
  codePageSize : k.codePageSize = a.codePageSize
  dataPageSize : k.dataPageSize = a.dataPageSize
  cpu : k.cpu = a.cpu
  cacheLatency : k.cacheLatency = a.cacheLatency
  dataSrc : IsId b a.dataSrc k.dataSrc
  snoopStatus : IsId b a.snoopStatus k.snoopStatus
  totalLatency : k.totalLatency = a.totalLatency
  issueLatency : k.issueLatency = a.issueLatency
  translationLatency : k.translationLatency = a.translationLatency

theorem KeyRel.ext {b b' : Builder} (h : Ext b b') {k : Key} {a : AKey} (r : KeyRel b k a) : KeyRel b' k a :=
  { r with
    comm := r.comm.ext h, threadType := r.threadType.ext h, threadComm := r.threadComm.ext h
    cgroup := r.cgroup.ext h, dataSrc := r.dataSrc.ext h, snoopStatus := r.snoopStatus.ext h }

theorem KeyRel.stack {b : Builder} {k : Key} {a : AKey} (r : KeyRel b k a) (s : List Nat) :
    KeyRel b { k with stack := s } a := { r with }

theorem IsId.eq {b : Builder} {s t : Bytes} {i : Nat} (h : IsId b s i) (h' : IsId b t i) : s = t := by
  have := h.1.symm.trans h'.1
  exact Option.some.inj this

/-- Keys agree exactly when what they stand for agrees. -/
theorem KeyRel.eq_iff {b : Builder} (hb : SInv b) {k k' : Key} {a a' : AKey} (h : KeyRel b k a)
    (h' : KeyRel b k' a') : k = k' ↔ a = a' ∧ k.stack = k'.stack := by
  constructor
  · rintro rfl
    refine ⟨?_, rfl⟩
    have e1 := h.pid.symm.trans h'.pid
    have e2 := h.tid.symm.trans h'.tid
    have e3 := h.timeNs.symm.trans h'.timeNs
    have e4 := h.execMode.symm.trans h'.execMode
    have e5 := IsId.eq h.comm h'.comm
    have e6 := IsId.eq h.threadType h'.threadType
    have e7 := IsId.eq h.threadComm h'.threadComm
    have e8 := IsId.eq h.cgroup h'.cgroup
    have e9 := h.codePageSize.symm.trans h'.codePageSize
    have e10 := h.dataPageSize.symm.trans h'.dataPageSize
    have e11 := h.cpu.symm.trans h'.cpu
    have e12 := h.cacheLatency.symm.trans h'.cacheLatency
    have e13 := IsId.eq h.dataSrc h'.dataSrc
    have e14 := IsId.eq h.snoopStatus h'.snoopStatus
    have e15 := h.totalLatency.symm.trans h'.totalLatency
    have e16 := h.issueLatency.symm.trans h'.issueLatency
    have e17 := h.translationLatency.symm.trans h'.translationLatency
    cases a; cases a'
    simp only at e1 e2 e3 e4 e5 e6 e7 e8 e9 e10 e11 e12 e13 e14 e15 e16 e17
    subst e1 e2 e3 e4 e5 e6 e7 e8 e9 e10 e11 e12 e13 e14 e15 e16 e17
    rfl
  · rintro ⟨rfl, hs⟩
    have e1 := h.pid.trans h'.pid.symm
    have e2 := h.tid.trans h'.tid.symm
    have e3 := h.timeNs.trans h'.timeNs.symm
    have e4 := h.execMode.trans h'.execMode.symm
    have e5 := IsId.unique hb h.comm h'.comm
    have e6 := IsId.unique hb h.threadType h'.threadType
    have e7 := IsId.unique hb h.threadComm h'.threadComm
    have e8 := IsId.unique hb h.cgroup h'.cgroup
    have e9 := h.codePageSize.trans h'.codePageSize.symm
    have e10 := h.dataPageSize.trans h'.dataPageSize.symm
    have e11 := h.cpu.trans h'.cpu.symm
    have e12 := h.cacheLatency.trans h'.cacheLatency.symm
    have e13 := IsId.unique hb h.dataSrc h'.dataSrc
    have e14 := IsId.unique hb h.snoopStatus h'.snoopStatus
    have e15 := h.totalLatency.trans h'.totalLatency.symm
    have e16 := h.issueLatency.trans h'.issueLatency.symm
    have e17 := h.translationLatency.trans h'.translationLatency.symm
    cases k; cases k'
    simp only at hs e1 e2 e3 e4 e5 e6 e7 e8 e9 e10 e11 e12 e13 e14 e15 e16 e17
    subst hs e1 e2 e3 e4 e5 e6 e7 e8 e9 e10 e11 e12 e13 e14 e15 e16 e17
    rfl

theorem makeKey_rel (S : Setup) {st : State} (c : SampleCtx) {b : Builder} (hb : SInv b) {h : List Callback}
    (hc : ∀ P t, commOf st P t = commAt h P t) :
    KeyRel (makeKey S st c b).2 (makeKey S st c b).1 (akey S h c) := by
  have h1 := internOpt_str hb (comm? S st c.sample)
  have h2 := internOpt_str h1.1.inv (threadType? S c.sample)
  have h3 := internOpt_str h2.1.inv (threadComm? S st c.sample)
  have h4 := internOpt_str h3.1.inv (if S.labels.testBit 7 then c.cgroup else none)
  have h5 := internOpt_str h4.1.inv ((dataSrc? S c.sample).map (fun v => dataSrcString (v / 2 ^ 5 % 2 ^ 14)))
  have h6 := internOpt_str h5.1.inv ((dataSrc? S c.sample).map (fun v => snoopString (v / 2 ^ 19 % 2 ^ 5)))
  have c1 : comm? S st c.sample = if S.labels.testBit 4 then c.sample.pid.map (fun p => commAt h p p) else none := by
    unfold comm?; simp only [hc]
  have c2 : threadComm? S st c.sample = threadCommAt S h c.sample := by
    unfold threadComm? threadCommAt
    split
    · cases c.sample.pid with
      | none => rfl
      | some p => cases c.sample.tid with
        | none => rfl
        | some t => simp [hc]
    · rfl
  have x1 := (h1.2.ext h2.1.ext).ext (h3.1.ext.trans (h4.1.ext.trans (h5.1.ext.trans h6.1.ext)))
  have x2 := h2.2.ext (h3.1.ext.trans (h4.1.ext.trans (h5.1.ext.trans h6.1.ext)))
  have x3 := h3.2.ext (h4.1.ext.trans (h5.1.ext.trans h6.1.ext))
  have x4 := h4.2.ext (h5.1.ext.trans h6.1.ext)
  have x5 := h5.2.ext h6.1.ext
  have x6 := h6.2
  refine ⟨rfl, rfl, rfl, rfl, ?_, x2, ?_, x4, rfl, rfl, rfl, rfl, x5, x6, rfl, rfl, rfl⟩
  · rw [c1] at x1
    unfold akey txt
    unfold makeKey
    simp only [c1]
    exact x1
  · rw [c2] at x3
    unfold akey txt
    unfold makeKey
    simp only [c2]
    exact x3

/-! ## Labels -/

/-- A label to be made shows a text. -/
def Shows (b : Builder) (l : Bytes × LabelVal) (t : Bytes × LabelText) : Prop :=
  l.1 = t.1 ∧ match l.2 with
  | .id n => ∃ s, t.2 = .str s ∧ n ≠ 0 ∧ b.profile.stringTable[n]? = some s
  | .text s => t.2 = .str s ∧ s ≠ []
  | .num n u => t.2 = .num n (u.getD [])

theorem Shows.ext {b b' : Builder} (h : Ext b b') {l : Bytes × LabelVal} {t : Bytes × LabelText} (s : Shows b l t) :
    Shows b' l t := by
  obtain ⟨h1, h2⟩ := s
  refine ⟨h1, ?_⟩
  cases hl : l.2 with
  | id n =>
    rw [hl] at h2
    obtain ⟨s, a, b, c⟩ := h2
    exact ⟨s, a, b, h.table _ _ c⟩
  | text s => rw [hl] at h2; exact h2
  | num n u => rw [hl] at h2; exact h2

theorem readLabel_ext {b b' : Builder} (h : Ext b b') {l : Label} {t : Bytes × LabelText}
    (hr : readLabel b.profile l = some t) : readLabel b'.profile l = some t := by
  unfold readLabel at *
  cases h1 : b.profile.stringTable[l.key.toNat]? with
  | none => rw [h1] at hr; cases hr
  | some k =>
    rw [h1] at hr
    rw [h.table _ _ h1]
    simp only [Option.bind_eq_bind, Option.bind_some] at *
    split at hr
    · rename_i hs
      rw [if_pos hs]
      cases h2 : b.profile.stringTable[l.str.toNat]? with
      | none => rw [h2] at hr; cases hr
      | some s => rw [h2] at hr; rw [h.table _ _ h2]; exact hr
    · rename_i hs
      rw [if_neg hs]
      cases h2 : b.profile.stringTable[l.numUnit.toNat]? with
      | none => rw [h2] at hr; cases hr
      | some s => rw [h2] at hr; rw [h.table _ _ h2]; exact hr

theorem internLabel_read {b : Builder} (hb : SInv b) {l : Bytes × LabelVal} {t : Bytes × LabelText} (hs : Shows b l t) :
    readLabel (internLabel b l.1 l.2).2.profile (internLabel b l.1 l.2).1 = some t := by
  obtain ⟨name, v⟩ := l
  obtain ⟨tn, tv⟩ := t
  obtain ⟨rfl, h2⟩ := hs
  have h1 := stringId_str hb name
  cases v with
  | id n =>
    obtain ⟨s, rfl, hn, hs⟩ := h2
    have h3 := h1.1.ext.table _ _ hs
    have h4 : ¬ ((n : Int) = 0) := by omega
    simp only [internLabel, readLabel, Int.toNat_natCast, h1.2.1, h3, ne_eq, h4, not_false_eq_true, if_true,
      Option.bind_eq_bind, Option.bind_some]
    rfl
  | text s =>
    obtain ⟨rfl, hn⟩ := h2
    have h3 := stringId_str h1.1.inv s
    have h4 : ¬ (((stringId (stringId b name).2 s).1 : Int) = 0) := by
      intro e
      exact hn (h3.2.2.1 (by omega))
    simp only [internLabel, readLabel, Int.toNat_natCast, h3.1.ext.table _ _ h1.2.1, h3.2.1, ne_eq, h4, not_false_eq_true,
      if_true, Option.bind_eq_bind, Option.bind_some]
    rfl
  | num n u =>
    simp only at h2
    subst h2
    cases u with
    | none =>
      simp only [internLabel, readLabel, Int.toNat_natCast, h1.2.1, ne_eq, not_true_eq_false, if_false,
        Option.bind_eq_bind, Option.bind_some]
      rw [show (0 : Int).toNat = 0 from rfl, h1.1.inv.zero]
      rfl
    | some u =>
      have h3 := stringId_str h1.1.inv u
      simp only [internLabel, readLabel, Int.toNat_natCast, h3.1.ext.table _ _ h1.2.1, h3.2.1, ne_eq, not_true_eq_false,
        if_false, Option.bind_eq_bind, Option.bind_some]
      rfl

theorem internLabels_read (ls : List (Bytes × LabelVal)) : ∀ {ts : List (Bytes × LabelText)} {b : Builder}, SInv b →
    All₂ (Shows b) ls ts →
    All₂ (fun l t => readLabel (internLabels b ls).2.profile l = some t) (internLabels b ls).1 ts := by
  induction ls with
  | nil => intro ts b hb h; cases h; exact .nil
  | cons l t ih =>
    intro ts b hb h
    cases h with
    | cons hr ht =>
      have h1 := internLabel_str hb l.1 l.2
      refine .cons ?_ (ih h1.inv (All₂.imp (fun _ _ => Shows.ext h1.ext) ht))
      exact readLabel_ext (internLabels_str t h1.inv).ext (internLabel_read hb hr)

theorem toInt64_small {n : Nat} (h : n < 2 ^ 63) : toInt64 n = n := by
  unfold toInt64
  rw [Int.bmod_eq_of_le] <;> omega

/-- One optional label. -/
def one (b : Bool) (name : String) (o : Option LabelText) : List (Bytes × LabelText) :=
  ((if b then o.map (ascii name, ·) else none)).toList

theorem labelsOf_eq (S : Setup) (h : List Callback) (c : SampleCtx) :
    labelsOf S h c = (labelFields S h c).flatMap (fun f => one (S.labels.testBit f.1) f.2.1 f.2.2) := by
  unfold labelsOf one
  induction labelFields S h c with
  | nil => rfl
  | cons f t ih =>
    rw [List.filterMap_cons, List.flatMap_cons, ← ih]
    cases (if S.labels.testBit f.1 = true then f.2.2.map (ascii f.2.1, ·) else none) <;> rfl

theorem piece {b : Builder} {bit : Bool} {p : Prop} [Decidable p] {name : String} {v : LabelVal} {o : Option LabelText}
    (h0 : bit = true → ¬ p → o = none) (h1 : bit = true → p → ∃ t, o = some t ∧ Shows b (ascii name, v) (ascii name, t)) :
    All₂ (Shows b) (if bit = true ∧ p then [(ascii name, v)] else []) (one bit name o) := by
  cases bit with
  | false => rw [if_neg (by simp)]; exact .nil
  | true =>
    by_cases hp : p
    · obtain ⟨t, rfl, ht⟩ := h1 rfl hp
      rw [if_pos ⟨rfl, hp⟩]
      exact .cons ht .nil
    · rw [if_neg (fun e => hp e.2), h0 rfl hp]
      exact .nil

theorem piece_text {b : Builder} {bit : Bool} {name : String} {n : Nat} {s : Bytes} {o : Option LabelText}
    (hid : IsId b s n) (ho : bit = true → o = if s = [] then none else some (.str s)) :
    All₂ (Shows b) (if bit = true ∧ n ≠ 0 then [(ascii name, .id n)] else []) (one bit name o) := by
  refine piece (fun hb hp => ?_) (fun hb hp => ?_)
  · rw [ho hb, if_pos (hid.2.1 (by omega))]
  · have : s ≠ [] := fun e => hp (hid.2.2 e)
    rw [ho hb, if_neg this]
    exact ⟨_, rfl, rfl, s, rfl, hp, hid.1⟩

theorem piece_num {b : Builder} {bit : Bool} {name : String} {n m : Nat} {i : Int} {u : Option Bytes} {unit : String}
    (hu : u.getD [] = ascii unit)
    (hn : bit = true → m = n) (hi : bit = true → i = n) :
    All₂ (Shows b) (if bit = true ∧ m ≠ 0 then [(ascii name, .num i u)] else []) (one bit name (numLabel n unit)) := by
  refine piece (fun hb hp => ?_) (fun hb hp => ?_)
  · unfold numLabel; rw [← hn hb, if_pos (by omega)]
  · unfold numLabel
    rw [← hn hb, if_neg hp]
    exact ⟨_, rfl, rfl, by
      show LabelText.num (m : Int) (ascii unit) = LabelText.num i (u.getD [])
      rw [hi hb, hn hb, hu]⟩

theorem piece_opt {b : Builder} {bit : Bool} {name : String} {x : Option Nat} {i : Int} {u : Option Bytes} {unit : Bytes}
    (hu : u.getD [] = unit) (hi : bit = true → ∀ n, x = some n → i = n) :
    All₂ (Shows b) (if bit = true ∧ x.isSome = true then [(ascii name, .num i u)] else [])
      (one bit name (x.map (fun n => .num n unit))) := by
  refine piece (fun hb hp => ?_) (fun hb hp => ?_)
  · cases x with
    | none => rfl
    | some n => exact absurd rfl hp
  · cases x with
    | none => cases hp
    | some n => exact ⟨_, rfl, rfl, by
      show LabelText.num (n : Int) unit = LabelText.num i (u.getD [])
      rw [hi hb n rfl, hu]⟩

theorem cStr_txt (s : Bytes) : textLabel s = if Util.cStr s = [] then none else some (.str (Util.cStr s)) := rfl

theorem find_lookup {β : Type} (l : List (Nat × β)) (a : Nat) : find l a = l.lookup a := by
  induction l with
  | nil => rfl
  | cons x t ih =>
    obtain ⟨k, v⟩ := x
    rw [find_cons, List.lookup_cons]
    by_cases h : k = a
    · subst h; simp
    · rw [if_neg h, ih]
      have : (a == k) = false := by simpa using fun e => h e.symm
      rw [this]

theorem txt_none : txt none = [] := rfl

theorem testBit_shift (v i n k : Nat) (h : i < n) : (v / 2 ^ k % 2 ^ n).testBit i = v.testBit (k + i) := by
  rw [Nat.testBit_mod_two_pow, Nat.testBit_div_two_pow]
  simp [h, Nat.add_comm]

theorem dataSrc_level (v : Nat) : (if dataSrcString (v / 2 ^ 5 % 2 ^ 14) = [] then none
    else some (LabelText.str (dataSrcString (v / 2 ^ 5 % 2 ^ 14)))) = levelLabel v := by
  have t : ∀ i, i < 14 → (v / 2 ^ 5 % 2 ^ 14).testBit i = v.testBit (5 + i) := fun i hi => testBit_shift v i 14 5 hi
  unfold dataSrcString levelLabel byBits levelTable
  rw [t 1 (by omega), t 3 (by omega), t 4 (by omega), t 5 (by omega), t 6 (by omega), t 7 (by omega), t 8 (by omega),
    t 9 (by omega), t 10 (by omega), t 11 (by omega), t 12 (by omega), t 13 (by omega)]
  simp only [Nat.reduceAdd, List.find?_cons, List.any_cons, List.any_nil, Bool.or_false, List.find?_nil]
  cases v.testBit 6 with
  | false => rfl
  | true =>
    cases v.testBit 8; cases v.testBit 9; cases v.testBit 10; cases v.testBit 11; cases v.testBit 12
    cases v.testBit 13; cases v.testBit 14; cases v.testBit 15; cases v.testBit 16; cases v.testBit 17
    cases v.testBit 18
    all_goals first | decide +kernel | rfl

theorem snoop_spec (v : Nat) : snoopString (v / 2 ^ 19 % 2 ^ 5) = byBits snoopTable v "Unknown Status" := by
  have t : ∀ i, i < 5 → (v / 2 ^ 19 % 2 ^ 5).testBit i = v.testBit (19 + i) := fun i hi => testBit_shift v i 5 19 hi
  unfold snoopString byBits snoopTable
  rw [t 1 (by omega), t 2 (by omega), t 3 (by omega), t 4 (by omega)]
  simp only [Nat.reduceAdd, List.find?_cons, List.any_cons, List.any_nil, Bool.or_false, List.find?_nil]
  cases v.testBit 20; cases v.testBit 21; cases v.testBit 22; cases v.testBit 23
  all_goals first | decide +kernel | rfl

end Verif.Converter
