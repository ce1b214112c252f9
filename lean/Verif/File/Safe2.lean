import Verif.File.Safe
import Verif.File.Read2

/-! # Reading ends, whatever the bytes are -/

namespace Verif.File
open Verif.Buffer Verif.Event Verif.Sample Verif.Attr Verif.Names Verif.Text Verif.Util Verif.Meta Verif.Serial Verif.Data

variable {c : Bool} {B : Serial.Bytes → Prop}

/-- What can go wrong: a list of CPUs that takes forever, or a record of BPF metadata. -/
def Bad (c : Bool) (b : Serial.Bytes) : Prop := Endless b ∨ ∃ i, i + 8 ≤ b.length ∧ kind c (b.drop i) = 84

theorem Run.weaken {α : Type} {B' : Serial.Bytes → Prop} {pre : Nat → Prop} {p : P α} {Q : α → Nat → Prop} (h : Run c B pre p Q) (hb : ∀ b, B b → B' b) :
    Run c B' pre p Q := fun r hr hc h0 => by
  rcases h r hr hc h0 with ⟨h1, h2⟩ | h
  · exact Or.inl ⟨h1, hb _ h2⟩
  · exact Or.inr h

/-! ## Sections of files -/

theorem run_readAttr (st : Meta.St) : Run c B (fun _ => True) (readAttr st) fun st' _ => Kept c st st' := by
  unfold readAttr
  refine Run.at fun k _ => run_attr.bind fun a => Run.use fun ha => Run.at fun k' _ => run_fileSection.bind fun s => ?_
  refine (Run.safe safe_tell).bind fun saved => (Run.safe (safe_seek _)).bind fun _ => (Run.safe (safe_u64.times _)).bind fun ids => ?_
  refine (Run.safe (safe_seek _)).bind fun _ => run_isCross.bind fun x => Run.use fun hx => ?_
  rw [hx]
  exact (run_addAttr ha).post fun _ _ h => h.1

theorem run_readAttrs : ∀ (n : Nat) (st : Meta.St), Run c B (fun _ => True) (readAttrs n st) fun st' _ => Kept c st st'
  | 0, st => Run.pure fun _ _ => .same rfl rfl
  | n + 1, st => by
    rw [readAttrs.eq_def]
    refine (run_readAttr st).bind fun st' => Run.at fun k h => ?_
    exact (run_readAttrs n st').mono (fun _ _ => trivial) fun s _ hs => h.trans hs

theorem run_eventType {st : Meta.St} {idx size k : Nat} : Run c B (· = k) (readEventType st idx size) fun st' o => Kept c st st' ∧ k ≤ o := by
  unfold readEventType
  refine run_u64.bind fun id => Run.use fun _ => (run_str (by split <;> omega)).bind fun name => ?_
  cases hf : st.info.attrs[idx]? with
  | none => exact Run.fail
  | some f => exact Run.ite (fun _ => Run.fail) fun _ => Run.pure fun o ho => ⟨.same rfl rfl, by omega⟩

theorem run_types : ∀ (n idx : Nat) (st : Meta.St), Run c B (fun _ => True) (readTypes n idx st) fun st' _ => Kept c st st'
  | 0, _, st => Run.pure fun _ _ => .same rfl rfl
  | n + 1, idx, st => by
    rw [readTypes.eq_def]
    refine Run.at fun k _ => run_eventType.bind fun st' => Run.use fun h => ?_
    exact (run_types n (idx + 1) st').mono (fun _ _ => trivial) fun s _ hs => h.trans hs

theorem run_old (h : FileHeader) (st : Meta.St) : Run c B (fun _ => True) (readOld h st) fun st' _ => Kept c st st' := by
  unfold readOld readAttrsSection readTypesSection
  refine Run.bind (Q := fun st' _ => Kept c st st') (Run.ite (fun _ => Run.fail) fun _ => (Run.safe (safe_seek _)).bind fun _ => run_readAttrs _ _)
    fun st' => Run.at fun k hk => ?_
  refine Run.ite (fun _ => Run.pure fun _ _ => hk) fun _ => Run.ite (fun _ => Run.fail) fun _ => Run.ite (fun _ => Run.fail) fun _ => ?_
  exact (Run.safe (safe_seek _)).bind fun _ => (run_types _ _ _).post fun _ _ hs => hk.trans hs

/-- If a sequence does not end, the second part does not end. -/
theorem Run.none_bind {α β : Type} {pre : Nat → Prop} {p : P α} {f : α → P β} {Q : α → Nat → Prop} (hp : Run c B pre p Q)
    (hf : ∀ a (r : Reader), r.Ok → r.cross = c → Q a r.off → f a r = none → B r.buf) {r : Reader} (hr : r.Ok) (hc : r.cross = c) (h0 : pre r.off)
    (h : (p >>= f) r = none) : B r.buf := by
  rw [bind_def] at h
  rcases hp r hr hc h0 with ⟨_, h2⟩ | ⟨x, r1, e1, ok1, b1, c1, hq⟩
  · exact h2
  · rw [e1] at h
    cases x with
    | none => cases h
    | some a => rw [← b1]; exact hf a r1 ok1 c1 (hq a rfl) h

theorem fileData_none {cfg : Cfg} {h : FileHeader} {st : Data.St} (hg : Grown c {} st.base.ser) {r : Reader} (hr : r.Ok) (hc : r.cross = c)
    (hn : readFileData cfg h st r = none) : Bad c r.buf := by
  by_cases h1 : addSz h.attrs.1 h.attrs.2 > r.size ∨ addSz h.data.1 h.data.2 > r.size ∨ addSz h.types.1 h.types.2 > r.size
  · unfold readFileData at hn
    rw [bind_of (p := dataSize) rfl, if_pos h1] at hn
    cases hn
  rw [readFileData_eq h1] at hn
  revert hn
  refine Run.none_bind (B := Bad c) (Q := fun b _ => Grown c {} b.ser) ?_ (fun b r hr hc hb => ?_) hr hc (pre := fun _ => True) trivial
  · unfold readFirst
    refine Run.ite (fun _ => Run.pure fun _ _ => hg) fun _ => (run_old h st.base).post fun _ _ hk => hg.trans hk.2
  refine Run.none_bind (B := Bad c) (((run_metadata _ _ _).weaken fun _ h => Or.inl h).post fun _ _ h => hb.trans h) (fun b' r hr hc hb' => ?_) hr hc trivial
  intro hn
  rw [bind_def] at hn
  cases h' : readDataSection cfg { st with base := b' } h.data.1 h.data.2 r with
  | none =>
    obtain ⟨fs, hacc⟩ := hb'.accepted
    obtain ⟨_, _, n, _, _, h1, h2⟩ := section_safe_partial (st := { st with base := b' }) hacc hr h'
    rw [hc] at h2
    exact Or.inr ⟨_, h1, h2⟩
  | some y =>
    rw [h'] at hn
    obtain ⟨y, r'⟩ := y
    cases y <;> cases hn

/-! ## Records of pipes -/

theorem run_header {k : Nat} : Run c B (· = k) readEventHeader fun h o => (8 ≤ h.size ∧ h.size < 2 ^ 16) ∧ o = k + 8 := by
  refine (run_data (by omega)).bind fun d => Run.use fun _ => run_isCross.bind fun x => Run.use fun _ => ?_
  refine Run.ite (fun _ => Run.fail) fun h1 => run_remaining.bind fun rem => ?_
  refine Run.ite (fun _ => Run.fail) fun _ => Run.pure fun o ho => ⟨⟨by simp only at h1 ⊢; omega, field2_lt _ _ _⟩, ho.2⟩

theorem run_attrBlock {st : Meta.St} {size k : Nat} : Run c B (· = k) (readAttrBlock st size) fun st' o => Grown c st.ser st'.ser ∧ k ≤ o := by
  unfold readAttrBlock
  refine run_tell.bind fun start => Run.at fun k' hk => ?_
  obtain ⟨rfl, rfl, -⟩ := hk
  refine run_attr.bind fun a => Run.use fun ha => Run.at fun k' hk' => run_tell.bind fun here => Run.at fun k'' hk => ?_
  obtain ⟨rfl, rfl, -⟩ := hk
  refine Run.ite (fun _ => Run.fail) fun _ => ?_
  refine (Run.times (fun k => run_u64.post fun _ _ h => h.2) _ _).bind fun ids => Run.use fun _ => ?_
  refine Run.ite (fun _ => Run.pure fun o ho => ⟨.refl, by omega⟩) fun _ => ?_
  refine Run.ite (fun _ => Run.pure fun o ho => ⟨.refl, by omega⟩) fun _ => ?_
  refine run_isCross.bind fun x => Run.use fun hx => ?_
  rw [hx]
  exact (run_addAttr ha).post fun _ o h => ⟨h.1.2, by omega⟩

theorem run_headerFeature {md5 : Serial.Bytes → Nat} {st : Meta.St} {h : Header} (hh : h.size < 2 ^ 16) {k : Nat} :
    Run c Endless (· = k) (readHeaderFeature md5 st h) fun st' o => Grown c st.ser st'.ser ∧ k ≤ o := by
  unfold readHeaderFeature
  refine Run.ite (fun _ => Run.fail) fun _ => (run_data (by omega)).bind fun d => Run.use fun _ => run_isCross.bind fun x => Run.use fun _ => ?_
  refine Run.ite (fun _ => Run.fail) fun _ => ?_
  exact (run_section md5 st (by omega)).post fun _ o h => ⟨h.1.1, by omega⟩

theorem run_buildId {md5 : Serial.Bytes → Nat} {h : Header} (hs : h.size < 2 ^ 16) {k : Nat} :
    Run c B (· = k) (readBuildId md5 h) fun _ o => k ≤ o := by
  unfold readBuildId
  refine Run.ite (fun _ => Run.fail) fun _ => (run_data (by omega)).bind fun d => Run.use fun _ => run_isCross.bind fun x => Run.use fun _ => ?_
  refine Run.ite (fun _ => Run.fail) fun _ => Run.ite (fun _ => Run.fail) fun _ => ?_
  split
  · exact Run.fail
  · exact Run.pure fun o ho => by omega

/-- Like `Run`, without a promise about the position after a failure. -/
def RunW {α : Type} (c : Bool) (B : Serial.Bytes → Prop) (pre : Nat → Prop) (p : P α) (Q : α → Nat → Prop) : Prop :=
  ∀ r : Reader, r.Ok → r.cross = c → pre r.off → (p r = none → B r.buf) ∧
    ∀ a r', p r = some (some a, r') → r'.Ok ∧ r'.buf = r.buf ∧ r'.cross = c ∧ Q a r'.off

theorem Run.weak {α : Type} {pre : Nat → Prop} {p : P α} {Q : α → Nat → Prop} (h : Run c B pre p Q) : RunW c B pre p Q :=
  fun r hr hc h0 => by
  rcases h r hr hc h0 with ⟨h1, h2⟩ | ⟨x, r1, e1, ok1, b1, c1, hq⟩
  · exact ⟨fun _ => h2, fun a r' h => by rw [h1] at h; cases h⟩
  · refine ⟨fun h => (by rw [h] at e1; cases e1), fun a r' h => ?_⟩
    rw [h] at e1
    cases e1
    exact ⟨ok1, b1, c1, hq a rfl⟩

theorem RunW.bind {α β : Type} {pre : Nat → Prop} {p : P α} {f : α → P β} {Q : α → Nat → Prop} {R : β → Nat → Prop} (hp : RunW c B pre p Q)
    (hf : ∀ a, RunW c B (Q a) (f a) R) : RunW c B pre (p >>= f) R := by
  intro r hr hc h0
  obtain ⟨h1, h2⟩ := hp r hr hc h0
  rw [bind_def]
  cases hpr : p r with
  | none => exact ⟨fun _ => h1 hpr, fun a r' h => by cases h⟩
  | some y =>
    obtain ⟨x, r1⟩ := y
    cases x with
    | none => exact ⟨fun h => (by cases h), fun a r' h => by cases h⟩
    | some a =>
      obtain ⟨ok1, b1, c1, q1⟩ := h2 a r1 hpr
      obtain ⟨h3, h4⟩ := hf a r1 ok1 c1 q1
      refine ⟨fun h => by rw [← b1]; exact h3 h, fun b r' h => ?_⟩
      obtain ⟨g1, g2, g3, g4⟩ := h4 b r' h
      exact ⟨g1, g2.trans b1, g3, g4⟩

theorem RunW.use {α : Type} {pre : Nat → Prop} {p : P α} {Q : α → Nat → Prop} {K : Prop} (h : K → RunW c B pre p Q) :
    RunW c B (fun o => K ∧ pre o) p Q := fun r hr hc h0 => h h0.1 r hr hc h0.2

theorem RunW.ite {α : Type} {d : Prop} [Decidable d] {pre : Nat → Prop} {p q : P α} {Q : α → Nat → Prop} (hp : d → RunW c B pre p Q)
    (hq : ¬ d → RunW c B pre q Q) : RunW c B pre (if d then p else q) Q := by
  split
  · exact hp ‹_›
  · exact hq ‹_›

theorem run_readEvent {cfg : Cfg} {st : Data.St} (hg : Grown c {} st.base.ser) {h : Header} (h8 : 8 ≤ h.size) (hs : h.size < 2 ^ 16)
    {k : Nat} : RunW c (fun _ => h.type = 84) (· = k) (readEvent cfg st h) fun y o => Grown c {} y.1.base.ser ∧ k ≤ o := by
  intro r hr hc h0
  obtain ⟨fs, hacc⟩ := hg.accepted
  refine ⟨fun hn => Decidable.byContradiction fun hb => ?_, fun y r' e => ?_⟩
  · obtain ⟨x, r', e, _⟩ := readEvent_safe (cfg := cfg) hacc h8 hs hb r hr
    rw [e] at hn
    cases hn
  obtain ⟨bs, h4, _, hsl, h5, _⟩ := takes_readEvent (x := c) (cfg := cfg) (st := st) hs r r' y hr hc e
  refine ⟨by rw [h5]; exact ok_forward hr hsl, by rw [h5], by rw [h5]; exact hc, ?_, by rw [h5, ← h0]; exact Nat.le_add_right _ _⟩
  rcases h4.2 with ⟨_, h4, _⟩ | ⟨_, _, _, _, _, _, _, _, _, _, _, _, h4⟩
  · rw [h4]; exact hg
  · have hi := h4.ids
    split at hi
    · rw [hi.1]; exact hg
    · obtain ⟨st₁, h6, h7, _⟩ := hi
      have h8 : st₁.base.ser = st.base.ser := congrArg (·.ser) (addBuildId_some h6).2.2.1
      rw [h7, h8]; exact hg

theorem run_tracing {st : Meta.St} {size k : Nat} (h : size < 2 ^ 64) : Run c B (· = k) (readTracing st size) fun st' o => st'.ser = st.ser ∧ k ≤ o := by
  unfold readTracing
  refine (run_data h).bind fun d => Run.use fun _ => Run.pure fun o ho => ⟨?_, by omega⟩
  split <;> rfl

theorem piped_header {r : Reader} (hr : r.Ok) (hc : r.cross = c) {h : Header} {r' : Reader} (e : readEventHeader r = some (some h, r')) :
    r.off + 8 ≤ r.buf.length ∧ h.type = kind c (r.buf.drop r.off) := by
  obtain ⟨o, r1, hh, _, hacc', hval⟩ := header_accepted r hr
  rw [e] at hh
  cases hh
  obtain ⟨h1, h2⟩ := hval h rfl
  obtain ⟨a1, a2, a3⟩ := hacc'.mp rfl
  refine ⟨a1, ?_⟩
  rw [h1, ← hc]
  rfl

theorem run_pipedRecord {cfg : Cfg} {st : Data.St} (hg : Grown c {} st.base.ser) {n k : Nat} :
    RunW c (Bad c) (· = k) (readPipedRecord cfg st n) fun y o => Grown c {} y.1.base.ser ∧ k + 8 ≤ o := by
  unfold readPipedRecord
  intro r hr hc h0
  have h := run_header (c := c) (B := fun _ => False) (k := k) r hr hc h0
  rcases h with ⟨_, h⟩ | ⟨x, r1, e1, ok1, b1, c1, hq⟩
  · exact h.elim
  rw [bind_def, e1]
  cases x with
  | none => exact ⟨fun h => (by cases h), fun a r' h => by cases h⟩
  | some h =>
    obtain ⟨⟨h8, hs⟩, hk⟩ := hq h rfl
    obtain ⟨hl, ht⟩ := piped_header hr hc e1
    have key : RunW c (fun b => Endless b ∨ h.type = 84) (· = k + 8) (if h.type = 64 then do
          let b ← readAttrBlock st.base (h.size - 8)
          pure ({ st with base := b }, n)
        else if h.type = 65 then do
          let b ← readEventType st.base n h.size
          pure ({ st with base := b }, n + 1)
        else if h.type = 66 then do
          let size ← u32
          let b ← readTracing (setMaskBit st.base 1) size
          pure ({ st with base := b }, n)
        else if h.type = 67 then do
          let b ← readBuildId cfg.env.md5 h
          let base := setMaskBit st.base 2
          pure ({ st with base := { base with info := { base.info with buildIds := base.info.buildIds ++ [b] } } }, n)
        else if h.type = 80 then do
          let b ← readHeaderFeature cfg.env.md5 st.base h
          pure ({ st with base := b }, n)
        else do
          let (st, _) ← readEvent cfg st h
          pure (st, n)) fun y o => Grown c {} y.1.base.ser ∧ k + 8 ≤ o := by
      refine RunW.ite (fun _ => (run_attrBlock.bind fun b => Run.use fun hb => Run.pure fun o ho => ⟨hg.trans hb, ho⟩).weak) fun _ => ?_
      refine RunW.ite (fun _ => (run_eventType.bind fun b => Run.use fun hb => Run.pure fun o ho => ⟨hg.trans hb.2, ho⟩).weak) fun _ => ?_
      refine RunW.ite (fun _ => (run_u32.bind fun size => Run.use fun hsz => (run_tracing (by omega)).bind fun b => Run.use fun hb =>
        Run.pure fun o ho => ⟨by rw [hb]; exact hg, by omega⟩).weak) fun _ => ?_
      refine RunW.ite (fun _ => ((run_buildId hs).bind fun b => Run.pure fun o ho => ⟨hg, ho⟩).weak) fun _ => ?_
      refine RunW.ite (fun _ => (((run_headerFeature hs).weaken fun _ h => Or.inl h).bind fun b => Run.use fun hb =>
        Run.pure fun o ho => ⟨hg.trans hb, ho⟩).weak) fun _ => ?_
      have he : RunW c (fun b => Endless b ∨ h.type = 84) (· = k + 8) (readEvent cfg st h) fun y o => Grown c {} y.1.base.ser ∧ k + 8 ≤ o :=
        fun r hr hc h0 => by
          obtain ⟨a, b⟩ := run_readEvent hg h8 hs r hr hc h0
          exact ⟨fun hn => Or.inr (a hn), b⟩
      exact he.bind fun ⟨a, b⟩ => (Run.pure (pre := fun o => Grown c {} a.base.ser ∧ k + 8 ≤ o)
        (Q := fun (y : Data.St × Nat) o => Grown c {} y.1.base.ser ∧ k + 8 ≤ o) (a := (a, n)) fun o ho => ho).weak
    obtain ⟨g1, g2⟩ := key r1 ok1 c1 hk
    refine ⟨fun hn => ?_, fun a r' h' => ?_⟩
    · rcases g1 hn with h | h
      · exact Or.inl (by rw [← b1]; exact h)
      · exact Or.inr ⟨r.off, hl, by rw [← ht]; exact h⟩
    · obtain ⟨i1, i2, i3, i4⟩ := g2 a r' h'
      exact ⟨i1, i2.trans b1, i3, i4⟩

/-- The loop over the records of a pipe ends. -/
theorem pipedRecords_none {cfg : Cfg} : ∀ {fuel : Nat} {st : Data.St} {n : Nat} {r : Reader}, Grown c {} st.base.ser → r.Ok → r.cross = c →
    r.size < fuel + r.off → readPipedRecords cfg fuel st n r = none → Bad c r.buf := by
  intro fuel
  induction fuel with
  | zero =>
    intro st n r _ hr _ hf
    have := hr.2.1
    omega
  | succ fuel ih =>
    intro st n r hg hr hc hf hn
    rw [readPipedRecords.eq_def] at hn
    simp only at hn
    rw [bind_of (p := tell) rfl, bind_of (p := dataSize) rfl] at hn
    split at hn
    · rw [bind_def] at hn
      obtain ⟨g1, g2⟩ := run_pipedRecord (cfg := cfg) hg (n := n) r hr hc rfl
      cases hp : readPipedRecord cfg st n r with
      | none => exact g1 hp
      | some y =>
        obtain ⟨x, r1⟩ := y
        rw [hp] at hn
        cases x with
        | none => cases hn
        | some y =>
          obtain ⟨i1, i2, i3, i4, i5⟩ := g2 y r1 hp
          rw [← i2]
          refine ih i4 i1 i3 ?_ hn
          have h1 := i1.1
          have h2 := hr.1
          rw [h1, i2, ← h2]
          omega
    · cases hn

theorem piped_none {cfg : Cfg} {st : Data.St} (hg : Grown c {} st.base.ser) {r : Reader} (hr : r.Ok) (hc : r.cross = c) (h16 : r.off = 16)
    (hn : readPiped cfg st r = none) : Bad c r.buf := by
  unfold readPiped at hn
  simp only at hn
  rw [bind_of (p := tell) rfl, bind_of (p := check (decide (r.off = 16))) (by rw [h16]; rfl), bind_def] at hn
  cases hp : readPipedRecords cfg (r.size + 1) st 0 r with
  | none => exact pipedRecords_none hg hr hc (by omega) hp
  | some y =>
    obtain ⟨x, r1⟩ := y
    rw [hp] at hn
    cases x <;> cases hn

/-! ## The whole -/

theorem check_true {b : Bool} {r : Reader} (h : b = true) : check b r = some (some (), r) := by rw [h]; rfl

theorem rest_safe (size : Nat) : Run c B (· = 16) (readRest size) fun h _ => h.size = size := by
  unfold readRest
  refine run_u64.bind fun _ => Run.use fun _ => run_fileSection.bind fun _ => Run.use fun _ => run_fileSection.bind fun _ => Run.use fun _ =>
    run_fileSection.bind fun _ => Run.use fun _ => run_tell.bind fun here => Run.at fun k hk => ?_
  obtain ⟨rfl, h1, -⟩ := hk
  refine Run.bind (Q := fun _ _ => True) (fun r hr hc h0 => Or.inr ⟨some (), r, check_true (by rw [h1]; rfl), hr, rfl, hc, fun _ _ => trivial⟩) fun _ => ?_
  exact (Run.safe (safe_data (by omega))).bind fun _ => Run.pure fun _ _ => rfl

/-- Reading the header ends; if it succeeds, the position is behind it. -/
theorem header_safe {r : Reader} (hr : r.Ok) (h0 : r.off = 0) :
    ∃ x r', readHeader r = some (x, r') ∧ r'.Ok ∧ r'.buf = r.buf ∧ ∀ h, x = some h → h.size = 16 → r'.off = 16 := by
  unfold readHeader
  rw [bind_of (p := tell) rfl, bind_of (p := check (decide (r.off = 0))) (by rw [h0]; rfl), bind_def]
  rcases run_u64 (c := r.cross) (B := fun _ => False) (k := 0) r hr rfl h0 with ⟨_, h⟩ | ⟨x, r1, e1, ok1, b1, c1, hq⟩
  · exact h.elim
  rw [e1]
  cases x with
  | none => exact ⟨none, r1, rfl, ok1, b1, by simp⟩
  | some m =>
    simp only
    split
    · exact ⟨none, r1, rfl, ok1, b1, by simp⟩
    rw [bind_of (p := setCross (decide (m ≠ magic))) rfl, bind_def]
    have ok2 : ({ r1 with cross := decide (m ≠ magic) } : Reader).Ok := ok1
    rcases run_u64 (c := decide (m ≠ magic)) (B := fun _ => False) (k := 8) _ ok2 rfl (hq m rfl).2 with ⟨_, h⟩ | ⟨x, r2, e2, ok2, b2, c2, hq2⟩
    · exact h.elim
    rw [e2]
    cases x with
    | none => exact ⟨none, r2, rfl, ok2, b2.trans b1, by simp⟩
    | some size =>
      simp only
      have h16 : r2.off = 16 := (hq2 size rfl).2
      rw [bind_of (p := tell) rfl, bind_of (p := check (decide (r2.off = 16))) (by rw [h16]; rfl)]
      split
      · exact ⟨_, r2, rfl, ok2, b2.trans b1, fun _ _ _ => h16⟩
      · rename_i hne
        rcases rest_safe (c := decide (m ≠ magic)) (B := fun _ => False) size r2 ok2 c2 h16 with ⟨_, h⟩ | ⟨x, r3, e3, ok3, b3, c3, hq3⟩
        · exact h.elim
        · exact ⟨x, r3, e3, ok3, (b3.trans b2).trans b1, fun h hx hs => absurd ((hq3 h hx).symm.trans hs) hne⟩

/-- C46, C27: whatever the bytes are, reading a recording ends, without aborting, and without touching anything outside of the bytes or of an
event, unless the bytes hold a list of CPUs that is never completed (C20) or a record of BPF metadata (see `section_safe_violated`). The
order of bytes is the one that the first bytes of the recording tell. -/
theorem read_safe_partial {cfg : Cfg} {b : Serial.Bytes} (hb : b.length < 2 ^ 63) (h : readBytes cfg b = none) :
    Endless b ∨ ∃ i, i + 8 ≤ b.length ∧ (kind false (b.drop i) = 84 ∨ kind true (b.drop i) = 84) := by
  have fin : ∀ x : Bool, Bad x b → Endless b ∨ ∃ i, i + 8 ≤ b.length ∧ (kind false (b.drop i) = 84 ∨ kind true (b.drop i) = 84) := by
    intro x hx
    rcases hx with h | ⟨i, h1, h2⟩
    · exact Or.inl h
    · cases x
      · exact Or.inr ⟨i, h1, Or.inl h2⟩
      · exact Or.inr ⟨i, h1, Or.inr h2⟩
  unfold readBytes at h
  rw [Option.map_eq_none_iff] at h
  unfold readFromData at h
  rw [bind_of (p := dataSize) rfl] at h
  split at h
  · cases h
  have ok0 : (Reader.new b false).Ok := ⟨rfl, Nat.zero_le _, hb⟩
  obtain ⟨x, r1, e1, ok1, b1, h16⟩ := header_safe ok0 rfl
  rw [bind_def, e1] at h
  cases x with
  | none => cases h
  | some hd =>
    simp only at h
    have b1 : r1.buf = b := b1
    rw [← b1] at fin ⊢
    split at h
    · exact fin r1.cross (fileData_none (Grown.refl) ok1 rfl h)
    · split at h
      · cases h
      · rename_i h2
        exact fin r1.cross (piped_none (Grown.refl) ok1 rfl (h16 hd rfl (by simpa using h2)) h)

end Verif.File
