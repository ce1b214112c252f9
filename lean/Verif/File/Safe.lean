import Verif.File.Model
import Verif.Data.Props

/-! # Reading ends, whatever the bytes are: the logic, and the parts of a file -/

namespace Verif.File
open Verif.Buffer Verif.Event Verif.Sample Verif.Attr Verif.Names Verif.Text Verif.Util Verif.Meta Verif.Serial Verif.Data

/-- From a position with `pre`, `p` ends, with a result and a position with `Q`, or with a failure; if it does not end, the bytes have `B`. -/
def Run {α : Type} (c : Bool) (B : Serial.Bytes → Prop) (pre : Nat → Prop) (p : P α) (Q : α → Nat → Prop) : Prop :=
  ∀ r : Reader, r.Ok → r.cross = c → pre r.off → (p r = none ∧ B r.buf) ∨
    ∃ x r', p r = some (x, r') ∧ r'.Ok ∧ r'.buf = r.buf ∧ r'.cross = c ∧ ∀ a, x = some a → Q a r'.off

variable {c : Bool} {B : Serial.Bytes → Prop}

theorem Run.mono {α : Type} {pre pre' : Nat → Prop} {p : P α} {Q Q' : α → Nat → Prop} (h : Run c B pre p Q) (hp : ∀ o, pre' o → pre o)
    (hq : ∀ a o, Q a o → Q' a o) : Run c B pre' p Q' := fun r hr hc h0 => by
  rcases h r hr hc (hp _ h0) with h | ⟨x, r', h1, h2, h3, h4, h5⟩
  · exact Or.inl h
  · exact Or.inr ⟨x, r', h1, h2, h3, h4, fun a ha => hq _ _ (h5 a ha)⟩

theorem Run.post {α : Type} {pre : Nat → Prop} {p : P α} {Q Q' : α → Nat → Prop} (h : Run c B pre p Q) (hq : ∀ a o, Q a o → Q' a o) :
    Run c B pre p Q' := h.mono (fun _ h => h) hq

theorem Run.at {α : Type} {pre : Nat → Prop} {p : P α} {Q : α → Nat → Prop} (h : ∀ k, pre k → Run c B (· = k) p Q) : Run c B pre p Q :=
  fun r hr hc h0 => h r.off h0 r hr hc rfl

theorem Run.of {α : Type} {pre : Nat → Prop} {p : P α} {Q : α → Prop} (h : SafeP p Q) : Run c B pre p fun a _ => Q a := fun r hr hc _ => by
  obtain ⟨x, r', h1, h2, h3, h4, h5⟩ := h r hr
  exact Or.inr ⟨x, r', h1, h2, h3, h4.trans hc, h5⟩

theorem Run.safe {α : Type} {pre : Nat → Prop} {p : P α} (h : Safe p) : Run c B pre p fun _ _ => True := Run.of (SafeP.of h)

theorem Run.pure {α : Type} {pre : Nat → Prop} {Q : α → Nat → Prop} {a : α} (h : ∀ o, pre o → Q a o) : Run c B pre (pure a : P α) Q :=
  fun r hr hc h0 => Or.inr ⟨some a, r, rfl, hr, rfl, hc, fun b hb => by cases hb; exact h _ h0⟩

theorem Run.fail {α : Type} {pre : Nat → Prop} {Q : α → Nat → Prop} : Run c B pre (fail : P α) Q :=
  fun r hr hc _ => Or.inr ⟨none, r, rfl, hr, rfl, hc, fun b hb => by cases hb⟩

theorem Run.bind {α β : Type} {pre : Nat → Prop} {p : P α} {f : α → P β} {Q : α → Nat → Prop} {R : β → Nat → Prop} (hp : Run c B pre p Q)
    (hf : ∀ a, Run c B (Q a) (f a) R) : Run c B pre (p >>= f) R := by
  intro r hr hc h0
  rcases hp r hr hc h0 with ⟨h1, h2⟩ | ⟨x, r1, e1, ok1, b1, c1, hq⟩
  · exact Or.inl ⟨by rw [bind_def, h1], h2⟩
  · rw [bind_def, e1]
    cases x with
    | none => exact Or.inr ⟨none, r1, rfl, ok1, b1, c1, by simp⟩
    | some a =>
      rcases hf a r1 ok1 c1 (hq a rfl) with ⟨h1, h2⟩ | ⟨y, r2, e2, ok2, b2, c2, h2⟩
      · exact Or.inl ⟨h1, by rw [← b1]; exact h2⟩
      · exact Or.inr ⟨y, r2, e2, ok2, b2.trans b1, c2, h2⟩

theorem Run.ite {α : Type} {d : Prop} [Decidable d] {pre : Nat → Prop} {p q : P α} {Q : α → Nat → Prop} (hp : d → Run c B pre p Q)
    (hq : ¬ d → Run c B pre q Q) : Run c B pre (if d then p else q) Q := by
  split
  · exact hp ‹_›
  · exact hq ‹_›

/-- What is known before stays known. -/
theorem Run.keep {α : Type} {pre : Nat → Prop} {p : P α} {Q : α → Nat → Prop} {K : Prop} (h : K → Run c B pre p Q) :
    Run c B (fun o => K ∧ pre o) p fun a o => K ∧ Q a o := fun r hr hc h0 => by
  rcases h h0.1 r hr hc h0.2 with h | ⟨x, r', h1, h2, h3, h4, h5⟩
  · exact Or.inl h
  · exact Or.inr ⟨x, r', h1, h2, h3, h4, fun a ha => ⟨h0.1, h5 a ha⟩⟩

theorem Run.use {α : Type} {pre : Nat → Prop} {p : P α} {Q : α → Nat → Prop} {K : Prop} (h : K → Run c B pre p Q) :
    Run c B (fun o => K ∧ pre o) p Q := fun r hr hc h0 => h h0.1 r hr hc h0.2

/-! ## The simplest readers -/

theorem run_data {k n : Nat} (hn : n < 2 ^ 64) : Run c B (· = k) (data n) fun d o => d.length = n ∧ o = k + n := fun r hr hc h0 => by
  subst h0
  have e := readData_spec hr hn
  show (r.readData n = none ∧ _) ∨ ∃ x r', r.readData n = some (x, r') ∧ _
  rw [e]
  cases hs : slice r.buf r.off n with
  | none => exact Or.inr ⟨none, r, rfl, hr, rfl, hc, by simp⟩
  | some d =>
    have hl := slice_length hs
    have hd := (slice_some_iff.mp hs).1
    refine Or.inr ⟨some d, _, rfl, ⟨hr.1, ?_, hr.2.2⟩, rfl, hc, fun a ha => ?_⟩
    · show r.off + n ≤ r.size
      rw [hr.1]; exact hd
    · cases ha; exact ⟨hl, rfl⟩

theorem run_int {k n : Nat} (hn : n = 2 ∨ n = 4 ∨ n = 8) : Run c B (· = k) (fun r => r.readInt n : P Nat) fun v o => v < 256 ^ n ∧ o = k + n :=
  fun r hr hc h0 => by
  subst h0
  obtain ⟨x, r', h1, h2, h3, h4, h5⟩ := int_bound hn r hr
  refine Or.inr ⟨x, r', h1, h2, h3, h4.trans hc, fun a ha => ⟨h5 a ha, ?_⟩⟩
  subst ha
  rw [readInt_spec hr hn] at h1
  cases hs : slice r.buf r.off n with
  | none => rw [hs] at h1; cases h1
  | some d => rw [hs] at h1; simp only [Option.some.injEq, Prod.mk.injEq] at h1; rw [← h1.2]

theorem run_u32 {k : Nat} : Run c B (· = k) u32 fun v o => v < 2 ^ 32 ∧ o = k + 4 := run_int (by omega)
theorem run_u64 {k : Nat} : Run c B (· = k) u64 fun v o => v < 2 ^ 64 ∧ o = k + 8 := run_int (by omega)

theorem run_str {k n : Nat} (hn : n < 2 ^ 64) : Run c B (· = k) (str n) fun _ o => o = k + n := fun r hr hc h0 => by
  subst h0
  have e := readString_spec hr hn
  show (r.readString n = none ∧ _) ∨ ∃ x r', r.readString n = some (x, r') ∧ _
  rw [e]
  cases hs : slice r.buf r.off n with
  | none => exact Or.inr ⟨none, r, rfl, hr, rfl, hc, by simp⟩
  | some d =>
    have hd := (slice_some_iff.mp hs).1
    refine Or.inr ⟨some _, _, rfl, ⟨hr.1, ?_, hr.2.2⟩, rfl, hc, fun a ha => rfl⟩
    show r.off + n ≤ r.size
    rw [hr.1]; exact hd

theorem run_tell {pre : Nat → Prop} : Run c B pre tell fun a o => a = o ∧ pre o ∧ o < 2 ^ 63 := fun r hr hc h0 =>
  Or.inr ⟨_, r, rfl, hr, rfl, hc, fun a ha => by
    cases ha
    exact ⟨rfl, h0, Nat.lt_of_le_of_lt (by rw [← hr.1]; exact hr.2.1) hr.2.2⟩⟩

theorem run_isCross {pre : Nat → Prop} : Run c B pre isCross fun a o => a = c ∧ pre o := fun r hr hc h0 =>
  Or.inr ⟨_, r, rfl, hr, rfl, hc, fun a ha => by cases ha; exact ⟨hc, h0⟩⟩

theorem run_seek {pre : Nat → Prop} {k : Nat} : Run c B pre (seek k) fun _ o => o = k := fun r hr hc _ => by
  by_cases h : k ≤ r.size
  · rw [seek_ok h]
    exact Or.inr ⟨some (), _, rfl, ⟨hr.1, h, hr.2.2⟩, rfl, hc, fun _ _ => rfl⟩
  · rw [seek_fail h]
    exact Or.inr ⟨none, r, rfl, hr, rfl, hc, by simp⟩

theorem run_remaining {pre : Nat → Prop} : Run c B pre remaining fun a o => a + o < 2 ^ 63 ∧ pre o := fun r hr hc h0 =>
  Or.inr ⟨_, r, remaining_eq hr, hr, rfl, hc, fun a ha => by
    cases ha
    have := hr.1
    have := hr.2.1
    have := hr.2.2
    exact ⟨by omega, h0⟩⟩

theorem Run.times {α : Type} {p : P α} {n : Nat} (h : ∀ k, Run c B (· = k) p fun _ o => o = k + n) :
    ∀ m k, Run c B (· = k) (times p m) fun l o => l.length = m ∧ o = k + m * n
  | 0, k => Run.pure fun o ho => ⟨rfl, by omega⟩
  | m + 1, k => by
    rw [times.eq_def]
    refine (h k).bind fun a => (Run.times h m (k + n)).bind fun l => Run.pure fun o ho => ⟨by simp [ho.1], ?_⟩
    rw [ho.2, Nat.add_mul, Nat.one_mul]
    omega

/-! ## Attributes -/

theorem bswap64_lt (x : Nat) : bswap64 x < 2 ^ 64 := by unfold bswap64; omega

theorem member_lt (d : List UInt8) (off : Nat) : member d off 8 < 2 ^ 64 := by
  unfold member
  refine Nat.lt_of_lt_of_le (leNat_lt _) ?_
  rw [show (2 : Nat) ^ 64 = 256 ^ 8 by decide]
  exact Nat.pow_le_pow_right (by decide) (by rw [List.length_take]; omega)

theorem run_attr {k : Nat} : Run c B (· = k) readEventAttr fun a o => a.sampleType < 2 ^ 64 ∧ k ≤ o := by
  refine run_u32.bind fun type => Run.use fun _ => run_u32.bind fun size => Run.use fun hs => ?_
  refine (run_data (by unfold restSize; omega)).bind fun d => Run.use fun _ => run_tell.bind fun here => ?_
  refine Run.at fun o ho => run_seek.bind fun _ => run_isCross.bind fun x => Run.pure fun o' ho' => ⟨?_, ?_⟩
  · cases x
    · exact member_lt _ _
    · exact bswap64_lt _
  · obtain ⟨h1, h2, h3⟩ := ho
    rw [ho'.2]
    unfold skipTo
    omega

/-- `s'` came from `s` by registering attributes. -/
def Grown (c : Bool) (s s' : Ser) : Prop := ∃ fs, registerAll s c fs = some s' ∧ ∀ f ∈ fs, f.attr.sampleType < 2 ^ 64

theorem Grown.refl {s : Ser} : Grown c s s := ⟨[], rfl, by simp⟩

theorem registerAll_append : ∀ {fs gs : List FileAttr} {s s' : Ser}, registerAll s c fs = some s' →
    registerAll s c (fs ++ gs) = registerAll s' c gs
  | [], gs, s, s', h => by cases h; rfl
  | f :: fs, gs, s, s', h => by
    unfold registerAll at h
    rw [List.cons_append]
    conv => lhs; unfold registerAll
    cases hc : createReader s f c with
    | mk b t =>
      rw [hc] at h
      cases b
      · cases h
      · exact registerAll_append h

theorem Grown.trans {s s' s'' : Ser} (h : Grown c s s') (h' : Grown c s' s'') : Grown c s s'' := by
  obtain ⟨fs, h1, h2⟩ := h
  obtain ⟨gs, h3, h4⟩ := h'
  refine ⟨fs ++ gs, (registerAll_append h1).trans h3, fun f hf => ?_⟩
  rcases List.mem_append.mp hf with hf | hf
  · exact h2 f hf
  · exact h4 f hf

theorem Grown.accepted {s : Ser} (h : Grown c {} s) : ∃ fs, Accepted fs s := by
  obtain ⟨fs, h1, h2⟩ := h
  exact ⟨fs, ⟨c, h1⟩, h2⟩

/-- What reading metadata may do to a state. -/
def Kept (c : Bool) (st st' : Meta.St) : Prop := st'.info.mask = st.info.mask ∧ Grown c st.ser st'.ser

theorem Kept.same {st st' : Meta.St} (h : st'.info.mask = st.info.mask) (h' : st'.ser = st.ser) : Kept c st st' := ⟨h, by rw [h']; exact .refl⟩
theorem Kept.trans {st st' st'' : Meta.St} (h : Kept c st st') (h' : Kept c st' st'') : Kept c st st'' := ⟨h'.1.trans h.1, h.2.trans h'.2⟩

theorem run_addAttr {pre : Nat → Prop} {st : Meta.St} {f : FileAttr} (h : f.attr.sampleType < 2 ^ 64) :
    Run c B pre (addAttr st f c) fun st' o => Kept c st st' ∧ pre o := by
  unfold addAttr
  refine Run.ite (fun h1 => Run.pure fun o ho => ⟨⟨rfl, [f], ?_, by simpa using h⟩, ho⟩) fun _ => Run.fail
  unfold registerAll
  cases hc : createReader st.ser f c with
  | mk b t =>
    rw [hc] at h1
    cases b
    · cases h1
    · rfl

theorem run_eventDescs : ∀ (n : Nat) (st : Meta.St), Run c B (fun _ => True) (readEventDescs n st) fun st' _ => Kept c st st'
  | 0, st => Run.pure fun _ _ => .same rfl rfl
  | n + 1, st => by
    rw [readEventDescs.eq_def]
    refine Run.at fun k _ => run_attr.bind fun a => (Run.use fun ha => ?_)
    refine (Run.safe safe_u32).bind fun num => (Run.safe safe_sizedStr).bind fun name => (Run.safe (safe_u64.times num)).bind fun ids => ?_
    refine run_isCross.bind fun x => Run.use fun hx => ?_
    rw [hx]
    refine (run_addAttr ha).bind fun st' => Run.use fun h => ?_
    exact (run_eventDescs n _).post fun s o hs => h.trans hs

/-! ## Feature sections -/

/-- A list of CPUs that takes forever is somewhere in the bytes. -/
def Endless (b : Serial.Bytes) : Prop := ∃ t, t <:+: b ∧ parseCPUNumbers t = .diverge

theorem parsed_none : ∀ {l : List Serial.Bytes}, parsedTokens l = none → parseTokens l = .diverge
  | t :: l, h => by
    unfold parsedTokens at h
    unfold parseTokens
    cases ht : parseToken t with
    | ok a =>
      rw [ht] at h
      simp only [Option.map_eq_none_iff] at h
      simp only
      rw [parsed_none h]
    | fail => rw [ht] at h; cases h
    | diverge => rfl

theorem cpus_none {s : Serial.Bytes} (h : parsedCpus s = none) : parseCPUNumbers s = .diverge := by
  unfold parsedCpus at h
  unfold parseCPUNumbers
  cases hs : splitString 44 s with
  | nil => rw [hs] at h; cases h
  | cons t l => rw [hs] at h; exact parsed_none h

theorem slice_infix {b d : List UInt8} {o n : Nat} (h : slice b o n = some d) : d <:+: b := by
  obtain ⟨-, rfl⟩ := slice_some_iff.mp h
  exact (List.take_prefix _ _).isInfix.trans (List.drop_suffix _ _).isInfix

/-- The text that was read is in the bytes. -/
theorem run_text {pre : Nat → Prop} {f : Serial.Bytes → P β} {Q : β → Nat → Prop}
    (h : ∀ s, Run c (fun b => s <:+: b → B b) (fun _ => True) (f s) Q) : Run c B pre (sizedStr >>= f) Q := by
  intro r hr hc _
  rw [bind_def]
  unfold sizedStr Reader.readStringWithSize
  obtain ⟨x, r1, e1, ok1, b1, c1, hq⟩ := int_bound (n := 4) (by omega) r hr
  rw [e1]
  cases x with
  | none => exact Or.inr ⟨none, r1, rfl, ok1, b1, c1.trans hc, by simp⟩
  | some n =>
    have hn : n < 2 ^ 64 := by have := hq n rfl; omega
    simp only
    rw [readString_spec ok1 hn]
    cases hs : slice r1.buf r1.off n with
    | none => exact Or.inr ⟨none, r1, rfl, ok1, b1, c1.trans hc, by simp⟩
    | some d =>
      have hd := (slice_some_iff.mp hs).1
      simp only
      rcases h (d.takeWhile (· ≠ 0)) { r1 with off := r1.off + n }
        ⟨ok1.1, by have := ok1.1; show r1.off + n ≤ r1.size; omega, ok1.2.2⟩ (c1.trans hc) trivial with ⟨h1, h2⟩ | ⟨y, r2, e2, ok2, b2, c2, h2⟩
      · refine Or.inl ⟨h1, ?_⟩
        rw [← b1]
        exact h2 ((List.takeWhile_prefix _).isInfix.trans (slice_infix hs))
      · exact Or.inr ⟨y, r2, e2, ok2, b2.trans b1, c2, h2⟩

theorem run_hybrid : Run c Endless (fun _ => True) readHybrid fun _ _ => True := by
  unfold readHybrid
  refine (Run.safe safe_sizedStr).bind fun pmu => run_text fun cpus => ?_
  cases hp : parsedCpus cpus with
  | none => exact fun r _ _ _ => Or.inl ⟨rfl, fun h => ⟨cpus, h, cpus_none hp⟩⟩
  | some l => exact Run.pure fun _ _ => trivial

theorem Run.times' {α : Type} {p : P α} (h : Run c B (fun _ => True) p fun _ _ => True) :
    ∀ m, Run c B (fun _ => True) (Sample.times p m) fun _ _ => True
  | 0 => Run.pure fun o ho => trivial
  | m + 1 => by
    rw [times.eq_def]
    exact h.bind fun a => (Run.times' h m).bind fun l => Run.pure fun o ho => trivial

theorem run_uint32 {st : Meta.St} {t size : Nat} : Run c B (fun _ => True) (readUint32 st t size) fun st' _ => Kept c st st' := by
  intro r hr hc _
  obtain ⟨x, r', e, a, b, d⟩ := safe_words (n := 4) (by omega) (r.size + 1) size r hr (by omega)
  unfold readUint32
  rw [bind_def]
  rw [show readWords u32 4 (r.size + 1) size r = some (x, r') from e]
  cases x with
  | none => exact Or.inr ⟨none, r', rfl, a, b, d.trans hc, by simp⟩
  | some l =>
    by_cases h : l = []
    · simp only; rw [if_pos h]; exact Or.inr ⟨none, r', rfl, a, b, d.trans hc, by simp⟩
    · simp only; rw [if_neg h]; exact Or.inr ⟨_, r', rfl, a, b, d.trans hc, fun s hs => by cases hs; exact .same rfl rfl⟩

theorem run_uint64 {st : Meta.St} {t size : Nat} : Run c B (fun _ => True) (readUint64 st t size) fun st' _ => Kept c st st' := by
  intro r hr hc _
  obtain ⟨x, r', e, a, b, d⟩ := safe_words (n := 8) (by omega) (r.size + 1) size r hr (by omega)
  unfold readUint64
  rw [bind_def]
  rw [show readWords u64 8 (r.size + 1) size r = some (x, r') from e]
  cases x with
  | none => exact Or.inr ⟨none, r', rfl, a, b, d.trans hc, by simp⟩
  | some l =>
    by_cases h : l = []
    · simp only; rw [if_pos h]; exact Or.inr ⟨none, r', rfl, a, b, d.trans hc, by simp⟩
    · simp only; rw [if_neg h]; exact Or.inr ⟨_, r', rfl, a, b, d.trans hc, fun s hs => by cases hs; exact .same rfl rfl⟩

theorem run_feature (md5 : Serial.Bytes → Nat) (st : Meta.St) {type size : Nat} (hs : size < 2 ^ 64) :
    Run c Endless (fun _ => True) (readFeature md5 st type size) fun st' _ => Kept c st st' := by
  unfold readFeature
  have single : ∀ f : Serial.Bytes → Meta.St, (∀ s, (f s).info.mask = st.info.mask) → (∀ s, (f s).ser = st.ser) →
      Run c Endless (fun _ => True) (readSingle size >>= fun s => pure (f s)) fun st' _ => Kept c st st' :=
    fun f hf hg => (Run.safe (safe_single size)).bind fun s => Run.pure fun _ _ => .same (hf s) (hg s)
  split
  · refine (Run.safe (safe_data hs)).bind fun d => Run.pure fun _ _ => .same ?_ ?_
    · split <;> rfl
    · split <;> rfl
  · exact (Run.safe (safe_buildIds md5 size size (Nat.le_refl _))).bind fun l => Run.pure fun _ _ => .same rfl rfl
  · exact single _ (fun _ => rfl) fun _ => rfl
  · exact single _ (fun _ => rfl) fun _ => rfl
  · exact single _ (fun _ => rfl) fun _ => rfl
  · exact single _ (fun _ => rfl) fun _ => rfl
  · exact run_uint32
  · exact single _ (fun _ => rfl) fun _ => rfl
  · exact single _ (fun _ => rfl) fun _ => rfl
  · exact run_uint64
  · exact (Run.safe safe_u32).bind fun n => (Run.safe (safe_tokens size n 4)).bind fun l => Run.pure fun _ _ => .same rfl rfl
  · refine (Run.safe safe_u32).bind fun n => Run.ite (fun _ => Run.fail) fun _ => (Run.safe safe_u32).bind fun _ => ?_
    exact (run_eventDescs n _).mono (fun _ _ => trivial) fun s _ hs => ⟨hs.1, hs.2⟩
  · refine (Run.safe safe_tell).bind fun o => (Run.safe safe_u32).bind fun n => Run.ite (fun _ => Run.fail) fun _ =>
      (Run.safe (safe_sizedStr.times n)).bind fun cores => (Run.safe safe_u32).bind fun m =>
      Run.ite (fun _ => Run.fail) fun _ => (Run.safe (safe_sizedStr.times m)).bind fun threads => (Run.safe safe_tell).bind fun now => ?_
    refine Run.bind (Q := fun _ _ => True) (Run.ite (fun _ => Run.ite (fun _ => Run.fail) fun _ => Run.safe (Safe.times ?_ _))
      fun _ => Run.pure fun _ _ => trivial) fun cpus => Run.pure fun _ _ => .same rfl rfl
    exact Safe.bind safe_u32 fun _ => Safe.bind safe_u32 fun _ => Safe.pure _
  · refine (Run.safe safe_u32).bind fun n => (Run.safe (Safe.times ?_ n)).bind fun l => Run.pure fun _ _ => .same rfl rfl
    exact Safe.bind safe_u32 fun _ => Safe.bind safe_u64 fun _ => Safe.bind safe_u64 fun _ => Safe.bind safe_sizedStr fun _ =>
      Safe.pure _
  · exact Run.pure fun _ _ => .same rfl rfl
  · refine (Run.safe safe_u32).bind fun n => Run.ite (fun _ => Run.fail) fun _ =>
      (Run.safe (Safe.times ?_ n)).bind fun l => Run.pure fun _ _ => .same rfl rfl
    exact Safe.bind safe_u32 fun _ => Safe.bind safe_sizedStr fun _ => Safe.pure _
  · refine (Run.safe safe_u32).bind fun n => (Run.safe (Safe.times ?_ n)).bind fun l => Run.pure fun _ _ => .same rfl rfl
    exact Safe.bind safe_sizedStr fun _ => Safe.bind safe_u32 fun _ => Safe.bind safe_u32 fun _ => Safe.pure _
  · exact (Run.safe safe_u32).bind fun n => (run_hybrid.times' n).bind fun l => Run.pure fun _ _ => .same rfl rfl
  · exact Run.pure fun _ _ => .same rfl rfl

/-- A feature section ends where it should. -/
theorem run_section (md5 : Serial.Bytes → Nat) (st : Meta.St) {type size k : Nat} (hs : size < 2 ^ 64) :
    Run c Endless (· = k) (readMetadataSection md5 st type size) fun st' o =>
      (Grown c st.ser st'.ser ∧ (st.info.mask.testBit type = true → st'.info.mask = st.info.mask)) ∧ o = k + size := by
  unfold readMetadataSection
  refine run_remaining.bind fun rem => Run.at fun k' hk => ?_
  obtain ⟨h63, rfl⟩ := hk
  refine Run.ite (fun _ => Run.fail) fun hle => run_tell.bind fun start => Run.at fun k'' hk => ?_
  obtain ⟨rfl, rfl, -⟩ := hk
  refine ((run_feature md5 st hs).mono (fun _ _ => trivial) fun _ _ h => h).bind fun st' => ?_
  refine Run.at fun now hkept => ?_
  have hq : Grown c st.ser (if supported.testBit type then setMaskBit st' type else st').ser ∧ (st.info.mask.testBit type = true →
      (if supported.testBit type then setMaskBit st' type else st').info.mask = st.info.mask) := by
    split
    · refine ⟨hkept.2, fun hm => ?_⟩
      show st'.info.mask ||| 2 ^ type = _
      rw [hkept.1, or_bit hm]
    · exact ⟨hkept.2, fun _ => hkept.1⟩
  refine run_tell.bind fun now' => Run.at fun now'' hk => ?_
  obtain ⟨rfl, rfl, hlt⟩ := hk
  refine Run.ite (fun hne => ?_) fun heq => Run.pure fun o ho => ⟨hq, ?_⟩
  · refine run_seek.bind fun _ => Run.pure fun o ho => ⟨hq, ?_⟩
    rw [ho]
    omega
  · rw [ho]
    have := Decidable.not_not.mp heq
    omega

theorem run_features (md5 : Serial.Bytes → Nat) : ∀ (types : List Nat) (sections : List (Nat × Nat)) (st : Meta.St),
    (types.filter st.info.mask.testBit).length ≤ sections.length → (∀ s ∈ sections, s.2 < 2 ^ 64) →
    Run c Endless (fun _ => True) (readFeatures md5 types sections st) fun st' _ => Grown c st.ser st'.ser
  | [], _, st, _, _ => by rw [readFeatures.eq_def]; exact Run.pure fun _ _ => .refl
  | t :: ts, sections, st, hlen, hsz => by
    rw [readFeatures.eq_def]
    simp only
    by_cases ht : st.info.mask.testBit t = true
    · rw [if_pos ht]
      rw [List.filter_cons_of_pos ht, List.length_cons] at hlen
      cases sections with
      | nil => simp at hlen
      | cons s sections =>
        refine run_seek.bind fun _ => (run_section md5 st (hsz s (List.mem_cons_self ..))).bind fun st' => Run.use fun hq => ?_
        refine (run_features md5 ts sections st' ?_ fun s hs => hsz s (List.mem_cons_of_mem _ hs)).mono (fun _ _ => trivial) fun _ _ h =>
          hq.1.trans h
        rw [hq.2 ht]
        simp only [List.length_cons] at hlen
        omega
    · rw [if_neg ht]
      rw [List.filter_cons_of_neg ht] at hlen
      exact run_features md5 ts sections st hlen hsz

theorem run_fileSection {k : Nat} : Run c B (· = k) readFileSection fun s o => (s.1 < 2 ^ 64 ∧ s.2 < 2 ^ 64) ∧ o = k + 16 := by
  have hf : ∀ (x : Bool) (d : List UInt8) off, field x d off 8 < 2 ^ 64 := fun x d off => by
    have := member_lt (d.drop off) 8
    unfold field
    cases x
    · exact this
    · exact bswap64_lt _
  refine (run_data (by omega)).bind fun d => Run.use fun _ => run_isCross.bind fun x => Run.use fun _ => ?_
  refine Run.at fun k' hk' => ?_
  subst hk'
  refine Run.bind (Q := fun _ o => o = k + 16) (fun r hr hc h0 => Or.inr ⟨_, r, rfl, hr, rfl, hc, fun _ _ => h0⟩) fun n => ?_
  refine Run.ite (fun _ => Run.fail) fun _ => Run.ite (fun _ => Run.fail) fun _ => Run.pure fun o ho => ⟨⟨hf _ _ _, hf _ _ _⟩, ho⟩

theorem Run.timesQ {α : Type} {p : P α} {n : Nat} {R : α → Prop} (h : ∀ k, Run c B (· = k) p fun a o => R a ∧ o = k + n) :
    ∀ m k, Run c B (· = k) (Sample.times p m) fun l o => (l.length = m ∧ ∀ a ∈ l, R a) ∧ o = k + m * n
  | 0, k => Run.pure fun o ho => ⟨⟨rfl, by simp⟩, by omega⟩
  | m + 1, k => by
    rw [times.eq_def]
    refine (h k).bind fun a => Run.use fun ha => (Run.timesQ h m (k + n)).bind fun l => Run.use fun hl => Run.pure fun o ho => ⟨⟨by simp [hl.1], ?_⟩, ?_⟩
    · intro b hb
      rcases List.mem_cons.mp hb with rfl | hb
      · exact ha
      · exact hl.2 b hb
    · rw [ho, Nat.add_mul, Nat.one_mul]
      omega

/-- Reading the metadata ends, unless there is a list of CPUs that takes forever. -/
theorem run_metadata (md5 : Serial.Bytes → Nat) (st : Meta.St) (dataEnd : Nat) :
    Run c Endless (fun _ => True) (readMetadata md5 st dataEnd) fun st' _ => Grown c st.ser st'.ser := by
  unfold readMetadata
  refine run_seek.bind fun _ => (Run.timesQ (fun k => run_fileSection) _ _).bind fun l => Run.use fun hl => ?_
  exact (run_features md5 _ l st (by rw [hl.1]; exact types_le _) fun s hs => (hl.2 s hs).2).mono (fun _ _ => trivial) fun _ _ h => h

end Verif.File
