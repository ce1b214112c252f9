import Verif.Data.Safe

/-! The conversion of an event goes wrong only for metadata of a BPF program. -/

namespace Verif.Data
open Verif.Buffer Verif.Event Verif.Sample Verif.Attr Verif.Names Verif.Text Verif.Util Verif.Meta Verif.Serial

theorem decode_safe {ser : Ser} {x : Bool} {f : Nat} {e : RawEvent} (hok : e.Ok) (hf : fixedPayloadSize e.type = some f) (hle : f ≤ e.size) :
    ∃ y, decode ser x f e = some y ∧ ∀ e', y = some e' → Fits e' := by
  have step : ∀ e₁ : RawEvent, e₁.type = e.type → e₁.payload.length = e.payload.length →
      ∃ z, variablePayloadSize e₁ (e₁.size - f) = some z ∧ ∀ n, z = some n → Fits e₁ := by
    intro e₁ t1 t3
    have hsz : e₁.size = e.size := by unfold RawEvent.size; rw [t3]
    have ok1 : e₁.Ok := by show e₁.size < 2 ^ 16; rw [hsz]; exact hok
    obtain ⟨v, hv, _⟩ := variableSize_some ok1 (by rw [t1]; exact hf) (by rw [hsz]; exact hle)
    unfold variablePayloadSize
    rw [hv]
    cases v with
    | none => exact ⟨none, rfl, fun n h => by cases h⟩
    | some n =>
      have := fits_of_variable ok1 (by rw [t1]; exact hf) (by rw [hsz]; exact hle) hv
      simp only
      split
      · exact ⟨none, rfl, fun n h => by cases h⟩
      · exact ⟨_, rfl, fun _ _ => this⟩
  unfold decode
  cases x with
  | false =>
    simp only [Bool.false_eq_true, if_false]
    obtain ⟨z, hz, hfit⟩ := step e rfl rfl
    rw [hz]
    cases z with
    | none => exact ⟨none, rfl, fun e' h => by cases h⟩
    | some n =>
      simp only
      split
      · exact ⟨none, rfl, fun e' h => by cases h⟩
      · refine ⟨_, rfl, fun e' h => ?_⟩
        simp only [Option.some.injEq] at h
        subst h
        exact hfit n rfl
  | true =>
    simp only [if_true]
    unfold swapFixed
    cases hff : fixedFields e with
    | none => exact ⟨none, rfl, fun e' h => by cases h⟩
    | some l =>
      obtain ⟨e₁, he₁⟩ := swapAll_ok (l := l) (e := e) fun y hy => by
        have := fixed_inside hff hf y hy
        omega
      simp only [he₁, Option.map_some]
      obtain ⟨t1, t2, t3⟩ := swapAll_same he₁
      obtain ⟨z, hz, hfit⟩ := step e₁ t1 t3
      rw [hz]
      cases z with
      | none => exact ⟨none, rfl, fun e' h => by cases h⟩
      | some n =>
        simp only
        have hsz : e₁.size = e.size := by unfold RawEvent.size; rw [t3]
        have fit := hfit n rfl
        obtain ⟨w, hw, hin⟩ := variable_inside fit (by rw [t1]; exact hf) (by rw [hsz]; exact hle) (by show e₁.size < 2 ^ 16; rw [hsz]; exact hok)
        unfold swapVariable
        cases w with
        | none => rw [hw]; exact ⟨none, rfl, fun e' h => by cases h⟩
        | some l' =>
          obtain ⟨e₂, he₂⟩ := swapAll_ok (hin l' rfl)
          simp only [hw, he₂, Option.map_some]
          split
          · exact ⟨none, rfl, fun e' h => by cases h⟩
          · refine ⟨_, rfl, fun e' h => ?_⟩
            simp only [Option.some.injEq] at h
            subst h
            exact fits_swap fit hw he₂

/-! ## Sample information -/

/-- `Q` holds of what `p` yields. -/
def Post {α : Type} (p : P α) (Q : α → Prop) : Prop := ∀ r a r', p r = some (some a, r') → Q a

theorem Post.bind {α β : Type} {p : P α} {f : α → P β} {R : α → Prop} {Q : β → Prop} (hp : Post p R) (hf : ∀ a, R a → Post (f a) Q) :
    Post (p >>= f) Q := by
  intro r b r' h
  rw [bind_def] at h
  cases hr : p r with
  | none => rw [hr] at h; cases h
  | some o =>
    obtain ⟨o, r1⟩ := o
    rw [hr] at h
    cases o with
    | none => cases h
    | some a => exact hf a (hp r a r1 hr) r1 b r' h

theorem Post.skip {α β : Type} {p : P α} {f : α → P β} {Q : β → Prop} (hf : ∀ a, Post (f a) Q) : Post (p >>= f) Q :=
  Post.bind (R := fun _ => True) (fun _ _ _ _ => trivial) fun a _ => hf a

theorem Post.pure {α : Type} {a : α} {Q : α → Prop} (h : Q a) : Post (pure a : P α) Q := fun r b r' e => by cases e; exact h
theorem Post.fail {α : Type} {Q : α → Prop} : Post (fail : P α) Q := fun r b r' e => by cases e
theorem Post.abort {α : Type} {Q : α → Prop} : Post (abort : P α) Q := fun r b r' e => by cases e
theorem Post.ite {α : Type} {c : Prop} [Decidable c] {p q : P α} {Q : α → Prop} (hp : c → Post p Q) (hq : ¬ c → Post q Q) :
    Post (if c then p else q) Q := by
  split
  · exact hp ‹_›
  · exact hq ‹_›
theorem Post.guard {α : Type} {n m : Nat} {p : P α} {Q : α → Prop} (h : Post p Q) : Post (guardAlloc n m p) Q := by
  intro r a r' e
  unfold guardAlloc at e
  split at e
  · cases e
  · split at e
    · cases e
    · exact h r a r' e
theorem Post.opt {α : Type} {c : Bool} {p : P α} {d : α} {Q : α → Prop} (hp : c = true → Post p Q) (hd : c = false → Q d) : Post (opt c p d) Q := by
  cases c
  · exact Post.pure (hd rfl)
  · exact hp rfl

/-- Lists that the attribute announces are there. -/
theorem lists_present {a : Sample.Attr} {is : Bool} {f : Nat} {s₀ : Sample} : Post (readFields a is f s₀) fun s =>
    (f.testBit 5 = true → s.callchain ≠ none) ∧ (f.testBit 11 = true → s.branchStack ≠ none) := by
  unfold readFields
  iterate 12 refine Post.skip fun _ => ?_
  refine Post.skip fun s1 => ?_
  refine Post.bind (R := fun s => f.testBit 5 = true → s.callchain ≠ none) (Post.opt (fun _ => ?_) fun h h' => by rw [h] at h'; cases h') fun s2 h2 => ?_
  · unfold readCallchain
    refine Post.ite (fun _ => Post.abort) fun _ => Post.skip fun nr => Post.guard (Post.skip fun ips => Post.pure (fun _ => by simp))
  refine Post.bind (R := fun s => f.testBit 5 = true → s.callchain ≠ none) (Post.opt (fun _ => ?_) fun _ => h2) fun s3 h3 => ?_
  · unfold readRawData
    exact Post.skip fun _ => Post.skip fun _ => Post.guard (Post.skip fun _ => Post.skip fun _ => Post.pure h2)
  refine Post.bind (R := fun s => (f.testBit 5 = true → s.callchain ≠ none) ∧ (f.testBit 11 = true → s.branchStack ≠ none))
    (Post.opt (fun _ => ?_) fun h => ⟨h3, fun h' => by rw [h] at h'; cases h'⟩) fun s4 h4 => ?_
  · unfold readBranchStack
    exact Post.ite (fun _ => Post.abort) fun _ => Post.skip fun nr => Post.skip fun _ => Post.guard (Post.skip fun es => Post.pure ⟨h3, fun _ => by simp⟩)
  refine Post.ite (fun _ => Post.fail) fun _ => Post.ite (fun _ => Post.fail) fun _ => ?_
  iterate 3 refine Post.skip fun _ => ?_
  refine Post.ite (fun _ => Post.fail) fun _ => ?_
  iterate 4 refine Post.skip fun _ => ?_
  exact Post.ite (fun _ => Post.fail) fun _ => Post.pure h4

theorem sample_lists {e : RawEvent} {hd : List UInt8} {a : Sample.Attr} {x : Bool} {s₀ s : Sample} (ht : e.type = SAMPLE)
    (hst : a.sampleType < 2 ^ 64) (h : readPerfSampleInfo e hd a x s₀ = some (some s)) :
    (a.sampleType.testBit 5 = true → s.callchain ≠ none) ∧ (a.sampleType.testBit 11 = true → s.branchStack ≠ none) := by
  unfold readPerfSampleInfo at h
  split at h
  · cases h
  · cases hd' : readPerfSampleFromData e hd a x s₀ with
    | none => rw [hd'] at h; cases h
    | some o =>
      cases o with
      | none => rw [hd'] at h; cases h
      | some y =>
        obtain ⟨s', n⟩ := y
        rw [hd'] at h
        simp only at h
        split at h
        · simp only [Option.some.injEq] at h
          subst h
          unfold readPerfSampleFromData at hd'
          cases hsz : eventDataSize e with
          | none => rw [hsz] at hd'; cases hd'
          | some sk =>
            rw [hsz] at hd'
            simp only at hd'
            split at hd'
            · cases hd'
            · split at hd'
              · cases hd'
              · rw [if_neg (by simp [ht])] at hd'
                have hff : fieldsFor e.type a.sampleType = some a.sampleType := by
                  unfold fieldsFor
                  rw [ht, if_neg (by decide), if_pos rfl]
                  congr 1
                  rw [Nat.and_two_pow_sub_one_eq_mod]
                  exact Nat.mod_eq_of_lt hst
                rw [hff] at hd'
                simp only at hd'
                split at hd'
                · cases hd'
                · cases hd'
                · rename_i hr
                  simp only [Option.some.injEq, Prod.mk.injEq] at hd'
                  obtain ⟨rfl, _⟩ := hd'
                  exact lists_present _ _ _ hr
        · cases h

/-- The attributes known are `fs`, accepted one after the other. -/
structure Accepted (fs : List FileAttr) (ser : Ser) : Prop where
  reg : ∃ cross, registerAll {} cross fs = some ser
  bits : ∀ f ∈ fs, f.attr.sampleType < 2 ^ 64

theorem find_mem {id : Nat} {r : InfoReader} : ∀ {l : List (Nat × InfoReader)}, Attr.find id l = some r → ∃ p ∈ l, p.2 = r := by
  intro l
  induction l with
  | nil => intro h; cases h
  | cons p l ih =>
    obtain ⟨k, y⟩ := p
    intro h
    unfold Attr.find at h
    split at h
    · exact ⟨(k, y), by simp, Option.some.inj h⟩
    · obtain ⟨p, hp, e⟩ := ih h
      exact ⟨p, List.mem_cons_of_mem _ hp, e⟩

theorem readerForId_mem {s : Ser} {id : Nat} {r : InfoReader} (h : readerForId s id = some r) : ∃ p ∈ s.readers, p.2 = r := by
  unfold readerForId at h
  split at h
  · exact find_mem h
  · cases hl : s.readers with
    | nil => rw [hl] at h; cases h
    | cons p l => rw [hl] at h; cases h; exact ⟨p, by simp, rfl⟩

theorem readerForEvent_mem {s : Ser} {e : RawEvent} {r : InfoReader} (h : readerForEvent s e = some (some r)) : ∃ p ∈ s.readers, p.2 = r := by
  unfold readerForEvent at h
  simp only at h
  split at h
  · cases h
  · simp only [Option.some.injEq] at h; exact readerForId_mem h
  · split at h
    · cases h
    · split at h
      · cases h
      · split at h
        · cases h
        · split at h
          · split at h
            · cases h
            · simp only [Option.map_eq_some_iff] at h
              obtain ⟨_, _, h⟩ := h
              exact readerForId_mem h
          · split at h
            · cases h
            · simp only [Option.map_eq_some_iff] at h
              obtain ⟨_, _, h⟩ := h
              exact readerForId_mem h

theorem info_safe {fs : List FileAttr} {ser : Ser} (hacc : Accepted fs ser) (hne : ser.readers ≠ []) {e : RawEvent} (hok : e.Ok) :
    ∃ y, readInfoAndType ser e (headerBytes e) {} = some y ∧ ∀ s st, y = some (s, st) → e.type = SAMPLE →
      (st.testBit 5 = true → s.callchain ≠ none) ∧ (st.testBit 11 = true → s.branchStack ≠ none) := by
  obtain ⟨cross, hreg⟩ := hacc.reg
  have hfs : fs ≠ [] := by rintro rfl; cases hreg; exact hne rfl
  obtain ⟨o, ho⟩ := choice_safe fs cross ser e hfs hreg hok
  unfold readInfoAndType
  rw [ho]
  cases o with
  | none => exact ⟨none, rfl, fun s st h => by cases h⟩
  | some r =>
    have inv := register_inv fs (empty_inv cross) hreg
    rw [List.nil_append] at inv
    obtain ⟨p, hp, rfl⟩ := readerForEvent_mem ho
    obtain ⟨f, hf, hp'⟩ := inv.mem p hp
    have hst : p.2.attr.sample.sampleType < 2 ^ 64 := by rw [hp']; exact hacc.bits f hf
    obtain ⟨y, hy, _⟩ := read_safe e (headerBytes e) p.2.attr.sample p.2.cross {} hok (by simp [headerBytes]) hst ⟨rfl, rfl, rfl⟩
    simp only
    cases y with
    | none => rw [hy]; exact ⟨none, rfl, fun s st h => by cases h⟩
    | some s =>
      rw [hy]
      refine ⟨_, rfl, fun s' st h ht => ?_⟩
      simp only [Option.some.injEq, Prod.mk.injEq] at h
      obtain ⟨rfl, rfl⟩ := h
      exact sample_lists ht hst hy

theorem readInfo_safe {fs : List FileAttr} {ser : Ser} (hacc : Accepted fs ser) (hne : ser.readers ≠ []) {e : RawEvent} (hok : e.Ok) :
    readInfo ser e ≠ none := by
  unfold readInfo
  split
  · simp
  · obtain ⟨y, hy, _⟩ := info_safe hacc hne hok
    rw [hy]
    cases y with
    | none => simp
    | some p => simp

theorem readSample_safe {fs : List FileAttr} {ser : Ser} (hacc : Accepted fs ser) (hne : ser.readers ≠ []) {e : RawEvent} (hok : e.Ok)
    (ht : e.type = SAMPLE) : readSample ser e ≠ none := by
  unfold readSample
  obtain ⟨y, hy, hl⟩ := info_safe hacc hne hok
  rw [hy]
  cases y with
  | none => simp
  | some p =>
    obtain ⟨s, st⟩ := p
    obtain ⟨l1, l2⟩ := hl s st rfl ht
    obtain ⟨cross, hreg⟩ := hacc.reg
    have hfs : fs ≠ [] := by rintro rfl; cases hreg; exact hne rfl
    obtain ⟨o, ho⟩ := choice_safe fs cross ser e hfs hreg hok
    simp only [ho]
    rw [if_neg]
    · simp
    · rintro (⟨h1, h2⟩ | ⟨h1, h2⟩)
      · exact l1 h1 h2
      · exact l2 h1 h2

/-! ## All types -/

theorem plain_ne {α : Type} {x : Option α} {f : α → Body} (h : x ≠ none) : plain x f ≠ none := by
  cases x with
  | none => exact absurd rfl h
  | some a => simp [plain]

theorem withInfo_ne {α : Type} {ser : Ser} {e : RawEvent} {x : Option α} {f : α → SampleInfo → Body} (h : x ≠ none) (hi : readInfo ser e ≠ none) :
    withInfo ser e x f ≠ none := by
  cases x with
  | none => exact absurd rfl h
  | some a =>
    unfold withInfo
    cases hr : readInfo ser e with
    | none => exact absurd hr hi
    | some y => cases y <;> simp

theorem fixed_of {e : RawEvent} {f k : Nat} {t : Nat} (ht : e.type = t) (hf : fixedPayloadSize e.type = some f)
    (hk : fixedPayloadSize t = some k) (hle : f ≤ e.size) : k ≤ e.size := by
  rw [ht, hk] at hf
  cases hf
  exact hle

theorem body_safe {env : Env} {fs : List FileAttr} {ser : Ser} (hacc : Accepted fs ser) (hne : ser.readers ≠ []) {e : RawEvent} (hok : e.Ok) {f : Nat}
    (hf : fixedPayloadSize e.type = some f) (hle : f ≤ e.size) (hfit : Fits e) (hbpf : e.type ≠ BPF_METADATA) :
    readBody env ser e ≠ none := by
  have hok' : e.size < 2 ^ 16 := hok
  have hi := readInfo_safe hacc hne hok
  unfold readBody
  by_cases c : e.type = SAMPLE
  · rw [if_pos c]
    have := readSample_safe hacc hne hok c
    cases hr : readSample ser e with
    | none => exact absurd hr this
    | some y => simp
  rw [if_neg c]
  by_cases c : e.type = MMAP
  · rw [if_pos c]
    have h := fixed_of c hf rfl hle
    refine withInfo_ne ?_ hi
    have := hfit.str 40 (Or.inl ⟨c, rfl⟩)
    exact bind_ne (int_ne (by omega) (by omega)) fun _ _ => bind_ne (int_ne (by omega) (by omega)) fun _ _ =>
      bind_ne (int_ne (by omega) (by omega)) fun _ _ => bind_ne (int_ne (by omega) (by omega)) fun _ _ =>
      bind_ne (int_ne (by omega) (by omega)) fun _ _ => bind_ne (cstr_ne (by omega) this) fun _ _ => by simp
  rw [if_neg c]
  by_cases c : e.type = MMAP2
  · rw [if_pos c]
    have h := fixed_of c hf rfl hle
    have := hfit.str 72 (Or.inr (Or.inr (Or.inl ⟨c, rfl⟩)))
    have : readMMap2 env e ≠ none := by
      refine bind_ne (int_ne (by omega) (by omega)) fun _ _ => bind_ne (int_ne (by omega) (by omega)) fun _ _ =>
        bind_ne (int_ne (by omega) (by omega)) fun _ _ => bind_ne (int_ne (by omega) (by omega)) fun _ _ =>
        bind_ne (int_ne (by omega) (by omega)) fun _ _ => ?_
      split
      · refine bind_ne (int_ne (by omega) (by omega)) fun n _ => ?_
        split
        · simp
        · refine bind_ne ?_ fun _ _ => bind_ne (int_ne (by omega) (by omega)) fun _ _ => bind_ne (int_ne (by omega) (by omega)) fun _ _ =>
            bind_ne (cstr_ne (by omega) this) fun _ _ => by simp
          unfold fetch
          rw [if_pos (by unfold RawEvent.size at h; omega)]
          simp
      · refine bind_ne (int_ne (by omega) (by omega)) fun _ _ => bind_ne (int_ne (by omega) (by omega)) fun _ _ =>
          bind_ne (int_ne (by omega) (by omega)) fun _ _ => bind_ne (int_ne (by omega) (by omega)) fun _ _ =>
          bind_ne (int_ne (by omega) (by omega)) fun _ _ => bind_ne (int_ne (by omega) (by omega)) fun _ _ =>
          bind_ne (cstr_ne (by omega) this) fun _ _ => by simp
    cases hr : readMMap2 env e with
    | none => exact absurd hr this
    | some y =>
      cases y with
      | none => simp
      | some m => exact withInfo_ne (by simp) hi
  rw [if_neg c]
  by_cases c : e.type = COMM
  · rw [if_pos c]
    have h := fixed_of c hf rfl hle
    have := hfit.str 16 (Or.inr (Or.inl ⟨c, rfl⟩))
    exact withInfo_ne (bind_ne (int_ne (by omega) (by omega)) fun _ _ => bind_ne (int_ne (by omega) (by omega)) fun _ _ =>
      bind_ne (cstr_ne (by omega) this) fun _ _ => by simp) hi
  rw [if_neg c]
  have hfork : 32 ≤ e.size → readFork e ≠ none := fun h => bind_ne (int_ne (by omega) (by omega)) fun _ _ => bind_ne (int_ne (by omega) (by omega)) fun _ _ =>
    bind_ne (int_ne (by omega) (by omega)) fun _ _ => bind_ne (int_ne (by omega) (by omega)) fun _ _ =>
    bind_ne (int_ne (by omega) (by omega)) fun _ _ => by simp
  by_cases c : e.type = EXIT
  · rw [if_pos c]
    exact withInfo_ne (hfork (fixed_of c hf rfl hle)) hi
  rw [if_neg c]
  by_cases c : e.type = FORK
  · rw [if_pos c]
    exact withInfo_ne (hfork (fixed_of c hf rfl hle)) hi
  rw [if_neg c]
  by_cases c : e.type = LOST
  · rw [if_pos c]
    have h := fixed_of c hf rfl hle
    exact withInfo_ne (bind_ne (int_ne (by omega) (by omega)) fun _ _ => bind_ne (int_ne (by omega) (by omega)) fun _ _ => by simp) hi
  rw [if_neg c]
  by_cases c : e.type = THROTTLE ∨ e.type = UNTHROTTLE
  · rw [if_pos c]
    have h : 32 ≤ e.size := by
      rcases c with c | c
      · exact fixed_of c hf rfl hle
      · exact fixed_of c hf rfl hle
    exact withInfo_ne (bind_ne (int_ne (by omega) (by omega)) fun _ _ => bind_ne (int_ne (by omega) (by omega)) fun _ _ =>
      bind_ne (int_ne (by omega) (by omega)) fun _ _ => by simp) hi
  rw [if_neg c]
  by_cases c : e.type = AUX
  · rw [if_pos c]
    have h := fixed_of c hf rfl hle
    exact withInfo_ne (bind_ne (int_ne (by omega) (by omega)) fun _ _ => bind_ne (int_ne (by omega) (by omega)) fun _ _ =>
      bind_ne (int_ne (by omega) (by omega)) fun _ _ => by simp) hi
  rw [if_neg c]
  by_cases c : e.type = ITRACE_START
  · rw [if_pos c]
    have h := fixed_of c hf rfl hle
    exact withInfo_ne (bind_ne (int_ne (by omega) (by omega)) fun _ _ => bind_ne (int_ne (by omega) (by omega)) fun _ _ => by simp) hi
  rw [if_neg c]
  by_cases c : e.type = LOST_SAMPLES
  · rw [if_pos c]
    have h := fixed_of c hf rfl hle
    exact withInfo_ne (bind_ne (int_ne (by omega) (by omega)) fun _ _ => by simp) hi
  rw [if_neg c]
  by_cases c : e.type = SWITCH ∨ e.type = SWITCH_CPU_WIDE
  · rw [if_pos c]
    refine withInfo_ne ?_ hi
    unfold readSwitch
    split
    · rename_i c
      have h := fixed_of c hf rfl hle
      exact bind_ne (int_ne (by omega) (by omega)) fun _ _ => bind_ne (int_ne (by omega) (by omega)) fun _ _ => by simp
    · simp
  rw [if_neg c]
  by_cases c : e.type = NAMESPACES
  · rw [if_pos c]
    have h := fixed_of c hf rfl hle
    obtain ⟨nr, h1, h2⟩ := hfit.list 16 24 16 (Or.inl ⟨c, rfl, rfl, rfl⟩)
    refine withInfo_ne ?_ hi
    refine bind_ne (int_ne (by omega) (by omega)) fun _ _ => bind_ne (int_ne (by omega) (by omega)) fun _ _ =>
      bind_ne (by rw [h1]; simp) fun n hn => bind_ne (entries_ne fun i h3 h4 => ?_) fun _ _ => by simp
    rw [h1] at hn
    cases hn
    exact bind_ne (int_ne (by omega) (by omega)) fun _ _ => bind_ne (int_ne (by omega) (by omega)) fun _ _ => by simp
  rw [if_neg c]
  by_cases c : e.type = CGROUP
  · rw [if_pos c]
    have h := fixed_of c hf rfl hle
    have := hfit.str 16 (Or.inr (Or.inr (Or.inr (Or.inl ⟨c, rfl⟩))))
    exact withInfo_ne (bind_ne (int_ne (by omega) (by omega)) fun _ _ => bind_ne (cstr_ne (by omega) this) fun _ _ => by simp) hi
  rw [if_neg c]
  by_cases c : e.type = KSYMBOL
  · rw [if_pos c]
    have h := fixed_of c hf rfl hle
    have := hfit.str 24 (Or.inr (Or.inr (Or.inr (Or.inr ⟨c, rfl⟩))))
    exact withInfo_ne (bind_ne (int_ne (by omega) (by omega)) fun _ _ => bind_ne (int_ne (by omega) (by omega)) fun _ _ =>
      bind_ne (int_ne (by omega) (by omega)) fun _ _ => bind_ne (int_ne (by omega) (by omega)) fun _ _ =>
      bind_ne (cstr_ne (by omega) this) fun _ _ => by simp) hi
  rw [if_neg c, if_neg hbpf]
  by_cases c : e.type = AUXTRACE_INFO
  · rw [if_pos c]
    have h := fixed_of c hf rfl hle
    refine plain_ne ?_
    unfold readAuxtraceInfo
    have hmax : (e.size + 2 ^ 64 - 16) % 2 ^ 64 = e.size - 16 := by omega
    rw [hmax]
    exact bind_ne (int_ne (by omega) (by omega)) fun _ _ => bind_ne (entries_ne fun i h3 h4 => int_ne (by omega) (by omega)) fun _ _ => by simp
  rw [if_neg c]
  by_cases c : e.type = AUXTRACE
  · rw [if_pos c]
    have h := fixed_of c hf rfl hle
    exact plain_ne (bind_ne (int_ne (by omega) (by omega)) fun _ _ => bind_ne (int_ne (by omega) (by omega)) fun _ _ =>
      bind_ne (int_ne (by omega) (by omega)) fun _ _ => bind_ne (int_ne (by omega) (by omega)) fun _ _ =>
      bind_ne (int_ne (by omega) (by omega)) fun _ _ => bind_ne (int_ne (by omega) (by omega)) fun _ _ => by simp)
  rw [if_neg c]
  by_cases c : e.type = AUXTRACE_ERROR
  · rw [if_pos c]
    have h := fixed_of c hf rfl hle
    refine plain_ne ?_
    unfold readAuxtraceError
    have hmax : (e.size + 2 ^ 64 - 40) % 2 ^ 64 = e.size - 40 := by omega
    rw [hmax]
    have hp : e.size = 8 + e.payload.length := rfl
    have hstr : strnlen e 40 (min 64 (e.size - 40)) = some ((((e.payload.drop 32).take (min 64 (e.size - 40))).takeWhile (· ≠ 0)).length) := by
      unfold strnlen fetch
      rw [if_pos (by omega), if_pos (by omega)]
      rfl
    refine bind_ne (int_ne (by omega) (by omega)) fun _ _ => bind_ne (int_ne (by omega) (by omega)) fun _ _ =>
      bind_ne (int_ne (by omega) (by omega)) fun _ _ => bind_ne (int_ne (by omega) (by omega)) fun _ _ =>
      bind_ne (int_ne (by omega) (by omega)) fun _ _ => bind_ne (int_ne (by omega) (by omega)) fun _ _ =>
      bind_ne (by rw [hstr]; simp) fun n hn => bind_ne ?_ fun _ _ => by simp
    rw [hstr] at hn
    have hn : (((e.payload.drop 32).take (min 64 (e.size - 40))).takeWhile (· ≠ 0)).length = n := Option.some.inj hn
    have : n ≤ e.size - 40 := by
      rw [← hn]
      refine Nat.le_trans (List.takeWhile_sublist _).length_le ?_
      rw [List.length_take]; omega
    unfold fetch
    rw [if_pos (by omega)]
    simp
  rw [if_neg c]
  by_cases c : e.type = ID_INDEX
  · rw [if_pos c]
    obtain ⟨nr, h1, h2⟩ := hfit.list 8 16 32 (Or.inr (Or.inl ⟨c, rfl, rfl, rfl⟩))
    refine plain_ne (bind_ne (by rw [h1]; simp) fun n hn => entries_ne fun i h3 h4 => ?_)
    rw [h1] at hn
    cases hn
    exact bind_ne (int_ne (by omega) (by omega)) fun _ _ => bind_ne (int_ne (by omega) (by omega)) fun _ _ =>
      bind_ne (int_ne (by omega) (by omega)) fun _ _ => bind_ne (int_ne (by omega) (by omega)) fun _ _ => by simp
  rw [if_neg c]
  by_cases c : e.type = THREAD_MAP
  · rw [if_pos c]
    obtain ⟨nr, h1, h2⟩ := hfit.list 8 16 24 (Or.inr (Or.inr (Or.inl ⟨c, rfl, rfl, rfl⟩)))
    refine plain_ne (bind_ne (by rw [h1]; simp) fun n hn => entries_ne fun i h3 h4 => ?_)
    rw [h1] at hn
    cases hn
    have := bytesAt_mem (hfit.comm c nr h1 i (by omega))
    exact bind_ne (int_ne (by omega) (by omega)) fun _ _ => bind_ne (cstr_ne (by omega) this) fun _ _ => by simp
  rw [if_neg c]
  by_cases c : e.type = STAT_CONFIG
  · rw [if_pos c]
    obtain ⟨nr, h1, h2⟩ := hfit.list 8 16 16 (Or.inr (Or.inr (Or.inr ⟨c, rfl, rfl, rfl⟩)))
    refine plain_ne (bind_ne (by rw [h1]; simp) fun n hn => entries_ne fun i h3 h4 => ?_)
    rw [h1] at hn
    cases hn
    exact bind_ne (int_ne (by omega) (by omega)) fun _ _ => bind_ne (int_ne (by omega) (by omega)) fun _ _ => by simp
  rw [if_neg c]
  by_cases c : e.type = STAT
  · rw [if_pos c]
    have h := fixed_of c hf rfl hle
    exact plain_ne (bind_ne (int_ne (by omega) (by omega)) fun _ _ => bind_ne (int_ne (by omega) (by omega)) fun _ _ =>
      bind_ne (int_ne (by omega) (by omega)) fun _ _ => bind_ne (int_ne (by omega) (by omega)) fun _ _ =>
      bind_ne (int_ne (by omega) (by omega)) fun _ _ => bind_ne (int_ne (by omega) (by omega)) fun _ _ => by simp)
  rw [if_neg c]
  by_cases c : e.type = STAT_ROUND
  · rw [if_pos c]
    have h := fixed_of c hf rfl hle
    exact plain_ne (bind_ne (int_ne (by omega) (by omega)) fun _ _ => bind_ne (int_ne (by omega) (by omega)) fun _ _ => by simp)
  rw [if_neg c]
  by_cases c : e.type = TIME_CONV
  · rw [if_pos c]
    have h := fixed_of c hf rfl hle
    refine plain_ne (bind_ne (int_ne (by omega) (by omega)) fun _ _ => bind_ne (int_ne (by omega) (by omega)) fun _ _ =>
      bind_ne (int_ne (by omega) (by omega)) fun _ _ => ?_)
    split
    · exact bind_ne (int_ne (by omega) (by omega)) fun _ _ => bind_ne (int_ne (by omega) (by omega)) fun _ _ =>
        bind_ne (int_ne (by omega) (by omega)) fun _ _ => bind_ne (int_ne (by omega) (by omega)) fun _ _ => by simp
    · simp
  rw [if_neg c]
  simp

theorem serialize_safe {env : Env} {fs : List FileAttr} {ser : Ser} (hacc : Accepted fs ser) (hne : ser.readers ≠ []) {e : RawEvent} (hok : e.Ok) {f : Nat}
    (hf : fixedPayloadSize e.type = some f) (hle : f ≤ e.size) (hfit : Fits e) (hbpf : e.type ≠ BPF_METADATA) :
    serialize env ser e ≠ none := by
  have := body_safe (env := env) hacc hne hok hf hle hfit hbpf
  unfold serialize
  cases hr : readBody env ser e with
  | none => exact absurd hr this
  | some y => cases y <;> simp

end Verif.Data
