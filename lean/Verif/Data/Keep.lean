import Verif.Data.Record

/-! What becomes of an event in memory. -/

namespace Verif.Data
open Verif.Buffer Verif.Event Verif.Sample Verif.Attr Verif.Names Verif.Text Verif.Util Verif.Meta Verif.Serial

theorem withInfo_body {α : Type} {ser : Ser} {e : RawEvent} {x : Option α} {f : α → SampleInfo → Body} {b : Body}
    (h : withInfo ser e x f = some (some b)) : ∃ a i, b = f a i := by
  unfold withInfo at h
  split at h
  · cases h
  · split at h
    · cases h
    · cases h
    · cases h; exact ⟨_, _, rfl⟩

theorem plain_body {α : Type} {x : Option α} {f : α → Body} {b : Body} (h : plain x f = some (some b)) : ∃ a, b = f a := by
  cases x with
  | none => cases h
  | some a => simp only [plain, Option.map_some, Option.some.injEq] at h; exact ⟨a, h.symm⟩

/-- The result, if there is one, is not a sample. -/
def NoSample (y : Option (Option Body)) : Prop := ∀ b, y = some (some b) → ∀ s, b ≠ .sample s

theorem NoSample.ite {c : Prop} [Decidable c] {y z : Option (Option Body)} (h1 : NoSample y) (h2 : NoSample z) :
    NoSample (if c then y else z) := by
  split
  · exact h1
  · exact h2

theorem NoSample.info {α : Type} {ser : Ser} {e : RawEvent} {x : Option α} {f : α → SampleInfo → Body} (hf : ∀ a i s, f a i ≠ .sample s) :
    NoSample (withInfo ser e x f) := fun b h s hs => by
  obtain ⟨a, i, h⟩ := withInfo_body h
  exact hf a i s (h.symm.trans hs)

theorem NoSample.plain {α : Type} {x : Option α} {f : α → Body} (hf : ∀ a s, f a ≠ .sample s) : NoSample (plain x f) :=
  fun b h s hs => by
    obtain ⟨a, h⟩ := plain_body h
    exact hf a s (h.symm.trans hs)

/-- Only a sample has a message for samples. -/
theorem body_sample {env : Env} {ser : Ser} {e : RawEvent} {b : Body} (h : readBody env ser e = some (some b)) :
    if e.type = SAMPLE then ∃ s, b = .sample s else ∀ s, b ≠ .sample s := by
  unfold readBody at h
  by_cases ht : e.type = SAMPLE
  · rw [if_pos ht] at h ⊢
    cases hs : readSample ser e with
    | none => rw [hs] at h; cases h
    | some y =>
      cases y with
      | none => rw [hs] at h; cases h
      | some s => simp only [hs, Option.map_some, Option.some.injEq] at h; exact ⟨s, h.symm⟩
  · rw [if_neg ht] at h ⊢
    revert b
    show NoSample _
    repeat' apply NoSample.ite
    all_goals first
      | exact NoSample.info (fun _ _ _ h => by cases h)
      | exact NoSample.plain (fun _ _ h => by cases h)
      | (intro b h s hs; subst hs; cases h; done)
      | skip
    intro b h s hs
    subst hs
    split at h
    · cases h
    · cases h
    · obtain ⟨_, _, h⟩ := withInfo_body h
      cases h

theorem serialize_head {env : Env} {ser : Ser} {e : RawEvent} {m : Msg} (h : serialize env ser e = some (some m)) :
    m.type = e.type ∧ m.misc = e.misc ∧ m.size = e.size ∧ readBody env ser e = some (some m.body) := by
  unfold serialize at h
  split at h
  · cases h
  · cases h
  · rename_i b hb
    simp only [Option.some.injEq] at h
    subst h
    exact ⟨rfl, rfl, rfl, hb⟩

/-- The size of the data behind an event. -/
theorem serialize_auxtrace {env : Env} {ser : Ser} {e : RawEvent} {m : Msg} (h : serialize env ser e = some (some m))
    (ht : e.type = AUXTRACE) : e.int 8 8 = some m.body.getAuxtrace.size ∧ ∃ a, m.body = .auxtrace a := by
  obtain ⟨_, _, _, hb⟩ := serialize_head h
  unfold readBody at hb
  rw [ht] at hb
  have hb : plain (readAuxtrace e) .auxtrace = some (some m.body) := hb
  cases hr : readAuxtrace e with
  | none => rw [hr] at hb; cases hb
  | some a =>
    rw [hr] at hb
    simp only [plain, Option.map_some, Option.some.injEq] at hb
    rw [← hb]
    refine ⟨?_, a, rfl⟩
    unfold readAuxtrace at hr
    cases h8 : e.int 8 8 with
    | none => rw [h8] at hr; cases hr
    | some v =>
      rw [h8] at hr
      simp only [Option.bind_eq_bind, Option.bind_some, Option.bind_eq_some_iff, Option.pure_def, Option.some.injEq] at hr
      obtain ⟨_, _, _, _, _, _, _, _, _, _, rfl⟩ := hr
      rfl

/-- `addBuildId` adds at most a build ID. -/
theorem addBuildId_some {cfg : Cfg} {st st' : St} {e : RawEvent} (h : addBuildId cfg st e = some (some st')) :
    st'.events = st.events ∧ st'.reported = st.reported ∧
      { st'.base with info := { st'.base.info with buildIds := st.base.info.buildIds } } = st.base ∧
      ((st'.base.info.buildIds = st.base.info.buildIds ∧ st'.named = st.named) ∨
        e.type = MMAP2 ∧ e.misc.testBit 14 = true ∧ ∃ name n d b, cstr e 72 = some name ∧ name ∉ st.named ∧
          st'.named = st.named ++ [name] ∧ e.int 40 1 = some n ∧ n ≤ 20 ∧ fetch e.payload 36 n = some d ∧
          st'.base.info.buildIds = st.base.info.buildIds ++ [b] ∧ b.filename = cStr name ∧ b.misc = e.misc ∧
          buildIdText b.hash = buildIdText d) ∧
      (e.type = MMAP2 → e.misc.testBit 14 = true → ∃ name, cstr e 72 = some name ∧ name ∈ st'.named) := by
  unfold addBuildId at h
  split at h
  · rename_i c
    simp only [Option.bind_eq_bind, Option.bind_eq_some_iff] at h
    obtain ⟨name, hn, h⟩ := h
    split at h
    · rename_i hc
      simp only [Option.some.injEq] at h
      subst h
      exact ⟨rfl, rfl, rfl, Or.inl ⟨rfl, rfl⟩, fun _ _ => ⟨name, hn, by simpa using hc⟩⟩
    · rename_i hc
      simp only [Option.bind_eq_some_iff] at h
      obtain ⟨n, h40, h⟩ := h
      split at h
      · cases h
      · rename_i h20
        simp only [Option.bind_eq_some_iff] at h
        obtain ⟨d, hd, h⟩ := h
        obtain ⟨b, hb, b1, _, b3, _, _, _, b7, _⟩ := newEntry_ok cfg.env.md5 (rawDataToHexString d) name e.misc
        rw [hb] at h
        simp only [Option.some.injEq] at h
        subst h
        refine ⟨rfl, rfl, rfl, Or.inr ⟨c.1, c.2, name, n, d, { b with injected := false }, hn, by simpa using hc, rfl, h40, by omega, hd, rfl, b3, b1, ?_⟩,
          fun _ _ => ⟨name, hn, by simp⟩⟩
        rw [← array_text d]
        exact b7
  · rename_i c
    simp only [Option.some.injEq] at h
    subst h
    exact ⟨rfl, rfl, rfl, Or.inl ⟨rfl, rfl⟩, fun h1 h2 => absurd ⟨h1, h2⟩ c⟩

/-- What `keep` does with the event `e`, when it takes the bytes `bs`. -/
structure Keep (cfg : Cfg) (st : St) (e : RawEvent) (out : Option Msg) (st' : St) (bs : List UInt8) : Prop where
  events : st'.events = st.events ++ out.toList
  kept : out = none ↔ emptyKernel st e = some true ∨ e.type ∈ cfg.skip
  bytes : out = none → bs = []
  message : ∀ m, out = some m → ∃ m₀, serialize cfg.env st.base.ser e = some (some m₀) ∧ m = withTrace m₀ bs ∧
    bs.length = if e.type = AUXTRACE then m₀.body.getAuxtrace.size else 0
  called : if cfg.callback = true ∧ e.type = SAMPLE then
      ∃ m s, serialize cfg.env st.base.ser e = some (some m) ∧ m.body = .sample s ∧ st'.reported = st.reported ++ [s]
    else st'.reported = st.reported
  ids : if emptyKernel st e = some true then st'.base = st.base ∧ st'.named = st.named
    else ∃ st₁, addBuildId cfg st e = some (some st₁) ∧ st'.base = st₁.base ∧ st'.named = st₁.named

theorem report_some {cfg : Cfg} {st : St} {m : Msg} {s : SampleEvent} (h : m.body = .sample s) :
    report cfg st m = if cfg.callback then { st with reported := st.reported ++ [s] } else st := by
  unfold report; rw [h]

theorem report_none {cfg : Cfg} {st : St} {m : Msg} (h : ∀ s, m.body ≠ .sample s) : report cfg st m = st := by
  unfold report
  split
  · rename_i s hs; exact absurd hs (h s)
  · rfl

theorem report_other {cfg : Cfg} {st : St} {m : Msg} : (report cfg st m).events = st.events ∧ (report cfg st m).base = st.base ∧
    (report cfg st m).named = st.named := by
  unfold report
  split
  · split <;> exact ⟨rfl, rfl, rfl⟩
  · exact ⟨rfl, rfl, rfl⟩

theorem emptyKernel_mmap {st : St} {e : RawEvent} (h : emptyKernel st e = some true) : e.type = MMAP ∨ e.type = MMAP2 := by
  unfold emptyKernel at h
  split at h
  · assumption
  · cases h

theorem takes_keep {x : Bool} {cfg : Cfg} {st : St} {e : RawEvent} :
    Takes x (keep cfg st e) fun y bs => bs.length = y.2 ∧ ∃ out, Keep cfg st e out y.1 bs := by
  unfold keep
  refine (takes_lift (R := fun a bs => bs = [] ∧ emptyKernel st e = some a) fun a ha => ?_).bind fun a bs _ ⟨hbs, ha⟩ => ?_
  · cases h : emptyKernel st e with
    | none => rw [h] at ha; cases ha
    | some v => rw [h] at ha; simp at ha; exact ⟨rfl, by rw [ha]⟩
  subst hbs
  simp only [List.nil_append]
  split
  · rename_i hta
    subst hta
    refine Takes.pure fun _ => ⟨rfl, none, ⟨by simp, by simp [ha], fun _ => rfl, fun _ h => (by cases h), ?_, (by rw [if_pos ha]; exact ⟨rfl, rfl⟩)⟩⟩
    have := emptyKernel_mmap ha
    rw [if_neg]
    rintro ⟨_, h⟩
    rw [h] at this
    revert this; decide
  · rename_i hta
    have ha' : ¬ emptyKernel st e = some true := by rw [ha]; simpa using hta
    refine (takes_lift (R := fun st₁ bs => bs = [] ∧ addBuildId cfg st e = some (some st₁)) fun st₁ h => ⟨rfl, h⟩).bind
      fun st₁ bs _ ⟨hbs, h1⟩ => ?_
    subst hbs
    simp only [List.nil_append]
    obtain ⟨a1, a2, a3, _⟩ := addBuildId_some h1
    have hser : st₁.base.ser = st.base.ser := by rw [← a3]
    rw [hser]
    split
    · rename_i hsk
      have hsk' : e.type ∈ cfg.skip := by simpa using hsk
      split
      · rename_i hcb
        refine (takes_lift (R := fun m bs => bs = [] ∧ serialize cfg.env st.base.ser e = some (some m)) fun m h => ⟨rfl, h⟩).bind
          fun m bs _ ⟨hbs, h2⟩ => ?_
        subst hbs
        simp only [List.nil_append]
        refine Takes.pure fun _ _ _ => ⟨rfl, none, ⟨by simp [a1], by simp [hsk'], fun _ => rfl, fun _ h => (by cases h), ?_, ?_⟩⟩
        · rw [if_pos ⟨hcb.2, hcb.1⟩]
          have := body_sample (serialize_head h2).2.2.2
          rw [if_pos hcb.1] at this
          obtain ⟨s, hs⟩ := this
          refine ⟨m, s, h2, hs, ?_⟩
          show st₁.reported ++ [m.body.getSample] = _
          rw [hs, a2]; rfl
        · rw [if_neg ha']; exact ⟨st₁, h1, rfl, rfl⟩
      · rename_i hcb
        refine Takes.pure fun _ _ => ⟨rfl, none, ⟨by simp [a1], by simp [hsk'], fun _ => rfl, fun _ h => (by cases h), ?_, ?_⟩⟩
        · rw [if_neg (fun h => hcb ⟨h.2, h.1⟩)]; exact a2
        · rw [if_neg ha']; exact ⟨st₁, h1, rfl, rfl⟩
    · rename_i hsk
      have hsk' : e.type ∉ cfg.skip := by simpa using hsk
      refine (takes_lift (R := fun m bs => bs = [] ∧ serialize cfg.env st.base.ser e = some (some m)) fun m h => ⟨rfl, h⟩).bind
        fun m bs _ ⟨hbs, h2⟩ => ?_
      subst hbs
      simp only [List.nil_append]
      obtain ⟨t1, _, _, hbody⟩ := serialize_head h2
      have hsamp := body_sample hbody
      have final : ∀ (m' : Msg) (bs : List UInt8), m' = withTrace m bs →
          bs.length = (if e.type = AUXTRACE then m.body.getAuxtrace.size else 0) →
          Keep cfg st e (some m') (report cfg { st₁ with events := st₁.events ++ [m'] } m') bs := by
        intro m' bs hm' hbs
        obtain ⟨r1, r2, r3⟩ := report_other (cfg := cfg) (st := { st₁ with events := st₁.events ++ [m'] }) (m := m')
        refine ⟨?_, ?_, fun h => (by cases h), fun m'' h => ?_, ?_, ?_⟩
        · rw [r1]; simp [a1]
        · simp only [reduceCtorEq, false_iff]; rintro (h | h) <;> contradiction
        · cases h; exact ⟨m, h2, hm', hbs⟩
        · by_cases ht : e.type = SAMPLE
          · rw [if_pos ht] at hsamp
            obtain ⟨s, hs⟩ := hsamp
            have hb0 : bs = [] := by
              rw [ht, if_neg (by decide)] at hbs
              exact List.eq_nil_of_length_eq_zero hbs
            have hmm : m' = m := by rw [hm', hb0]; rfl
            rw [hmm, report_some hs]
            by_cases hcb : cfg.callback = true
            · rw [if_pos ⟨hcb, ht⟩, if_pos hcb]
              exact ⟨m, s, h2, hs, by rw [← a2]⟩
            · rw [if_neg (fun h => hcb h.1), if_neg hcb]; exact a2
          · rw [if_neg ht] at hsamp
            rw [if_neg (fun h => ht h.2), report_none]
            · exact a2
            · rw [hm']
              unfold withTrace
              split
              · exact hsamp
              · intro s h; cases h
        · rw [if_neg ha']; exact ⟨st₁, h1, r2, r3⟩
      by_cases haux : m.type = AUXTRACE
      · simp only [if_pos haux]
        refine takes_readTrace.bind fun m' bs _ ⟨hl, hm'⟩ => ?_
        have : m'.body.getAuxtrace.size = m.body.getAuxtrace.size := by
          rw [hm']; unfold withTrace; split <;> rfl
        refine Takes.pure fun _ _ _ _ => ⟨by rw [List.append_nil, this]; exact hl, some m', ?_⟩
        rw [List.append_nil]
        exact final m' bs hm' (by rw [← t1, if_pos haux]; exact hl)
      · simp only [if_neg haux]
        refine (Takes.pure (R := fun m' bs => m' = m ∧ bs = []) ⟨rfl, rfl⟩).bind fun m' bs _ ⟨hm', hbs⟩ => ?_
        subst hm' hbs
        refine Takes.pure fun _ _ _ _ => ⟨rfl, some m', ?_⟩
        exact final m' [] rfl (by rw [← t1, if_neg haux]; rfl)

end Verif.Data
