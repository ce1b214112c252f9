import Verif.Data.Fuel

/-! Reading with and without some types of events. -/

namespace Verif.Data
open Verif.Buffer Verif.Event Verif.Sample Verif.Attr Verif.Names Verif.Text Verif.Util Verif.Meta Verif.Serial

/-- The state `s` is `st` without the events of the types `types`. -/
structure Without (types : List Nat) (st s : St) : Prop where
  base : s.base = st.base
  named : s.named = st.named
  reported : s.reported = st.reported
  events : s.events = st.events.filter (fun m => ! types.contains m.type)

theorem lift_some {α : Type} {y : Option (Option α)} {r r' : Reader} {a : α} (h : lift y r = some (some a, r')) : y = some (some a) ∧ r' = r := by
  unfold lift at h
  cases y with
  | none => cases h
  | some y => cases h; exact ⟨rfl, rfl⟩

theorem lift_eq {α : Type} {a : α} {r : Reader} : lift (some (some a)) r = some (some a, r) := rfl

theorem emptyKernel_congr {st s : St} {e : RawEvent} (h : s.base = st.base) : emptyKernel s e = emptyKernel st e := by
  unfold emptyKernel; rw [h]

theorem addBuildId_without {cfg : Cfg} {types : List Nat} {st s st' : St} {e : RawEvent} (hw : Without types st s)
    (h : addBuildId cfg st e = some (some st')) :
    ∃ s', addBuildId { cfg with skip := types } s e = some (some s') ∧ Without types st' s' := by
  have he := (addBuildId_some h).1
  have hrep := (addBuildId_some h).2.1
  obtain ⟨b, ev, nm, rp⟩ := st
  obtain ⟨b', ev', nm', rp'⟩ := s
  obtain ⟨w1, w2, w3, w4⟩ := hw
  simp only at w1 w2 w3 w4 he hrep
  subst w1 w2 w3
  unfold addBuildId at h ⊢
  split at h
  · rename_i c
    rw [if_pos c]
    cases hn : cstr e 72 with
    | none => rw [hn] at h; cases h
    | some name =>
      rw [hn] at h
      simp only [Option.bind_eq_bind, Option.bind_some] at h ⊢
      split at h
      · rename_i c2
        rw [if_pos c2]
        simp only [Option.some.injEq] at h
        subst h
        exact ⟨_, rfl, ⟨rfl, rfl, rfl, w4⟩⟩
      · rename_i c2
        rw [if_neg c2]
        cases h40 : e.int 40 1 with
        | none => rw [h40] at h; cases h
        | some n =>
          rw [h40] at h
          simp only [Option.bind_some] at h ⊢
          split at h
          · cases h
          · rename_i c3
            rw [if_neg c3]
            cases hf : fetch e.payload 36 n with
            | none => rw [hf] at h; cases h
            | some d =>
              rw [hf] at h
              simp only [Option.bind_some] at h ⊢
              cases hne : newEntry cfg.env.md5 (rawDataToHexString d) name e.misc with
              | none => rw [hne] at h; cases h
              | some b =>
                rw [hne] at h
                simp only [Option.some.injEq] at h ⊢
                subst h
                exact ⟨_, rfl, ⟨rfl, rfl, rfl, w4⟩⟩
  · rename_i c
    rw [if_neg c]
    simp only [Option.some.injEq] at h
    subst h
    exact ⟨_, rfl, ⟨rfl, rfl, rfl, w4⟩⟩

theorem readTrace_type {m m' : Msg} {r r' : Reader} (h : readTrace m r = some (some m', r')) : m'.type = m.type := by
  unfold readTrace at h
  rw [bind_def] at h
  split at h
  · cases h
  · cases h
  · split at h
    · cases h
    · rw [bind_def] at h
      split at h
      · cases h
      · cases h
      · cases h
        split <;> rfl

/-- The part of `keep` for an event that is wanted. -/
def wanted (cfg : Cfg) (st : St) (e : RawEvent) : P (St × Nat) := do
  let m ← lift (serialize cfg.env st.base.ser e)
  let m' ← if m.type = AUXTRACE then readTrace m else pure m
  let more := if m.type = AUXTRACE then m'.body.getAuxtrace.size else 0
  pure (report cfg { st with events := st.events ++ [m'] } m', more)

theorem pure_eq {α : Type} {a : α} {r : Reader} : (pure a : P α) r = some (some a, r) := rfl

/-- `wanted` after the message is made. -/
def wanted' (cfg : Cfg) (st : St) (m : Msg) : P (St × Nat) := do
  let m' ← if m.type = AUXTRACE then readTrace m else pure m
  let more := if m.type = AUXTRACE then m'.body.getAuxtrace.size else 0
  pure (report cfg { st with events := st.events ++ [m'] } m', more)

theorem wanted'_aux {cfg : Cfg} {st : St} {m : Msg} (h : m.type = AUXTRACE) :
    wanted' cfg st m = (readTrace m >>= fun m' => pure (report cfg { st with events := st.events ++ [m'] } m', m'.body.getAuxtrace.size)) := by
  unfold wanted'
  simp only [if_pos h]

theorem wanted'_other {cfg : Cfg} {st : St} {m : Msg} (h : m.type ≠ AUXTRACE) {r : Reader} :
    wanted' cfg st m r = some (some (report cfg { st with events := st.events ++ [m] } m, 0), r) := by
  unfold wanted'
  simp only [if_neg h]
  rw [bind_def, pure_eq]
  simp only [pure_eq]

theorem bind_ok {α β : Type} {p : P α} {f : α → P β} {r r' : Reader} {b : β} (h : (p >>= f) r = some (some b, r')) :
    ∃ a r1, p r = some (some a, r1) ∧ f a r1 = some (some b, r') := by
  rw [bind_def] at h
  cases hp : p r with
  | none => rw [hp] at h; cases h
  | some o =>
    obtain ⟨o, r1⟩ := o
    rw [hp] at h
    cases o with
    | none => cases h
    | some a => exact ⟨a, r1, rfl, h⟩

theorem bind_run {α β : Type} {p : P α} {f : α → P β} {r r1 : Reader} {a : α} (h : p r = some (some a, r1)) : (p >>= f) r = f a r1 := by
  rw [bind_def, h]

theorem wanted_eq {cfg : Cfg} {st : St} {e : RawEvent} : wanted cfg st e = (lift (serialize cfg.env st.base.ser e) >>= wanted' cfg st) := rfl

theorem wanted_some {cfg : Cfg} {st : St} {e : RawEvent} {r r' : Reader} {y : St × Nat} (h : wanted cfg st e r = some (some y, r')) :
    ∃ m m' : Msg, serialize cfg.env st.base.ser e = some (some m) ∧ m'.type = e.type ∧
      y.1 = report cfg { st with events := st.events ++ [m'] } m' ∧ (e.type ≠ AUXTRACE → m' = m ∧ y.2 = 0 ∧ r' = r) ∧
      ∀ types ev, wanted { cfg with skip := types } { st with events := ev } e r =
        some (some (report { cfg with skip := types } { st with events := ev ++ [m'] } m', y.2), r') := by
  rw [wanted_eq, bind_def] at h
  cases hse : serialize cfg.env st.base.ser e with
  | none => rw [hse] at h; cases h
  | some o =>
    cases o with
    | none => rw [hse] at h; cases h
    | some m =>
      rw [hse, lift_eq] at h
      simp only at h
      have hmt := (serialize_head hse).1
      have hw : ∀ types ev, wanted { cfg with skip := types } { st with events := ev } e r = wanted' { cfg with skip := types } { st with events := ev } m r := by
        intro types ev
        rw [wanted_eq, bind_def]
        simp only [hse, lift_eq]
      refine ⟨m, ?_⟩
      by_cases ht : m.type = AUXTRACE
      · rw [wanted'_aux ht] at h
        obtain ⟨m', r1, hrt, h⟩ := bind_ok h
        rw [pure_eq, Option.some.injEq, Prod.mk.injEq, Option.some.injEq] at h
        obtain ⟨hy, hr⟩ := h
        rw [hr] at hrt
        have hte : e.type = AUXTRACE := hmt.symm.trans ht
        refine ⟨m', rfl, (readTrace_type hrt).trans hmt, by rw [← hy], fun h => absurd hte h, fun types ev => ?_⟩
        rw [hw, wanted'_aux ht, bind_run hrt, pure_eq, ← hy]
      · rw [wanted'_other ht] at h
        simp only [Option.some.injEq, Prod.mk.injEq] at h
        obtain ⟨hy, hr⟩ := h
        subst hr
        refine ⟨m, rfl, hmt, by rw [← hy], fun _ => ⟨rfl, by rw [← hy], rfl⟩, fun types ev => ?_⟩
        rw [hw, wanted'_other ht, ← hy]

theorem keep_eq {cfg : Cfg} {st : St} {e : RawEvent} : keep cfg st e = (do
    let empty ← lift ((emptyKernel st e).map some)
    if empty then pure (st, 0)
    else do
      let st ← lift (addBuildId cfg st e)
      if cfg.skip.contains e.type then
        if e.type = SAMPLE ∧ cfg.callback then do
          let m ← lift (serialize cfg.env st.base.ser e)
          pure ({ st with reported := st.reported ++ [m.body.getSample] }, 0)
        else pure (st, 0)
      else wanted cfg st e) := rfl

theorem Without.eq {types : List Nat} {st s : St} (h : Without types st s) :
    s = { st with events := st.events.filter (fun m => ! types.contains m.type) } := by
  obtain ⟨b, ev, nm, rp⟩ := s
  obtain ⟨w1, w2, w3, w4⟩ := h
  simp only at w1 w2 w3 w4
  subst w1 w2 w3 w4
  rfl

theorem report_without {cfg : Cfg} {types : List Nat} {st : St} {m : Msg} {l ev : List Msg} (h : ev = l.filter (fun m => ! types.contains m.type)) :
    Without types (report cfg { st with events := l } m) (report { cfg with skip := types } { st with events := ev } m) := by
  unfold report
  split
  · split
    · exact ⟨rfl, rfl, rfl, h⟩
    · exact ⟨rfl, rfl, rfl, h⟩
  · exact ⟨rfl, rfl, rfl, h⟩

theorem keep_without {cfg : Cfg} {types : List Nat} {st s : St} {e : RawEvent} (hw : Without types st s) (h0 : cfg.skip = []) (h71 : AUXTRACE ∉ types)
    {r r' : Reader} {y : St × Nat} (h : keep cfg st e r = some (some y, r')) :
    ∃ s', keep { cfg with skip := types } s e r = some (some (s', y.2), r') ∧ Without types y.1 s' := by
  rw [keep_eq] at h ⊢
  rw [bind_def] at h ⊢
  rw [emptyKernel_congr hw.base]
  cases hek : emptyKernel st e with
  | none => rw [hek] at h; cases h
  | some b =>
    rw [hek] at h
    simp only [Option.map_some, lift_eq] at h ⊢
    cases b with
    | true =>
      simp only [if_true] at h ⊢
      have h : some (some (st, 0), r) = some (some y, r') := h
      simp only [Option.some.injEq, Prod.mk.injEq] at h
      obtain ⟨hy, hr⟩ := h
      subst hr
      rw [← hy]
      exact ⟨s, rfl, hw⟩
    | false =>
      simp only [Bool.false_eq_true, if_false] at h ⊢
      rw [bind_def] at h ⊢
      cases hab : addBuildId cfg st e with
      | none => rw [hab] at h; cases h
      | some o =>
        cases o with
        | none => rw [hab] at h; cases h
        | some st1 =>
          obtain ⟨s1, hs1, hw1⟩ := addBuildId_without hw hab
          rw [hab] at h
          rw [hs1]
          simp only [lift_eq] at h ⊢
          rw [if_neg (show ¬ cfg.skip.contains e.type = true by rw [h0]; simp)] at h
          obtain ⟨m, m', hse, hmt, hy, hna, hall⟩ := wanted_some h
          have hs := hw1.eq
          generalize hev : st1.events.filter (fun m => ! types.contains m.type) = ev at hs
          subst hs
          by_cases hin : types.contains e.type = true
          · rw [if_pos hin]
            obtain ⟨hm, hy2, hr⟩ := hna fun h => h71 (by rw [← h]; simpa using hin)
            subst hm hr
            rw [hy, hy2]
            have hfil : ev = (st1.events ++ [m']).filter (fun m => ! types.contains m.type) := by
              rw [List.filter_append, hev]
              simp only [List.filter_cons, hmt, hin]
              simp
            have hbs := body_sample (serialize_head hse).2.2.2
            by_cases h9 : e.type = SAMPLE
            · rw [if_pos h9] at hbs
              obtain ⟨sm, hsm⟩ := hbs
              rw [report_some hsm]
              by_cases hcb : cfg.callback = true
              · rw [if_pos ⟨h9, hcb⟩, bind_def, hse, lift_eq, if_pos hcb]
                refine ⟨_, rfl, ⟨rfl, rfl, ?_, hfil⟩⟩
                rw [hsm]
                rfl
              · rw [if_neg (fun h => hcb h.2), if_neg hcb]
                exact ⟨_, rfl, ⟨rfl, rfl, rfl, hfil⟩⟩
            · rw [if_neg h9] at hbs
              rw [report_none hbs, if_neg (fun h => h9 h.1)]
              exact ⟨_, rfl, ⟨rfl, rfl, rfl, hfil⟩⟩
          · rw [if_neg hin]
            refine ⟨_, hall types ev, ?_⟩
            rw [hy]
            refine report_without ?_
            rw [List.filter_append, hev]
            simp only [List.filter_cons, hmt, hin]
            simp

theorem readEvent_without {cfg : Cfg} {types : List Nat} {st s : St} {hd : Header} (hw : Without types st s) (h0 : cfg.skip = []) (h71 : AUXTRACE ∉ types)
    {r r' : Reader} {y : St × Nat} (h : readEvent cfg st hd r = some (some y, r')) :
    ∃ s', readEvent { cfg with skip := types } s hd r = some (some (s', y.2), r') ∧ Without types y.1 s' := by
  have skip : ∀ {rest : Nat}, skipRest st rest r = some (some y, r') →
      ∃ s', skipRest s rest r = some (some (s', y.2), r') ∧ Without types y.1 s' := by
    intro rest h
    unfold skipRest at h ⊢
    obtain ⟨here, r1, h1, h⟩ := bind_ok h
    obtain ⟨u, r2, h2, h⟩ := bind_ok h
    rw [pure_eq, Option.some.injEq, Prod.mk.injEq, Option.some.injEq] at h
    obtain ⟨hy, hr⟩ := h
    rw [bind_run h1, bind_run h2, pure_eq, hr, ← hy]
    exact ⟨s, rfl, hw⟩
  unfold readEvent at h ⊢
  rw [hw.base]
  simp only at h ⊢
  by_cases hk : known hd.type
  · rw [if_neg (fun c => c hk)] at h ⊢
    by_cases hne : st.base.ser.readers = []
    · rw [if_pos hne] at h; cases h
    · rw [if_neg hne] at h ⊢
      cases hf : fixedPayloadSize hd.type with
      | none => rw [hf] at h; cases h
      | some fixed =>
        rw [hf] at h
        simp only at h ⊢
        by_cases hlt : hd.size < fixed
        · rw [if_pos hlt] at h; cases h
        · rw [if_neg hlt] at h ⊢
          by_cases hto : timedOut hd
          · rw [if_pos hto] at h ⊢
            exact skip h
          · rw [if_neg hto] at h ⊢
            obtain ⟨d, r1, h1, h⟩ := bind_ok h
            obtain ⟨x, r2, h2, h⟩ := bind_ok h
            obtain ⟨e, r3, h3, h⟩ := bind_ok h
            obtain ⟨z, r4, h4, h⟩ := bind_ok h
            obtain ⟨s', hs', hw'⟩ := keep_without hw h0 h71 h4
            rw [pure_eq, Option.some.injEq, Prod.mk.injEq, Option.some.injEq] at h
            obtain ⟨hy, hr⟩ := h
            rw [bind_run h1, bind_run h2, bind_run h3, bind_run hs', pure_eq, hr, ← hy]
            exact ⟨s', rfl, hw'⟩
  · rw [if_pos hk] at h ⊢
    exact skip h

theorem readEvents_without {cfg : Cfg} {types : List Nat} (h0 : cfg.skip = []) (h71 : AUXTRACE ∉ types) :
    ∀ {fuel left : Nat} {st s st' : St} {r r' : Reader}, Without types st s → readEvents cfg fuel left st r = some (some st', r') →
    ∃ s', readEvents { cfg with skip := types } fuel left s r = some (some s', r') ∧ Without types st' s' := by
  intro fuel
  induction fuel with
  | zero =>
    intro left st s st' r r' hw h
    unfold readEvents at h ⊢
    by_cases hl : left = 0
    · rw [if_pos hl] at h ⊢
      rw [pure_eq, Option.some.injEq, Prod.mk.injEq, Option.some.injEq] at h
      rw [pure_eq, h.2, ← h.1]
      exact ⟨s, rfl, hw⟩
    · rw [if_neg hl] at h; cases h
  | succ fuel ih =>
    intro left st s st' r r' hw h
    unfold readEvents at h ⊢
    by_cases hl : left = 0
    · rw [if_pos hl] at h ⊢
      rw [pure_eq, Option.some.injEq, Prod.mk.injEq, Option.some.injEq] at h
      rw [pure_eq, h.2, ← h.1]
      exact ⟨s, rfl, hw⟩
    · rw [if_neg hl] at h ⊢
      obtain ⟨hd, r1, h1, h⟩ := bind_ok h
      obtain ⟨y, r2, h2, h⟩ := bind_ok h
      obtain ⟨s', hs', hw'⟩ := readEvent_without hw h0 h71 h2
      rw [bind_run h1, bind_run hs']
      exact ih hw' h

theorem section_without {cfg : Cfg} {types : List Nat} (h0 : cfg.skip = []) (h71 : AUXTRACE ∉ types) {offset size : Nat} {st s st' : St}
    {r r' : Reader} (hw : Without types st s) (h : readDataSection cfg st offset size r = some (some st', r')) :
    ∃ s', readDataSection { cfg with skip := types } s offset size r = some (some s', r') ∧ Without types st' s' := by
  unfold readDataSection at h ⊢
  obtain ⟨u, r1, h1, h⟩ := bind_ok h
  rw [bind_run h1]
  exact readEvents_without h0 h71 hw h

/-! The samples that the function is called with. -/

/-- The sample that a message shows. -/
def sampleOf (m : Msg) : Option SampleEvent := match m.body with
  | .sample s => some s
  | _ => none

/-- The events and the samples reported since the state `s`. -/
def Sync (s st : St) : Prop := ∃ ms : List Msg, st.events = s.events ++ ms ∧ st.reported = s.reported ++ ms.filterMap sampleOf

theorem report_reported {cfg : Cfg} (hc : cfg.callback = true) {st : St} {m : Msg} : (report cfg st m).reported = st.reported ++ (sampleOf m).toList := by
  unfold report sampleOf
  cases m.body <;> simp [hc]

theorem keep_sync {cfg : Cfg} {s st : St} {e : RawEvent} (h0 : cfg.skip = []) (hc : cfg.callback = true) (hw : Sync s st) {r r' : Reader} {y : St × Nat}
    (h : keep cfg st e r = some (some y, r')) : Sync s y.1 := by
  rw [keep_eq] at h
  obtain ⟨b, r1, h1, h⟩ := bind_ok h
  split at h
  · rw [pure_eq, Option.some.injEq, Prod.mk.injEq, Option.some.injEq] at h
    rw [← h.1]; exact hw
  · obtain ⟨st1, r2, h2, h⟩ := bind_ok h
    obtain ⟨a1, a2, _⟩ := addBuildId_some (lift_some h2).1
    rw [if_neg (show ¬ cfg.skip.contains e.type = true by rw [h0]; simp)] at h
    obtain ⟨m, m', _, _, hy, _⟩ := wanted_some h
    obtain ⟨ms, w1, w2⟩ := hw
    rw [hy]
    refine ⟨ms ++ [m'], ?_, ?_⟩
    · rw [report_other.1, a1, w1, List.append_assoc]
    · rw [List.filterMap_append, ← List.append_assoc, ← w2, ← a2]
      rw [report_reported hc, List.filterMap_cons, List.filterMap_nil]
      cases sampleOf m' <;> rfl

theorem readEvent_sync {cfg : Cfg} {s st : St} {hd : Header} (h0 : cfg.skip = []) (hc : cfg.callback = true) (hw : Sync s st) {r r' : Reader} {y : St × Nat}
    (h : readEvent cfg st hd r = some (some y, r')) : Sync s y.1 := by
  have skip : ∀ {rest : Nat}, skipRest st rest r = some (some y, r') → Sync s y.1 := by
    intro rest h
    unfold skipRest at h
    obtain ⟨here, r1, h1, h⟩ := bind_ok h
    obtain ⟨u, r2, h2, h⟩ := bind_ok h
    rw [pure_eq, Option.some.injEq, Prod.mk.injEq, Option.some.injEq] at h
    rw [← h.1]; exact hw
  unfold readEvent at h
  simp only at h
  split at h
  · exact skip h
  · split at h
    · cases h
    · cases hf : fixedPayloadSize hd.type with
      | none => rw [hf] at h; cases h
      | some fixed =>
        rw [hf] at h
        simp only at h
        split at h
        · cases h
        · split at h
          · exact skip h
          · obtain ⟨d, r1, h1, h⟩ := bind_ok h
            obtain ⟨x, r2, h2, h⟩ := bind_ok h
            obtain ⟨e, r3, h3, h⟩ := bind_ok h
            obtain ⟨z, r4, h4, h⟩ := bind_ok h
            have := keep_sync h0 hc hw h4
            rw [pure_eq, Option.some.injEq, Prod.mk.injEq, Option.some.injEq] at h
            rw [← h.1]; exact this

theorem readEvents_sync {cfg : Cfg} (h0 : cfg.skip = []) (hc : cfg.callback = true) : ∀ {fuel left : Nat} {s st st' : St} {r r' : Reader}, Sync s st →
    readEvents cfg fuel left st r = some (some st', r') → Sync s st' := by
  intro fuel
  induction fuel with
  | zero =>
    intro left s st st' r r' hw h
    unfold readEvents at h
    split at h
    · rw [pure_eq, Option.some.injEq, Prod.mk.injEq, Option.some.injEq] at h
      rw [← h.1]; exact hw
    · cases h
  | succ fuel ih =>
    intro left s st st' r r' hw h
    unfold readEvents at h
    split at h
    · rw [pure_eq, Option.some.injEq, Prod.mk.injEq, Option.some.injEq] at h
      rw [← h.1]; exact hw
    · obtain ⟨hd, r1, h1, h⟩ := bind_ok h
      obtain ⟨y, r2, h2, h⟩ := bind_ok h
      exact ih (readEvent_sync h0 hc hw h2) h

end Verif.Data
