import Verif.Whole.StackSpec
import Verif.Whole.Props3

/-!
# From the specification of stacks to that of the normalizer
-/

namespace Verif.Whole
open Verif.Serial (Msg Body)
open Verif.Normalizer (ACtx MMapEv)

/-- A mapping as the normalizer sees it. -/
def toEv (b : Serial.MMap) : MMapEv :=
  { pid := b.pid, start := b.start, len := b.len, pgoff := b.pgoff, filename := b.filename, md5 := b.filenameMd5, buildId := b.buildId }

theorem first_ev (b : Serial.MMap) : (toEv b).first = firstOf b := rfl
theorem covers_ev (b : Serial.MMap) (x : Nat) : (toEv b).covers x = coversOf b x := rfl

theorem mapping_view (m : Msg) : (normView m).mapping = (areaOf m).map toEv := by
  unfold normView areaOf
  cases m.body <;> try rfl
  rename_i k
  simp only [Normalizer.Ev.mapping]
  split <;> rfl

theorem fork_view (m : Msg) : (∃ c p t, normView m = .fork c p t ∧ forkOf m = some (c, p) ∧ areaOf m = none) ∨
    (forkOf m = none ∧ ∀ c p t, normView m ≠ .fork c p t) := by
  unfold normView forkOf areaOf
  cases m.body <;> first
    | exact .inr ⟨rfl, fun c p t h => by cases h⟩
    | exact .inl ⟨_, _, _, rfl, rfl, rfl⟩

theorem mapped_cons {e : Normalizer.Ev} (he : ∀ c p t, e ≠ .fork c p t) (es : List Normalizer.Ev) (pid : Nat) :
    Normalizer.mapped (e :: es) pid = match e.mapping with
      | some m => (m.pid == pid && m.len != 0) || Normalizer.mapped es pid
      | none => Normalizer.mapped es pid := by
  cases e <;> first | rfl | exact absurd rfl (he _ _ _)

theorem newest_cons {e : Normalizer.Ev} (he : ∀ c p t, e ≠ .fork c p t) (es : List Normalizer.Ev) (pid x : Nat) :
    Normalizer.newest (e :: es) pid x = match e.mapping with
      | some m => if m.pid = pid ∧ m.covers x then some m else Normalizer.newest es pid x
      | none => Normalizer.newest es pid x := by
  cases e <;> first | rfl | exact absurd rfl (he _ _ _)

theorem mapped_view : ∀ (h : List Msg) (pid : Nat), Normalizer.mapped (h.map normView) pid = hasArea h pid
  | [], _ => rfl
  | m :: h, pid => by
    rw [List.map_cons]
    unfold hasArea
    rcases fork_view m with ⟨c, p, t, h1, h2, h3⟩ | ⟨h1, h2⟩
    · rw [h1, h2, h3]
      simp only [Normalizer.mapped, mapped_view h, Bool.false_or]
      rw [Bool.or_comm]
    · rw [mapped_cons h2, mapping_view, h1, mapped_view h]
      cases areaOf m with
      | none => rfl
      | some b => simp only [Option.map_some, toEv, Bool.or_false]

theorem newest_view : ∀ (h : List Msg) (pid x : Nat), Normalizer.newest (h.map normView) pid x = (areaAt h pid x).map toEv
  | [], _, _ => rfl
  | m :: h, pid, x => by
    rw [List.map_cons]
    unfold areaAt
    rcases fork_view m with ⟨c, p, t, h1, h2, h3⟩ | ⟨h1, h2⟩
    · rw [h1, h2]
      simp only [Normalizer.newest, mapped_view h]
      split <;> exact newest_view h _ x
    · rw [newest_cons h2, mapping_view, h1]
      cases areaOf m with
      | none => exact newest_view h pid x
      | some b =>
        simp only [Option.map_some]
        by_cases hc : b.pid = pid ∧ coversOf b x = true
        · rw [if_pos (c := b.pid = pid ∧ coversOf b x = true) hc]
          exact if_pos hc
        · rw [if_neg (c := b.pid = pid ∧ coversOf b x = true) hc]
          exact (if_neg hc).trans (newest_view h pid x)

/-- The modes. -/
def toMode : ACtx → Mode
  | .unknown => .unknown
  | .hostKernel => .kernel
  | .hostUser => .user
  | _ => .other

theorem mode_header (misc : Nat) : toMode (Normalizer.contextFromHeader (some misc)) = modeOf misc := by
  have : misc % 8 < 8 := Nat.mod_lt _ (by decide)
  unfold Normalizer.contextFromHeader modeOf
  dsimp only
  generalize misc % 8 = k at this
  have : k = 0 ∨ k = 1 ∨ k = 2 ∨ k = 3 ∨ k = 4 ∨ k = 5 ∨ k = 6 ∨ k = 7 := by omega
  rcases this with rfl | rfl | rfl | rfl | rfl | rfl | rfl | rfl <;> rfl

theorem mode_mark (a : Nat) : (Normalizer.contextFromCallchain a = .unknown ∧ markOf a = none) ∨
    (Normalizer.contextFromCallchain a ≠ .unknown ∧ markOf a = some (toMode (Normalizer.contextFromCallchain a))) := by
  by_cases h1 : a = 2 ^ 64 - 32
  · subst h1; exact .inr ⟨by decide, by decide⟩
  by_cases h2 : a = 2 ^ 64 - 128
  · subst h2; exact .inr ⟨by decide, by decide⟩
  by_cases h3 : a = 2 ^ 64 - 512
  · subst h3; exact .inr ⟨by decide, by decide⟩
  by_cases h4 : a = 2 ^ 64 - 2176
  · subst h4; exact .inr ⟨by decide, by decide⟩
  by_cases h5 : a = 2 ^ 64 - 2560
  · subst h5; exact .inr ⟨by decide, by decide⟩
  refine .inl ⟨?_, ?_⟩
  · unfold Normalizer.contextFromCallchain
    rw [if_neg h1, if_neg h2, if_neg h3, if_neg h4, if_neg h5]
  · unfold markOf
    rw [if_neg h2, if_neg h3, if_neg (by rintro (h | h | h) <;> contradiction)]

theorem expected_view (h : List Msg) (pid a : Nat) (ctx : ACtx) :
    Normalizer.expected (h.map normView) pid a ctx = (areaFor h pid a (toMode ctx)).map toEv := by
  unfold Normalizer.expected areaFor
  split
  · rfl
  · cases ctx <;> simp only [toMode, newest_view, Option.map_none]
    all_goals
      rw [Option.map_or]

theorem areaAt_covers {h : List Msg} {pid a : Nat} {b : Serial.MMap} (hb : areaAt h pid a = some b) : coversOf b a = true := by
  have := Normalizer.newest_covers (h.map normView) pid a (toEv b) (by rw [newest_view, hb]; rfl)
  rwa [covers_ev] at this

theorem areaFor_covers {h : List Msg} {pid a : Nat} {mode : Mode} {b : Serial.MMap} (hb : areaFor h pid a mode = some b) : coversOf b a = true := by
  unfold areaFor at hb
  split at hb
  · cases hb
  · cases mode <;> simp only [Option.or_eq_some_iff] at hb
    · rcases hb with hb | ⟨-, hb⟩ <;> exact areaAt_covers hb
    · rcases hb with hb | ⟨-, hb⟩ <;> exact areaAt_covers hb
    · exact areaAt_covers hb
    · cases hb

/-! ## Frames -/

/-- A frame of the converter is a spot. -/
def IsSpot (ids : Normalizer.Ids) (f : Converter.Frame) (g : Spot) : Prop := f.1 = g.1 ∧ Normalizer.Shows ids f.2 (g.2.map toEv)

theorem all2_filter {α β : Type} {R : α → β → Prop} {p : α → Bool} {q : β → Bool} (hpq : ∀ a b, R a b → p a = q b) {as : List α} {bs : List β}
    (h : All₂ R as bs) : All₂ R (as.filter p) (bs.filter q) := by
  induction h with
  | nil => exact .nil
  | cons hr _ ih =>
    rw [List.filter_cons, List.filter_cons, hpq _ _ hr]
    split
    · exact .cons hr ih
    · exact ih

theorem all2_takeWhile {α β : Type} {R : α → β → Prop} {p : α → Bool} {q : β → Bool} (hpq : ∀ a b, R a b → p a = q b) {as : List α}
    {bs : List β} (h : All₂ R as bs) : All₂ R (as.takeWhile p) (bs.takeWhile q) := by
  induction h with
  | nil => exact .nil
  | cons hr _ ih =>
    rw [List.takeWhile_cons, List.takeWhile_cons, hpq _ _ hr]
    split
    · exact .cons hr ih
    · exact .nil

theorem all2_drop {α β : Type} {R : α → β → Prop} {as : List α} {bs : List β} (h : All₂ R as bs) : All₂ R (as.drop 1) (bs.drop 1) := by
  cases h with
  | nil => exact .nil
  | cons _ ht => exact ht

theorem all2_filterMap {α β γ δ : Type} {R : α → β → Prop} {R' : γ → δ → Prop} {f : α → Option γ} {g : β → Option δ}
    (hfg : ∀ a b, R a b → (f a = none ∧ g b = none) ∨ ∃ x y, f a = some x ∧ g b = some y ∧ R' x y) {as : List α} {bs : List β}
    (h : All₂ R as bs) : All₂ R' (as.filterMap f) (bs.filterMap g) := by
  induction h with
  | nil => exact .nil
  | cons hr _ ih =>
    rcases hfg _ _ hr with ⟨h1, h2⟩ | ⟨x, y, h1, h2, h3⟩
    · rw [List.filterMap_cons_none h1, List.filterMap_cons_none h2]; exact ih
    · rw [List.filterMap_cons_some h1, List.filterMap_cons_some h2]; exact .cons h3 ih

theorem spot_view {ids : Normalizer.Ids} {h : List Msg} {pid a : Nat} {ctx : ACtx} {r : Option Normalizer.MapRef}
    (hr : Normalizer.Shows ids r (Normalizer.expected (h.map normView) pid a ctx)) :
    IsSpot ids (if r = none then 0 else a, r) (spotOf h pid a (toMode ctx)) := by
  rw [expected_view] at hr
  unfold spotOf IsSpot
  cases hf : areaFor h pid a (toMode ctx) with
  | none =>
    rw [hf] at hr
    cases r with
    | none => exact ⟨rfl, trivial⟩
    | some r => exact hr.elim
  | some b =>
    rw [hf] at hr
    cases r with
    | none => exact hr.elim
    | some r => exact ⟨by simp, hr⟩

theorem chain_view {ids : Normalizer.Ids} {h : List Msg} {pid : Nat} : ∀ {ctx : ACtx} {l : List Nat} {ls : List Normalizer.Loc},
    All₂ (fun (l : Normalizer.Loc) (f : Nat × Option ACtx) => l.ip = f.1 ∧ Normalizer.Shows ids l.mapping (match f.2 with
      | some ctx => Normalizer.expected (h.map normView) pid f.1 ctx | none => none)) ls (Normalizer.frameContexts ctx l) →
    All₂ (fun (l : Normalizer.Loc) (g : Spot) => IsSpot ids (l.ip, l.mapping) g) ls (chainSpots h pid (toMode ctx) l)
  | ctx, [], ls, hl => by cases hl; exact .nil
  | ctx, a :: l, ls, hl => by
    unfold Normalizer.frameContexts at hl
    unfold chainSpots
    rcases mode_mark a with ⟨h1, h2⟩ | ⟨h1, h2⟩
    · rw [if_pos h1] at hl
      rw [h2]
      cases hl with
      | cons hr ht =>
        refine .cons ⟨hr.1, ?_⟩ (chain_view ht)
        have := hr.2
        simp only [expected_view] at this
        exact this
    · rw [if_neg h1] at hl
      rw [h2]
      cases hl with
      | cons hr ht => exact .cons ⟨hr.1, hr.2⟩ (chain_view ht)

/-- The frames of a reported sample are its stack. -/
theorem frames_view {S : Converter.Setup} {cfg : Normalizer.Config} {h : List Msg} {misc idx : Nat} {s : Serial.SampleEvent}
    {c : Normalizer.SampleCtx} (hr : Normalizer.Reported cfg (h.map normView) (some misc) (normSample s) none idx c) :
    All₂ (IsSpot cfg.ids) (Converter.frames S c) (stackOf (S.options.testBit 3) h misc s) := by
  obtain ⟨bs, sb, hb, hbs, hsb⟩ := hr.branches
  have hsb : sb = [] := by
    cases sb with
    | nil => rfl
    | cons b t =>
      obtain ⟨r, h0, -⟩ := hsb b List.mem_cons_self
      cases h0
  subst hsb
  rw [List.append_nil] at hb
  have hnil : c.branchStack = [] ↔ s.branches = [] := by
    rw [hb]
    constructor
    · rintro rfl
      cases hs : s.branches with
      | nil => rfl
      | cons x l =>
        have e : (normSample s).branchStack = normBranch x :: l.map normBranch := by simp [normSample, hs]
        rw [e] at hbs
        cases hbs
    · intro hs
      have e : (normSample s).branchStack = [] := by simp [normSample, hs]
      rw [e] at hbs
      cases hbs
      rfl
  have hlbr : Converter.LbrSample c ↔ s.branches ≠ [] := by
    unfold Converter.LbrSample
    rw [hr.spe]
    exact ⟨fun h => fun e => h.1 (hnil.2 e), fun h => ⟨fun e => h (hnil.1 e), rfl⟩⟩
  have hpid : (normSample s).pid = s.pid := rfl
  have hchain := chain_view (ids := cfg.ids) (h := h) hr.chain
  have hleaf : IsSpot cfg.ids (Converter.leaf c) (spotOf h (s.pid.getD 0) (s.ip.getD 0) (modeOf misc)) := by
    have := spot_view hr.ip
    rw [mode_header] at this
    unfold Converter.leaf
    rw [hr.sample]
    exact this
  have hcall : All₂ (IsSpot cfg.ids) (Converter.callers c) (callerSpots h s) := by
    unfold Converter.callers callerSpots
    have hpart : All₂ (fun (l : Normalizer.Loc) (g : Spot) => IsSpot cfg.ids (l.ip, l.mapping) g)
        (if Converter.LbrSample c then c.callchain.takeWhile (fun f => f.ip ≠ 0xfffffffffffffe00) else c.callchain)
        (if s.branches = [] then chainSpots h (s.pid.getD 0) .unknown s.callchain
          else (chainSpots h (s.pid.getD 0) .unknown s.callchain).takeWhile (fun f => f.1 ≠ 2 ^ 64 - 512)) := by
      by_cases hs : s.branches = []
      · rw [if_neg (fun hh => hlbr.1 hh hs), if_pos hs]
        exact hchain
      · rw [if_pos (hlbr.2 hs), if_neg hs]
        refine all2_takeWhile (fun l g hg => ?_) hchain
        rw [← hg.1]
    refine all2_filterMap (fun l g hg => ?_) (all2_drop (all2_filter (fun l g hg => ?_) hpart))
    · obtain ⟨e1, e2⟩ := hg
      dsimp only at e1 e2
      cases hm : l.mapping with
      | none =>
        rw [hm] at e2
        cases hg2 : g.2 with
        | none => exact .inl ⟨rfl, rfl⟩
        | some b => rw [hg2] at e2; exact e2.elim
      | some r =>
        rw [hm] at e2
        cases hg2 : g.2 with
        | none => rw [hg2] at e2; exact e2.elim
        | some b =>
          rw [hg2] at e2
          have hd : Normalizer.Describes cfg.ids r.mapping (toEv b) := e2
          simp only [Option.bind_some]
          rw [hd.first, first_ev, e1]
          by_cases hlt : firstOf b < g.1
          · rw [if_pos hlt, if_pos hlt]
            exact .inr ⟨_, _, rfl, rfl, rfl, hd⟩
          · rw [if_neg hlt, if_neg hlt]
            exact .inl ⟨rfl, rfl⟩
    · rw [← hg.1]
  have hbr : All₂ (IsSpot cfg.ids) (Converter.branches c) (branchSpots h s) := by
    unfold Converter.branches branchSpots
    by_cases hs : s.branches = []
    · rw [if_neg (fun hh => hlbr.1 hh hs), hs]
      exact .nil
    · rw [if_pos (hlbr.2 hs), hb]
      have e : (normSample s).branchStack = s.branches.map normBranch := rfl
      rw [e] at hbs
      clear hlbr hnil hb hs e
      generalize s.branches = l at hbs
      induction l generalizing bs with
      | nil => cases hbs; exact .nil
      | cons x l ih =>
        cases hbs with
        | cons hx ht =>
          rename_i y ys
          obtain ⟨x1, -, -, -, -, -, -, -, x2, -⟩ := hx
          have ih := ih _ ht
          rw [expected_view] at x2
          have x1 : y.from_.ip = x.fromIp := x1
          have x2 : Normalizer.Shows cfg.ids y.from_.mapping ((areaFor h (s.pid.getD 0) x.fromIp .unknown).map toEv) := x2
          cases ha : areaFor h (s.pid.getD 0) x.fromIp .unknown with
          | none =>
            rw [ha] at x2
            cases hy : y.from_.mapping with
            | none =>
              rw [List.filterMap_cons_none (by rw [hy]; rfl), List.filterMap_cons_none (by rw [ha]; rfl)]
              exact ih
            | some r => rw [hy] at x2; exact x2.elim
          | some b =>
            rw [ha] at x2
            cases hy : y.from_.mapping with
            | none => rw [hy] at x2; exact x2.elim
            | some r =>
              rw [hy] at x2
              have hd : Normalizer.Describes cfg.ids r.mapping (toEv b) := x2
              have hcov := areaFor_covers ha
              unfold coversOf at hcov
              rw [decide_eq_true_eq] at hcov
              have hle : r.mapping.start ≤ y.from_.ip := by rw [hd.first, first_ev, x1]; exact hcov.2.1
              rw [List.filterMap_cons_some (b := (y.from_.ip, some r)) (by rw [hy]; simp only [Option.bind_some]; rw [if_pos hle]),
                List.filterMap_cons_some (b := (x.fromIp, some b)) (by rw [ha]; rfl)]
              exact .cons ⟨x1, hd⟩ ih
  unfold Converter.frames stackOf Converter.codeFrames
  refine All₂.append ?_ (.cons hleaf (All₂.append hcall hbr))
  by_cases hd : S.options.testBit 3 = true
  · rw [if_pos hd, if_pos hd]
    refine .cons ?_ .nil
    have ha := hr.addr
    rw [hr.sample]
    have e : (normSample s).addr = s.addr := rfl
    rw [e] at ha ⊢
    cases hs : s.addr with
    | none =>
      rw [hs] at ha
      cases hm : c.addrMap with
      | none => exact ⟨by simp, trivial⟩
      | some r => rw [hm] at ha; exact ha.elim
    | some a =>
      rw [hs] at ha
      have := spot_view ha
      rw [mode_header] at this
      exact this
  · rw [if_neg hd, if_neg hd]
    exact .nil

end Verif.Whole
