import Verif.Missing.Filled
import Verif.Missing.Read

/-!
# Messages with build IDs read from files
-/

namespace Verif.Missing
open Verif.Parser (Ev Parsed State Opts mapIp mapData mapChain mapEntries mapBranches mapSample mapMmap mapFork mapperFor step loop)
open Verif.Names (toBuildIDs buildIdText)

section
variable (O : Opts) (evs : List Ev)

theorem keep_ip (pid st ip) : mapIp { O with discard := false } evs pid st ip = mapIp O evs pid st ip := rfl
theorem keep_data (pid st a) : mapData { O with discard := false } evs pid st a = mapData O evs pid st a := rfl
theorem keep_mmap (ms i k m) : mapMmap { O with discard := false } ms i k m = mapMmap O ms i k m := rfl
theorem keep_fork (st f) : mapFork { O with discard := false } st f = mapFork O st f := rfl
theorem keep_for (ms p k) : mapperFor { O with discard := false } ms p k = mapperFor O ms p k := rfl

theorem keep_chain (pid orig ip st c) : mapChain { O with discard := false } evs pid orig ip st c = mapChain O evs pid orig ip st c := by
  induction c generalizing st with
  | nil => rfl
  | cons a l ih => simp only [mapChain, keep_ip, ih]

theorem keep_entries (pid st c) : mapEntries { O with discard := false } evs pid st c = mapEntries O evs pid st c := by
  induction c generalizing st with
  | nil => rfl
  | cons a l ih => simp only [mapEntries, keep_ip, ih]

theorem keep_sample (st s) : mapSample { O with discard := false } evs st s = mapSample O evs st s := by
  simp only [mapSample, mapBranches, keep_ip, keep_data, keep_chain, keep_entries]

theorem keep_step (i st e) : step { O with discard := false } evs i st e = step O evs i st e := by
  simp only [step, keep_sample, keep_mmap, keep_fork, keep_for]

theorem keep_loop (i st l) : loop { O with discard := false } evs i st l = loop O evs i st l := by
  induction l generalizing st i with
  | nil => rfl
  | cons a l ih => simp only [loop, keep_step, ih]

end

/-- The events as the parser walks them, `perf_parser.cc:76-92`: sorted, with huge pages named and with mappings combined, as the options say. -/
def prepared (M : Whole.Machine) (o : Tool.ParseOpts) (i : Meta.Info) (l : List Serial.Msg) : Option (List Serial.Msg) :=
  let l := if o.sort then Whole.sortEvents i l else l
  (if o.huge then Whole.deduce M l else some l).map fun l => if o.combine then Whole.combine l else l

theorem tool_parse (M : Whole.Machine) (o : Tool.ParseOpts) (h : Tool.Held) : Tool.parseHeld M o h =
    (prepared M o h.msg.info h.msg.events).bind fun events => (Parser.parse (o.parser M.page) (Whole.views Whole.parserView 0 events)).map fun r =>
      (⟨{ h.msg with events := (Whole.parsed events r).1 }, h.ser⟩, r.stats) := by
  unfold Tool.parseHeld Whole.parseEvents prepared
  simp only
  generalize (if o.sort = true then Whole.sortEvents h.msg.info h.msg.events else h.msg.events) = l0
  have key : ∀ l : List Serial.Msg, Option.map (fun (r : List Serial.Msg × Parser.Stats) => ((⟨{ h.msg with events := r.1 }, h.ser⟩ : Tool.Held), r.2))
      ((Parser.parse (o.parser M.page) (Whole.views Whole.parserView 0 (if o.combine = true then Whole.combine l else l))).bind fun r =>
        some (Whole.parsed (if o.combine = true then Whole.combine l else l) r)) =
      (Parser.parse (o.parser M.page) (Whole.views Whole.parserView 0 (if o.combine = true then Whole.combine l else l))).map fun r =>
        (⟨{ h.msg with events := (Whole.parsed (if o.combine = true then Whole.combine l else l) r).1 }, h.ser⟩, r.stats) := by
    intro l
    cases Parser.parse (o.parser M.page) (Whole.views Whole.parserView 0 (if o.combine = true then Whole.combine l else l)) <;> rfl
  by_cases hh : o.huge = true
  · rw [if_pos hh, if_pos hh]
    cases Whole.deduce M l0 with
    | none => rfl
    | some l => exact key l
  · rw [if_neg hh, if_neg hh]
    exact key l0

theorem missing_body (M : Whole.Machine) (fs : Files) (o : Tool.ParseOpts) (h : Tool.Held) (events : List Serial.Msg) :
    (do
      let r ← Parser.parse (o.parser M.page) (Whole.views Whole.parserView 0 events)
      let (complete, _, out) ← Parser.loop (o.parser M.page) ((Whole.views Whole.parserView 0 events).filter (fun e => e.type ≠ 68)) 0 {}
        ((Whole.views Whole.parserView 0 events).filter (fun e => e.type ≠ 68))
      let d ← if complete then fillIn M.env.md5 fs out (Whole.namesData h.msg.info events) else some (Whole.namesData h.msg.info events)
      return ((⟨{ h.msg with events := (Whole.parsed events r).1, info := { h.msg.info with buildIds := d.buildIds, mask := d.mask } }, h.ser⟩ : Tool.Held),
        r.stats)) =
    (Parser.parse (o.parser M.page) (Whole.views Whole.parserView 0 events)).bind fun r =>
      (Parser.loop (o.parser M.page) ((Whole.views Whole.parserView 0 events).filter (fun e => e.type ≠ 68)) 0 {}
        ((Whole.views Whole.parserView 0 events).filter (fun e => e.type ≠ 68))).bind fun t =>
      (if t.1 then fillIn M.env.md5 fs t.2.2 (Whole.namesData h.msg.info events) else some (Whole.namesData h.msg.info events)).map fun d =>
      (⟨{ h.msg with events := (Whole.parsed events r).1, info := { h.msg.info with buildIds := d.buildIds, mask := d.mask } }, h.ser⟩, r.stats) := by
  cases Parser.parse (o.parser M.page) (Whole.views Whole.parserView 0 events) with
  | none => rfl
  | some r =>
    simp only [Option.bind_some, Option.bind_eq_bind]
    cases Parser.loop (o.parser M.page) ((Whole.views Whole.parserView 0 events).filter (fun e => e.type ≠ 68)) 0 {}
      ((Whole.views Whole.parserView 0 events).filter (fun e => e.type ≠ 68)) with
    | none => rfl
    | some t =>
      obtain ⟨c, st, out⟩ := t
      simp only [Option.bind_some]
      cases c with
      | false => rfl
      | true =>
        simp only [if_true]
        cases fillIn M.env.md5 fs out (Whole.namesData h.msg.info events) with
        | none => rfl
        | some d => rfl

theorem missing_parse (M : Whole.Machine) (fs : Files) (o : Tool.ParseOpts) (h : Tool.Held) : parseHeld M fs o h =
    (prepared M o h.msg.info h.msg.events).bind fun events => (Parser.parse (o.parser M.page) (Whole.views Whole.parserView 0 events)).bind fun r =>
      (Parser.loop (o.parser M.page) ((Whole.views Whole.parserView 0 events).filter (fun e => e.type ≠ 68)) 0 {}
        ((Whole.views Whole.parserView 0 events).filter (fun e => e.type ≠ 68))).bind fun t =>
      (if t.1 then fillIn M.env.md5 fs t.2.2 (Whole.namesData h.msg.info events) else some (Whole.namesData h.msg.info events)).map fun d =>
      (⟨{ h.msg with events := (Whole.parsed events r).1, info := { h.msg.info with buildIds := d.buildIds, mask := d.mask } }, h.ser⟩, r.stats) := by
  unfold parseHeld prepared
  simp only
  generalize (if o.sort = true then Whole.sortEvents h.msg.info h.msg.events else h.msg.events) = l0
  by_cases hh : o.huge = true
  · rw [if_pos hh, if_pos hh]
    cases Whole.deduce M l0 with
    | none => rfl
    | some l => exact missing_body M fs o h _
  · rw [if_neg hh, if_neg hh]
    exact missing_body M fs o h _

/-- What the loop noted, and what `parse` says. -/
theorem parse_loop {O : Opts} {evs : List Ev} {R : Parser.Result} (h : Parser.parse O evs = some R) :
    ∃ st out, Parser.loop O (evs.filter (fun e => e.type ≠ 68)) 0 {} (evs.filter (fun e => e.type ≠ 68)) = some (R.complete, st, out) ∧
      (O.discard = false → R.parsed = out) := by
  unfold Parser.parse at h
  simp only at h
  split at h
  · cases h
  · rename_i c st out hl
    refine ⟨st, out, ?_⟩
    split at h
    · rename_i hd
      obtain ⟨a, -, rfl⟩ := Option.map_eq_some_iff.1 h
      exact ⟨hl, fun hc => by rw [hc] at hd; cases hd⟩
    · cases h
      exact ⟨hl, fun _ => rfl⟩

/-- What the parser notes is of mappings and samples. -/
theorem walked {O : Opts} {evs : List Ev} {c : Bool} {st : State} {out : List (Ev × Parsed)} (h : loop O evs 0 {} evs = some (c, st, out))
    (hp : ∀ e ∈ evs, (0 : UInt8) ∉ fileOf e) (ht : ∀ e ∈ evs, ∀ s, e.sample = some s → s.tid < 2 ^ 32) : Walked out := by
  obtain ⟨h1, h2, h3⟩ := loop_files h
  refine ⟨⟨fun x hx hn => ?_, fun x hx s hs => ?_⟩, fun x hx n hn => ?_, fun x hx _ => ?_⟩
  · obtain ⟨n, l, hl⟩ := List.exists_cons_of_ne_nil hn
    exact (h1 x hx n (by rw [hl]; exact List.mem_cons_self)).2
  · obtain ⟨e, he, s0, hs0, he0⟩ := h2 x hx s hs
    rw [he0]
    exact ht e he s0 hs0
  · rcases (h1 x hx n hn).1 with hc | hc
    · cases hc
    · exact hc
  · obtain ⟨e, he, he0⟩ := h3 x hx
    rw [he0]
    exact hp e he

theorem neat_views {l : List Serial.Msg} (hl : ∀ m ∈ l, Neat m) : ∀ e ∈ Whole.views Whole.parserView 0 l,
    (0 : UInt8) ∉ fileOf e ∧ ∀ s, e.sample = some s → s.tid < 2 ^ 32 := by
  intro e he
  obtain ⟨i, m, h1, -, -, rfl⟩ := Whole.views_mem he
  refine ⟨?_, fun s hs => ?_⟩
  · unfold fileOf Whole.parserView
    simp only
    split
    · rename_i b hb
      exact (hl m h1).name b hb
    · exact List.not_mem_nil
  · unfold Whole.parserView at hs
    simp only at hs
    split at hs
    · rename_i s0 hb
      cases hs
      exact (hl m h1).tid s0 hb
    · cases hs

theorem prepared_neat {M : Whole.Machine} {o : Tool.ParseOpts} {i : Meta.Info} {l l' : List Serial.Msg} (h : prepared M o i l = some l')
    (hl : ∀ m ∈ l, Neat m) : ∀ m ∈ l', Neat m := by
  unfold prepared at h
  obtain ⟨l2, h2, rfl⟩ := Option.map_eq_some_iff.1 h
  have h1 : ∀ m ∈ (if o.sort = true then Whole.sortEvents i l else l), Neat m := by
    intro m hm
    split at hm
    · exact hl m ((Whole.sort_perm i l).mem_iff.1 hm)
    · exact hl m hm
  have h3 : ∀ m ∈ l2, Neat m := by
    split at h2
    · exact deduce_neat h2 h1
    · cases h2; exact h1
  split
  · exact combine_neat h3
  · exact h3

/-- C138: reading missing build IDs changes nothing in a message but the table of build IDs (and its bit in the mask). The parser's result
tells for each sample the files that its addresses are in. A file that no sample has an address in keeps what the table said. For the others a
build ID is looked for as `Finds` says, and if one is found the table says it, whatever it said before. After an event of an unknown type the
table stays. -/
theorem missing_message {M : Whole.Machine} {fs : Files} {o : Tool.ParseOpts} {now : Nat} {b : Bytes} {m : Tool.Message} (hd : o.discard = false)
    (hr : Readable fs) (hi : NoIdle fs) (hm : Tool.serializeFrom M o now b = some (some m)) :
    ∃ m' st events R, serializeFrom M fs o now b = some (some m') ∧ File.readBytes { env := M.env } b = some (some st) ∧
      prepared M o st.base.info st.events = some events ∧
      m' = { m with info := { m.info with buildIds := m'.info.buildIds, mask := m'.info.mask } } ∧
      Parser.parse (o.parser M.page) (Whole.views Whole.parserView 0 events) = some R ∧ m.events = (Whole.parsed events R).1 ∧
      (∀ i, i ≠ 2 → m'.info.mask.testBit i = m.info.mask.testBit i) ∧ (R.complete = false → m' = m) ∧
      (R.complete = true → ∀ n,
        ((∃ p t, SampledIn R.parsed n p t) → ∃ id, Finds fs R.parsed n id ∧ Names.find (toBuildIDs m'.info.buildIds []) n =
          if id = [] then Names.find (toBuildIDs m.info.buildIds []) n else some (buildIdText id)) ∧
        ((∀ p t, ¬ SampledIn R.parsed n p t) →
          Names.find (toBuildIDs m'.info.buildIds []) n = Names.find (toBuildIDs m.info.buildIds []) n)) := by
  unfold Tool.serializeFrom at hm
  unfold serializeFrom
  cases hh : Tool.readRecording M b with
  | none => rw [hh] at hm; cases hm
  | some h0 =>
    cases h0 with
    | none => rw [hh] at hm; cases hm
    | some h =>
      rw [hh] at hm
      simp only at hm ⊢
      obtain ⟨st0, hst, hsth⟩ : ∃ st0, File.readBytes { env := M.env } b = some (some st0) ∧
          (⟨⟨st0.base.info, st0.events, none, none⟩, st0.base.ser⟩ : Tool.Held) = h := by
        unfold Tool.readRecording at hh
        obtain ⟨r, h1, h2⟩ := Option.map_eq_some_iff.1 hh
        obtain ⟨st0, h3, h4⟩ := Option.map_eq_some_iff.1 h2
        exact ⟨st0, by rw [h1, h3], h4⟩
      obtain ⟨r0, hr0, hm0⟩ := Option.map_eq_some_iff.1 hm
      rw [tool_parse] at hr0
      rw [missing_parse]
      obtain ⟨events, hev, hr1⟩ := Option.bind_eq_some_iff.1 hr0
      obtain ⟨R, hR, hr2⟩ := Option.map_eq_some_iff.1 hr1
      obtain ⟨st, out, hl, hout⟩ := parse_loop hR
      have hpo : R.parsed = out := hout hd
      have hev0 : prepared M o st0.base.info st0.events = some events := by rw [← hsth] at hev; exact hev
      rw [hev, Option.bind_some, hR, Option.bind_some, hl, Option.bind_some]
      subst hr2
      have hm1 := Option.some.inj hm0
      subst hm1
      subst hpo
      cases hc : R.complete with
      | false =>
        simp only [Bool.false_eq_true, if_false, Option.map_some]
        exact ⟨_, st0, events, R, rfl, hst, hev0, rfl, hR, rfl, fun i _ => rfl, fun _ => rfl, fun h => by rw [hc] at h; cases h⟩
      | true =>
        obtain ⟨d', k1, k2, k3, k4, k5⟩ := fill_spec M.env.md5 hr hi (out := R.parsed) (Whole.namesData h.msg.info events)
        simp only [if_true]
        rw [k1]
        simp only [Option.map_some]
        refine ⟨_, st0, events, R, rfl, hst, hev0, rfl, hR, rfl, k4, fun h => (by rw [hc] at h; cases h), fun _ n => ?_⟩
        have hn := neat_views (prepared_neat hev0 (Whole.read_all neat_from hst))
        exact k5 (walked hl (fun e he => (hn e (List.mem_filter.1 he).1).1) (fun e he => (hn e (List.mem_filter.1 he).1).2)) n

/-- C138: if unused mappings are dropped the table is the same as if they are not. -/
theorem missing_discard {M : Whole.Machine} {fs : Files} {o : Tool.ParseOpts} {now : Nat} {b : Bytes} {m : Tool.Message}
    (hm : serializeFrom M fs o now b = some (some m)) :
    ∃ m', serializeFrom M fs { o with discard := false } now b = some (some m') ∧ m.info = m'.info := by
  unfold serializeFrom at hm ⊢
  cases hh : Tool.readRecording M b with
  | none => rw [hh] at hm; cases hm
  | some h0 =>
    cases h0 with
    | none => rw [hh] at hm; cases hm
    | some h =>
      rw [hh] at hm
      simp only at hm ⊢
      obtain ⟨r0, hr0, hm0⟩ := Option.map_eq_some_iff.1 hm
      rw [missing_parse] at hr0
      rw [missing_parse]
      obtain ⟨events, hev, hr1⟩ := Option.bind_eq_some_iff.1 hr0
      obtain ⟨R, hR, hr2⟩ := Option.bind_eq_some_iff.1 hr1
      obtain ⟨t, hl, hr3⟩ := Option.bind_eq_some_iff.1 hr2
      obtain ⟨d, hd, hr4⟩ := Option.map_eq_some_iff.1 hr3
      have hev' : prepared M { o with discard := false } h.msg.info h.msg.events = some events := hev
      have hO : Tool.ParseOpts.parser { o with discard := false } M.page = { o.parser M.page with discard := false } := rfl
      have hl' : loop { o.parser M.page with discard := false } ((Whole.views Whole.parserView 0 events).filter (fun e => e.type ≠ 68)) 0 {}
          ((Whole.views Whole.parserView 0 events).filter (fun e => e.type ≠ 68)) = some t := by rw [keep_loop]; exact hl
      obtain ⟨c, st, out⟩ := t
      have hp : Parser.parse { o.parser M.page with discard := false } (Whole.views Whole.parserView 0 events) =
          some { events := Parser.putBack (Whole.views Whole.parserView 0 events) (out.map (·.1)), parsed := out, stats := st.stats, complete := c } := by
        unfold Parser.parse
        simp only
        rw [hl']
        rfl
      rw [hev', Option.bind_some, hO, hp, Option.bind_some, hl', Option.bind_some]
      simp only at hd ⊢
      rw [hd]
      subst hr4
      have hm1 := Option.some.inj hm0
      subst hm1
      exact ⟨_, rfl, rfl⟩

end Verif.Missing
