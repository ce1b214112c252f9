import Verif.Normalizer.StatsSpec

/-! # Theorems C134: the statistics of a recording -/

namespace Verif.Normalizer

/-! ## Counters without limits -/

/-- The counters as natural numbers. -/
structure Tally where
  samples : Nat
  samplesWithAddr : Nat
  synthesized : Nat
  missingMain : Nat
  missingSample : Nat
  missingAddr : Nat
  missingPid : Nat
  chainIps : Nat
  missingChain : Nat
  branchIps : Nat
  missingBranch : Nat
  noEvent : Nat

def Tally.stat (t : Tally) : Stat :=
  { samples := t.samples, samplesWithAddr := t.samplesWithAddr, synthesized := t.synthesized,
    missingMain := t.missingMain, missingSample := t.missingSample, missingAddr := t.missingAddr,
    missingPid := t.missingPid, chainIps := t.chainIps, missingChain := t.missingChain,
    branchIps := t.branchIps, missingBranch := t.missingBranch, noEvent := t.noEvent }

def Tally.plus (a b : Tally) : Tally :=
  { samples := a.samples + b.samples, samplesWithAddr := a.samplesWithAddr + b.samplesWithAddr,
    synthesized := a.synthesized + b.synthesized, missingMain := a.missingMain + b.missingMain,
    missingSample := a.missingSample + b.missingSample, missingAddr := a.missingAddr + b.missingAddr,
    missingPid := a.missingPid + b.missingPid, chainIps := a.chainIps + b.chainIps,
    missingChain := a.missingChain + b.missingChain, branchIps := a.branchIps + b.branchIps,
    missingBranch := a.missingBranch + b.missingBranch, noEvent := a.noEvent + b.noEvent }

/-- All counters are below a limit. -/
structure Tally.Below (n : Nat) (t : Tally) : Prop where
  samples : t.samples < n
  samplesWithAddr : t.samplesWithAddr < n
  synthesized : t.synthesized < n
  missingMain : t.missingMain < n
  missingSample : t.missingSample < n
  missingAddr : t.missingAddr < n
  missingPid : t.missingPid < n
  chainIps : t.chainIps < n
  missingChain : t.missingChain < n
  branchIps : t.branchIps < n
  missingBranch : t.missingBranch < n
  noEvent : t.noEvent < n

theorem Tally.Below.left {n : Nat} {a b : Tally} (h : (a.plus b).Below n) : a.Below n := by
  obtain ⟨h1, h2, h3, h4, h5, h6, h7, h8, h9, h10, h11, h12⟩ := h
  simp only [Tally.plus] at *
  constructor <;> omega

theorem Tally.plus_assoc (a b c : Tally) : (a.plus b).plus c = a.plus (b.plus c) := by
  simp [Tally.plus, Nat.add_assoc]

/-- The counters of a list of samples. -/
def tallySamples (cfg : Config) (xs : List SampleCtx) : Tally :=
  { samples := xs.length
    samplesWithAddr := xs.countP (fun x => x.sample.addr.isSome)
    synthesized := 0
    missingMain := xs.countP (fun x => x.main.isNone)
    missingSample := xs.countP (fun x => x.sampleMap.isNone)
    missingAddr := xs.countP (fun x => x.sample.addr.isSome && x.addrMap.isNone)
    missingPid := xs.countP (pidUnknown cfg)
    chainIps := (xs.flatMap (fun x => x.sample.callchain)).length
    missingChain :=
      (xs.flatMap (fun x => x.sample.callchain)).countP (fun ip => decide (contextFromCallchain ip ≠ .unknown))
    branchIps := (xs.flatMap branchEnds).length
    missingBranch := (xs.flatMap branchEnds).countP (fun l => l.mapping.isNone)
    noEvent := 0 }

/-- The counters of a list of events. -/
def tallyEvents (cfg : Config) (es : List (Ev × Nat)) : Tally :=
  { samples := lostTotal cfg es, samplesWithAddr := 0, synthesized := acceptedTotal cfg es
    missingMain := lostTotal cfg es, missingSample := 0, missingAddr := 0, missingPid := 0, chainIps := 0
    missingChain := 0, branchIps := 0, missingBranch := 0, noEvent := strays cfg es }

def tallyOf (cfg : Config) (es : List (Ev × Nat)) (cbs : List Callback) : Tally :=
  (tallySamples cfg (toldSamples cbs)).plus (tallyEvents cfg es)

theorem tallySamples_append (cfg : Config) (a b : List SampleCtx) :
    tallySamples cfg (a ++ b) = (tallySamples cfg a).plus (tallySamples cfg b) := by
  simp [tallySamples, Tally.plus, List.countP_append, List.flatMap_append]

theorem tallyOf_append (cfg : Config) (e1 e2 : List (Ev × Nat)) (c1 c2 : List Callback) :
    tallyOf cfg (e1 ++ e2) (c1 ++ c2) = (tallyOf cfg e1 c1).plus (tallyOf cfg e2 c2) := by
  have hs : toldSamples (c1 ++ c2) = toldSamples c1 ++ toldSamples c2 := List.filterMap_append
  have he : tallyEvents cfg (e1 ++ e2) = (tallyEvents cfg e1).plus (tallyEvents cfg e2) := by
    simp [tallyEvents, Tally.plus, lostTotal, acceptedTotal, strays, lostEvents, List.filterMap_append,
      List.countP_append]
  unfold tallyOf
  rw [hs, he, tallySamples_append]
  simp only [Tally.plus, Tally.mk.injEq]
  refine ⟨?_, ?_, ?_, ?_, ?_, ?_, ?_, ?_, ?_, ?_, ?_, ?_⟩ <;> omega

/-! ## Counting -/

theorem addSigned_nat {n a k : Nat} (hn : n ≤ 2 ^ 63) (h : a + k < n) : addSigned (a : Int) k = some ((a + k : Nat) : Int) := by
  unfold addSigned
  rw [if_pos (by omega)]
  rfl

theorem addUnsigned_nat {n a k : Nat} (hn : n ≤ 2 ^ 63) (h : a + k < n) : addUnsigned (a : Int) k = ((a + k : Nat) : Int) := by
  unfold addUnsigned
  omega

theorem toNat_countP {α : Type} (p : α → Bool) (x : α) : [x].countP p = (p x).toNat := by
  cases h : p x <;> simp [h]

theorem ends_countP (l : List BranchPair) :
    (l.map (fun b => b.from_.mapping.isNone.toNat + b.to.mapping.isNone.toNat)).sum =
      (l.flatMap (fun b => [b.from_, b.to])).countP (fun l => l.mapping.isNone) := by
  induction l with
  | nil => rfl
  | cons b l ih =>
    rw [List.map_cons, List.sum_cons, List.flatMap_cons, List.countP_append, ih]
    congr 1
    cases h1 : b.from_.mapping.isNone <;> cases h2 : b.to.mapping.isNone <;> simp [h1, h2]

theorem ends_length (l : List BranchPair) :
    (l.flatMap (fun b => [b.from_, b.to])).length = 2 * l.length := by
  induction l with
  | nil => rfl
  | cons b l ih => 
    rw [List.flatMap_cons, List.length_append, ih]
    simp only [List.length_cons, List.length_nil]
    omega

/-- A call for a sample of the recording, with as many pairs of branches at least as the sample has. -/
def Ordinary (c : Callback) : Prop :=
  ∃ x, c = .sample x ∧ x.lost = false ∧ x.sample.branchStack.length ≤ x.branchStack.length

theorem countCall_pid (cfg : Config) (S : Stat) (x : SampleCtx) :
    countCall cfg S (.sample x) =
      (addSigned S.missingPid (pidUnknown cfg x).toNat).bind (fun p => countSample { S with missingPid := p } x) := by
  rw [countCall, pidUnknown]
  cases x.spe with
  | none => simp only [Bool.toNat_false, Option.bind_eq_bind]
  | some r => simp only [Option.bind_eq_bind]

theorem countSample_eq {S : Stat} {c : SampleCtx} {a1 a2 a3 a4 a5 a6 a7 a8 a9 : Int}
    (h1 : addSigned S.samples 1 = some a1)
    (h2 : addSigned S.missingSample c.sampleMap.isNone.toNat = some a2)
    (h3 : addSigned S.samplesWithAddr c.sample.addr.isSome.toNat = some a3)
    (h4 : addSigned S.missingAddr (c.sample.addr.isSome && c.addrMap.isNone).toNat = some a4)
    (h5 : addSigned S.missingMain c.main.isNone.toNat = some a5)
    (h6 : addSigned S.chainIps c.sample.callchain.length = some a6)
    (h7 : addSigned S.missingChain
      (c.sample.callchain.countP (fun ip => decide (contextFromCallchain ip ≠ .unknown))) = some a7)
    (h8 : addSigned S.branchIps (2 * c.sample.branchStack.length) = some a8)
    (h9 : addSigned S.missingBranch (((c.branchStack.take c.sample.branchStack.length).map
      (fun b => b.from_.mapping.isNone.toNat + b.to.mapping.isNone.toNat)).sum) = some a9) :
    countSample S c = some { S with
      samples := a1, missingSample := a2, samplesWithAddr := a3, missingAddr := a4
      missingMain := a5, chainIps := a6, missingChain := a7, branchIps := a8, missingBranch := a9 } := by
  simp only [countSample, h1, h2, h3, h4, h5, h6, h7, h8, h9, Option.bind_eq_bind, Option.bind_some, Option.pure_def]

theorem countCall_tally {n : Nat} (hn : n ≤ 2 ^ 63) {cfg : Config} {t : Tally} {x : SampleCtx}
    (hb : x.sample.branchStack.length ≤ x.branchStack.length)
    (h : (t.plus (tallySamples cfg [x])).Below n) :
    countCall cfg t.stat (.sample x) = some (t.plus (tallySamples cfg [x])).stat := by
  obtain ⟨h1, h2, h3, h4, h5, h6, h7, h8, h9, h10, h11, h12⟩ := h
  simp only [Tally.plus, tallySamples, toNat_countP, List.flatMap_cons, List.flatMap_nil, List.append_nil,
    List.length_singleton] at h1 h2 h4 h5 h6 h7 h8 h9 h10 h11
  have hlen : (branchEnds x).length = 2 * x.sample.branchStack.length := by
    unfold branchEnds
    rw [ends_length, List.length_take, Nat.min_eq_left hb]
  rw [hlen] at h10
  unfold branchEnds at h11
  rw [← ends_countP] at h11
  have hp := countCall_pid cfg t.stat x
  have hS : t.stat.missingPid = (t.missingPid : Int) := by simp only [Tally.stat]
  rw [hp, hS, addSigned_nat (a := t.missingPid) hn h7, Option.bind_some,
    countSample_eq (S := { t.stat with missingPid := ((t.missingPid + (pidUnknown cfg x).toNat : Nat) : Int) })
      (addSigned_nat (a := t.samples) hn h1) (addSigned_nat (a := t.missingSample) hn h5)
      (addSigned_nat (a := t.samplesWithAddr) hn h2) (addSigned_nat (a := t.missingAddr) hn h6)
      (addSigned_nat (a := t.missingMain) hn h4) (addSigned_nat (a := t.chainIps) hn h8)
      (addSigned_nat (a := t.missingChain) hn h9) (addSigned_nat (a := t.branchIps) hn h10)
      (addSigned_nat (a := t.missingBranch) hn h11)]
  simp only [Tally.stat, Tally.plus, tallySamples, toNat_countP, List.flatMap_cons, List.flatMap_nil, List.append_nil,
    List.length_singleton, hlen, Nat.add_zero]
  unfold branchEnds
  rw [← ends_countP]

theorem countCalls_tally {n : Nat} (hn : n ≤ 2 ^ 63) {cfg : Config} (cbs : List Callback) (hc : ∀ c ∈ cbs, Ordinary c) :
    ∀ {t : Tally}, (t.plus (tallySamples cfg (toldSamples cbs))).Below n →
    countCalls cfg t.stat cbs = some (t.plus (tallySamples cfg (toldSamples cbs))).stat := by
  induction cbs with
  | nil =>
    intro t _
    simp only [countCalls, toldSamples, List.filterMap_nil, tallySamples, Tally.plus, List.length_nil, List.countP_nil,
      List.flatMap_nil, Nat.add_zero]
  | cons c cs ih =>
    intro t h
    obtain ⟨x, rfl, hl, hb⟩ := hc c (by simp)
    have hx : toldSamples (.sample x :: cs) = [x] ++ toldSamples cs := by
      simp [toldSamples, hl]
    rw [hx, tallySamples_append, ← Tally.plus_assoc] at h ⊢
    rw [countCalls, countCall_tally hn hb h.left]
    simp only
    exact ih (fun c hc' => hc c (by simp [hc'])) h

/-! ## What events lead to -/

theorem normBranches_length {st : State} {pid : Nat} (l : List BranchEv) :
    ∀ {brs : List BranchPair}, normBranches st pid l = some brs → brs.length = l.length := by
  induction l with
  | nil => intro brs h; cases h; rfl
  | cons b l ih =>
    intro brs h
    unfold normBranches at h
    split at h
    · cases h
    · split at h
      · cases h
      · obtain ⟨r, hr, rfl⟩ := Option.map_eq_some_iff.mp h
        simp [ih hr]

theorem handleSample_calls {cfg : Config} {st st' : State} {misc : Option Nat} {s : SampleEv}
    {spe : Option Spe.Record} {cbs : List Callback} (h : handleSample cfg st misc s spe = some (st', cbs)) :
    (cbs = [] ∧ spe = none ∧ eventIndexFor cfg s.id = none) ∨
    ((spe = none → eventIndexFor cfg s.id ≠ none) ∧ ∃ x, cbs = [.sample x] ∧ Ordinary (.sample x)) := by
  unfold handleSample at h
  split at h
  · rename_i hi
    cases h
    left
    refine ⟨rfl, ?_⟩
    cases spe with
    | none => exact ⟨rfl, hi⟩
    | some r => cases hi
  · rename_i idx hi
    right
    refine ⟨?_, ?_⟩
    · rintro rfl
      simp only [Option.isSome_none, Bool.false_eq_true, if_false] at hi
      rw [hi]; simp
    simp only at h
    split at h
    · cases h
    · split at h
      · cases h
      · split at h
        · cases h
        · split at h
          · cases h
          · rename_i brs hbr
            split at h
            · cases h
            · cases h
              refine ⟨_, rfl, _, rfl, rfl, ?_⟩
              simp only [List.length_append]
              rw [normBranches_length _ hbr]
              omega

theorem handleRecords_calls {cfg : Config} (rs : List Spe.Record) : ∀ {st st' : State} {cbs : List Callback},
    handleRecords cfg st rs = some (st', cbs) → ∀ c ∈ cbs, Ordinary c := by
  induction rs with
  | nil => intro st st' cbs h; cases h; simp
  | cons r rs ih =>
    intro st st' cbs h
    unfold handleRecords at h
    split at h
    · cases h
    · rename_i st1 cb hs
      obtain ⟨⟨st2, cbs2⟩, hr, he⟩ := Option.map_eq_some_iff.mp h
      cases he
      intro c hc
      rcases List.mem_append.mp hc with hc | hc
      · rcases handleSample_calls hs with ⟨_, h2, _⟩ | ⟨_, x, rfl, hx⟩
        · cases h2
        · rw [List.mem_singleton] at hc; rw [hc]; exact hx
      · exact ih hr c hc

theorem told_nil {cbs : List Callback} (h : ∀ c ∈ cbs, ∀ x, c = .sample x → x.lost = true) :
    toldSamples cbs = [] := by
  unfold toldSamples
  rw [List.filterMap_eq_nil_iff]
  intro c hc
  cases c with
  | sample x => simp [h _ hc x rfl]
  | comm c b => rfl
  | mmap p m => rfl

theorem updateMmap_calls {cfg : Config} {st : State} {m : MMapEv} {st' : State} {cbs : List Callback}
    (h : updateMmap cfg st m = some (st', cbs)) : toldSamples cbs = [] := by
  apply told_nil
  unfold updateMmap at h
  split at h
  · cases h; simp
  · split at h
    · cases h
    · simp only at h
      split at h
      · cases h
      · obtain ⟨s, _, he⟩ := Option.map_eq_some_iff.mp h
        cases he
        intro c hc x hx
        rw [List.mem_singleton] at hc
        rw [hc] at hx; cases hx

theorem handleLost_calls (cfg : Config) (st : State) (l : LostEv) : toldSamples (handleLost cfg st l).2 = [] := by
  apply told_nil
  unfold handleLost
  intro c hc x hx
  split at hc
  · cases hc
  · simp only at hc
    have := (List.mem_replicate.mp hc).2
    rw [this] at hx
    cases hx
    rfl

theorem tally_nothing {cfg : Config} {e : Ev} {k : Nat} {cbs : List Callback} (ht : toldSamples cbs = [])
    (hl : lostEvents cfg [(e, k)] = []) (hs : strays cfg [(e, k)] = 0) (t : Tally) :
    t.plus (tallyOf cfg [(e, k)] cbs) = t := by
  simp [tallyOf, ht, tallySamples, tallyEvents, Tally.plus, lostTotal, acceptedTotal, hl, hs]

theorem tally_lost {n : Nat} (hn : n ≤ 2 ^ 63) {cfg : Config} {e : Ev} {l : LostEv} {k : Nat} {cbs : List Callback} (ht : toldSamples cbs = [])
    (hl : lostEvents cfg [(e, k)] = [(l, k)]) (hs : strays cfg [(e, k)] = (eventIndexFor cfg (some l.id)).isNone.toNat)
    {t : Tally} (h : (t.plus (tallyOf cfg [(e, k)] cbs)).Below n) :
    countLost cfg t.stat l k = some (t.plus (tallyOf cfg [(e, k)] cbs)).stat := by
  obtain ⟨h1, h2, h3, h4, h5, h6, h7, h8, h9, h10, h11, h12⟩ := h
  simp only [tallyOf, ht, tallySamples, tallyEvents, Tally.plus, lostTotal, acceptedTotal, hl, hs,
    List.map_cons, List.map_nil, List.sum_cons, List.sum_nil, List.length_nil, List.countP_nil, Nat.zero_add,
    Nat.add_zero] at h1 h3 h4 h12
  unfold countLost
  simp only [Tally.stat]
  rw [addUnsigned_nat hn h1, addUnsigned_nat hn h4]
  cases hi : eventIndexFor cfg (some l.id) with
  | none =>
    rw [hi] at h12 hs
    simp only [Option.isNone_none, Bool.toNat_true] at h12 hs
    rw [addSigned_nat hn h12]
    simp [tallyOf, ht, tallySamples, tallyEvents, Tally.plus, lostTotal, acceptedTotal, hl, hs, hi]
  | some i =>
    rw [hi] at h3 hs
    simp only [Option.isSome_some, if_true, Option.isNone_some, Bool.toNat_false] at h3 hs
    rw [addSigned_nat hn h3]
    simp [tallyOf, ht, tallySamples, tallyEvents, Tally.plus, lostTotal, acceptedTotal, hl, hs, hi]

theorem tally_samples {cfg : Config} {e : Ev} {k : Nat} {cbs : List Callback}
    (hl : lostEvents cfg [(e, k)] = []) (hs : strays cfg [(e, k)] = 0) (t : Tally) :
    t.plus (tallyOf cfg [(e, k)] cbs) = t.plus (tallySamples cfg (toldSamples cbs)) := by
  simp [tallyOf, tallyEvents, Tally.plus, lostTotal, acceptedTotal, hl, hs]

theorem countEvent_tally {n : Nat} (hn : n ≤ 2 ^ 63) {cfg : Config} {st st' : State} {e : Ev} {k : Nat} {cbs : List Callback}
    (hst : step cfg st e = some (st', cbs)) {t : Tally}
    (h : (t.plus (tallyOf cfg [(e, k)] cbs)).Below n) :
    countEvent cfg t.stat e k cbs = some (t.plus (tallyOf cfg [(e, k)] cbs)).stat := by
  cases e with
  | mmap m =>
    unfold step at hst
    obtain ⟨⟨s, cb⟩, hm, he⟩ := Option.map_eq_some_iff.mp hst
    cases he
    rw [tally_nothing (updateMmap_calls hm) rfl rfl]; rfl
  | comm misc c =>
    unfold step at hst
    cases hst
    rw [tally_nothing (by rfl) rfl rfl]; rfl
  | fork a b c => cases hst; rw [tally_nothing (by rfl) rfl rfl]; rfl
  | cgroup a b => cases hst; rw [tally_nothing (by rfl) rfl rfl]; rfl
  | lostSamples l =>
    unfold step at hst
    unfold countEvent
    cases hu : cfg.useLostSample with
    | true =>
      rw [hu] at hst
      simp only [if_true, Option.some.injEq] at hst
      have hcb : toldSamples cbs = [] := by
        have := handleLost_calls cfg st l
        rw [hst] at this; exact this
      simp only [if_true]
      exact tally_lost hn hcb (by simp [lostEvents, hu])
        (by cases hi : eventIndexFor cfg (some l.id) <;> simp [strays, hu, hi]) h
    | false =>
      rw [hu] at hst
      cases hst
      rw [tally_nothing (by rfl) (by simp [lostEvents, hu]) (by simp [strays, hu])]
      rfl
  | lost l =>
    unfold step at hst
    unfold countEvent
    cases hu : cfg.useLostSample with
    | false =>
      rw [hu] at hst
      simp only [Bool.false_eq_true, if_false, Option.some.injEq] at hst
      have hcb : toldSamples cbs = [] := by
        have := handleLost_calls cfg st l
        rw [hst] at this; exact this
      simp only [Bool.false_eq_true, if_false]
      exact tally_lost hn hcb (by simp [lostEvents, hu])
        (by cases hi : eventIndexFor cfg (some l.id) <;> simp [strays, hu, hi]) h
    | true =>
      rw [hu] at hst
      cases hst
      rw [tally_nothing (by rfl) (by simp [lostEvents, hu]) (by simp [strays, hu])]
      rfl
  | sample misc s =>
    unfold step at hst
    unfold countEvent
    rcases handleSample_calls hst with ⟨rfl, _, hi⟩ | ⟨hi, x, rfl, hx⟩
    · obtain ⟨h1, h2, h3, h4, h5, h6, h7, h8, h9, h10, h11, h12⟩ := h
      have hs : strays cfg [(Ev.sample misc s, k)] = 1 := by simp [strays, hi]
      simp only [tallyOf, toldSamples, tallySamples, tallyEvents, Tally.plus, hs, List.filterMap_nil,
        Nat.zero_add] at h12
      simp only [if_true, Tally.stat]
      rw [show addSigned (t.noEvent : Int) 1 = _ from addSigned_nat hn h12]
      simp [tallyOf, toldSamples, tallySamples, tallyEvents, Tally.plus, lostTotal, acceptedTotal, lostEvents, hs]
    · have hs : strays cfg [(Ev.sample misc s, k)] = 0 := by
        have := hi rfl
        cases he : eventIndexFor cfg s.id with
        | none => exact absurd he this
        | some i => simp [strays, he]
      rw [tally_samples rfl hs] at h ⊢
      rw [if_neg (by simp)]
      exact countCalls_tally hn _ (by intro c hc; rw [List.mem_singleton] at hc; rw [hc]; exact hx) h
  | auxtraceInfo a => cases hst; rw [tally_nothing (by rfl) rfl rfl]; rfl
  | auxtrace d =>
    unfold step at hst
    unfold countEvent
    rw [tally_samples rfl rfl] at h ⊢
    apply countCalls_tally hn _ _ h
    simp only at hst
    split at hst
    · unfold handleSpe at hst
      split at hst
      · cases hst; simp
      · split at hst
        · cases hst
        · exact handleRecords_calls _ hst
    · cases hst; simp
  | ksymbol a b c d e =>
    unfold step at hst
    simp only at hst
    split at hst
    · rw [tally_nothing (updateMmap_calls hst) rfl rfl]; rfl
    · cases hst; rw [tally_nothing (by rfl) rfl rfl]; rfl
  | other => cases hst; rw [tally_nothing (by rfl) rfl rfl]; rfl

theorem statsFrom_tally {n : Nat} (hn : n ≤ 2 ^ 63) {cfg : Config} (es : List (Ev × Nat)) : ∀ {st st' : State} {cbs : List Callback} {t : Tally},
    runFrom cfg st (es.map Prod.fst) = some (st', cbs) → (t.plus (tallyOf cfg es cbs)).Below n →
    statsFrom cfg st t.stat es = some (t.plus (tallyOf cfg es cbs)).stat := by
  induction es with
  | nil =>
    intro st st' cbs t h _
    cases h
    simp [statsFrom, tallyOf, toldSamples, tallySamples, tallyEvents, Tally.plus, lostTotal, acceptedTotal,
      strays, lostEvents]
  | cons e es ih =>
    intro st st' cbs t h hb
    obtain ⟨e, k⟩ := e
    rw [List.map_cons, runFrom] at h
    simp only at h
    unfold statsFrom
    cases hs : step cfg st e with
    | none => rw [hs] at h; cases h
    | some r =>
      obtain ⟨st1, cb⟩ := r
      rw [hs] at h
      obtain ⟨⟨st2, cbs2⟩, hr, he⟩ := Option.map_eq_some_iff.mp h
      cases he
      have ha := tallyOf_append cfg [(e, k)] es cb cbs2
      rw [List.singleton_append] at ha
      simp only at hb ⊢
      rw [ha, ← Tally.plus_assoc] at hb ⊢
      rw [countEvent_tally hn hs hb.left]
      exact ih hr hb

theorem checkStat_nat {a b : Nat} (h : a * 100 < 2 ^ 63) :
    checkStat (a : Int) (b : Int) = some (atLeastTwoPercent a b) := by
  unfold checkStat atLeastTwoPercent
  by_cases hb : 0 < b
  · rw [if_pos (by omega), if_pos (by omega)]
    have e : ((a : Int) * 100).tdiv b = ((a * 100 / b : Nat) : Int) := by
      rw [Int.ofNat_tdiv]; rfl
    rw [e]
    congr 1
    rw [decide_eq_decide]
    have : 2 * b ≤ 100 * a ↔ 2 ≤ a * 100 / b := by
      rw [Nat.le_div_iff_mul_le hb, Nat.mul_comm a 100]
    constructor
    · intro h; exact ⟨hb, this.mpr (by omega)⟩
    · rintro ⟨_, h⟩; have := this.mp h; omega
  · rw [if_neg (by omega)]
    simp [hb]

theorem countP_sum_le (p : SampleCtx → Bool) (f : SampleCtx → Nat) (hf : ∀ x, 1 ≤ f x) (xs : List SampleCtx) :
    xs.countP p ≤ (xs.map f).sum := by
  induction xs with
  | nil => simp
  | cons x xs ih =>
    have := hf x
    rw [List.countP_cons, List.map_cons, List.sum_cons]
    split <;> omega

theorem length_sum_le {α : Type} (g : SampleCtx → List α) (f : SampleCtx → Nat) (hf : ∀ x, (g x).length ≤ f x)
    (xs : List SampleCtx) : (xs.flatMap g).length ≤ (xs.map f).sum := by
  induction xs with
  | nil => simp
  | cons x xs ih =>
    have := hf x
    rw [List.flatMap_cons, List.length_append, List.map_cons, List.sum_cons]
    omega

theorem tallyOf_below {cfg : Config} {es : List (Ev × Nat)} {cbs : List Callback}
    (hk : ∀ l ∈ lostEvents cfg es, l.2 ≤ l.1.num) :
    (tallyOf cfg es cbs).Below (statSize cfg es cbs + 1) := by
  have hf : ∀ x : SampleCtx, 1 ≤ 1 + x.sample.callchain.length + 2 * x.sample.branchStack.length := by
    intro x; omega
  have hacc : acceptedTotal cfg es ≤ lostTotal cfg es := by
    unfold acceptedTotal lostTotal
    generalize lostEvents cfg es = ls at hk
    induction ls with
    | nil => simp
    | cons l ls ih =>
      have h1 := hk l (by simp)
      have h2 := ih (fun x hx => hk x (by simp [hx]))
      rw [List.map_cons, List.map_cons, List.sum_cons, List.sum_cons]
      split <;> omega
  have hst : strays cfg es ≤ es.length := List.countP_le_length
  have hbr : ∀ x : SampleCtx, (branchEnds x).length ≤
      1 + x.sample.callchain.length + 2 * x.sample.branchStack.length := by
    intro x
    unfold branchEnds
    rw [ends_length, List.length_take]
    have := Nat.min_le_left x.sample.branchStack.length x.branchStack.length
    omega
  generalize hx : toldSamples cbs = xs
  have hc := fun p => countP_sum_le p _ hf xs
  have hlen : xs.length ≤ (xs.map (fun x => 1 + x.sample.callchain.length + 2 * x.sample.branchStack.length)).sum := by
    have := hc (fun _ => true)
    simpa using this
  have hl1 := length_sum_le (fun x => x.sample.callchain) _ (fun x => (by omega :
    x.sample.callchain.length ≤ 1 + x.sample.callchain.length + 2 * x.sample.branchStack.length)) xs
  have hl2 := length_sum_le branchEnds _ hbr xs
  have hc1 : ∀ p : Nat → Bool, (xs.flatMap (fun x => x.sample.callchain)).countP p ≤ _ := fun p => List.countP_le_length
  have hc2 : ∀ p : Loc → Bool, (xs.flatMap branchEnds).countP p ≤ _ := fun p => List.countP_le_length
  unfold tallyOf statSize
  rw [hx]
  constructor <;> simp only [tallySamples, tallyEvents, Tally.plus]
  · omega
  · have := hc (fun x => x.sample.addr.isSome); omega
  · omega
  · have := hc (fun x => x.main.isNone); omega
  · have := hc (fun x => x.sampleMap.isNone); omega
  · have := hc (fun x => x.sample.addr.isSome && x.addrMap.isNone); omega
  · have := hc (pidUnknown cfg); omega
  · omega
  · have := hc1 (fun ip => decide (contextFromCallchain ip ≠ .unknown)); omega
  · omega
  · have := hc2 (fun l => l.mapping.isNone); omega
  · omega

/-! ## The theorems -/

/-- C134, partial: the statistics are those of the recording. Whenever the recording can be handled, no
counter overflows and the warnings logged at the end are exactly those that are due: at least two percent of
what is counted is missing. Missing: recordings with some 2^56 samples or more, lost ones included, for which
it is false (next theorem). -/
theorem warnings_due_partial (inp : Input) (cfg : Config) (hcfg : mkConfig inp = some cfg) (kept : List Nat)
    (hlen : kept.length = inp.events.length) {st : State} {cbs : List Callback}
    (hrun : runFrom cfg {} inp.events = some (st, cbs))
    (hk : ∀ l ∈ lostEvents cfg (inp.events.zip kept), l.2 ≤ l.1.num)
    (hs : statSize cfg (inp.events.zip kept) cbs * 100 < 2 ^ 63) :
    process inp = some cbs ∧
    warnings inp kept = some (due cfg (inp.events.zip kept) cbs) := by
  refine ⟨by simp [process, hcfg, hrun], ?_⟩
  have hb := tallyOf_below (cbs := cbs) hk
  have hz : (inp.events.zip kept).map Prod.fst = inp.events := List.map_fst_zip (by omega)
  have hzero : ({} : Stat) = (⟨0, 0, 0, 0, 0, 0, 0, 0, 0, 0, 0, 0⟩ : Tally).stat := rfl
  have hadd : (⟨0, 0, 0, 0, 0, 0, 0, 0, 0, 0, 0, 0⟩ : Tally).plus (tallyOf cfg (inp.events.zip kept) cbs) =
      tallyOf cfg (inp.events.zip kept) cbs := by simp [Tally.plus]
  have hb63 : (tallyOf cfg (inp.events.zip kept) cbs).Below (2 ^ 63) := by
    obtain ⟨h1, h2, h3, h4, h5, h6, h7, h8, h9, h10, h11, h12⟩ := hb
    constructor <;> omega
  have hst := statsFrom_tally (Nat.le_refl _) (cfg := cfg) (inp.events.zip kept) (st := {}) (st' := st) (cbs := cbs)
    (t := ⟨0, 0, 0, 0, 0, 0, 0, 0, 0, 0, 0, 0⟩) (by rw [hz]; exact hrun) (by rw [hadd]; exact hb63)
  rw [hadd, ← hzero] at hst
  unfold warnings
  simp only [hcfg, Option.bind_eq_bind, Option.bind_some, hst]
  obtain ⟨h1, h2, h3, h4, h5, h6, h7, h8, h9, h10, h11, h12⟩ := hb
  unfold logStats
  simp only [Tally.stat]
  rw [checkStat_nat (by omega), checkStat_nat (by omega), checkStat_nat (by omega), checkStat_nat (by omega),
    checkStat_nat (by omega), checkStat_nat (by omega), checkStat_nat (by omega),
    show (1 : Int) = ((1 : Nat) : Int) from rfl, checkStat_nat (by omega)]
  simp only [Option.bind_eq_bind, Option.bind_some, Option.pure_def, Option.some.injEq]
  simp [tallyOf, tallySamples, tallyEvents, Tally.plus, due]

/-- A recording with a sample that has everything, one that has nothing, lost samples and a stray sample. -/
def statsInput : Input :=
  { attrs := [{ ids := [5] }, { ids := [6] }], events := [
      .mmap { pid := 7, start := 4096, len := 4096, filename := ascii "/bin/a" },
      .sample (some 2) { id := some 5, pid := some 7, ip := 5000, addr := some 100,
                         callchain := [2 ^ 64 - 512, 5000], branchStack := [{ fromIp := 5000, toIp := 9000 }] },
      .sample (some 2) { id := some 6, pid := some 8, ip := 100 },
      .lost { num := 3, id := 5, pid := 7, tid := 7 },
      .sample (some 2) { id := some 4, pid := some 7, ip := 5000 }] }

/-- The hypotheses of `warnings_due_partial` are met by it; of three lost samples the handler accepted two. All
warnings are logged but the one about processes of SPE records. -/
example : (do
    let cfg ← mkConfig statsInput
    let r ← runFrom cfg {} statsInput.events
    let es := statsInput.events.zip [0, 0, 0, 2, 0]
    return ((lostEvents cfg es).all (fun l => decide (l.2 ≤ l.1.num)), decide (statSize cfg es r.2 * 100 < 2 ^ 63),
      due cfg es r.2)) = some (true, true, [true, true, true, true, true, true, false, true]) ∧
    warnings statsInput [0, 0, 0, 2, 0] = some [true, true, true, true, true, true, false, true] := by
  decide +kernel

/-- C134, the full property fails: one event about lost samples of an unknown event, with a count above some
2^56, is handled without any call of the handler, but the percentage is computed with signed overflow, which
is undefined behaviour. -/
theorem warnings_safe_violated : ∃ inp : Input, process inp = some [] ∧ warnings inp [0] = none :=
  ⟨{ attrs := [{ ids := [5] }, { ids := [6] }], events := [.lost { num := 92233720368547759, id := 4 }] },
    by decide +kernel, by decide +kernel⟩

/-- C134, the full property fails: the warning about frames of call chains without mapping counts the markers of
contexts in place of the frames without mapping. A recording whose only frame has its mapping is warned of; one
whose only frame has none is not. -/
theorem warnings_chain_violated :
    (∃ (inp : Input) (x : SampleCtx) (l0 l1 : Loc), (process inp).map toldSamples = some [x] ∧
      x.callchain = [l0, l1] ∧ contextFromCallchain l0.ip ≠ .unknown ∧ l1.mapping.isSome = true ∧
      (warnings inp [0, 0]).bind (fun w => w[4]?) = some true) ∧
    ∃ (inp : Input) (x : SampleCtx) (l0 : Loc), (process inp).map toldSamples = some [x] ∧
      x.callchain = [l0] ∧ contextFromCallchain l0.ip = .unknown ∧ l0.mapping = none ∧
      (warnings inp [0]).bind (fun w => w[4]?) = some false := by
  refine ⟨⟨{ attrs := [{}], events := [
        .mmap { pid := 7, start := 4096, len := 4096, filename := ascii "/bin/a" },
        .sample (some 2) { pid := some 7, ip := 5000, callchain := [2 ^ 64 - 512, 5000] }] },
      { misc := some 2, sample := { pid := some 7, ip := 5000, callchain := [2 ^ 64 - 512, 5000] },
        main := some ⟨0, ⟨ascii "/bin/a", ⟨[], .missing⟩, 4096, 8192, 0, 0⟩⟩,
        sampleMap := some ⟨0, ⟨ascii "/bin/a", ⟨[], .missing⟩, 4096, 8192, 0, 0⟩⟩,
        callchain := [⟨2 ^ 64 - 512, none⟩, ⟨5000, some ⟨0, ⟨ascii "/bin/a", ⟨[], .missing⟩, 4096, 8192, 0, 0⟩⟩⟩] },
      _, _, by decide +kernel, rfl, by decide +kernel, rfl, by decide +kernel⟩,
    ⟨{ attrs := [{}], events := [.sample (some 2) { pid := some 7, ip := 5000, callchain := [5000] }] },
      { misc := some 2, sample := { pid := some 7, ip := 5000, callchain := [5000] }, callchain := [⟨5000, none⟩] },
      _, by decide +kernel, rfl, by decide +kernel, rfl, by decide +kernel⟩⟩

end Verif.Normalizer
