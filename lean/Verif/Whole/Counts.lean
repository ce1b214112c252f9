import Verif.Whole.Spec
import Verif.Whole.Prep2
import Verif.Normalizer.Props
import Verif.Converter.Props

/-! The samples that the normalizer reports, counted. -/

namespace Verif.Whole
open Verif.Serial (Msg Body)
open Verif.Normalizer (Config Ev Callback SampleCtx eventIndexFor runFrom step handleSample handleLost handleRecords handleSpe updateMmap)

/-- Event, whether lost, and period of a sample. -/
abbrev Key := Nat × Bool × Nat

def keyOf (c : SampleCtx) : Key := (c.attrIndex, c.lost, c.sample.period)

/-- The samples among the calls. -/
def keys (cbs : List Callback) : List Key := cbs.filterMap (fun cb => match cb with | .sample c => some (keyOf c) | _ => none)

theorem keys_append (a b : List Callback) : keys (a ++ b) = keys a ++ keys b := List.filterMap_append

def lostTally (cfg : Config) (l : Normalizer.LostEv) : List Key :=
  match eventIndexFor cfg (some l.id) with
  | none => []
  | some k => List.replicate l.num (k, true, 0)

/-- The samples that an event of a recording leads to. -/
def tally (cfg : Config) : Ev → List Key
  | .sample _ s => match eventIndexFor cfg s.id with | none => [] | some k => [(k, false, s.period)]
  | .lostSamples l => if cfg.useLostSample then lostTally cfg l else []
  | .lost l => if cfg.useLostSample then [] else lostTally cfg l
  | .auxtrace (some data) => if cfg.hasSpe then List.replicate (traced cfg.traceBase data) (0, false, 0) else []
  | _ => []

theorem sample_keys {cfg : Config} {st : Normalizer.State} {misc : Option Nat} {s : Normalizer.SampleEv} {spe : Option Spe.Record}
    {r : Normalizer.State × List Callback} (h : handleSample cfg st misc s spe = some r) :
    keys r.2 = match (if spe.isSome then some 0 else eventIndexFor cfg s.id) with | none => [] | some k => [(k, false, s.period)] := by
  unfold handleSample at h
  split at h
  · rename_i he; cases h; rw [he]; rfl
  · rename_i he
    rw [he]
    simp only at h
    split at h
    · cases h
    · split at h
      · cases h
      · split at h
        · cases h
        · split at h
          · cases h
          · split at h
            · cases h
            · cases h; rfl

theorem lost_keys (cfg : Config) (st : Normalizer.State) (l : Normalizer.LostEv) : keys (handleLost cfg st l).2 = lostTally cfg l := by
  unfold handleLost lostTally
  cases eventIndexFor cfg (some l.id) with
  | none => rfl
  | some k =>
    unfold keys
    simp only
    generalize l.num = n
    induction n with
    | zero => rfl
    | succ n ih => rw [List.replicate_succ, List.replicate_succ, List.filterMap_cons, ih]; rfl

theorem records_keys {cfg : Config} : ∀ (rs : List Spe.Record) (st : Normalizer.State) (r : Normalizer.State × List Callback),
    handleRecords cfg st rs = some r → keys r.2 = List.replicate rs.length (0, false, 0)
  | [], st, r, h => by cases h; rfl
  | x :: rs, st, r, h => by
    unfold handleRecords at h
    split at h
    · cases h
    · rename_i st1 cb hs
      obtain ⟨y, h1, rfl⟩ := Option.map_eq_some_iff.1 h
      have e := sample_keys hs
      simp only [Option.isSome_some, if_true] at e
      simp only [keys_append, e, records_keys rs _ _ h1, List.length_cons, List.replicate_succ]
      rfl

theorem update_keys {cfg : Config} {st : Normalizer.State} {m : Normalizer.MMapEv} {r : Normalizer.State × List Callback}
    (h : updateMmap cfg st m = some r) : keys r.2 = [] := by
  unfold updateMmap at h
  split at h
  · cases h; rfl
  · split at h
    · cases h
    · simp only at h
      split at h
      · cases h
      · obtain ⟨s, -, rfl⟩ := Option.map_eq_some_iff.1 h
        rfl

theorem step_keys {cfg : Config} {st : Normalizer.State} {e : Ev} {r : Normalizer.State × List Callback} (h : step cfg st e = some r) :
    keys r.2 = tally cfg e := by
  unfold step at h
  split at h
  · obtain ⟨x, h1, rfl⟩ := Option.map_eq_some_iff.1 h
    exact (update_keys h1 : keys x.2 = [])
  · cases h; rfl
  · cases h; rfl
  · cases h; rfl
  · cases h
    simp only [tally]
    split
    · exact lost_keys _ _ _
    · rfl
  · cases h
    simp only [tally]
    split
    · rfl
    · exact lost_keys _ _ _
  · exact sample_keys h
  · rename_i data
    split at h
    · rename_i hs
      cases data with
      | none => cases h; rfl
      | some d =>
        simp only [tally, hs, if_true]
        simp only [handleSpe] at h
        split at h
        · cases h
        · rename_i x hx
          rw [records_keys _ _ _ h, traced, hx]
          rfl
    · rename_i hs
      cases h
      cases data with
      | none => rfl
      | some d => simp only [tally, hs]; rfl
  · split at h
    · exact update_keys h
    · cases h; rfl
  · cases h; rfl
  · cases h; rfl

theorem run_keys {cfg : Config} : ∀ (es : List Ev) (st : Normalizer.State) (r : Normalizer.State × List Callback),
    runFrom cfg st es = some r → keys r.2 = es.flatMap (tally cfg)
  | [], st, r, h => by cases h; rfl
  | e :: es, st, r, h => by
    unfold runFrom at h
    split at h
    · cases h
    · rename_i st1 cb hs
      obtain ⟨y, h1, rfl⟩ := Option.map_eq_some_iff.1 h
      simp only [keys_append, List.flatMap_cons, run_keys es _ _ h1]
      rw [step_keys hs]

/-! ## Accepted samples -/

open Verif.Converter (Setup Accepted acceptedSamples weightOf)

/-- Is a sample of this kind counted for event `k`? -/
def counted (options k : Nat) (x : Key) : Bool := decide (x.1 = k) && !(x.2.1 && options.testBit 4)

theorem accepted_keys (S : Setup) (cbs : List Callback) {k : Nat} (hk : k < S.attrs.length) :
    ((acceptedSamples S cbs).filter (fun c => decide (c.attrIndex = k))).map keyOf = (keys cbs).filter (counted S.options k) := by
  unfold acceptedSamples keys
  induction cbs with
  | nil => rfl
  | cons cb l ih =>
    rw [List.filterMap_cons, List.filterMap_cons]
    cases cb with
    | comm c b => exact ih
    | mmap p m => exact ih
    | sample c =>
      simp only
      by_cases hc : c.attrIndex = k
      · by_cases ho : c.lost = true ∧ S.options.testBit 4 = true
        · have hn : ¬ Accepted S c := fun h => h.2 ho
          rw [if_neg hn, List.filter_cons_of_neg (by simp [counted, keyOf, ho])]
          exact ih
        · have hn : Accepted S c := ⟨by rw [hc]; exact hk, ho⟩
          rw [if_pos hn]
          simp only
          have hcnt : counted S.options k (keyOf c) = true := by
            simp only [counted, keyOf, hc, decide_true, Bool.true_and, Bool.not_eq_true']
            cases hl : c.lost
            · rfl
            · cases hb : S.options.testBit 4
              · rfl
              · exact absurd ⟨hl, hb⟩ ho
          rw [List.filter_cons_of_pos (by simpa using hc), List.filter_cons_of_pos hcnt, List.map_cons, ih]
      · rw [List.filter_cons_of_neg (a := keyOf c) (by simp [counted, keyOf, hc])]
        split
        · exact ih
        · rename_i c' he
          split at he
          · cases he
            rw [List.filter_cons_of_neg (by simpa using hc)]
            exact ih
          · cases he

/-- The weight of a sample told from its key. -/
def keyWeight (attrs : List Normalizer.AttrRec) (x : Key) : Nat :=
  if 0 < x.2.2 then x.2.2 else if 0 < ((attrs[x.1]?).map (·.samplePeriod)).getD 0 then ((attrs[x.1]?).map (·.samplePeriod)).getD 0 else 1

theorem weight_key (S : Setup) (c : SampleCtx) : weightOf S c = keyWeight S.attrs (keyOf c) := rfl

end Verif.Whole
