import Verif.Whole.Counts2
import Verif.File.Props

/-!
# Properties of the way from bytes to profiles
-/

namespace Verif.Whole
open Verif.Serial (Msg Body)

/-- What the converter knows of the recording. -/
def setup (i : Meta.Info) (labels options : Nat) (threadTypes : List (Nat × Bytes)) : Converter.Setup where
  attrs := i.attrs.map attrRec
  eventTypes := i.eventTypes.map (fun t => some t.2)
  perfVersion := i.version
  commandLine := i.cmdWhole
  labels := labels
  options := options
  threadTypes := threadTypes

/-- The parts of a conversion. -/
theorem converted {M : Machine} {ids : List (Bytes × Bytes)} {labels options : Nat} {threadTypes : List (Nat × Bytes)} {i : Meta.Info}
    {l : List Msg} {ps : List Converter.ProcessProfile} (h : convertRead M ids labels options threadTypes i l = some ps) :
    ∃ r L cbs cfg, parseEvents M (rawOpts M options) true true true (withBuildIds M.env.md5 ids i l) l = some r ∧
      Normalizer.mkConfig (normInput M (withBuildIds M.env.md5 ids i l) r.1) = some cfg ∧
      (∃ st, Normalizer.runFrom cfg {} (r.1.map normView) = some (st, cbs)) ∧
      Converter.convert (setup i labels options threadTypes) cbs = some (ps, L) := by
  unfold convertRead at h
  simp only [Option.bind_eq_bind] at h
  obtain ⟨r, h1, h⟩ := Option.bind_eq_some_iff.1 h
  unfold toProfiles at h
  obtain ⟨⟨p, L⟩, h2, rfl⟩ := Option.map_eq_some_iff.1 h
  unfold Converter.protoToProfiles at h2
  split at h2
  · cases h2
  · rename_i cbs hp
    unfold Normalizer.process at hp
    simp only [Option.bind_eq_bind] at hp
    obtain ⟨cfg, h3, hp⟩ := Option.bind_eq_some_iff.1 hp
    obtain ⟨⟨st, c⟩, h4, hp⟩ := Option.bind_eq_some_iff.1 hp
    cases hp
    exact ⟨r, L, c, cfg, h1, h3, ⟨st, h4⟩, h2⟩

/-- The parameters of the constructor of the normalizer. -/
theorem config_parts {inp : Normalizer.Input} {cfg : Normalizer.Config} (h : Normalizer.mkConfig inp = some cfg) :
    Normalizer.useLostSample inp.perfVersion = some cfg.useLostSample ∧ cfg.hasSpe = Normalizer.hasSpe inp.events ∧
      cfg.traceBase = inp.traceBase := by
  unfold Normalizer.mkConfig at h
  simp only [Option.bind_eq_bind] at h
  obtain ⟨u, h1, h2⟩ := Option.bind_eq_some_iff.1 h
  cases h2
  exact ⟨h1, rfl, rfl⟩

theorem weight_eq (attrs : List Attr.ProtoFileAttr) (k : Nat) (b : Bool) (p : Nat) :
    keyWeight (attrs.map attrRec) (k, b, p) = weightIn attrs k p := by
  have : (((attrs.map attrRec)[k]?).map (·.samplePeriod)).getD 0 = ((attrs[k]?).map (·.attr.samplePeriod)).getD 0 := by
    rw [List.getElem?_map, Option.map_map]; rfl
  unfold keyWeight weightIn
  simp only [this]

theorem tally_period {cfg : Normalizer.Config} {m : Msg} {x : Key} (hx : x ∈ tally cfg (normView m))
    (hm : ∀ s, m.body = .sample s → s.period.getD 0 < 2 ^ 63) : x.2.2 < 2 ^ 63 := by
  have hl : ∀ l, x ∈ lostTally cfg l → x.2.2 < 2 ^ 63 := by
    intro l h
    unfold lostTally at h
    split at h
    · cases h
    · rw [List.eq_of_mem_replicate h]; exact (by decide : 0 < 2 ^ 63)
  unfold tally normView at hx
  cases hb : m.body with
  | sample s =>
    rw [hb] at hx
    simp only at hx
    split at hx
    · cases hx
    · rw [List.mem_singleton.1 hx]
      exact hm s hb
  | lostSamples l =>
    rw [hb] at hx
    simp only at hx
    split at hx
    · exact hl _ hx
    · cases hx
  | lost l =>
    rw [hb] at hx
    simp only at hx
    split at hx
    · cases hx
    · exact hl _ hx
  | auxtrace a =>
    rw [hb] at hx
    simp only at hx
    split at hx
    · rw [List.eq_of_mem_replicate hx]; decide
    · cases hx
  | _ => rw [hb] at hx; cases hx

theorem keyWeight_lt {attrs : List Attr.ProtoFileAttr} (h : ∀ a ∈ attrs, a.attr.samplePeriod < 2 ^ 63) {x : Key} (hx : x.2.2 < 2 ^ 63) :
    keyWeight (attrs.map attrRec) x < 2 ^ 63 := by
  have hp : (((attrs.map attrRec)[x.1]?).map (·.samplePeriod)).getD 0 < 2 ^ 63 := by
    rw [List.getElem?_map, Option.map_map]
    cases hg : attrs[x.1]? with
    | none => decide
    | some a => exact h a (List.mem_of_getElem? hg)
  unfold keyWeight
  split
  · exact hx
  · split
    · exact hp
    · decide

/-- C105. The profiles made from the bytes of a recording count every sample. For each event: the counts in all profiles add up to the
number of samples of the event in the recording, with the records in trace data of ARM SPE and, unless the option to leave them out is
set, the samples reported as lost; and the weights add up to the sum of the weights of these samples, if the periods are below `2^63`.
Whatever the bytes are, the order of the events in them, and their mappings. -/
theorem samples_counted_partial {M : Machine} {ids : List (Bytes × Bytes)} {labels options : Nat} {threadTypes : List (Nat × Bytes)} {b : Bytes}
    {ps : List Converter.ProcessProfile} {st : Data.St} (hb : File.readBytes { env := M.env } b = some (some st))
    (h : rawToProfiles M ids labels options threadTypes b = some ps) :
    ∃ new, Normalizer.useLostSample st.base.info.version = some new ∧ ∀ k, k < st.base.info.attrs.length →
      ((ps.flatMap (·.data.sample)).map (fun s => s.value.getD (2 * k) 0)).sum =
        ((st.events.flatMap (periods st.base.info.attrs (speTrace st.events) M.traceBase k)).length +
          (if options.testBit 4 then 0 else (st.events.map (losses new st.base.info.attrs k)).sum) : Nat) ∧
      ((∀ m ∈ st.events, ∀ s, m.body = .sample s → s.period.getD 0 < 2 ^ 63) → (∀ a ∈ st.base.info.attrs, a.attr.samplePeriod < 2 ^ 63) →
        ((ps.flatMap (·.data.sample)).map (fun s => s.value.getD (2 * k + 1) 0)).sum =
          (((st.events.flatMap (periods st.base.info.attrs (speTrace st.events) M.traceBase k)).map (weightIn st.base.info.attrs k)).sum +
            (if options.testBit 4 then 0 else (st.events.map (losses new st.base.info.attrs k)).sum) *
              weightIn st.base.info.attrs k 0 : Nat)) := by
  have hsh := read_shaped hb
  unfold rawToProfiles at h
  rw [hb] at h
  obtain ⟨r, L, cbs, cfg, h1, h2, ⟨nst, h3⟩, h4⟩ := converted h
  generalize hi : st.base.info = i at *
  generalize hl : st.events = l at *
  obtain ⟨hp, -⟩ := prep_spec (M := M) (O := rawOpts M options) rfl rfl (fun m hm => hsh m (by rw [hl]; exact hm)) h1
  rw [if_pos rfl] at hp
  have hperm := sort_perm (withBuildIds M.env.md5 ids i l) l
  obtain ⟨c1, c2, c3⟩ := config_parts h2
  have howner : ∀ id, Normalizer.eventIndexFor cfg id = owner i.attrs id :=
    fun id => (owner_eq h2 id).trans rfl
  have hspe : cfg.hasSpe = speTrace l := by
    rw [c2, ← speTrace_eq]
    exact same_any hperm hp _ (fun _ => rfl)
  have hbase : cfg.traceBase = M.traceBase := c3
  have hkeys := run_keys _ _ _ h3
  have htally := same_tally hperm hp cfg
  refine ⟨cfg.useLostSample, c1, fun k hk => ?_⟩
  have hk' : k < (i.attrs.map attrRec).length := by rwa [List.length_map]
  obtain ⟨t1, t2⟩ := Converter.counts_and_weights_conserved_partial h4 hk'
  have hacc := accepted_keys (setup i labels options threadTypes) cbs hk'
  simp only at hkeys
  rw [hkeys, show (setup i labels options threadTypes).options = options from rfl] at hacc
  have hsum : ∀ w : Key → Nat, ((((r.1.map normView).flatMap (tally cfg)).filter (counted options k)).map w).sum =
      ((l.flatMap (periods i.attrs (speTrace l) M.traceBase k)).map (fun p => w (k, false, p))).sum +
        (if options.testBit 4 then 0 else (l.map (losses cfg.useLostSample i.attrs k)).sum) * w (k, true, 0) := by
    intro w
    rw [((htally.filter (counted options k)).map w).sum_nat, counted_sum howner, hspe, hbase]
  constructor
  · rw [t1]
    have e := congrArg List.length hacc
    rw [List.length_map] at e
    rw [e]
    have := hsum (fun _ => 1)
    simp only [List.map_const', List.sum_replicate_nat, Nat.mul_one] at this
    rw [this]
  · intro hper hattr
    have hw : ∀ c ∈ Converter.acceptedSamples (setup i labels options threadTypes) cbs,
        Converter.weightOf (setup i labels options threadTypes) c < 2 ^ 63 := by
      intro c hc
      obtain ⟨cb, hcb, hc⟩ := List.mem_filterMap.1 hc
      have hmem : keyOf c ∈ keys cbs := by
        refine List.mem_filterMap.2 ⟨cb, hcb, ?_⟩
        split at hc
        · split at hc
          · cases hc; rfl
          · cases hc
        · cases hc
      rw [hkeys] at hmem
      obtain ⟨m, hm, hx⟩ := List.mem_flatMap.1 (htally.mem_iff.1 hmem)
      rw [weight_key]
      exact keyWeight_lt hattr (tally_period hx (hper m hm))
    have e := congrArg (fun x => (x.map (keyWeight (i.attrs.map attrRec))).sum) hacc
    simp only [List.map_map] at e
    rw [t2 hw, show (List.map (Converter.weightOf (setup i labels options threadTypes)) ((Converter.acceptedSamples
      (setup i labels options threadTypes) cbs).filter fun c => decide (c.attrIndex = k))).sum = _ from e, hsum]
    simp only [weight_eq]

/-! ### Example: two events, samples of both that are not in the order of time, and three lost samples -/

section
open Verif.File (exFile exAttrs exMetadata fileImage)
open Verif.Serial (exMsg exMap exSample exInfo exEnv)

/-- The second event of the example. -/
def exFaults : Attr.FileAttr := (exAttrs.map Attr.deserializeFileAttr).getD 1 ⟨{}, []⟩

/-- A sample of the second event, without a period. -/
def exFault : Serial.SampleEvent where
  ip := some 0x4010
  pid := some 10
  tid := some 11
  time := some 123400
  addr := some 9
  id := some 7
  streamId := some 3
  cpu := some 2

/-- A message of the second event. -/
def faultMsg (type misc : Nat) (b : Body) : Msg :=
  ⟨type, misc, (Serial.wire exFaults.attr.sample ⟨type, misc, 0, b, 0⟩).size, b, Serial.stamp b⟩

def exTwo : File.Recording where
  info := exMetadata
  events := [(exFile, exMsg 10 (2 + 2 ^ 14) (.mmap exMap)), (exFile, exMsg 9 2 (.sample exSample)),
    (exFaults, faultMsg 9 2 (.sample exFault)), (exFile, exMsg 2 0 (.lost { id := 6, lost := 3, info := exInfo }))]

def exMachine : Machine := { env := exEnv }

/-- The values of the samples in all profiles. -/
def valuesOf (ps : List Converter.ProcessProfile) : List (List Int) := (ps.flatMap (·.data.sample)).map (·.value)

/-- The bytes can be read and converted, and the numbers are those that `samples_counted_partial` says. -/
example : ((File.readBytes { env := exEnv } (fileImage exTwo)).bind id).map (fun st =>
      (st.events.map (·.type), [0, 1].map (fun k => (st.events.flatMap (periods st.base.info.attrs false 0 k),
        (st.events.map (losses false st.base.info.attrs k)).sum, weightIn st.base.info.attrs k 0)))) =
      some ([10, 9, 9, 2], [([1000], 3, 1000), ([0], 0, 1)]) ∧
    (rawToProfiles exMachine [] 0 0 [] (fileImage exTwo)).map valuesOf =
      some [[0, 0, 1, 1], [1, 1000, 0, 0], [3, 3000, 0, 0]] ∧
    (rawToProfiles exMachine [] 0 16 [] (fileImage exTwo)).map valuesOf =
      some [[0, 0, 1, 1], [1, 1000, 0, 0]] := by
  decide +kernel

end

end Verif.Whole
