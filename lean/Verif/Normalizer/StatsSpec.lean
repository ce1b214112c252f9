import Verif.Normalizer.Stats

/-!
# Specification for C134: what the statistics of a recording are

In terms of the events of the recording and of the calls its handler gets.
-/

namespace Verif.Normalizer

/-- The samples of the recording the handler is told of; synthesized lost samples are not among them. -/
def toldSamples (cbs : List Callback) : List SampleCtx :=
  cbs.filterMap (fun c => match c with
    | .sample x => if x.lost then none else some x
    | _ => none)

/-- The lost events that count: those with lost samples if the version of perf has them, else the others. -/
def lostEvents (cfg : Config) (es : List (Ev × Nat)) : List (LostEv × Nat) :=
  es.filterMap (fun e => match e.1 with
    | .lostSamples l => if cfg.useLostSample then some (l, e.2) else none
    | .lost l => if cfg.useLostSample then none else some (l, e.2)
    | _ => none)

/-- The number of samples lost. -/
def lostTotal (cfg : Config) (es : List (Ev × Nat)) : Nat := ((lostEvents cfg es).map (fun l => l.1.num)).sum

/-- The events that belong to no attribute. -/
def strays (cfg : Config) (es : List (Ev × Nat)) : Nat :=
  es.countP (fun e => match e.1 with
    | .sample _ s => (eventIndexFor cfg s.id).isNone
    | .lostSamples l => cfg.useLostSample && (eventIndexFor cfg (some l.id)).isNone
    | .lost l => !cfg.useLostSample && (eventIndexFor cfg (some l.id)).isNone
    | _ => false)

/-- The number of lost samples the handler accepted. -/
def acceptedTotal (cfg : Config) (es : List (Ev × Nat)) : Nat :=
  ((lostEvents cfg es).map (fun l => if (eventIndexFor cfg (some l.1.id)).isSome then l.2 else 0)).sum

/-- The ends of branches a sample has, apart from that of an SPE record. -/
def branchEnds (x : SampleCtx) : List Loc :=
  (x.branchStack.take x.sample.branchStack.length).flatMap (fun b => [b.from_, b.to])

/-- Whether a sample comes from an SPE record of a thread whose process is not known. -/
def pidUnknown (cfg : Config) (x : SampleCtx) : Bool :=
  match x.spe with
  | some r => r.context.id != 0 && (cfg.tidToPid r.context.id).isNone
  | none => false

/-- Two in a hundred or more, of at least one. -/
def atLeastTwoPercent (num denom : Nat) : Bool := decide (0 < denom ∧ 2 * denom ≤ 100 * num)

/-- The warnings that are due. -/
def due (cfg : Config) (es : List (Ev × Nat)) (cbs : List Callback) : List Bool :=
  let samples := toldSamples cbs
  let all := samples.length + lostTotal cfg es
  [ atLeastTwoPercent (samples.countP (fun x => x.main.isNone) + lostTotal cfg es) all,
    atLeastTwoPercent (samples.countP (fun x => x.sampleMap.isNone)) all,
    atLeastTwoPercent (acceptedTotal cfg es) all,
    atLeastTwoPercent (samples.countP (fun x => x.sample.addr.isSome && x.addrMap.isNone))
      (samples.countP (fun x => x.sample.addr.isSome)),
    atLeastTwoPercent
      ((samples.flatMap (fun x => x.sample.callchain)).countP (fun ip => decide (contextFromCallchain ip ≠ .unknown)))
      (samples.flatMap (fun x => x.sample.callchain)).length,
    atLeastTwoPercent ((samples.flatMap branchEnds).countP (fun l => l.mapping.isNone))
      (samples.flatMap branchEnds).length,
    atLeastTwoPercent (samples.countP (pidUnknown cfg)) all,
    atLeastTwoPercent (strays cfg es) 1 ]

/-- A bound for all counters. -/
def statSize (cfg : Config) (es : List (Ev × Nat)) (cbs : List Callback) : Nat :=
  ((toldSamples cbs).map (fun x => 1 + x.sample.callchain.length + 2 * x.sample.branchStack.length)).sum +
    lostTotal cfg es + es.length

end Verif.Normalizer
