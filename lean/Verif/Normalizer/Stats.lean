import Verif.Normalizer.Model

/-!
# Model of the normalizer's statistics

`/repo/src/perf_data_handler.cc:338-354` and `685-705`. What is counted is taken from the calls of the
handler, which have what the code tests at the same places. A `Nat` beside each event is the number of
synthesized lost samples the handler accepted (line 678); it matters for lost events only.
-/

namespace Verif.Normalizer

/-- The counters `stat_`, `perf_data_handler.cc:338-354`. -/
structure Stat where
  samples : Int := 0
  samplesWithAddr : Int := 0
  synthesized : Int := 0
  missingMain : Int := 0
  missingSample : Int := 0
  missingAddr : Int := 0
  missingPid : Int := 0
  chainIps : Int := 0
  missingChain : Int := 0
  branchIps : Int := 0
  missingBranch : Int := 0
  noEvent : Int := 0
deriving DecidableEq, Repr

/-- `x += k` or `k` times `++x` for a signed 64-bit counter, as at `perf_data_handler.cc:489`; `none` is
signed overflow, which is undefined behaviour. -/
def addSigned (x : Int) (k : Nat) : Option Int := if x + k < 2 ^ 63 then some (x + k) else none

/-- `x += n` for a signed 64-bit counter and an unsigned 64-bit number, `perf_data_handler.cc:631-632`: the
sum is computed without sign and converted back. -/
def addUnsigned (x : Int) (n : Nat) : Int := (x + n + 2 ^ 63) % 2 ^ 64 - 2 ^ 63

/-- The counters that `HandleSample` changes for a sample it reports, `perf_data_handler.cc:489-573`. -/
def countSample (S : Stat) (c : SampleCtx) : Option Stat := do
  let samples ← addSigned S.samples 1
  let missingSample ← addSigned S.missingSample c.sampleMap.isNone.toNat
  let samplesWithAddr ← addSigned S.samplesWithAddr c.sample.addr.isSome.toNat
  let missingAddr ← addSigned S.missingAddr (c.sample.addr.isSome && c.addrMap.isNone).toNat
  let missingMain ← addSigned S.missingMain c.main.isNone.toNat
  let chainIps ← addSigned S.chainIps c.sample.callchain.length
  let missingChain ← addSigned S.missingChain
    (c.sample.callchain.countP (fun ip => decide (contextFromCallchain ip ≠ .unknown)))
  let branchIps ← addSigned S.branchIps (2 * c.sample.branchStack.length)
  let missingBranch ← addSigned S.missingBranch
    (((c.branchStack.take c.sample.branchStack.length).map
      (fun b => b.from_.mapping.isNone.toNat + b.to.mapping.isNone.toNat)).sum)
  return { S with samples, missingSample, samplesWithAddr, missingAddr, missingMain, chainIps,
                  missingChain, branchIps, missingBranch }

/-- The counters for one call of the handler made while a sample or an SPE record is handled: for a record
also the thread without process, `perf_data_handler.cc:968-973`. -/
def countCall (cfg : Config) (S : Stat) : Callback → Option Stat
  | .sample c => do
    let missingPid ← addSigned S.missingPid (match c.spe with
      | some r => (r.context.id != 0 && (cfg.tidToPid r.context.id).isNone).toNat
      | none => 0)
    countSample { S with missingPid } c
  | _ => some S

/-- The counters for several calls, one after the other. -/
def countCalls (cfg : Config) : Stat → List Callback → Option Stat
  | S, [] => some S
  | S, c :: cs => match countCall cfg S c with
    | none => none
    | some S' => countCalls cfg S' cs

/-- The counters `HandleLost` changes, `perf_data_handler.cc:631-632,642-643,651,682`. -/
def countLost (cfg : Config) (S : Stat) (l : LostEv) (kept : Nat) : Option Stat :=
  let S1 := { S with samples := addUnsigned S.samples l.num, missingMain := addUnsigned S.missingMain l.num }
  match eventIndexFor cfg (some l.id) with
  | none => (addSigned S1.noEvent 1).map (fun x => { S1 with noEvent := x })
  | some _ => (addSigned S1.synthesized kept).map (fun x => { S1 with synthesized := x })

/-- The counters for one event with the calls it leads to, `perf_data_handler.cc:391-466`. -/
def countEvent (cfg : Config) (S : Stat) (e : Ev) (kept : Nat) (cbs : List Callback) : Option Stat :=
  match e with
  | .sample _ _ =>
    if cbs = [] then (addSigned S.noEvent 1).map (fun x => { S with noEvent := x })
    else countCalls cfg S cbs
  | .auxtrace _ => countCalls cfg S cbs
  | .lostSamples l => if cfg.useLostSample then countLost cfg S l kept else some S
  | .lost l => if cfg.useLostSample then some S else countLost cfg S l kept
  | _ => some S

/-- The counters over the loop of `Normalize`, `perf_data_handler.cc:391-466`. -/
def statsFrom (cfg : Config) : State → Stat → List (Ev × Nat) → Option Stat
  | _, S, [] => some S
  | st, S, (e, kept) :: es =>
    match step cfg st e with
    | none => none
    | some (st1, cbs) =>
      match countEvent cfg S e kept cbs with
      | none => none
      | some S1 => statsFrom cfg st1 S1 es

/-- `CheckStat`, `perf_data_handler.cc:685-690`: whether a warning is logged; `none` is signed overflow of
the product. -/
def checkStat (num denom : Int) : Option Bool :=
  if 0 < denom then
    if -2 ^ 63 ≤ num * 100 ∧ num * 100 < 2 ^ 63 then some (decide ((num * 100).tdiv denom > 1)) else none
  else some false

/-- `LogStats`, `perf_data_handler.cc:692-705`: which of the eight warnings are logged, in the order of the
source. -/
def logStats (S : Stat) : Option (List Bool) := do
  let w1 ← checkStat S.missingMain S.samples
  let w2 ← checkStat S.missingSample S.samples
  let w3 ← checkStat S.synthesized S.samples
  let w4 ← checkStat S.missingAddr S.samplesWithAddr
  let w5 ← checkStat S.missingChain S.chainIps
  let w6 ← checkStat S.missingBranch S.branchIps
  let w7 ← checkStat S.missingPid S.samples
  let w8 ← checkStat S.noEvent 1
  return [w1, w2, w3, w4, w5, w6, w7, w8]

/-- The warnings of `PerfDataHandler::Process`, `perf_data_handler.cc:381-469` and `1034-1038`. The events of
the input come with the number of lost samples the handler accepted. -/
def warnings (inp : Input) (kept : List Nat) : Option (List Bool) := do
  let cfg ← mkConfig inp
  let S ← statsFrom cfg {} {} (inp.events.zip kept)
  logStats S

end Verif.Normalizer
