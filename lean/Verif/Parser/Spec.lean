import Verif.Parser.Model
import Verif.AddressMapper.Spec

/-!
# Specification of the parser

What the parser should report is said in terms of the events before: `h` is always a list of events, newest
first. The index of an event is the number of events before it.
-/

namespace Verif.Parser
open Verif.AddressMapper (Req specRun specStep specLookup)

/-! ## Which events are looked at -/

/-- The event types the parser knows. -/
def known (e : Ev) : Bool := decide (e.type ≥ 64) || decide (e.type ∈ [1, 2, 3, 4, 5, 6, 7, 9, 10, 11, 12, 13, 14, 15, 16, 17, 19])

/-- The events of a recording without the markers of finished rounds. -/
def relevant (evs : List Ev) : List Ev := evs.filter (fun e => e.type ≠ 68)

/-- The events that are looked at: those before the first of an unknown type. -/
def processed (evs : List Ev) : List Ev := (relevant evs).takeWhile known

/-- The events before the i-th, newest first. -/
def before (evs : List Ev) (i : Nat) : List Ev := ((processed evs).take i).reverse

/-! ## The mappings of a process -/

/-- A mapping event. -/
def isMmap (e : Ev) : Bool := decide (e.type = 1) || decide (e.type = 10)

/-- A mapping of the kernel. -/
def isKernelMmap (e : Ev) : Bool := isMmap e && decide (e.misc % 8 = 1)

/-- The range asked for by a mapping event after `h`. -/
def requestAt (O : Opts) (h : List Ev) (e : Ev) : Req :=
  request O h.length (isKernelMmap e && !h.any isKernelMmap) (e.mmap.getD {})

/-- A process not seen before starts with the mappings of a parent, if that was seen, or else with those of
the kernel. -/
def inherit (T : Nat → Option (List Req)) (p parent : Nat) : Nat → Option (List Req) := fun x =>
  if x = p then some ((T p).getD ((T parent).getD ((T kernelPid).getD []))) else T x

/-- The ranges asked for by the mapping events of each process, oldest first. -/
def hist (O : Opts) : List Ev → Nat → Option (List Req)
  | [] => fun _ => none
  | e :: h =>
    let T := hist O h
    if e.type = 9 then
      match e.sample with
      | some s => inherit T s.pid kernelPid
      | none => T
    else if isMmap e then
      let pid := (e.mmap.getD {}).pid.getD 0
      fun x => if x = pid then (inherit T pid kernelPid pid).map (· ++ [requestAt O h e]) else T x
    else if e.type = 7 then
      let f := e.fork.getD {}
      if f.ppid = f.pid then T else inherit T f.pid f.ppid
    else if e.type = 3 then inherit T (e.comm.getD {}).pid kernelPid
    else T

/-- The ranges that matter for an address of a process. -/
def rangesOf (O : Opts) (h : List Ev) (p : Nat) : List Req := (inherit (hist O h) p kernelPid p).getD []

/-- The mapping event an address of a process belongs to, by its index, and the offset in it. -/
def region (O : Opts) (h : List Ev) (p a : Nat) : Option (Nat × Nat) :=
  specLookup (specRun O.page [] (rangesOf O h p)).2 a

/-- The name of a mapping event. -/
def nameAt (evs : List Ev) (i : Nat) : Bytes := ((((processed evs)[i]?).bind (·.mmap)).getD {}).filename

/-- File and offset of an address. -/
def locate (O : Opts) (evs : List Ev) (i p a : Nat) : At :=
  match region O (before evs i) p a with
  | some (j, off) => { name := some (nameAt evs j), offset := off }
  | none => {}

/-! ## Commands -/

/-- The name of a thread: its latest name, or that of the thread it was forked from if that one has a name. -/
def commAt : List Ev → Nat × Nat → Option Bytes
  | [], k => if k = (0, 0) then some (ascii "swapper") else none
  | e :: h, k =>
    if e.type = 3 then
      if k = ((e.comm.getD {}).pid, (e.comm.getD {}).tid) then some (e.comm.getD {}).comm else commAt h k
    else if e.type = 7 then
      if k = ((e.fork.getD {}).pid, (e.fork.getD {}).tid) then
        (commAt h ((e.fork.getD {}).ppid, (e.fork.getD {}).ptid)).orElse (fun _ => commAt h k)
      else commAt h k
    else commAt h k

/-! ## Samples -/

/-- A branch stack whose null entries are all at the end. -/
def NullsLast (bs : List Branch) : Bool := (bs.dropWhile (fun b => !b.null)).all Branch.null

/-- The entries before the first null entry. -/
def front (bs : List Branch) : List Branch := bs.takeWhile (fun b => !b.null)

/-- The entries of a branch stack that are looked at. -/
def usable (bs : List Branch) : List Branch := if NullsLast bs then front bs else []

/-- A return address, not a context marker (`PERF_CONTEXT_MAX`, -4095). -/
def isCode (a : Nat) : Bool := decide (a < 2 ^ 64 - 4095)

/-- The location of a data address; 0 is no address. -/
def dataLoc (f : Nat → At) : Option Nat → At
  | some a => if a = 0 then {} else f a
  | none => {}

/-- What is reported about a sample. -/
def report (O : Opts) (evs : List Ev) (i : Nat) (s : Sample) : Parsed :=
  let at_ := locate O evs i s.pid
  { command := commAt (before evs i) (s.pid, s.tid)
    here := at_ s.ip
    data := dataLoc at_ s.addr
    callchain := (s.callchain.filter (fun a => isCode a && decide (a ≠ s.ip))).map at_
    branches := (usable s.branches).map (fun b =>
      { mispredicted := b.mispredicted, predicted := b.predicted, inTransaction := b.inTransaction,
        abort := b.abort, cycles := b.cycles, spec := b.spec, src := at_ b.src, dst := at_ b.dst }) }

/-- A sample with its addresses replaced. -/
def replace (τ : Nat → Nat) (s : Sample) : Sample :=
  { s with
    ip := τ s.ip
    addr := s.addr.map (fun a => if a = 0 then 0 else τ a)
    callchain := s.callchain.map (fun a => if isCode a then τ a else a)
    branches := s.branches.map (fun b =>
      if NullsLast s.branches && !b.null then { b with src := τ b.src, dst := τ b.dst } else b) }

/-- The addresses of a sample that are looked up. -/
def lookups (s : Sample) : List Nat :=
  s.ip :: ((s.addr.filter (· ≠ 0)).toList ++ (s.callchain.filter (fun a => isCode a && decide (a ≠ s.ip))) ++
    (usable s.branches).flatMap (fun b => [b.src, b.dst]))

/-! ## Counting -/

/-- Are all code addresses of a sample in mappings? -/
def allMapped (reg : Nat → Option (Nat × Nat)) (s : Sample) : Bool :=
  NullsLast s.branches && (s.ip :: (s.callchain.filter (fun a => isCode a && decide (a ≠ s.ip)) ++
    (usable s.branches).flatMap (fun b => [b.src, b.dst]))).all (fun a => (reg a).isSome)

/-- What a sample adds to the counters: is it mapped, has it a data address, is that mapped. -/
def sampleStats (reg : Nat → Option (Nat × Nat)) (s : Sample) (x : Stats) : Stats :=
  { x with
    mapped := x.mapped + (if allMapped reg s then 1 else 0)
    dataSamples := x.dataSamples + (s.addr.filter (· ≠ 0)).toList.length
    dataMapped := x.dataMapped + ((s.addr.filter (· ≠ 0)).toList.filter (fun a => (reg a).isSome)).length }

/-- The counters after some events. -/
def statsAt (O : Opts) : List Ev → Stats
  | [] => {}
  | e :: h =>
    let x := statsAt O h
    if e.type = 9 then
      match e.sample with
      | some s => sampleStats (region O h s.pid) s { x with samples := x.samples + 1 }
      | none => { x with samples := x.samples + 1 }
    else if isMmap e then { x with mmaps := x.mmaps + 1 }
    else if e.type = 7 then { x with forks := x.forks + 1 }
    else if e.type = 4 then { x with exits := x.exits + 1 }
    else if e.type = 3 then { x with comms := x.comms + 1 }
    else if e.type = 17 then { x with ksymbols := x.ksymbols + 1 }
    else x

/-- How many lookups of addresses have led to the mapping event with a given index, if it is one. -/
def usesAt (O : Opts) : List Ev → Nat → Option Nat
  | [], _ => none
  | e :: h, j =>
    if e.type = 9 then
      match e.sample with
      | some s => (usesAt O h j).map (· + ((lookups s).filter (fun a => (region O h s.pid a).map (·.1) == some j)).length)
      | none => usesAt O h j
    else if isMmap e ∧ j = h.length then some 0
    else usesAt O h j

/-! ## Remapping -/

/-- What addresses are replaced by: without remapping, themselves; with remapping, an address in a mapping by
another one, in the same place of a page, different addresses by different ones; an address in no
mapping by the same with 8 as its highest digit. -/
structure Translates (O : Opts) (reg : Nat → Option (Nat × Nat)) (τ : Nat → Nat) : Prop where
  off : O.remap = false → ∀ a, τ a = a
  unmapped : O.remap = true → ∀ a, a < 2 ^ 64 → reg a = none → τ a = 8 * 2 ^ 60 + a % 2 ^ 60
  inj : O.remap = true → ∀ a b, a < 2 ^ 64 → b < 2 ^ 64 → reg a ≠ none → reg b ≠ none → τ a = τ b → a = b
  page : O.remap = true → ∀ a, a < 2 ^ 64 → τ a % O.page = a % O.page

/-- A mapping event is accepted: it has a size, does not go over the end of memory, and does not cut another
mapping of the process inside a page (unless it may). -/
def accepted (O : Opts) (h : List Ev) (e : Ev) : Bool :=
  (specStep O.page (specRun O.page [] (rangesOf O h ((e.mmap.getD {}).pid.getD 0))).2 (requestAt O h e)).1

/-! ## Sensible recordings -/

/-- The number of mapping events that are looked at. -/
def mmapCount (evs : List Ev) : Nat := ((processed evs).filter isMmap).length

/-- Pages are of a usual size, numbers have 64 bits, no mapping ends exactly at the end of memory or
is larger than `S`, and all mappings together leave room in the made-up address space. -/
structure Sensible (O : Opts) (S : Nat) (evs : List Ev) : Prop where
  page : ∃ k, k ≤ 60 ∧ O.page = 2 ^ k
  ranges : ∀ i e, (processed evs)[i]? = some e → isMmap e = true →
    (requestAt O (before evs i) e).wf ∧ (requestAt O (before evs i) e).size ≤ S
  room : mmapCount evs * (S + 6 * O.page) < 2 ^ 64
  samples : ∀ e ∈ processed evs, ∀ s, e.sample = some s → ∀ a ∈ lookups s, a < 2 ^ 64

end Verif.Parser
