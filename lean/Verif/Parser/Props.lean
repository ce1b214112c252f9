import Verif.Parser.Outcome
import Verif.Normalizer.Model

/-!
# Properties of the parser

The events before the i-th event looked at are `before evs i`, newest first (`Spec.lean`). `Sensible` says that
the recording has 64-bit numbers, a usual page size and less data than the made-up address space has room
for.
-/

namespace Verif.Parser
open Verif.AddressMapper (Req specRun specLookup specStep Piece newest)
open Verif.HugePages (MMap)

theorem parse_keeps {O : Opts} {evs : List Ev} {R : Result} (hd : O.discard = false) (h : parse O evs = some R) :
    ∃ st, loop O (relevant evs) 0 {} (relevant evs) = some (R.complete, st, R.parsed) ∧ R.stats = st.stats ∧
      R.events = putBack evs (R.parsed.map (·.1)) := by
  unfold parse at h
  simp only [hd, Bool.false_eq_true, if_false] at h
  change (match loop O (relevant evs) 0 {} (relevant evs) with | none => none | some (complete, st, out) => _) = _ at h
  cases hl : loop O (relevant evs) 0 {} (relevant evs) with
  | none => rw [hl] at h; cases h
  | some r =>
    obtain ⟨c, st, out⟩ := r
    rw [hl] at h
    simp only [Option.some.injEq] at h
    subst h
    exact ⟨st, rfl, rfl, rfl⟩

/-- What is known after parsing without discarding. -/
theorem parse_out {O : Opts} {S : Nat} {evs : List Ev} {R : Result} (hS : Sensible O S evs) (hd : O.discard = false)
    (h : parse O evs = some R) :
    ∃ out starts, R.parsed = out ++ ((relevant evs).drop (processed evs).length).map (fun e => (e, ({} : Parsed))) ∧
      R.complete = (relevant evs).all known ∧ R.stats = statsAt O (processed evs).reverse ∧
      out.length = (processed evs).length ∧ R.events = putBack evs (R.parsed.map (·.1)) ∧
      ∀ i e, (processed evs)[i]? = some e → ∃ x, R.parsed[i]? = some x ∧ x.1.type = e.type ∧ Becomes O S evs starts i e x.1 x.2 := by
  obtain ⟨st, h1, h2, h3⟩ := parse_keeps hd h
  rcases parse_loop hS with ⟨g1, -⟩ | ⟨st', out, starts, g1, g2, g3, g4⟩
  · rw [h1] at g1; cases g1
  · rw [h1] at g1
    simp only [Option.some.injEq, Prod.mk.injEq] at g1
    obtain ⟨e1, rfl, e3⟩ := g1
    refine ⟨out, starts, e3, e1, by rw [h2, g2.stats], g3, h3, ?_⟩
    intro i e hi
    obtain ⟨x, k1, k2⟩ := g4 i e hi
    refine ⟨x, ?_, k2⟩
    rw [e3, List.getElem?_append_left ((List.getElem?_eq_some_iff.1 k1).1)]
    exact k1

/-! ## An example -/

def exMm (pid start len off : Nat) (n : String) : Ev :=
  { type := 1, mmap := some { pid := some pid, start := start, len := len, pgoff := off, filename := ascii n } }
def exSample (pid ip : Nat) : Sample :=
  { ip := ip, pid := pid, tid := pid, addr := some 0x20020, callchain := [2 ^ 64 - 512, ip, 0x10008, 0x999999],
    branches := [{ src := 0x10000, dst := 0x20000, cycles := 3 }, {}] }
def exSm (pid ip : Nat) : Ev := { type := 9, sample := some (exSample pid ip) }
/-- A process with two files, forked by another that then replaces a file, samples in both, the end of a round. -/
def exEvs : List Ev :=
  [exMm 1 0x10000 0x3000 0 "/a", exMm 1 0x20000 0x5000 0x1000 "/b", { type := 68 },
   { type := 3, comm := some { pid := 1, tid := 1, comm := ascii "one" } },
   { type := 7, fork := some { pid := 2, tid := 2, ppid := 1, ptid := 1 } },
   exMm 2 0x20000 0x5000 0 "/c", exSm 1 0x20010, exSm 2 0x20010, exSm 2 0x15000]

def exO : Opts := { remap := true }

theorem exOk (O : Opts) (hp : O.page = 4096) : Sensible O 0x5000 exEvs := by
  refine ⟨⟨12, by omega, hp⟩, ?_, ?_, ?_⟩
  · have h : ∀ i : Nat, i < 8 → ∀ e, (processed exEvs)[i]? = some e → isMmap e = true →
        (request {} i (isKernelMmap e && !(before exEvs i).any isKernelMmap) (e.mmap.getD {})).real < 2 ^ 63 ∧
        (request {} i (isKernelMmap e && !(before exEvs i).any isKernelMmap) (e.mmap.getD {})).size ≤ 0x5000 := by
      decide +kernel
    intro i e hi hm
    have hlen : (processed exEvs).length = 8 := by decide +kernel
    have hlt : i < 8 := by rw [← hlen]; exact (List.getElem?_eq_some_iff.1 hi).1
    obtain ⟨h1, h2⟩ := h i hlt e hi hm
    have hbl : (before exEvs i).length = i := before_len (by omega)
    have : (requestAt O (before exEvs i) e).real < 2 ^ 63 ∧ (requestAt O (before exEvs i) e).size ≤ 0x5000 := by
      unfold requestAt
      rw [hbl]
      exact ⟨h1, h2⟩
    unfold Req.wf
    omega
  · have : mmapCount exEvs = 3 := by decide +kernel
    rw [this, hp]; decide
  · decide +kernel

theorem ex_parses : ∃ R, parse exO exEvs = some R := by
  have : (parse exO exEvs).isSome = true := by decide +kernel
  exact Option.isSome_iff_exists.1 this

/-! ## C81: files and offsets of addresses -/

/-- C81. For every sample the parser reports the file and the offset of its address, its data address, its call
chain without context markers and its own address, and its branches before the first null one, each
looked up among the mappings of its process at that time, and the name of its thread (`report`). -/
theorem samples_reported {O : Opts} {S : Nat} {evs : List Ev} {R : Result} (hS : Sensible O S evs) (hd : O.discard = false)
    (h : parse O evs = some R) {i : Nat} {e : Ev} {s : Sample} (hi : (processed evs)[i]? = some e) (ht : e.type = 9)
    (hs : e.sample = some s) : (R.parsed[i]?).map (·.2) = some (report O evs i s) := by
  obtain ⟨out, starts, -, -, -, -, -, h1⟩ := parse_out hS hd h
  obtain ⟨x, h2, -, h3⟩ := h1 i e hi
  rw [h2, (h3.sample ht s hs).1.symm]
  rfl

/-- Nothing is reported for other events. -/
theorem others_silent {O : Opts} {S : Nat} {evs : List Ev} {R : Result} (hS : Sensible O S evs) (hd : O.discard = false)
    (h : parse O evs = some R) {i : Nat} {e : Ev} (hi : (relevant evs)[i]? = some e)
    (hs : e.type = 9 → e.sample = none ∨ (processed evs).length ≤ i) : (R.parsed[i]?).map (·.2) = some {} := by
  obtain ⟨out, starts, h0, -, -, hlen, -, h1⟩ := parse_out hS hd h
  by_cases hlt : i < (processed evs).length
  · have hi' : (processed evs)[i]? = some e := by rw [← hi]; exact takeWhile_get hlt
    obtain ⟨x, h2, -, h3⟩ := h1 i e hi'
    rw [h2]
    show some x.2 = _
    by_cases hm : isMmap e = true
    · rw [(h3.mmap hm).1]
    · rw [(h3.other (by simpa using hm) (fun h9 => (hs h9).resolve_right (by omega))).2]
  · rw [h0, List.getElem?_append_right (by omega), List.getElem?_map, List.getElem?_drop, hlen]
    rw [show (processed evs).length + (i - (processed evs).length) = i by omega, hi]
    rfl

/-- The histories of accepted mapping events. -/
theorem hist_good (O : Opts) {evs : List Ev} : ∀ i, i ≤ (processed evs).length →
    (∀ j e, j < i → (processed evs)[j]? = some e → isMmap e = true → accepted O (before evs j) e = true) →
    ∀ p qs, hist O (before evs i) p = some qs → ∀ b ∈ (specRun O.page [] qs).1, b = true
  | 0, _, _, p, qs, hq => by simp [before, hist] at hq
  | i + 1, hle, hacc, p, qs, hq => by
    obtain ⟨e, he⟩ : ∃ e, (processed evs)[i]? = some e := ⟨_, List.getElem?_eq_getElem (by omega)⟩
    rw [before_succ he] at hq
    have ih := hist_good O i (by omega) (fun j e hj => hacc j e (by omega))
    have inh := fun p pp => inherit_all (P := fun l => ∀ b ∈ (specRun O.page [] l).1, b = true)
      (by intro b hb; cases hb) ih p pp
    rcases hist_cases hq with hq | ⟨a, b, hq⟩ | ⟨hm, l, hl, rfl⟩
    · exact ih _ _ hq
    · exact inh _ _ _ _ hq
    · have h1 := inh _ _ _ _ hl
      rw [specRun_snoc]
      intro b hb
      rcases List.mem_append.1 hb with hb | hb
      · exact h1 b hb
      · rw [List.mem_singleton.1 hb]
        have := hacc i e (by omega) he hm
        unfold accepted at this
        rw [rangesOf_eq hl] at this
        exact this

theorem all_accepted {O : Opts} {S : Nat} {evs : List Ev} {R : Result} (hS : Sensible O S evs) (hd : O.discard = false)
    (h : parse O evs = some R) {i : Nat} {e : Ev} (hi : (processed evs)[i]? = some e) (hm : isMmap e = true) :
    accepted O (before evs i) e = true := by
  obtain ⟨out, starts, -, -, -, -, -, h1⟩ := parse_out hS hd h
  obtain ⟨x, -, -, h3⟩ := h1 i e hi
  exact (h3.mmap hm).2.2.2

theorem ranges_good {O : Opts} {S : Nat} {evs : List Ev} {R : Result} (hS : Sensible O S evs) (hd : O.discard = false)
    (h : parse O evs = some R) {i : Nat} (hi : i ≤ (processed evs).length) (p : Nat) :
    ∀ b ∈ (specRun O.page [] (rangesOf O (before evs i) p)).1, b = true :=
  inherit_all (P := fun l => ∀ b ∈ (specRun O.page [] l).1, b = true) (by intro b hb; cases hb)
    (hist_good O i hi (fun _ _ _ he hm => all_accepted hS hd h he hm)) p kernelPid p _ (by simp [rangesOf, inherit])

theorem find_zip {α : Type} (f : α → Bool) : ∀ (qs : List α) (bs : List Bool), bs.length = qs.length → (∀ b ∈ bs, b = true) →
    ((qs.zip bs).reverse.find? (fun e => e.2 && f e.1)).map (·.1) = qs.reverse.find? f := by
  intro qs bs hl hb
  have hbs : bs = List.replicate qs.length true := by
    rw [← hl]; exact List.eq_replicate_iff.2 ⟨rfl, hb⟩
  have : qs.zip bs = qs.map (fun q => (q, true)) := by
    rw [hbs]; clear hl hb hbs
    induction qs with
    | nil => rfl
    | cons q qs ih => simp [List.replicate_succ, ih]
  rw [this, ← List.map_reverse, List.find?_map]
  simp [Function.comp_def]

theorem specRun_len (al : Nat) : ∀ (qs : List Req) (ps : List Piece), (specRun al ps qs).1.length = qs.length
  | [], _ => rfl
  | q :: qs, ps => by simp [specRun, specRun_len al qs]

/-- C81. An address is never put into an older mapping than the newest one of the process that contains it, and its
offset is its distance from the start of that mapping plus the file offset of the mapping. -/
theorem newest_mapping {O : Opts} {S : Nat} {evs : List Ev} {R : Result} (hS : Sensible O S evs) (hd : O.discard = false)
    (h : parse O evs = some R) {i : Nat} (hi : i ≤ (processed evs).length) {p a j off : Nat}
    (hr : region O (before evs i) p a = some (j, off)) :
    ∃ q, (rangesOf O (before evs i) p).reverse.find? (fun q => q.has a) = some q ∧ q.has a = true ∧ j = q.id ∧
      off = (a - q.real + q.off) % 2 ^ 64 ∧ j < i ∧ ∃ e, (processed evs)[j]? = some e ∧ isMmap e = true := by
  have hg := ranges_good hS hd h hi p
  have hr' := hr
  unfold region specLookup at hr
  rw [Option.map_eq_some_iff] at hr
  obtain ⟨pc, h1, h2⟩ := hr
  have hn := AddressMapper.run_newest O.page (rangesOf O (before evs i) p) [] [] (by intro p hp; cases hp) pc
    (List.mem_of_find?_eq_some h1) a (by have := List.find?_some h1; exact this)
  rw [List.nil_append, h2] at hn
  unfold newest at hn
  rw [Option.map_eq_some_iff] at hn
  obtain ⟨x, hx, hv⟩ := hn
  have := find_zip (fun q : Req => q.has a) _ _ (specRun_len O.page _ []) hg
  rw [hx, Option.map_some] at this
  refine ⟨x.1, this.symm, by have := List.find?_some this.symm; exact this, ?_, ?_, ?_⟩
  · exact (congrArg Prod.fst hv).symm
  · exact (congrArg Prod.snd hv).symm
  · obtain ⟨q, hq, rfl⟩ := lookup_id hr'
    obtain ⟨k1, e, k2, k3⟩ := inherit_all (P := fun l => ∀ q ∈ l, q.id < (before evs i).length ∧ ∃ e, (before evs i).reverse[q.id]? = some e ∧ isMmap e = true)
      (by intro q hq; cases hq) (hist_ids O (before evs i)) p kernelPid p (rangesOf O (before evs i) p)
      (by unfold rangesOf; simp [inherit]) q hq
    rw [before_len hi] at k1
    refine ⟨k1, e, ?_, k3⟩
    unfold before at k2
    rw [List.reverse_reverse, List.getElem?_take_of_lt k1] at k2
    exact k2

/-- In the example: the sample of process 1 at 0x20010 is in /b, that of process 2 in /c, and the forked process
still sees /a. -/
example : (parse exO exEvs).map (fun R => R.parsed.map (fun x => (x.2.command, x.2.branches.length))) =
      some [(none, 0), (none, 0), (none, 0), (none, 0), (none, 0), (some (ascii "one"), 1), (some (ascii "one"), 1), (some (ascii "one"), 1)] ∧
    (parse exO exEvs).map (fun R => R.parsed.map (fun x => x.2.here)) =
      some [{}, {}, {}, {}, {}, ⟨some (ascii "/b"), 0x1010⟩, ⟨some (ascii "/c"), 0x10⟩, {}] ∧
    (parse exO exEvs).map (fun R => R.parsed.map (fun x => x.2.callchain.map (·.name))) =
      some [[], [], [], [], [], [some (ascii "/a"), none], [some (ascii "/a"), none], [some (ascii "/a"), none]] ∧
    Sensible exO 0x5000 exEvs ∧ exO.discard = false := by
  refine ⟨?_, ?_, ?_, exOk _ rfl, rfl⟩ <;> decide +kernel

/-! ## C31: addresses in no mapping -/

/-- C31. With remapping, a sample address in no mapping is replaced by one whose highest hexadecimal digit is 8 and
whose other digits are the same; the normalizer finds no mapping for such an address, whatever mappings it
knows. -/
theorem unmapped_marked {O : Opts} {S : Nat} {evs : List Ev} {R : Result} (hS : Sensible O S evs) (hd : O.discard = false)
    (hr : O.remap = true) (h : parse O evs = some R) {i : Nat} {e : Ev} {s : Sample} (hi : (processed evs)[i]? = some e)
    (ht : e.type = 9) (hs : e.sample = some s) :
    ∃ τ, (R.parsed[i]?).map (·.1) = some { e with sample := some (replace τ s) } ∧
      ∀ a, a < 2 ^ 64 → region O (before evs i) s.pid a = none →
        τ a / 2 ^ 60 = 8 ∧ τ a % 2 ^ 60 = a % 2 ^ 60 ∧ τ a < 2 ^ 64 ∧
        ∀ (st : Normalizer.State) (pid : Nat) (ctx : Normalizer.ACtx), Normalizer.getMapping st pid (τ a) ctx = some none := by
  obtain ⟨out, starts, -, -, -, -, -, h1⟩ := parse_out hS hd h
  obtain ⟨x, h2, -, h3⟩ := h1 i e hi
  obtain ⟨-, τ, h4, h5, -, -⟩ := h3.sample ht s hs
  refine ⟨τ, by rw [h2, ← h4]; rfl, ?_⟩
  intro a ha hn
  have he := h5.unmapped hr a ha hn
  have hq : τ a / 2 ^ 60 = 8 := by rw [he]; omega
  refine ⟨hq, by rw [he]; omega, by rw [he]; omega, ?_⟩
  intro st pid ctx
  unfold Normalizer.getMapping
  rw [if_pos hq]

/-- C31. And only such addresses get the mark, if the mappings fit into half of the address space. -/
theorem marked_only_unmapped {O : Opts} {S : Nat} {evs : List Ev} {R : Result} (hS : Sensible O S evs) (hd : O.discard = false)
    (hr : O.remap = true) (hroom : mmapCount evs * (S + 6 * O.page) ≤ 2 ^ 63) (h : parse O evs = some R) {i : Nat} {e : Ev}
    {s : Sample} (hi : (processed evs)[i]? = some e) (ht : e.type = 9) (hs : e.sample = some s) :
    ∃ τ, (R.parsed[i]?).map (·.1) = some { e with sample := some (replace τ s) } ∧
      ∀ a, a < 2 ^ 64 → (τ a / 2 ^ 60 = 8 ↔ region O (before evs i) s.pid a = none) := by
  obtain ⟨out, starts, -, -, -, -, -, h1⟩ := parse_out hS hd h
  obtain ⟨x, h2, -, h3⟩ := h1 i e hi
  obtain ⟨-, τ, h4, h5, -, h6⟩ := h3.sample ht s hs
  refine ⟨τ, by rw [h2, ← h4]; rfl, ?_⟩
  intro a ha
  constructor
  · intro h8
    cases hg : region O (before evs i) s.pid a with
    | none => rfl
    | some v =>
      have := h6 hr a ha (by simp [hg])
      omega
  · intro hn
    rw [h5.unmapped hr a ha hn]; omega

/-- In the example 0x15000 is in no mapping of process 2, 0x20010 is in one. -/
example : (parse exO exEvs).map (fun R => R.parsed.filterMap (fun x => x.1.sample.map (fun s => (s.ip, s.callchain)))) =
    some [(0x3010, [2 ^ 64 - 512, 0x3010, 0x8, 0x8000000000999999]),
      (0x3010, [2 ^ 64 - 512, 0x3010, 0x8, 0x8000000000999999]),
      (0x8000000000015000, [2 ^ 64 - 512, 0x8000000000015000, 0x8, 0x8000000000999999])] ∧
    mmapCount exEvs * (0x5000 + 6 * exO.page) ≤ 2 ^ 63 := by
  decide +kernel

/-! ## C32: branch stacks -/

theorem nullsLast_iff (bs : List Branch) : NullsLast bs = true ↔
    ∀ (i j : Nat) (b c : Branch), i < j → bs[i]? = some b → bs[j]? = some c → b.null = true → c.null = true := by
  induction bs with
  | nil => simp [NullsLast]
  | cons x t ih =>
    by_cases hx : x.null = true
    · rw [NullsLast, List.dropWhile_cons_of_neg (by simp [hx])]
      constructor
      · intro h i j b c _ _ hc _
        rw [List.all_eq_true] at h
        exact h c (List.mem_of_getElem? hc)
      · intro h
        rw [List.all_eq_true]
        intro c hc
        obtain ⟨j, hj⟩ := List.getElem?_of_mem hc
        cases j with
        | zero => simp at hj; rw [← hj]; exact hx
        | succ j => exact h 0 (j + 1) x c (by omega) rfl hj hx
    · have hxt : NullsLast (x :: t) = NullsLast t := by
        rw [NullsLast, List.dropWhile_cons_of_pos (by simpa using hx), NullsLast]
      rw [hxt, ih]
      constructor
      · intro h i j b c hij hb hc hn
        cases i with
        | zero => simp at hb; rw [← hb] at hn; exact absurd hn hx
        | succ i =>
          cases j with
          | zero => omega
          | succ j => exact h i j b c (by omega) (by simpa using hb) (by simpa using hc) hn
      · intro h i j b c hij hb hc hn
        exact h (i + 1) (j + 1) b c (by omega) (by simpa using hb) (by simpa using hc) hn

/-- C32. If the null entries of a branch stack are all at its end, the entries before them are reported, in order;
if not, none are, and the stack stays as it was. -/
theorem branches_reported {O : Opts} {S : Nat} {evs : List Ev} {R : Result} (hS : Sensible O S evs) (hd : O.discard = false)
    (h : parse O evs = some R) {i : Nat} {e : Ev} {s : Sample} (hi : (processed evs)[i]? = some e) (ht : e.type = 9)
    (hs : e.sample = some s) : ∃ e' p s', R.parsed[i]? = some (e', p) ∧ e'.sample = some s' ∧
    ((∀ (i j : Nat) (b c : Branch), i < j → s.branches[i]? = some b → s.branches[j]? = some c → b.null = true → c.null = true) →
      p.branches = (s.branches.filter (fun b => !b.null)).map (fun b =>
        { mispredicted := b.mispredicted, predicted := b.predicted, inTransaction := b.inTransaction, abort := b.abort,
          cycles := b.cycles, spec := b.spec, src := locate O evs i s.pid b.src, dst := locate O evs i s.pid b.dst })) ∧
    ((∃ (i j : Nat) (b c : Branch), i < j ∧ s.branches[i]? = some b ∧ s.branches[j]? = some c ∧ b.null = true ∧ c.null = false) →
      p.branches = [] ∧ s'.branches = s.branches) ∧
    All₂ (fun b b' => b' = { b with src := b'.src, dst := b'.dst }) s.branches s'.branches := by
  obtain ⟨out, starts, -, -, -, -, -, h1⟩ := parse_out hS hd h
  obtain ⟨x, h2, -, h3⟩ := h1 i e hi
  obtain ⟨h4, τ, h5, -⟩ := h3.sample ht s hs
  refine ⟨x.1, x.2, replace τ s, h2, by rw [h5], ?_, ?_, ?_⟩
  · intro hn
    have hn' := (nullsLast_iff _).2 hn
    rw [h4]
    have : usable s.branches = s.branches.filter (fun b => !b.null) := by
      unfold usable
      rw [if_pos hn']
      unfold front
      clear h4 h5 h3 hs hn
      generalize s.branches = bs at hn' ⊢
      induction bs with
      | nil => rfl
      | cons b t ih =>
        by_cases hb : b.null = true
        · rw [List.takeWhile_cons_of_neg (by simp [hb])]
          rw [NullsLast, List.dropWhile_cons_of_neg (by simp [hb]), List.all_eq_true] at hn'
          symm
          rw [List.filter_eq_nil_iff]
          intro c hc; simp [hn' c hc]
        · rw [NullsLast, List.dropWhile_cons_of_pos (by simpa using hb)] at hn'
          rw [List.takeWhile_cons_of_pos (by simpa using hb), List.filter_cons_of_pos (by simpa using hb), ih hn']
    simp only [report, this]
  · rintro ⟨i, j, b, c, hij, hb, hc, hn1, hn2⟩
    have hn : NullsLast s.branches = false := by
      cases hN : NullsLast s.branches with
      | false => rfl
      | true =>
        have := (nullsLast_iff _).1 hN i j b c hij hb hc hn1
        rw [hn2] at this; cases this
    rw [h4]
    constructor
    · simp [report, usable, hn]
    · simp only [replace, hn, Bool.false_and]
      simp
  · have : ∀ (n : Bool) (bs : List Branch), All₂ (fun b b' => b' = { b with src := b'.src, dst := b'.dst }) bs
        (bs.map (fun b => if n && !b.null then { b with src := τ b.src, dst := τ b.dst } else b)) := by
      intro n bs
      induction bs with
      | nil => exact .nil
      | cons b t ih =>
        refine .cons ?_ ih
        cases hc : (n && !b.null) <;> simp [hc]
    exact this _ _

/-- A stack with a null entry before a true one, and one without. -/
example : (∃ (i j : Nat) (b c : Branch), i < j ∧ [({} : Branch), { src := 1 }][i]? = some b ∧ [({} : Branch), { src := 1 }][j]? = some c ∧
      b.null = true ∧ c.null = false) ∧
    NullsLast [{ src := 1 }, { dst := 2 }, {}, {}] = true ∧
    (parse exO [exMm 1 0x10000 0x3000 0 "/a", { type := 9, sample := some { ip := 0x10000, pid := 1, branches := [{}, { src := 0x10001 }] } }]).map
      (fun R => R.parsed.map (fun x => (x.2.branches.length, (x.1.sample.getD {}).branches.map (·.src)))) =
      some [(0, []), (0, [0, 0x10001])] := by
  refine ⟨⟨0, 1, _, _, by omega, rfl, rfl, rfl, rfl⟩, ?_, ?_⟩ <;> decide +kernel

end Verif.Parser
