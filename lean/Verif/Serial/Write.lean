import Verif.Serial.Read
import Verif.Util.Props

/-! Writing events: the message of an event is converted to that event. -/

namespace Verif.Serial
open Verif.Buffer Verif.Event Verif.Sample Verif.Attr Verif.Util Verif.Text

/-! ## Sizes -/

/-- The size of a message without its sample fields is that of the event's own fields. -/
theorem msgDataSize_cases {env : Env} {m : Msg} (hb : BodyOk env m.type m.misc m.body) :
    msgDataSize m = if 8 + total (own m.type m.body) > 65535 then 0 else 8 + total (own m.type m.body) := by
  obtain ⟨type, misc, size, body, stamp⟩ := m
  simp only at hb ⊢
  have key : ∀ {f n : Nat}, fixedPayloadSize type = some f → msgVariableSize ⟨type, misc, size, body, stamp⟩ = some n →
      f + n = 8 + total (own type body) → msgDataSize ⟨type, misc, size, body, stamp⟩ = if 8 + total (own type body) > 65535 then 0 else 8 + total (own type body) := by
    intro f n h1 h2 h3
    unfold msgDataSize
    rw [h1, h2]
    simp only
    rw [h3]
  have str : ∀ {s : Bytes} {max : Nat}, Name max s → max ≤ 4096 → alignedStringLength s.length = total (text s) := by
    intro s max h hlt; rw [total_text]; exact aligned_eq (by have := h.2; omega)
  have str8 : ∀ s : Bytes, total (text s) % 8 = 0 := fun s => by rw [total_text]; omega
  have var : ∀ {x : Option Nat} {n : Nat}, x = some n → n % 8 = 0 →
      (match x with | none => none | some n => if n % 8 ≠ 0 then none else some n) = some n := by
    intro x n h1 h2; rw [h1]; simp [h2]
  cases body <;> simp only [BodyOk] at hb
  case none => subst hb; exact key rfl rfl rfl
  case sample => subst hb; exact key rfl rfl rfl
  case mmap m =>
    obtain ⟨-, -, -, -, -, ⟨hn, -⟩, hb⟩ := hb
    rcases hb with ⟨rfl, -⟩ | ⟨rfl, -, -, -, hb⟩
    · have ht : total (own MMAP (.mmap m)) = 32 + total (text m.filename) := by
        show total ([.u32 m.pid, .u32 m.tid, .u64 m.start, .u64 m.len, .u64 m.pgoff] ++ text m.filename) = _
        rw [total_append]; rfl
      refine key (f := 40) (n := total (text m.filename)) rfl ?_ (by rw [ht]; omega)
      exact var (x := some (alignedStringLength m.filename.length)) (by rw [str hn (by decide)]) (str8 _)
    · have ht : total (own MMAP2 (.mmap m)) = 64 + total (text m.filename) := by
        cases hbid : m.buildId with
        | none =>
          have : own MMAP2 (.mmap m) = [.u32 m.pid, .u32 m.tid, .u64 m.start, .u64 m.len, .u64 m.pgoff, .u32 m.maj, .u32 m.min, .u64 m.ino,
            .u64 m.inoGeneration, .u32 m.prot, .u32 m.flags] ++ text m.filename := by simp [own, hbid]
          rw [this, total_append]; rfl
        | some h =>
          rw [hbid] at hb
          obtain ⟨-, -, -, -, id, hid, rfl⟩ := hb
          have : own MMAP2 (.mmap m) = [.u32 m.pid, .u32 m.tid, .u64 m.start, .u64 m.len, .u64 m.pgoff] ++ buildIdFields id ++
            [.u32 m.prot, .u32 m.flags] ++ text m.filename := by simp [own, hbid, unhex_hex]
          rw [this, total_append, total_append, total_append, total_buildId hid]
          show 32 + 24 + 8 + _ = _
          omega
      refine key (f := 72) (n := total (text m.filename)) rfl ?_ (by rw [ht]; omega)
      exact var (x := some (alignedStringLength m.filename.length)) (by rw [str hn (by decide)]) (str8 _)
  case comm m =>
    obtain ⟨rfl, -, -, hn, -⟩ := hb
    have ht : total (own COMM (.comm m)) = 8 + total (text m.comm) := by
      show total ([.u32 m.pid, .u32 m.tid] ++ text m.comm) = _; rw [total_append]; rfl
    refine key (f := 16) (n := total (text m.comm)) rfl ?_ (by rw [ht]; omega)
    exact var (x := some (alignedStringLength m.comm.length)) (by rw [str hn (by decide)]) (str8 _)
  case throttle m => obtain ⟨rfl | rfl, -⟩ := hb <;> exact key rfl rfl rfl
  case switch m => obtain ⟨-, ⟨rfl, -⟩ | ⟨rfl, -⟩⟩ := hb <;> exact key rfl rfl rfl
  case namespaces m =>
    obtain ⟨rfl, -⟩ := hb
    have ht : total (m.links.flatMap fun x => [Piece.u64 x.1, .u64 x.2]) = 16 * m.links.length := total_flatMap _ fun _ _ => rfl
    refine key (f := 24) (n := m.links.length * 16) rfl (var (x := some (m.links.length * 16)) rfl (by omega)) ?_
    simp only [own, total_append, ht]; simp [total, Piece.len]; omega
  case cgroup m =>
    obtain ⟨rfl, -, hn⟩ := hb
    have ht : total (own CGROUP (.cgroup m)) = 8 + total (text m.path) := by
      show total ([.u64 m.id] ++ text m.path) = _; rw [total_append]; rfl
    refine key (f := 16) (n := total (text m.path)) rfl ?_ (by rw [ht]; omega)
    exact var (x := some (alignedStringLength m.path.length)) (by rw [str hn (by decide)]) (str8 _)
  case ksymbol m =>
    obtain ⟨rfl, -, -, -, -, hn⟩ := hb
    have ht : total (own KSYMBOL (.ksymbol m)) = 16 + total (text m.name) := by
      show total ([.u64 m.addr, .u32 m.len, .u16 m.ksymType, .u16 m.flags] ++ text m.name) = _; rw [total_append]; rfl
    refine key (f := 24) (n := total (text m.name)) rfl ?_ (by rw [ht]; omega)
    exact var (x := some (alignedStringLength m.name.length)) (by rw [str hn (by decide)]) (str8 _)
  case bpf m =>
    obtain ⟨rfl, hn, hm, -, -⟩ := hb
    have ht : total (m.metadata.flatMap fun x => array 64 x.1 ++ array 256 x.2) = 320 * m.metadata.length :=
      total_flatMap _ fun x hx => by
        rw [total_append, total_array (by have := (hm x hx).1.2; omega), total_array (by have := (hm x hx).2.2; omega)]
    have ha : total (array 512 m.progName) = 512 := total_array (by have := hn.2; omega)
    refine key (f := 528) (n := m.metadata.length * 320) rfl (var (x := some (m.metadata.length * 320)) rfl (by omega)) ?_
    simp only [own, total_append, ht, ha]; simp [total, Piece.len]; omega
  case auxtraceInfo m =>
    obtain ⟨rfl, -, -⟩ := hb
    have ht : total (m.priv.flatMap fun x => [Piece.u64 x]) = 8 * m.priv.length := total_flatMap _ fun _ _ => rfl
    refine key (f := 16) (n := m.priv.length * 8) rfl (var (x := some (m.priv.length * 8)) rfl (by omega)) ?_
    simp only [own, total_append, ht]; simp [total, Piece.len]; omega
  case auxtraceError m =>
    obtain ⟨rfl, -, -, -, -, -, -, hn, -⟩ := hb
    have ht : total (own AUXTRACE_ERROR (.auxtraceError m)) = 32 + total (text m.msg) := by
      simp only [own, total_append]; simp [total, Piece.len]
    refine key (f := 40) (n := total (text m.msg)) rfl ?_ (by rw [ht]; omega)
    exact var (x := some (alignedStringLength m.msg.length)) (by rw [str hn (by decide)]) (str8 _)
  case idIndex l =>
    obtain ⟨rfl, -⟩ := hb
    have ht : total (l.flatMap fun x => [Piece.u64 x.id, .u64 x.idx, .u64 x.cpu, .u64 x.tid]) = 32 * l.length :=
      total_flatMap _ fun _ _ => rfl
    refine key (f := 16) (n := l.length * 32) rfl (var (x := some (l.length * 32)) rfl (by omega)) ?_
    simp only [own, total_append, ht]; simp [total, Piece.len]; omega
  case threadMap l =>
    obtain ⟨rfl, hx⟩ := hb
    have ht : total (l.flatMap fun x => [Piece.u64 x.pid] ++ array 16 x.comm) = 24 * l.length :=
      total_flatMap _ fun x h => by rw [total_append, total_array (by have := (hx x h).2.1.2; omega)]; rfl
    refine key (f := 16) (n := l.length * 24) rfl (var (x := some (l.length * 24)) rfl (by omega)) ?_
    simp only [own, total_append, ht]; simp [total, Piece.len]; omega
  case statConfig l =>
    obtain ⟨rfl, -⟩ := hb
    have ht : total (l.flatMap fun x => [Piece.u64 x.1, .u64 x.2]) = 16 * l.length := total_flatMap _ fun _ _ => rfl
    refine key (f := 16) (n := l.length * 16) rfl (var (x := some (l.length * 16)) rfl (by omega)) ?_
    simp only [own, total_append, ht]; simp [total, Piece.len]; omega
  case statRound => obtain ⟨rfl, -⟩ := hb; exact key rfl rfl rfl
  case timeConv m =>
    obtain ⟨rfl, -⟩ := hb
    cases hc : m.cycles with
    | none =>
      refine key (f := 32) (n := 0) rfl (var (x := some (if m.cycles.isSome then 24 else 0)) (by rw [hc]; rfl) rfl) ?_
      simp only [own, hc]; rfl
    | some c =>
      refine key (f := 32) (n := 24) rfl (var (x := some (if m.cycles.isSome then 24 else 0)) (by rw [hc]; rfl) rfl) ?_
      simp only [own, hc]; rfl
  all_goals
    obtain ⟨rfl, -⟩ := hb
    exact key rfl rfl rfl

theorem msgDataSize_own {env : Env} {m : Msg} (hb : BodyOk env m.type m.misc m.body) (hl : 8 + total (own m.type m.body) < 2 ^ 16) :
    msgDataSize m = 8 + total (own m.type m.body) := by
  rw [msgDataSize_cases hb, if_neg (by omega)]

/-! ## The samples of messages -/

theorem sample_of_info {a : Sample.Attr} {i : SampleInfo} (h : InfoOk a i) (ha : a.sampleIdAll = true) :
    sampleOfInfo i = some (infoSample i) := by
  unfold InfoOk at h
  rw [if_pos ha] at h
  obtain ⟨h1, h2, -⟩ := h
  unfold sampleOfInfo infoSample
  cases hp : i.pid with
  | none =>
    rw [hp] at h1
    have : i.tid = none := by rw [← h1] at h2; cases ht : i.tid with | none => rfl | some _ => rw [ht] at h2; cases h2
    simp [this]
  | some p =>
    rw [hp] at h1
    have : i.tid ≠ none := fun ht => by rw [ht] at h2; rw [← h1] at h2; cases h2
    simp [this]

theorem branch_flags {b : Branch} (h : b.cycles < 2 ^ 16 ∧ b.type < 2 ^ 4 ∧ b.spec < 2 ^ 2) : branchFlags b = branchWord b := by
  obtain ⟨h1, h2, h3⟩ := h
  unfold branchFlags branchWord
  omega

theorem layout_congr {a : Sample.Attr} {isSample : Bool} {s t : Sample} (h0 : s.ip = t.ip) (h1 : s.pid = t.pid) (h2 : s.tid = t.tid)
    (h3 : s.time = t.time) (h4 : s.addr = t.addr) (h5 : s.id = t.id) (h6 : s.streamId = t.streamId) (h7 : s.cpu = t.cpu)
    (h8 : s.period = t.period) (h9 : has a isSample 4 = true → readLayout a.readFormat s = readLayout a.readFormat t)
    (h10 : callchainLayout s = callchainLayout t) (h11 : s.raw = t.raw) (h12 : ∀ hw, branchLayout hw s = branchLayout hw t)
    (h13 : s.weight = t.weight) (h14 : s.dataSrc = t.dataSrc) (h15 : s.transaction = t.transaction) (h16 : s.physAddr = t.physAddr)
    (h17 : s.cgroup = t.cgroup) (h18 : s.dataPageSize = t.dataPageSize) (h19 : s.codePageSize = t.codePageSize) :
    layout a isSample s = layout a isSample t := by
  have hr : only (has a isSample 4) (readLayout a.readFormat s) = only (has a isSample 4) (readLayout a.readFormat t) := by
    cases h : has a isSample 4 with
    | false => rfl
    | true => exact h9 h
  have hraw : rawLayout s = rawLayout t := by unfold rawLayout; rw [h11]
  unfold layout layoutIds
  simp only [h0, h1, h2, h3, h4, h5, h6, h7, h8, hr, h10, hraw, h12, h13, h14, h15, h16, h17, h18, h19]

theorem sample_of_msg {env : Env} {ser : Ser} {attr : EventAttr} {s : SampleEvent} (h : SampleOk attr.sample s)
    (hr : readerForId ser (s.id.getD 0) = some ⟨attr, false⟩) :
    ∃ t, sampleOfMsg env ser s = some t ∧ t.id = s.id.getD 0 ∧ layout attr.sample true t = layout attr.sample true (eventSample s) ∧
      Fits t ∧ t.noHwIdx = s.noHwIdx.getD true := by
  have hpt : s.tid.isSome = s.pid.isSome := by rw [h.pid, h.tid]
  have hpid : ¬ (s.pid.isSome ∧ s.tid = none) := by
    rintro ⟨h1, h2⟩
    rw [h2, h1] at hpt; cases hpt
  have htid : (if s.pid.isSome then s.tid.getD 0 else 0) = s.tid.getD 0 := by
    cases hp : s.pid with
    | some _ => rfl
    | none =>
      rw [hp] at hpt
      cases ht : s.tid with
      | none => rfl
      | some _ => rw [ht] at hpt; cases hpt
  have hpid' : (if s.pid.isSome then s.pid.getD 0 else 0) = s.pid.getD 0 := by cases s.pid <;> rfl
  have hraw : (if s.raw ≠ [] then s.raw else List.replicate s.rawSize 0) = s.raw := by
    by_cases hx : s.raw = []
    · rw [h.rawSize, hx]; rfl
    · rw [if_pos hx]
  have hcall : ((if s.callchain.length > 0 then some s.callchain else none) : Option (List Nat)).getD [] = s.callchain := by
    cases s.callchain <;> simp
  have hmap : s.branches.map (fun b => (⟨b.fromIp, b.toIp, branchFlags b⟩ : BranchEntry)) =
      s.branches.map (fun b => (⟨b.fromIp, b.toIp, branchWord b⟩ : BranchEntry)) :=
    List.map_congr_left fun b hb => by rw [branch_flags (h.branchOk b hb)]
  have hbr : ((if s.branches.length > 0 then
          some (⟨s.hwIdx.getD env.junk, s.branches.map (fun b => ⟨b.fromIp, b.toIp, branchFlags b⟩)⟩ : BranchStack)
        else none) : Option BranchStack).getD {} = ⟨s.hwIdx.getD 0, s.branches.map fun b => ⟨b.fromIp, b.toIp, branchWord b⟩⟩ := by
    rw [hmap]
    cases hb : s.branches with
    | nil => rw [h.hwIdx0 (Or.inr hb)]; rfl
    | cons b l =>
      have : s.hwIdx.isSome = true := by
        rw [h.hwIdx]
        cases h11 : attr.sample.sampleType.testBit 11 with
        | true => rfl
        | false => rw [h.branches h11] at hb; cases hb
      cases hh : s.hwIdx with
      | none => rw [hh] at this; cases this
      | some v => rfl
  have hweight : (match s.weightStruct with
        | some w => w.var1 % 2 ^ 32 + 2 ^ 32 * (w.var2 % 2 ^ 16) + 2 ^ 48 * (w.var3 % 2 ^ 16)
        | none => s.weight.getD 0) = (eventSample s).weight := by
    unfold eventSample
    cases hw : s.weightStruct with
    | none => rfl
    | some w =>
      obtain ⟨h1, h2, h3⟩ := h.weightOk w hw
      simp only
      rw [Nat.mod_eq_of_lt h1, Nat.mod_eq_of_lt h2, Nat.mod_eq_of_lt h3]
  have hf := h.fits
  -- the sample before the values of `read` are set
  let base : Sample := { eventSample s with
    callchain := if s.callchain.length > 0 then some s.callchain else none
    noHwIdx := s.noHwIdx.getD true
    branchStack := if s.branches.length > 0 then
      some ⟨s.hwIdx.getD env.junk, s.branches.map (fun b => ⟨b.fromIp, b.toIp, branchFlags b⟩)⟩ else none
    timeEnabled := 0, timeRunning := 0, one := {}, group := none }
  have hmsg : sampleOfMsg env ser s = some (readOfMsg ser s base) := by
    unfold sampleOfMsg
    rw [if_neg hpid]
    simp only
    rw [htid, hpid', hraw]
    exact congrArg (fun w => some (readOfMsg ser s { base with weight := w })) hweight
  rw [hmsg]
  have hbase : base.callchain.getD [] = s.callchain := hcall
  have hbase2 : base.branchStack.getD {} = ⟨s.hwIdx.getD 0, s.branches.map fun b => ⟨b.fromIp, b.toIp, branchWord b⟩⟩ := hbr
  -- only the values of `read` change
  have hread : ∃ te tr one group, readOfMsg ser s base = { base with timeEnabled := te, timeRunning := tr, one := one, group := group } ∧
      (has attr.sample true 4 = true → readLayout attr.readFormat { base with timeEnabled := te, timeRunning := tr, one := one, group := group } =
        readLayout attr.readFormat (eventSample s)) ∧
      te ≤ (eventSample s).timeEnabled ∧ tr ≤ (eventSample s).timeRunning ∧
      (one.value < 2 ^ 64 ∧ one.id < 2 ^ 64 ∧ one.lost < 2 ^ 64) ∧ (group = none ∨ group = (eventSample s).group) := by
    unfold readOfMsg
    have h4 := h.read
    cases hrd : s.read with
    | none =>
      refine ⟨0, 0, {}, none, rfl, fun h' => ?_, Nat.zero_le _, Nat.zero_le _, by decide, Or.inl rfl⟩
      rw [hrd] at h4
      simp only [has, ← h4, Option.isSome_none, Bool.false_and] at h'
      cases h'
    | some r =>
      simp only
      rw [show base.id = s.id.getD 0 from rfl, hr]
      simp only
      obtain ⟨g1, g2, g3, g4⟩ := h.readOk r hrd
      have e1 : (if attr.readFormat.testBit 0 then r.timeEnabled else 0) = r.timeEnabled := by
        cases hq : attr.readFormat.testBit 0 with
        | true => rfl
        | false => exact (g1 hq).symm
      have e2 : (if attr.readFormat.testBit 1 then r.timeRunning else 0) = r.timeRunning := by
        cases hq : attr.readFormat.testBit 1 with
        | true => rfl
        | false => exact (g2 hq).symm
      have es : (eventSample s).timeEnabled = r.timeEnabled ∧ (eventSample s).timeRunning = r.timeRunning ∧
          (eventSample s).one = r.values.headD {} ∧ (eventSample s).group = some r.values := by
        simp only [eventSample, hrd, Option.getD_some, and_self]
      rw [e1, e2]
      cases h3 : attr.readFormat.testBit 3 with
      | true =>
        refine ⟨r.timeEnabled, r.timeRunning, {}, some r.values, rfl, fun _ => ?_, by rw [es.1]; exact Nat.le_refl _,
          by rw [es.2.1]; exact Nat.le_refl _, by decide, Or.inr es.2.2.2.symm⟩
        unfold readLayout
        rw [h3]
        simp only [if_true, es]
      | false =>
        obtain ⟨v, hv, hv0⟩ := g4 h3
        have hone : (eventSample s).one = v := by rw [es.2.2.1, hv]; rfl
        refine ⟨r.timeEnabled, r.timeRunning, { value := v.value, id := v.id }, none, ?_, fun _ => ?_, by rw [es.1]; exact Nat.le_refl _,
          by rw [es.2.1]; exact Nat.le_refl _, ?_, Or.inl rfl⟩
        · rw [hv]; rfl
        · unfold readLayout
          rw [h3]
          simp only [Bool.false_eq_true, if_false, es.1, es.2.1, hone, hv0]
        · have := hf.one
          rw [hone] at this
          exact ⟨this.1, this.2.1, Nat.two_pow_pos 64⟩
  obtain ⟨te, tr, one, group, he, hl, b1, b2, b3, b4⟩ := hread
  rw [he]
  refine ⟨_, rfl, rfl, ?_, ?_, rfl⟩
  · refine layout_congr rfl rfl rfl rfl rfl rfl rfl rfl rfl hl ?_ rfl ?_ rfl rfl rfl rfl rfl rfl rfl
    · unfold callchainLayout
      simp only [hbase]
      rfl
    · intro hw
      unfold branchLayout
      simp only [hbase2]
      rfl
  · have hfc := hf.callchain
    have hfl := hf.callchainLen
    have hfb := hf.branch
    have hfbl := hf.branchLen
    have hfh := hf.hwIdx
    have b5 : ∀ v ∈ group.getD [], v.value < 2 ^ 64 ∧ v.id < 2 ^ 64 ∧ v.lost < 2 ^ 64 := by
      rcases b4 with rfl | rfl
      · simp
      · exact hf.group
    exact ⟨hf.ip, hf.pid, hf.tid, hf.time, hf.addr, hf.id, hf.streamId, hf.period, hf.weight, hf.transaction, hf.cpu, hf.raw, hf.dataSrc,
      by simp only [hbase]; exact hfl, by simp only [hbase]; exact hfc, by simp only [hbase2]; exact hfh,
      by simp only [hbase2]; exact hfbl, by simp only [hbase2]; exact hfb, Nat.lt_of_le_of_lt b1 hf.timeEnabled,
      Nat.lt_of_le_of_lt b2 hf.timeRunning, b3,
      by rcases b4 with rfl | rfl; exact Nat.two_pow_pos 64; exact hf.groupLen,
      b5, hf.physAddr, hf.cgroup, hf.dataPageSize, hf.codePageSize⟩

/-! ## The size of a message -/

theorem wire_size (a : Sample.Attr) (m : Msg) : (wire a m).size = 8 + total (own m.type m.body) + total (sampleFields a m.body) := by
  unfold RawEvent.size
  rw [wire_payload, List.length_append, image_length, image_length]
  omega

theorem own_small {env : Env} {a : Sample.Attr} {m : Msg} (h : MsgOk env a m) : 8 + total (own m.type m.body) < 2 ^ 16 := by
  have h1 := h.fits
  rw [h.size, wire_size] at h1
  omega

/-- The facts about a recorded sample event that writing it needs. -/
theorem recorded_sample {env : Env} {fs : List FileAttr} {ser : Ser} {f : FileAttr} {m : Msg} {s : SampleEvent}
    (hr : Recorded fs ser f m.body) (hm : MsgOk env f.attr.sample m) (hs : m.body = .sample s) :
    m.type = SAMPLE ∧ sampleFields f.attr.sample m.body = layout f.attr.sample true (eventSample s) ∧
      Supported f.attr.sample true ∧ SampleOk f.attr.sample s ∧ readerForId ser (s.id.getD 0) = some ⟨f.attr, false⟩ := by
  have hty : m.type = SAMPLE := by
    have := hm.body; rw [hs] at this; exact this
  obtain ⟨hsup, hown⟩ := hr.sample s hs
  have hok := hm.sample s hs
  have hd : decide ((wire f.attr.sample m).type = SAMPLE) = true := decide_eq_true hty
  have hfields : sampleFields f.attr.sample m.body = layout f.attr.sample true (eventSample s) := by rw [hs]; rfl
  have := (attributed (header := headerBytes (wire f.attr.sample m)) (s := eventSample s) (e := wire f.attr.sample m)
    hr.reg hr.all hr.type (by rw [hd]; exact hsup) hown hok.id rfl (wire_ok hm) (header_length _)
    (by show carriesSample m.type = true; rw [hty]; decide) (Or.inl hty)
    (wire_payload _ _) (wire_dataSize hm) (by rw [hd, hfields]; exact matches_layout hr.type hsup hok.fits)).2.2
  exact ⟨hty, hfields, hsup, hok, this⟩

/-- The facts about another recorded event that writing it needs. -/
theorem recorded_info {env : Env} {fs : List FileAttr} {ser : Ser} {f : FileAttr} {m : Msg} {i : SampleInfo}
    (hr : Recorded fs ser f m.body) (hm : MsgOk env f.attr.sample m) (hi : info m.body = some i) :
    m.type ≠ SAMPLE ∧ carriesSample m.type = true ∧ sampleFields f.attr.sample m.body = layout f.attr.sample false (infoSample i) ∧
      ((f.attr.flags.testBit 18 = false ∧ containsSampleInfo ser m.type = false ∧ sampleFields f.attr.sample m.body = []) ∨
       (f.attr.flags.testBit 18 = true ∧ containsSampleInfo ser m.type = true ∧ Supported f.attr.sample false ∧
        Fits (infoSample i) ∧ sampleOfInfo i = some (infoSample i) ∧ readerForId ser (infoSample i).id = some ⟨f.attr, false⟩)) := by
  have hty : m.type ≠ SAMPLE ∧ carriesSample m.type = true := by
    rcases carries_of hm.body with ⟨s, hs, -⟩ | ⟨-, -, h1, h2⟩ | ⟨h, -⟩
    · rw [hs] at hi; cases hi
    · exact ⟨h1, h2⟩
    · rw [h] at hi; cases hi
  have hfs : fs ≠ [] := fun h => by have := hr.mem; rw [h] at this; cases this
  have hc := carries_info fs false (f.attr.flags.testBit 18) ser hfs hr.reg hr.all m.type
  have hok := hm.info i hi
  have hall : f.attr.sample.sampleIdAll = f.attr.flags.testBit 18 := rfl
  have hfields := fields_info (a := f.attr.sample) hi
  refine ⟨hty.1, hty.2, hfields, ?_⟩
  cases h18 : f.attr.flags.testBit 18 with
  | false =>
    rw [h18, Bool.and_false, Bool.or_false] at hc
    refine Or.inl ⟨rfl, by rw [hc]; simp [hty.1], ?_⟩
    rw [hfields]
    unfold layout layoutIds
    rw [hall, h18]
    rfl
  | true =>
    have hok' := hok
    unfold InfoOk at hok
    rw [hall, h18, if_pos rfl] at hok
    obtain ⟨o1, o2, o3, o4, o5, o6, hfit⟩ := hok
    obtain ⟨hsup, hown⟩ := hr.info i hi h18
    have hd : decide ((wire f.attr.sample m).type = SAMPLE) = false := decide_eq_false hty.1
    have hat := (attributed (header := headerBytes (wire f.attr.sample m)) (s := infoSample i) (e := wire f.attr.sample m)
      hr.reg hr.all hr.type (by rw [hd]; exact hsup) hown o4 rfl (wire_ok hm) (header_length _) hty.2 (Or.inr h18)
      (wire_payload _ _) (wire_dataSize hm) (by rw [hd, hfields]; exact matches_layout hr.type hsup hfit)).2.2
    exact Or.inr ⟨rfl, by rw [hc, hty.2, h18]; simp, hsup, hfit, sample_of_info hok' (by rw [hall, h18]), hat⟩

theorem infoOf_info {env : Env} {m : Msg} (hb : BodyOk env m.type m.misc m.body) (hs : m.type ≠ SAMPLE) : infoOf m = info m.body := by
  obtain ⟨type, misc, size, body, stamp⟩ := m
  simp only at hb hs
  cases body <;> simp only [BodyOk] at hb
  case mmap m =>
    obtain ⟨-, -, -, -, -, -, ⟨rfl, -⟩ | ⟨rfl, -⟩⟩ := hb <;> rfl
  case throttle m => obtain ⟨rfl | rfl, -⟩ := hb <;> rfl
  case switch m => obtain ⟨-, ⟨rfl, -⟩ | ⟨rfl, -⟩⟩ := hb <;> rfl
  case none => subst hb; rfl
  case sample => exact absurd hb hs
  all_goals
    obtain ⟨rfl, -⟩ := hb
    rfl

/-- The computed size is that of the event. -/
theorem eventSize_wire {env : Env} {fs : List FileAttr} {ser : Ser} {f : FileAttr} {m : Msg}
    (hr : Recorded fs ser f m.body) (hm : MsgOk env f.attr.sample m) : eventSize env ser m = some (wire f.attr.sample m).size := by
  have hd := msgDataSize_own hm.body (own_small hm)
  have hfs : fs ≠ [] := fun h => by have := hr.mem; rw [h] at this; cases this
  have hc := carries_info fs false (f.attr.flags.testBit 18) ser hfs hr.reg hr.all m.type
  unfold eventSize
  simp only
  rw [hd, if_neg (by omega), wire_size]
  rcases carries_of hm.body with ⟨s, hs, -⟩ | ⟨i, hi, -, -⟩ | ⟨hn, hcs, ht, hsf⟩
  · obtain ⟨hty, hf, hsup, hok, hid⟩ := recorded_sample hr hm hs
    obtain ⟨t, h1, h2, h3, h4, h5⟩ := sample_of_msg (env := env) hok hid
    rw [hc, hty]
    simp only [decide_true, Bool.true_or, not_true, if_false, if_true]
    rw [show m.body.getSample = s by rw [hs]; rfl, h1]
    simp only
    rw [h2, hid]
    simp only
    have hst : f.attr.sample.sampleType < 2 ^ 64 := hr.type
    have hhw : HwIdxOk f.attr.sample (decide (SAMPLE = SAMPLE)) t := by
      intro h11
      rw [h5, hok.noHwIdx]
      have : f.attr.sample.sampleType.testBit 11 = true := by
        simp only [has, Bool.and_eq_true] at h11; exact h11.1
      rw [if_pos this]; rfl
    rw [(sampleDataSize_layout f.attr.sample SAMPLE t (by decide) hst hsup h4 hhw).1]
    simp only [decide_true, Option.map_some, h3, hf, Option.some.injEq]
  · obtain ⟨hty, hcs, hf, h⟩ := recorded_info hr hm hi
    rcases h with ⟨h18, hcn, hnil⟩ | ⟨h18, hcn, hsup, hfit, hsi, hrd⟩
    · rw [hcn, hnil]; simp [total]
    · rw [hcn]
      simp only [not_true, if_false, if_neg hty]
      rw [infoOf_info hm.body hty, hi]
      simp only
      rw [hsi]
      simp only
      rw [hrd]
      simp only
      have hst : f.attr.sample.sampleType < 2 ^ 64 := hr.type
      have hdf : decide (m.type = SAMPLE) = false := decide_eq_false hty
      have hhw : HwIdxOk f.attr.sample (decide (m.type = SAMPLE)) (infoSample i) := by
        intro h11
        rw [hdf] at h11
        simp [has] at h11
      rw [(sampleDataSize_layout f.attr.sample m.type (infoSample i) hcs hst (by rw [hdf]; exact hsup) hfit hhw).1, hdf, hf]
      rfl
  · rw [hc, hcs, hsf]
    simp [ht, total]

end Verif.Serial
