import Verif.Serial.Own
import Verif.Attr.Props2

/-! Reading events: the conversion to a message gives the message whose event it is. -/

namespace Verif.Serial
open Verif.Buffer Verif.Event Verif.Sample Verif.Attr Verif.Util Verif.Text

/-! ## The attribute of an event -/

/-- Without an id in the events, all of them belong to the only attribute. -/
theorem only_reader {cross : Bool} {f : FileAttr} {ser : Ser} (hreg : registerAll {} cross [f] = some ser) :
    readerForId ser 0 = some ⟨f.attr, cross⟩ := by
  have inv := register_inv [f] (empty_inv cross) hreg
  rw [List.nil_append] at inv
  obtain ⟨id, hid⟩ : ∃ id, (regIds f).contains id = true := by
    unfold regIds
    split
    · exact ⟨0, rfl⟩
    · rename_i h
      cases hi : f.ids with
      | nil => exact absurd hi h
      | cons x l => exact ⟨x, by simp⟩
  have hf := inv.find id
  have ho : owner [f] id = some f := by simp only [owner, List.reverse_singleton, List.find?_cons, hid]
  rw [ho] at hf
  cases hr : ser.readers with
  | nil => rw [hr] at hf; cases hf
  | cons p l =>
    obtain ⟨g, hg, he⟩ := inv.mem p (by rw [hr]; simp)
    simp only [List.mem_singleton] at hg
    subst hg
    simp [readerForId, hr, he]

/-- The sample fields of the events of the only attribute, which do not carry an id. -/
theorem attributed_only {cross : Bool} {ser : Ser} {f : FileAttr} {e : RawEvent} {header : Bytes} {s : Sample}
    {p bs : Bytes} (hreg : registerAll {} cross [f] = some ser)
    (hst : f.attr.sampleType < 2 ^ 64) (hsup : Supported f.attr.sample (e.type = SAMPLE))
    (hcr : cross = true → CrossOk f.attr.sample (e.type = SAMPLE) s)
    (hb : f.attr.sampleType.testBit 16 = false ∧ f.attr.sampleType.testBit 6 = false)
    (hok : e.Ok) (hh : header.length = 8) (hty : carriesSample e.type = true) (hp : e.payload = p ++ bs)
    (hd : eventDataSize e = some (8 + p.length)) (hbs : Matches cross (layout f.attr.sample (e.type = SAMPLE) s) bs) :
    readerForEvent ser e = some (some ⟨f.attr, cross⟩) ∧
    readInfoAndType ser e header {} = some (some (pick f.attr.sample (e.type = SAMPLE) s {}, f.attr.sampleType)) ∧
    readerForId ser 0 = some ⟨f.attr, cross⟩ := by
  have inv := register_inv [f] (empty_inv cross) hreg
  rw [List.nil_append] at inv
  have hr := only_reader hreg
  have hpos : positions f.attr.sampleType = (none, none) := by
    unfold positions
    rw [if_neg (by simp [hb.1]), if_neg (by simp [hb.2])]
  have hq := inv.pos f (by simp)
  rw [hpos] at hq
  have hreader : readerForEvent ser e = some (some ⟨f.attr, cross⟩) := by
    unfold readerForEvent
    by_cases ht : e.type = SAMPLE
    · simp only [ht, if_true, hq.1, hr]
    · simp only [ht, if_false]
      cases containsSampleInfo ser e.type
      · simp [hr]
      · simp [hq.2, hr]
  refine ⟨hreader, ?_, hr⟩
  unfold readInfoAndType
  rw [hreader]
  simp only
  rw [read_layout e header f.attr.sample cross s {} p bs hok hh hty hst hsup hcr ⟨rfl, rfl, rfl⟩ hp hd hbs]

theorem attributed {fs : List FileAttr} {ser : Ser} {f : FileAttr} {e : RawEvent} {header : Bytes} {id : Option Nat} {s : Sample}
    {p bs : Bytes} (hreg : registerAll {} false fs = some ser) (hall : ∀ g ∈ fs, g.attr.flags.testBit 18 = f.attr.flags.testBit 18)
    (hst : f.attr.sampleType < 2 ^ 64) (hsup : Supported f.attr.sample (e.type = SAMPLE)) (hown : Owned fs f id)
    (hid : id.isSome = (f.attr.sampleType.testBit 6 || f.attr.sampleType.testBit 16)) (hs : s.id = id.getD 0)
    (hok : e.Ok) (hh : header.length = 8) (hty : carriesSample e.type = true)
    (hcarry : e.type = SAMPLE ∨ f.attr.flags.testBit 18 = true) (hp : e.payload = p ++ bs)
    (hd : eventDataSize e = some (8 + p.length)) (hbs : Matches false (layout f.attr.sample (e.type = SAMPLE) s) bs) :
    readerForEvent ser e = some (some ⟨f.attr, false⟩) ∧
    readInfoAndType ser e header {} = some (some (pick f.attr.sample (e.type = SAMPLE) s {}, f.attr.sampleType)) ∧
    readerForId ser (id.getD 0) = some ⟨f.attr, false⟩ := by
  have inv := register_inv fs (empty_inv false) hreg
  rw [List.nil_append] at inv
  cases id with
  | some i =>
    have ho : owner fs i = some f := hown
    have hs' : s.id = i := hs
    subst hs'
    have hid' : f.attr.sampleType.testBit 16 = true ∨ f.attr.sampleType.testBit 6 = true := by
      simp only [Option.isSome_some] at hid
      cases h6 : f.attr.sampleType.testBit 6
      · rw [h6] at hid; exact Or.inl hid.symm
      · exact Or.inr rfl
    obtain ⟨h1, h2⟩ := own_attribute fs ser e header f s {} p bs hreg ho hall hid' hok hh hty hst hsup ⟨rfl, rfl, rfl⟩ hcarry hp hd hbs
    exact ⟨h1, h2, readerForId_owner inv ho⟩
  | none =>
    have hfs : fs = [f] := hown
    subst hfs
    have hb : f.attr.sampleType.testBit 16 = false ∧ f.attr.sampleType.testBit 6 = false := by
      simp only [Option.isSome_none] at hid
      cases h6 : f.attr.sampleType.testBit 6 <;> cases h16 : f.attr.sampleType.testBit 16 <;> simp [h6, h16] at hid ⊢
    exact attributed_only hreg hst hsup (by simp) hb hok hh hty hp hd hbs

/-! ## The parts of the event of a message -/

/-- The events that carry sample fields. -/
theorem carries_of {env : Env} {t misc : Nat} {b : Body} (h : BodyOk env t misc b) :
    (∃ s, b = .sample s ∧ t = SAMPLE) ∨ (∃ i, info b = some i ∧ t ≠ SAMPLE ∧ carriesSample t = true) ∨
    (info b = none ∧ carriesSample t = false ∧ t ≠ SAMPLE ∧ ∀ a, sampleFields a b = []) := by
  cases b <;> simp only [BodyOk] at h
  case sample s => exact Or.inl ⟨s, rfl, h⟩
  case mmap m =>
    obtain ⟨-, -, -, -, -, -, ⟨rfl, -⟩ | ⟨rfl, -⟩⟩ := h
    · exact Or.inr (Or.inl ⟨_, rfl, by decide, by decide⟩)
    · exact Or.inr (Or.inl ⟨_, rfl, by decide, by decide⟩)
  case throttle m =>
    obtain ⟨rfl | rfl, -⟩ := h
    · exact Or.inr (Or.inl ⟨_, rfl, by decide, by decide⟩)
    · exact Or.inr (Or.inl ⟨_, rfl, by decide, by decide⟩)
  case switch m =>
    obtain ⟨-, ⟨rfl, -⟩ | ⟨rfl, -⟩⟩ := h
    · exact Or.inr (Or.inl ⟨_, rfl, by decide, by decide⟩)
    · exact Or.inr (Or.inl ⟨_, rfl, by decide, by decide⟩)
  case none => subst h; exact Or.inr (Or.inr ⟨rfl, by decide, by decide, fun _ => rfl⟩)
  all_goals
    obtain ⟨rfl, -⟩ := h
    first
      | exact Or.inr (Or.inl ⟨_, rfl, by decide, by decide⟩)
      | exact Or.inr (Or.inr ⟨rfl, by decide, by decide, fun _ => rfl⟩)

theorem wire_payload (a : Sample.Attr) (m : Msg) : (wire a m).payload = image (own m.type m.body) ++ image (sampleFields a m.body) :=
  image_append _ _

theorem wire_ok {env : Env} {a : Sample.Attr} {m : Msg} (h : MsgOk env a m) : (wire a m).Ok := by
  show (wire a m).size < 2 ^ 16
  rw [← h.size]; exact h.fits

theorem wire_dataSize {env : Env} {a : Sample.Attr} {m : Msg} (h : MsgOk env a m) :
    eventDataSize (wire a m) = some (8 + (image (own m.type m.body)).length) := by
  rw [image_length]
  refine dataSize_own (e := wire a m) h.body (wire_payload a m) (wire_ok h) fun hc => ?_
  rcases carries_of h.body with ⟨s, hs, ht⟩ | ⟨i, -, -, ht⟩ | ⟨-, -, -, hs⟩
  · have : carriesSample m.type = false := hc
    rw [ht] at this; cases this
  · have : carriesSample m.type = false := hc
    rw [ht] at this; cases this
  · rw [hs]; rfl

theorem fields_info {a : Sample.Attr} {b : Body} {i : SampleInfo} (h : info b = some i) :
    sampleFields a b = layout a false (infoSample i) := by
  cases b <;> simp only [info, Option.some.injEq, reduceCtorEq] at h <;> subst h <;> rfl

theorem setIf_pick {c : Bool} {o : Option Nat} {d : Nat} (h : o.isSome = c) : setIf c (if c = true then o.getD 0 else d) = o := by
  subst h; cases o <;> rfl

theorem header_length (e : RawEvent) : (headerBytes e).length = 8 := by simp [headerBytes]

/-- The sample information of an event, from its sample fields. -/
theorem readInfo_of {ser : Ser} {f : FileAttr} {e : RawEvent} {i : SampleInfo}
    (hc : containsSampleInfo ser e.type = f.attr.flags.testBit 18) (hok : InfoOk f.attr.sample i)
    (hat : f.attr.flags.testBit 18 = true → readInfoAndType ser e (headerBytes e) {} =
      some (some (pick f.attr.sample false (infoSample i) {}, f.attr.sampleType))) :
    readInfo ser e = some (some i) := by
  unfold InfoOk at hok
  have hall : f.attr.sample.sampleIdAll = f.attr.flags.testBit 18 := rfl
  unfold readInfo
  cases h18 : f.attr.flags.testBit 18 with
  | false =>
    rw [hall, h18, if_neg (by decide)] at hok
    rw [hc, h18, if_pos (by decide), hok]
  | true =>
    rw [hall, h18, if_pos rfl] at hok
    obtain ⟨o1, o2, o3, o4, o5, o6, hfit⟩ := hok
    rw [hc, h18, if_neg (by decide), hat h18]
    have hb : ∀ b, f.attr.sample.sampleType.testBit b = f.attr.sampleType.testBit b := fun _ => rfl
    obtain ⟨ip, it, iti, iid, icpu, ist⟩ := i
    simp only [hb] at o1 o2 o3 o4 o5 o6
    simp only [pick, has, hall, h18, hb, infoSample, Bool.or_true, if_true, Bool.false_or]
    simp only [List.contains_cons, List.contains_nil, Nat.reduceBEq, Bool.or_true, Bool.or_false, Bool.and_true]
    rw [setIf_pick o1, setIf_pick o2, setIf_pick o3, setIf_pick o4, setIf_pick o5, setIf_pick o6]

theorem info_type {env : Env} {t misc : Nat} {b : Body} {i : SampleInfo} (h : BodyOk env t misc b) (hi : info b = some i) :
    t ≠ SAMPLE ∧ carriesSample t = true := by
  rcases carries_of h with ⟨s, hs, -⟩ | ⟨-, -, h1, h2⟩ | ⟨h, -⟩
  · rw [hs] at hi; cases hi
  · exact ⟨h1, h2⟩
  · rw [h] at hi; cases hi

/-- The sample information of an event is read as it is. -/
theorem readInfo_wire {env : Env} {fs : List FileAttr} {ser : Ser} {f : FileAttr} {m : Msg} {i : SampleInfo}
    (hr : Recorded fs ser f m.body) (hm : MsgOk env f.attr.sample m) (hi : info m.body = some i) :
    readInfo ser (wire f.attr.sample m) = some (some i) := by
  have hty := info_type hm.body hi
  have hfs : fs ≠ [] := fun h => by have := hr.mem; rw [h] at this; cases this
  have hc := carries_info fs false (f.attr.flags.testBit 18) ser hfs hr.reg hr.all m.type
  have hok := hm.info i hi
  refine readInfo_of (by rw [show (wire f.attr.sample m).type = m.type from rfl, hc]; simp [hty.1, hty.2]) hok fun h18 => ?_
  unfold InfoOk at hok
  rw [show f.attr.sample.sampleIdAll = f.attr.flags.testBit 18 from rfl, h18, if_pos rfl] at hok
  obtain ⟨o1, o2, o3, o4, o5, o6, hfit⟩ := hok
  obtain ⟨hsup, hown⟩ := hr.info i hi h18
  have hd : decide ((wire f.attr.sample m).type = SAMPLE) = false := decide_eq_false hty.1
  have hat := (attributed (header := headerBytes (wire f.attr.sample m)) (s := infoSample i) (e := wire f.attr.sample m)
    hr.reg hr.all hr.type (by rw [hd]; exact hsup) hown o4 rfl (wire_ok hm) (header_length _) hty.2 (Or.inr h18)
    (wire_payload _ _) (wire_dataSize hm) (by rw [hd, fields_info hi]; exact matches_layout hr.type hsup hfit)).2.1
  rw [hat, hd]

/-! ## Sample events -/

theorem branch_word {b : Branch} (h : b.cycles < 2 ^ 16 ∧ b.type < 2 ^ 4 ∧ b.spec < 2 ^ 2) :
    branchMsg ⟨b.fromIp, b.toIp, branchWord b⟩ = b := by
  obtain ⟨h1, h2, h3⟩ := h
  obtain ⟨fi, ti, m, p, t, a, c, ty, sp⟩ := b
  simp only at h1 h2 h3
  simp only [branchMsg, branchWord, Branch.mk.injEq, true_and, Nat.testBit_eq_decide_div_mod_eq]
  have hd : ∀ (b : Bool) (n : Nat), n % 2 = b.toNat → decide (n % 2 = 1) = b := by
    intro b n h; rw [h]; cases b <;> rfl
  have bm : m.toNat < 2 := by cases m <;> decide
  have bp : p.toNat < 2 := by cases p <;> decide
  have bt : t.toNat < 2 := by cases t <;> decide
  have ba : a.toNat < 2 := by cases a <;> decide
  refine ⟨hd _ _ (by omega), hd _ _ (by omega), hd _ _ (by omega), hd _ _ (by omega), by omega, by omega, by omega⟩

theorem read_values {rf : Nat} {r : ReadInfo} {s : Sample} (h : ReadOk rf r)
    (h1 : rf.testBit 0 = true → s.timeEnabled = r.timeEnabled) (h2 : rf.testBit 1 = true → s.timeRunning = r.timeRunning)
    (h3 : rf.testBit 3 = true → s.group = some (r.values.map (ReadValue.pick rf)))
    (h4 : rf.testBit 3 = false → s.one.value = (r.values.headD {}).value ∧
      (rf.testBit 2 = true → s.one.id = (r.values.headD {}).id) ∧ (rf.testBit 4 = true → s.one.lost = (r.values.headD {}).lost)) :
    readMsg rf s = r := by
  obtain ⟨g1, g2, g3, g4⟩ := h
  obtain ⟨te, tr, vs⟩ := r
  simp only at *
  unfold readMsg
  simp only [ReadInfo.mk.injEq]
  refine ⟨?_, ?_, ?_⟩
  · cases h : rf.testBit 0
    · exact (g1 h).symm
    · exact h1 h
  · cases h : rf.testBit 1
    · exact (g2 h).symm
    · exact h2 h
  · cases h : rf.testBit 3
    · obtain ⟨v, rfl, hv⟩ := g4 h
      obtain ⟨a1, a2, a3⟩ := h4 h
      obtain ⟨c1, c2⟩ := g3 v (by simp)
      simp only [Bool.false_eq_true, if_false, List.cons.injEq, and_true]
      simp only [List.headD_cons] at a1 a2 a3
      obtain ⟨v1, v2, v3⟩ := v
      simp only at *
      rw [a1]
      congr 1
      · cases h2 : rf.testBit 2
        · exact (c1 h2).symm
        · exact a2 h2
      · cases h2 : rf.testBit 4
        · exact (c2 h2).symm
        · exact a3 h2
    · rw [h3 h]
      simp only [if_true, Option.getD_some, List.map_map]
      rw [List.map_congr_left (g := id) (fun v hv => ?_), List.map_id]
      obtain ⟨c1, c2⟩ := g3 v hv
      obtain ⟨v1, v2, v3⟩ := v
      simp only [Function.comp, ReadValue.pick, _root_.id_eq, ReadValue.mk.injEq, true_and] at *
      constructor
      · cases h2 : rf.testBit 2
        · exact (c1 h2).symm
        · rfl
      · cases h2 : rf.testBit 4
        · exact (c2 h2).symm
        · rfl

/-- A sample event, from its sample fields. -/
theorem readSample_of {cross : Bool} {ser : Ser} {f : FileAttr} {e : RawEvent} {s : SampleEvent} (hok : SampleOk f.attr.sample s)
    (hsup : Supported f.attr.sample true) (hat1 : readerForEvent ser e = some (some ⟨f.attr, cross⟩))
    (hat2 : readInfoAndType ser e (headerBytes e) {} = some (some (pick f.attr.sample true (eventSample s) {}, f.attr.sampleType))) :
    readSample ser e = some (some s) := by
  unfold readSample
  rw [hat2]
  simp only
  rw [hat1]
  simp only [Option.map_some]
  have hb : ∀ b, f.attr.sample.sampleType.testBit b = f.attr.sampleType.testBit b := fun _ => rfl
  have hrf : f.attr.sample.readFormat = f.attr.readFormat := rfl
  have hbst : f.attr.sample.branchSampleType = f.attr.branchSampleType := rfl
  have hrd : ∀ r ∈ s.read, f.attr.sampleType.testBit 4 = true → 
      readMsg f.attr.readFormat (pick f.attr.sample true (eventSample s) {}) = r := by
    intro r hr4 h4
    have hg : (eventSample s).group = some r.values ∧ (eventSample s).timeEnabled = r.timeEnabled ∧
        (eventSample s).timeRunning = r.timeRunning ∧ (eventSample s).one = r.values.headD {} := by
      have hr4 : s.read = some r := hr4
      simp only [eventSample, hr4, Option.getD_some, and_self]
    refine read_values (hok.readOk r hr4) ?_ ?_ ?_ ?_
    · intro h; simp [pick, has, hb, h4, hrf, h, hg]
    · intro h; simp [pick, has, hb, h4, hrf, h, hg]
    · intro h; simp [pick, has, hb, h4, hrf, h, hg]
    · intro h
      refine ⟨?_, ?_, ?_⟩
      · simp [pick, has, hb, h4, hrf, h, hg]
      · intro h'; simp [pick, has, hb, h4, hrf, h, h', hg]
      · intro h'; simp [pick, has, hb, h4, hrf, h, h', hg]
  rw [if_neg (by
    rintro (⟨h, h'⟩ | ⟨h, h'⟩)
    · simp [pick, has, hb, h] at h'
    · simp [pick, has, hb, h] at h')]
  have hw : (f.attr.sampleType.testBit 14 = true → (eventSample s).weight = s.weight.getD 0) ∧
      ∀ w, s.weightStruct = some w → (eventSample s).weight = w.var1 + 2 ^ 32 * w.var2 + 2 ^ 48 * w.var3 := by
    constructor
    · intro h
      have h24 : f.attr.sampleType.testBit 24 = false := by
        have := hsup.2.2.2.1
        simp only [has, hb, h, Bool.true_or, Bool.and_true, Bool.true_and] at this
        exact this
      have : s.weightStruct = none := by
        have := hok.weightStruct
        rw [hb, h24] at this
        cases hw : s.weightStruct with
        | none => rfl
        | some _ => rw [hw] at this; cases this
      simp only [eventSample, this]
    · intro w h; simp only [eventSample, h]
  have hh : ∀ b, has f.attr.sample true b = f.attr.sampleType.testBit b := fun b => by simp [has, hb]
  have e1 : setIf (f.attr.sampleType.testBit 14) (pick f.attr.sample true (eventSample s) {}).weight = s.weight := by
    have h0 := hok.weight
    rw [hb] at h0
    cases h : f.attr.sampleType.testBit 14 with
    | false => rw [h] at h0; cases hq : s.weight with | none => rfl | some _ => rw [hq] at h0; cases h0
    | true =>
      rw [h] at h0
      simp only [pick, hh, h, Bool.true_or, if_true, hw.1 h]
      cases hq : s.weight with | none => rw [hq] at h0; cases h0 | some _ => rfl
  have e2 : setIf (f.attr.sampleType.testBit 24) (⟨(pick f.attr.sample true (eventSample s) {}).weight % 2 ^ 32,
      (pick f.attr.sample true (eventSample s) {}).weight / 2 ^ 32 % 2 ^ 16,
      (pick f.attr.sample true (eventSample s) {}).weight / 2 ^ 48 % 2 ^ 16⟩ : Weight) = s.weightStruct := by
    have h0 := hok.weightStruct
    rw [hb] at h0
    cases h : f.attr.sampleType.testBit 24 with
    | false => rw [h] at h0; cases hq : s.weightStruct with | none => rfl | some _ => rw [hq] at h0; cases h0
    | true =>
      rw [h] at h0
      cases hq : s.weightStruct with
      | none => rw [hq] at h0; cases h0
      | some w =>
        obtain ⟨w1, w2, w3⟩ := hok.weightOk w hq
        have hw' := hw.2 w hq
        have : (pick f.attr.sample true (eventSample s) {}).weight = w.var1 + 2 ^ 32 * w.var2 + 2 ^ 48 * w.var3 := by
          simp only [pick, hh, h, Bool.or_true, if_true, hw', Bool.true_or]
        rw [this]
        obtain ⟨v1, v2, v3⟩ := w
        simp only at w1 w2 w3
        simp only [setIf, if_true, Option.some.injEq, Weight.mk.injEq]
        omega
  have e3 : (if f.attr.sampleType.testBit 4 = true then some (readMsg f.attr.readFormat (pick f.attr.sample true (eventSample s) {}))
      else none) = s.read := by
    have h0 := hok.read
    rw [hb] at h0
    cases h : f.attr.sampleType.testBit 4 with
    | false => rw [h] at h0; cases hq : s.read with | none => rfl | some _ => rw [hq] at h0; cases h0
    | true =>
      rw [h] at h0
      cases hq : s.read with
      | none => rw [hq] at h0; cases h0
      | some r => rw [if_pos rfl, hrd r hq h]
  have e4 : (if f.attr.sampleType.testBit 5 = true then (pick f.attr.sample true (eventSample s) {}).callchain.getD [] else []) =
      s.callchain := by
    cases h : f.attr.sampleType.testBit 5 with
    | false => exact (hok.callchain h).symm
    | true => simp [pick, hh, h, eventSample]
  have e5 : (if f.attr.sampleType.testBit 10 = true then (pick f.attr.sample true (eventSample s) {}).raw else []) = s.raw := by
    cases h : f.attr.sampleType.testBit 10 with
    | false => exact (hok.raw h).symm
    | true => simp [pick, hh, h, eventSample]
  have e6 : (if f.attr.sampleType.testBit 10 = true then (pick f.attr.sample true (eventSample s) {}).raw.length else 0) = s.rawSize := by
    rw [hok.rawSize]
    cases h : f.attr.sampleType.testBit 10 with
    | false => rw [hok.raw h]; rfl
    | true => simp [pick, hh, h, eventSample]
  have e7 : (if f.attr.sampleType.testBit 11 = true then
      ((pick f.attr.sample true (eventSample s) {}).branchStack.getD {}).entries.map branchMsg else []) = s.branches := by
    cases h : f.attr.sampleType.testBit 11 with
    | false => exact (hok.branches h).symm
    | true =>
      simp only [pick, hh, h, eventSample, if_true, Option.getD_some, List.map_map, Bool.true_or]
      rw [List.map_congr_left (g := id) (fun b hb => ?_), List.map_id]
      exact branch_word (hok.branchOk b hb)
  have e8 : setIf (f.attr.sampleType.testBit 11) (pick f.attr.sample true (eventSample s) {}).noHwIdx = s.noHwIdx := by
    rw [hok.noHwIdx]
    cases h : f.attr.sampleType.testBit 11 with
    | false => simp [hb, h, setIf]
    | true => simp [pick, hh, hb, h, setIf]
  have e9 : setIf (f.attr.sampleType.testBit 11) ((pick f.attr.sample true (eventSample s) {}).branchStack.getD {}).hwIdx = s.hwIdx := by
    have h0 := hok.hwIdx
    rw [hb] at h0
    cases h : f.attr.sampleType.testBit 11 with
    | false => rw [h] at h0; cases hq : s.hwIdx with | none => rfl | some _ => rw [hq] at h0; cases h0
    | true =>
      rw [h] at h0
      cases hq : s.hwIdx with
      | none => rw [hq] at h0; cases h0
      | some v =>
        have h1 := hok.hwIdx0
        rw [hbst] at h1
        rw [hq] at h1
        simp only [Option.getD_some] at h1
        simp only [pick, hh, h, if_true, eventSample, hq, setIf, Option.getD_some, Bool.true_or, hbst]
        cases h17 : f.attr.branchSampleType.testBit 17 with
        | false => rw [h1 (Or.inl h17)]; rfl
        | true => rfl
  have o := hok
  rw [e1, e2, e3, e4, e5, e6, e7, e8, e9]
  have p0 := o.ip
  have p1 := o.pid
  have p2 := o.tid
  have p3 := o.time
  have p4 := o.addr
  have p5 := o.id
  have p6 := o.streamId
  have p7 := o.period
  have p8 := o.cpu
  have p9 := o.dataSrc
  have p10 := o.transaction
  have p11 := o.physAddr
  have p12 := o.cgroup
  have p13 := o.dataPageSize
  have p14 := o.codePageSize
  simp only [hb] at p0 p1 p2 p3 p4 p5 p6 p7 p8 p9 p10 p11 p12 p13 p14
  simp only [pick, hh, eventSample, Bool.true_or, if_true]
  rw [setIf_pick p0, setIf_pick p1, setIf_pick p2, setIf_pick p3, setIf_pick p4, setIf_pick p5, setIf_pick p6, setIf_pick p7,
    setIf_pick p8, setIf_pick p9, setIf_pick p10, setIf_pick p11, setIf_pick p12, setIf_pick p13, setIf_pick p14]

theorem readSample_wire {env : Env} {fs : List FileAttr} {ser : Ser} {f : FileAttr} {m : Msg} {s : SampleEvent}
    (hr : Recorded fs ser f m.body) (hm : MsgOk env f.attr.sample m) (hs : m.body = .sample s) :
    readSample ser (wire f.attr.sample m) = some (some s) := by
  have hty : m.type = SAMPLE := by
    have := hm.body; rw [hs] at this; exact this
  obtain ⟨hsup, hown⟩ := hr.sample s hs
  have hok := hm.sample s hs
  have hd : decide ((wire f.attr.sample m).type = SAMPLE) = true := decide_eq_true hty
  have hfields : sampleFields f.attr.sample m.body = layout f.attr.sample true (eventSample s) := by rw [hs]; rfl
  obtain ⟨hat1, hat2, -⟩ := attributed (header := headerBytes (wire f.attr.sample m)) (s := eventSample s) (e := wire f.attr.sample m)
    hr.reg hr.all hr.type (by rw [hd]; exact hsup) hown hok.id rfl (wire_ok hm) (header_length _)
    (by show carriesSample m.type = true; rw [hty]; decide) (Or.inl hty)
    (wire_payload _ _) (wire_dataSize hm) (by rw [hd, hfields]; exact matches_layout hr.type hsup hok.fits)
  rw [hd] at hat2
  exact readSample_of hok hsup hat1 hat2

/-! ## All events -/

theorem withInfo_some {α : Type} {ser : Ser} {e : RawEvent} {x : Option α} {a : α} {i : SampleInfo} {f : α → SampleInfo → Body}
    (hx : x = some a) (hi : readInfo ser e = some (some i)) : withInfo ser e x f = some (some (f a i)) := by
  unfold withInfo; rw [hx, hi]

theorem plain_some {α : Type} {x : Option α} {a : α} {f : α → Body} (hx : x = some a) : plain x f = some (some (f a)) := by
  rw [hx]; rfl

/-- The content of an event, from its own fields and its sample fields. -/
theorem readBody_of {env : Env} {ser : Ser} {e : RawEvent} {m : Msg} {rest : Bytes} (hb : BodyOk env m.type m.misc m.body)
    (hok : e.Ok) (het : e.type = m.type) (hem : e.misc = m.misc) (hp : e.payload = image (own m.type m.body) ++ rest)
    (hnil : carriesSample m.type = false → e.payload = image (own m.type m.body))
    (hi : ∀ i, info m.body = some i → readInfo ser e = some (some i))
    (hs : ∀ s, m.body = .sample s → readSample ser e = some (some s)) :
    readBody env ser e = some (some m.body) := by
  have hsz : 8 + total (own m.type m.body) < 2 ^ 16 := by
    have h : e.size < 2 ^ 16 := hok
    unfold RawEvent.size at h
    rw [hp, List.length_append, image_length] at h
    omega
  obtain ⟨type, misc, size, body, stamp⟩ := m
  obtain ⟨et, em, payload⟩ := e
  simp only at het hem hb hp hi hs hsz hnil ⊢
  subst het hem
  cases body with
  | none => have hb : et = FINISHED_ROUND := hb; subst hb; rfl
  | sample s =>
    have hb : et = SAMPLE := hb
    subst hb
    show (readSample ser _).map _ = _
    rw [hs s rfl]
    rfl
  | mmap m =>
    have hb' := hb
    obtain ⟨-, -, -, -, -, -, ⟨rfl, -⟩ | ⟨rfl, -⟩⟩ := hb
    · exact (withInfo_some (readMMap_image (e := ⟨MMAP, em, payload⟩) rfl hb' hp) (hi _ rfl)).trans rfl
    · show (match readMMap2 env _ with | none => none | some none => some none | some (some m) => _) = _
      rw [readMMap2_image (e := ⟨MMAP2, em, payload⟩) rfl hb' hp]
      exact (withInfo_some rfl (hi _ rfl)).trans rfl
  | comm m =>
    obtain ⟨rfl, -⟩ := id hb
    exact (withInfo_some (readComm_image (e := ⟨COMM, em, payload⟩) rfl hb hp) (hi _ rfl)).trans rfl
  | fork m =>
    obtain ⟨rfl, h1, h2, h3, h4, h5⟩ := hb
    exact (withInfo_some (readFork_image (e := ⟨FORK, em, payload⟩) h1 h2 h3 h4 h5 hp) (hi _ rfl)).trans rfl
  | exit m =>
    obtain ⟨rfl, h1, h2, h3, h4, h5⟩ := hb
    exact (withInfo_some (readFork_image (e := ⟨EXIT, em, payload⟩) h1 h2 h3 h4 h5 hp) (hi _ rfl)).trans rfl
  | lost m =>
    obtain ⟨rfl, -⟩ := id hb
    exact (withInfo_some (readLost_image (e := ⟨LOST, em, payload⟩) hb hp) (hi _ rfl)).trans rfl
  | throttle m =>
    obtain ⟨rfl | rfl, -⟩ := id hb
    · exact (withInfo_some (readThrottle_image (e := ⟨THROTTLE, em, payload⟩) hb hp) (hi _ rfl)).trans rfl
    · exact (withInfo_some (readThrottle_image (e := ⟨UNTHROTTLE, em, payload⟩) hb hp) (hi _ rfl)).trans rfl
  | aux m =>
    obtain ⟨rfl, -⟩ := id hb
    exact (withInfo_some (readAux_image (e := ⟨AUX, em, payload⟩) hb hp) (hi _ rfl)).trans rfl
  | itraceStart m =>
    obtain ⟨rfl, -⟩ := id hb
    exact (withInfo_some (readItraceStart_image (e := ⟨ITRACE_START, em, payload⟩) hb hp) (hi _ rfl)).trans rfl
  | lostSamples m =>
    obtain ⟨rfl, -⟩ := id hb
    exact (withInfo_some (readLostSamples_image (e := ⟨LOST_SAMPLES, em, payload⟩) hb hp) (hi _ rfl)).trans rfl
  | switch m =>
    obtain ⟨-, ⟨rfl, -⟩ | ⟨rfl, -⟩⟩ := id hb
    · exact (withInfo_some (f := fun m i => .switch { m with info := i }) (readSwitch_image (e := ⟨SWITCH, em, payload⟩) hb hp) (hi _ rfl)).trans rfl
    · exact (withInfo_some (readSwitch_image (e := ⟨SWITCH_CPU_WIDE, em, payload⟩) hb hp) (hi _ rfl)).trans rfl
  | namespaces m =>
    obtain ⟨rfl, -⟩ := id hb
    have hl : m.links.length < 2 ^ 64 := by
      have : total (m.links.flatMap fun x => [Piece.u64 x.1, .u64 x.2]) = 16 * m.links.length := total_flatMap _ fun _ _ => rfl
      simp only [own, total_append, this] at hsz
      omega
    exact (withInfo_some (readNamespaces_image (e := ⟨NAMESPACES, em, payload⟩) hb hl hp) (hi _ rfl)).trans rfl
  | cgroup m =>
    obtain ⟨rfl, -⟩ := id hb
    exact (withInfo_some (readCgroup_image (e := ⟨CGROUP, em, payload⟩) hb hp) (hi _ rfl)).trans rfl
  | ksymbol m =>
    obtain ⟨rfl, -⟩ := id hb
    exact (withInfo_some (readKsymbol_image (e := ⟨KSYMBOL, em, payload⟩) hb hp) (hi _ rfl)).trans rfl
  | bpf m =>
    obtain ⟨rfl, hn, hm, -, -⟩ := id hb
    have hl : m.metadata.length < 2 ^ 64 := by
      have : total (m.metadata.flatMap fun x => array 64 x.1 ++ array 256 x.2) = 320 * m.metadata.length :=
        total_flatMap _ fun x hx => by
          rw [total_append, total_array (by have := (hm x hx).1.2; omega), total_array (by have := (hm x hx).2.2; omega)]
      simp only [own, total_append, this] at hsz
      omega
    exact (withInfo_some (readBpf_image (e := ⟨BPF_METADATA, em, payload⟩) hb hl hp) (hi _ rfl)).trans rfl
  | auxtraceInfo m =>
    obtain ⟨rfl, -⟩ := id hb
    exact plain_some (readAuxtraceInfo_image (e := ⟨AUXTRACE_INFO, em, payload⟩) hb hok (hnil (by decide)))
  | auxtrace m =>
    obtain ⟨rfl, -⟩ := id hb
    exact plain_some (readAuxtrace_image (e := ⟨AUXTRACE, em, payload⟩) hb hp)
  | auxtraceError m =>
    obtain ⟨rfl, -⟩ := id hb
    exact plain_some (readAuxtraceError_image (e := ⟨AUXTRACE_ERROR, em, payload⟩) hb hok (hnil (by decide)))
  | idIndex l =>
    obtain ⟨rfl, -⟩ := id hb
    have hl : l.length < 2 ^ 64 := by
      have : total (l.flatMap fun x => [Piece.u64 x.id, .u64 x.idx, .u64 x.cpu, .u64 x.tid]) = 32 * l.length :=
        total_flatMap _ fun _ _ => rfl
      simp only [own, total_append, this] at hsz
      omega
    exact plain_some (readIdIndex_image (e := ⟨ID_INDEX, em, payload⟩) hb hl hp)
  | threadMap l =>
    obtain ⟨rfl, hl⟩ := id hb
    have hl : l.length < 2 ^ 64 := by
      have : total (l.flatMap fun x => [Piece.u64 x.pid] ++ array 16 x.comm) = 24 * l.length :=
        total_flatMap _ fun x hx => by rw [total_append, total_array (by have := (hl x hx).2.1.2; omega)]; rfl
      simp only [own, total_append, this] at hsz
      omega
    exact plain_some (readThreadMap_image (e := ⟨THREAD_MAP, em, payload⟩) hb hl hp)
  | statConfig l =>
    obtain ⟨rfl, -⟩ := id hb
    have hl : l.length < 2 ^ 64 := by
      have : total (l.flatMap fun x => [Piece.u64 x.1, .u64 x.2]) = 16 * l.length := total_flatMap _ fun _ _ => rfl
      simp only [own, total_append, this] at hsz
      omega
    exact plain_some (readStatConfig_image (e := ⟨STAT_CONFIG, em, payload⟩) hb hl hp)
  | stat m =>
    obtain ⟨rfl, -⟩ := id hb
    exact plain_some (readStat_image (e := ⟨STAT, em, payload⟩) hb hp)
  | statRound ty t =>
    obtain ⟨rfl, h1, h2⟩ := hb
    have r1 : RawEvent.int ⟨STAT_ROUND, em, payload⟩ 8 8 = some ty := u64_image (A := []) hp rfl h1
    have r2 : RawEvent.int ⟨STAT_ROUND, em, payload⟩ 16 8 = some t := u64_image (A := [.u64 ty]) hp rfl h2
    have : (do
      let ty ← RawEvent.int ⟨STAT_ROUND, em, payload⟩ 8 8
      let t ← RawEvent.int ⟨STAT_ROUND, em, payload⟩ 16 8
      pure (ty, t)) = some (ty, t) := by simp [r1, r2]
    exact plain_some this
  | timeConv m =>
    obtain ⟨rfl, -⟩ := id hb
    exact plain_some (readTimeConv_image (e := ⟨TIME_CONV, em, payload⟩) hb (hnil (by decide)))

theorem readBody_wire {env : Env} {fs : List FileAttr} {ser : Ser} {f : FileAttr} {m : Msg}
    (hr : Recorded fs ser f m.body) (hm : MsgOk env f.attr.sample m) :
    readBody env ser (wire f.attr.sample m) = some (some m.body) := by
  have hp := wire_payload f.attr.sample m
  refine readBody_of hm.body (wire_ok hm) rfl rfl hp (fun hc => ?_) (fun i hi => readInfo_wire hr hm hi)
    fun s h => readSample_wire hr hm h
  rw [hp]
  rcases carries_of hm.body with ⟨s, -, ht⟩ | ⟨i, -, -, ht⟩ | ⟨-, -, -, h⟩
  · rw [ht] at hc; cases hc
  · rw [ht] at hc; cases hc
  · rw [h]; simp [image]

theorem time_stamp {env : Env} {m : Msg} (hb : BodyOk env m.type m.misc m.body) : timeOf m = stamp m.body := by
  obtain ⟨type, misc, size, body, stamp⟩ := m
  simp only at hb
  cases body <;> simp only [BodyOk] at hb
  case mmap m =>
    obtain ⟨-, -, -, -, -, -, ⟨rfl, -⟩ | ⟨rfl, -⟩⟩ := hb <;> rfl
  case throttle m => obtain ⟨rfl | rfl, -⟩ := hb <;> rfl
  case switch m => obtain ⟨-, ⟨rfl, -⟩ | ⟨rfl, -⟩⟩ := hb <;> rfl
  case none => subst hb; rfl
  case sample => subst hb; rfl
  all_goals
    obtain ⟨rfl, -⟩ := hb
    rfl

/-- The conversion of an event, from its content. -/
theorem serialize_of {env : Env} {ser : Ser} {e : RawEvent} {m : Msg} (hb : BodyOk env m.type m.misc m.body) (het : e.type = m.type)
    (hem : e.misc = m.misc) (hs : m.size = e.size) (ht : m.timestamp = stamp m.body) (hr : readBody env ser e = some (some m.body)) :
    serialize env ser e = some (some m) := by
  unfold serialize
  rw [hr]
  simp only
  rw [← hs, het, hem]
  have h : timeOf { type := m.type, misc := m.misc, size := m.size, body := m.body } = m.timestamp := by
    rw [ht]; exact time_stamp (m := { type := m.type, misc := m.misc, size := m.size, body := m.body }) hb
  rw [h]

/-- An event is converted to the message that describes it. -/
theorem serialize_wire {env : Env} {fs : List FileAttr} {ser : Ser} {f : FileAttr} {m : Msg}
    (hr : Recorded fs ser f m.body) (hm : MsgOk env f.attr.sample m) :
    serialize env ser (wire f.attr.sample m) = some (some m) :=
  serialize_of hm.body rfl rfl hm.size hm.stamp (readBody_wire hr hm)

end Verif.Serial
