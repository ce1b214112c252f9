import Verif.Converter.Labels

/-! # The labels of a sample and its key -/

namespace Verif.Converter
open Verif.Profile Verif.Builder
open Verif.Normalizer (Bytes Source MapRef Loc BranchPair SampleEv SampleCtx Callback ACtx AttrRec
  contextFromHeader nameOrMd5 upd)

theorem txt_label (o : Option Bytes) :
    (if txt o = [] then none else some (LabelText.str (txt o))) = o.bind textLabel := by
  cases o with
  | none => rfl
  | some s => rfl

theorem latencyOf_eq {S : Setup} {c : SampleCtx} (hf : Fits c) (hb : S.labels.testBit 13 = true) :
    totalLatency S c = latencyOf c := by
  have hw : ∀ w, c.sample.weight = some w → w % 2 ^ 32 = w := fun w h => Nat.mod_eq_of_lt (hf.weight w h)
  unfold totalLatency latencyOf
  rw [if_pos hb]
  cases c.spe with
  | some r => rfl
  | none =>
    cases hs : c.sample.weightStruct with
    | none =>
      cases h : c.sample.weight with
      | none => rfl
      | some w => exact hw w h
    | some p =>
      obtain ⟨x, y⟩ := p
      cases y with
      | some w => rfl
      | none =>
        cases h : c.sample.weight with
        | none => rfl
        | some w => exact hw w h

theorem mode_label {misc : Option Nat} :
    (misc.bind (fun m => (modeTable.lookup (m % 8)).map (fun s => LabelText.str (ascii s)))) =
      if contextFromHeader misc = .unknown then none else some (.str (execModeString (contextFromHeader misc))) := by
  cases misc with
  | none => rfl
  | some m =>
    have : m % 8 < 8 := Nat.mod_lt _ (by omega)
    have : m % 8 = 0 ∨ m % 8 = 1 ∨ m % 8 = 2 ∨ m % 8 = 3 ∨ m % 8 = 4 ∨ m % 8 = 5 ∨ m % 8 = 6 ∨ m % 8 = 7 := by omega
    have hc : ∀ x, m % 8 = x → contextFromHeader (some m) = contextFromHeader (some x) ∨ 8 ≤ x := by
      intro x hx
      by_cases h8 : x < 8
      · left
        unfold contextFromHeader
        simp only [hx, Nat.mod_eq_of_lt h8]
      · right; omega
    rcases this with h | h | h | h | h | h | h | h <;>
      (rw [(hc _ h).resolve_right (by omega)]; simp only [Option.bind_some, h]; rfl)

theorem execModeString_ne {a : ACtx} (h : a ≠ .unknown) : execModeString a ≠ [] := by
  cases a with
  | unknown => exact absurd rfl h
  | _ => decide +kernel

theorem dataSrc_cStr (x : Nat) : Util.cStr (dataSrcString x) = dataSrcString x := by
  unfold dataSrcString
  repeat' split
  all_goals decide +kernel

theorem snoop_cStr (x : Nat) : Util.cStr (snoopString x) = snoopString x ∧ snoopString x ≠ [] := by
  unfold snoopString
  repeat' split
  all_goals decide +kernel

theorem level_txt (S : Setup) (s : SampleEv) (hb : S.labels.testBit 12 = true) :
    (if txt ((dataSrc? S s).map (fun v => dataSrcString (v / 2 ^ 5 % 2 ^ 14))) = [] then none else
      some (LabelText.str (txt ((dataSrc? S s).map (fun v => dataSrcString (v / 2 ^ 5 % 2 ^ 14)))))) =
    s.dataSrc.bind levelLabel := by
  unfold dataSrc?
  rw [if_pos hb]
  cases s.dataSrc with
  | none => rfl
  | some v =>
    simp only [Option.map_some, txt, Option.getD_some, dataSrc_cStr, Option.bind_some]
    exact dataSrc_level v

theorem snoop_txt (S : Setup) (s : SampleEv) (hb : S.labels.testBit 12 = true) :
    (if txt ((dataSrc? S s).map (fun v => snoopString (v / 2 ^ 19 % 2 ^ 5))) = [] then none else
      some (LabelText.str (txt ((dataSrc? S s).map (fun v => snoopString (v / 2 ^ 19 % 2 ^ 5)))))) =
    s.dataSrc.map (fun v => .str (byBits snoopTable v "Unknown Status")) := by
  unfold dataSrc?
  rw [if_pos hb]
  cases s.dataSrc with
  | none => rfl
  | some v =>
    have this := snoop_cStr (v / 2 ^ 19 % 2 ^ 5)
    simp only [Option.map_some, txt, Option.getD_some, this.1]
    rw [if_neg this.2, snoop_spec]

theorem labels_show {S : Setup} {h : List Callback} {c : SampleCtx} {b : Builder} {k : Key}
    (hk : KeyRel b k (akey S h c)) (hf : Fits c) :
    All₂ (Shows b) (labelsFor S c k) (labelsOf S h c) := by
  rw [labelsOf_eq]
  unfold labelFields labelsFor
  simp only [List.flatMap_cons, List.flatMap_nil, List.append_nil, ← List.append_assoc]
  have tt : ∀ bit : Bool, bit = S.labels.testBit 5 → bit = true →
      (c.sample.tid.bind (fun t => (S.threadTypes.lookup t).bind textLabel)) =
        (if txt (threadType? S c.sample) = [] then none else some (.str (txt (threadType? S c.sample)))) := by
    intro bit e hb
    rw [txt_label]
    unfold threadType?
    by_cases ht : S.threadTypes = []
    · rw [if_neg (fun e => e.2 ht), ht]
      cases c.sample.tid <;> rfl
    · rw [if_pos ⟨by rw [← e]; exact hb, ht⟩]
      cases c.sample.tid with
      | none => rfl
      | some t => simp only [Option.bind_some, find_lookup]
  refine ((((((((((((((((?_ : All₂ _ _ _).append ?_).append ?_).append ?_).append ?_).append ?_).append ?_).append ?_).append
    ?_).append ?_).append ?_).append ?_).append ?_).append ?_).append ?_).append ?_).append ?_
  · exact piece_opt rfl (fun _ n e => by rw [e]; rfl)
  · exact piece_opt rfl (fun _ n e => by rw [e]; rfl)
  · refine piece_text hk.comm (fun hb => ?_)
    show _ = if txt _ = [] then none else some (LabelText.str (txt _))
    rw [txt_label, if_pos hb]
    cases c.sample.pid <;> rfl
  · exact piece_opt rfl (fun _ n e => by rw [e]; exact toInt64_small (hf.time n e))
  · refine piece (fun hb hp => ?_) (fun hb hp => ?_)
    · rw [mode_label]
      have := hk.execMode
      simp only [akey, if_pos hb] at this
      rw [if_pos (by rw [← this]; exact Decidable.not_not.1 hp)]
    · rw [mode_label]
      have := hk.execMode
      simp only [akey, if_pos hb] at this
      rw [← this, if_neg hp]
      exact ⟨_, rfl, rfl, rfl, execModeString_ne hp⟩
  · have hid : IsId b (txt (threadType? S c.sample)) k.threadType := hk.threadType
    refine piece (fun hb hp => ?_) (fun hb hp => ?_)
    · rw [tt _ rfl hb]
      by_cases ht : S.threadTypes = []
      · have : txt (threadType? S c.sample) = [] := by
          unfold threadType?; rw [if_neg (fun e => e.2 ht)]; rfl
        rw [if_pos this]
      · rw [if_pos (hid.2.1 (Decidable.not_not.1 fun e => hp ⟨ht, e⟩))]
    · rw [tt _ rfl hb]
      have hn : txt (threadType? S c.sample) ≠ [] := fun e => hp.2 (hid.2.2 e)
      rw [if_neg hn]
      exact ⟨_, rfl, rfl, _, rfl, hp.2, hid.1⟩
  · refine piece_text hk.threadComm (fun hb => ?_)
    show _ = if txt _ = [] then none else some (LabelText.str (txt _))
    rw [txt_label]
    unfold threadCommAt
    rw [if_pos hb]
    cases c.sample.pid with
    | none => rfl
    | some p => cases c.sample.tid <;> rfl
  · refine piece_text hk.cgroup (fun hb => ?_)
    show _ = if txt _ = [] then none else some (LabelText.str (txt _))
    rw [txt_label, if_pos hb]
  · refine piece_num (by rfl) (fun hb => by rw [hk.codePageSize]; simp only [akey, if_pos hb]) (fun hb => ?_)
    rw [hk.codePageSize]; simp only [akey, if_pos hb]
    cases e : c.sample.codePageSize with
    | none => rfl
    | some n => exact toInt64_small (hf.code n e)
  · refine piece_num (by rfl) (fun hb => by rw [hk.dataPageSize]; simp only [akey, if_pos hb]) (fun hb => ?_)
    rw [hk.dataPageSize]; simp only [akey, if_pos hb]
    cases e : c.sample.dataPageSize with
    | none => rfl
    | some n => exact toInt64_small (hf.data n e)
  · exact piece_opt rfl (fun _ n e => by rw [e]; rfl)
  · refine piece_num (by rfl) (fun hb => by rw [hk.cacheLatency]; simp only [akey, if_pos hb]) (fun hb => ?_)
    rw [hk.cacheLatency]; simp only [akey, if_pos hb]
    cases e : c.sample.weightStruct.bind (·.1) with
    | none => rfl
    | some n => exact toInt64_small (hf.cache n e)
  · exact piece_text hk.dataSrc (fun hb => (level_txt S c.sample hb).symm)
  · exact piece_text hk.snoopStatus (fun hb => (snoop_txt S c.sample hb).symm)
  · exact piece_num (by rfl) (fun hb => by rw [hk.totalLatency]; exact latencyOf_eq hf hb)
      (fun hb => by rw [hk.totalLatency]; exact congrArg _ (latencyOf_eq hf hb))
  · exact piece_num (by rfl) (fun hb => by rw [hk.issueLatency]; simp only [akey, if_pos hb])
      (fun hb => by rw [hk.issueLatency]; simp only [akey, if_pos hb])
  · exact piece_num (by rfl) (fun hb => by rw [hk.translationLatency]; simp only [akey, if_pos hb])
      (fun hb => by rw [hk.translationLatency]; simp only [akey, if_pos hb])

/-! ## Labels determine keys and the other way round -/

theorem lookup_fields (bits : Nat) (fs : List (Nat × String × Option LabelText)) :
    fs.Pairwise (fun f g => ascii f.2.1 ≠ ascii g.2.1) → ∀ f ∈ fs,
    (fs.filterMap (fun f => if bits.testBit f.1 then f.2.2.map (ascii f.2.1, ·) else none)).lookup (ascii f.2.1) =
      if bits.testBit f.1 then f.2.2 else none := by
  induction fs with
  | nil => intro _ f hf; cases hf
  | cons g t ih =>
    intro hp f hf
    rw [List.pairwise_cons] at hp
    rw [List.filterMap_cons]
    have hno : ∀ f ∈ t, ascii f.2.1 ≠ ascii g.2.1 := fun f hf e => hp.1 f hf e.symm
    rcases List.mem_cons.1 hf with rfl | hf
    · cases hb : bits.testBit f.1 with
      | false =>
        simp only [Bool.false_eq_true, if_false]
        apply List.lookup_eq_none_iff.2
        intro x hx
        rw [List.mem_filterMap] at hx
        obtain ⟨y, hy, e⟩ := hx
        split at e
        · cases ho : y.2.2 with
          | none => rw [ho] at e; cases e
          | some v => rw [ho] at e; cases e; simpa using fun e => hno y hy e.symm
        · cases e
      | true =>
        simp only [if_true]
        cases ho : f.2.2 with
        | some v => simp
        | none =>
          simp only [Option.map_none]
          apply List.lookup_eq_none_iff.2
          intro x hx
          rw [List.mem_filterMap] at hx
          obtain ⟨y, hy, e⟩ := hx
          split at e
          · cases ho : y.2.2 with
            | none => rw [ho] at e; cases e
            | some v => rw [ho] at e; cases e; simpa using fun e => hno y hy e.symm
          · cases e
    · rw [← ih hp.2 f hf]
      split
      · rfl
      · rename_i v hv
        split at hv
        · cases ho : g.2.2 with
          | none => rw [ho] at hv; cases hv
          | some w =>
            rw [ho] at hv; cases hv
            rw [List.lookup_cons]
            have : (ascii f.2.1 == ascii g.2.1) = false := by simpa using hno f hf
            simp only [this]
        · cases hv

theorem fields_pairwise (S : Setup) (h : List Callback) (c : SampleCtx) :
    (labelFields S h c).Pairwise (fun f g => ascii f.2.1 ≠ ascii g.2.1) := by
  have : ((labelFields S h c).map (fun f => ascii f.2.1)).Pairwise (· ≠ ·) := by
    unfold labelFields
    simp only [List.map_cons, List.map_nil]
    decide +kernel
  exact List.pairwise_map.1 this

theorem label_at (S : Setup) (h : List Callback) (c : SampleCtx) (f) (hf : f ∈ labelFields S h c) :
    (labelsOf S h c).lookup (ascii f.2.1) = if S.labels.testBit f.1 then f.2.2 else none :=
  lookup_fields S.labels _ (fields_pairwise S h c) f hf

/-- Equal labels at each place where the label is wanted. -/
theorem fields_of_labels {S : Setup} {h h' : List Callback} {c c' : SampleCtx}
    (he : labelsOf S h c = labelsOf S h' c') (i : Nat) (n : String) (o o' : Option LabelText)
    (hf : (i, n, o) ∈ labelFields S h c) (hf' : (i, n, o') ∈ labelFields S h' c') (hb : S.labels.testBit i = true) :
    o = o' := by
  have h1 := label_at S h c _ hf
  have h2 := label_at S h' c' _ hf'
  rw [he, h2] at h1
  simp only [hb, if_true] at h1
  exact h1.symm

theorem textLabel_inj {s t : Option Bytes} (h : s.bind textLabel = t.bind textLabel) : txt s = txt t := by
  rw [← txt_label, ← txt_label] at h
  by_cases h1 : txt s = [] <;> by_cases h2 : txt t = []
  · rw [h1, h2]
  · rw [if_pos h1, if_neg h2] at h; cases h
  · rw [if_neg h1, if_pos h2] at h; cases h
  · rw [if_neg h1, if_neg h2] at h
    simpa using h

theorem numLabel_inj {m n : Nat} {u : String} (h : numLabel m u = numLabel n u) : m = n := by
  unfold numLabel at h
  by_cases h1 : m = 0 <;> by_cases h2 : n = 0
  · rw [h1, h2]
  · rw [if_pos h1, if_neg h2] at h; cases h
  · rw [if_neg h1, if_pos h2] at h; cases h
  · rw [if_neg h1, if_neg h2] at h
    injection h with h; injection h with h; omega

theorem optNum_inj {x y : Option Nat} {u : Bytes}
    (h : x.map (fun n => LabelText.num n u) = y.map (fun n => LabelText.num n u)) : x = y := by
  cases x <;> cases y
  · rfl
  · cases h
  · cases h
  · injection h with h
    injection h with h
    rw [show _ = _ from Int.ofNat.inj h]

theorem mode_inj {a b : ACtx} (h : (if a = .unknown then none else some (LabelText.str (execModeString a))) =
    if b = .unknown then none else some (LabelText.str (execModeString b))) : a = b := by
  cases a <;> cases b <;> first | rfl | (exact absurd h (by decide +kernel))

theorem tt_txt (S : Setup) (s : SampleEv) (hb : S.labels.testBit 5 = true) :
    (threadType? S s).bind textLabel = s.tid.bind (fun t => (S.threadTypes.lookup t).bind textLabel) := by
  unfold threadType?
  by_cases ht : S.threadTypes = []
  · rw [if_neg (fun e => e.2 ht), ht]
    cases s.tid <;> rfl
  · rw [if_pos ⟨hb, ht⟩]
    cases s.tid with
    | none => rfl
    | some t => simp only [Option.bind_some, find_lookup]

theorem tc_txt (S : Setup) (h : List Callback) (s : SampleEv) (hb : S.labels.testBit 6 = true) :
    (threadCommAt S h s).bind textLabel = s.pid.bind (fun p => s.tid.bind (fun t => textLabel (commAt h p t))) := by
  unfold threadCommAt
  rw [if_pos hb]
  cases s.pid with
  | none => rfl
  | some p => cases s.tid <;> rfl

theorem comm_txt (h : List Callback) (s : SampleEv) :
    (s.pid.map (fun p => commAt h p p)).bind textLabel = s.pid.bind (fun p => textLabel (commAt h p p)) := by
  cases s.pid <;> rfl

theorem ite_txt_inj {s t : Bytes} (h : (if s = [] then none else some (LabelText.str s)) =
    if t = [] then none else some (LabelText.str t)) : s = t := by
  by_cases h1 : s = [] <;> by_cases h2 : t = []
  · rw [h1, h2]
  · rw [if_pos h1, if_neg h2] at h; cases h
  · rw [if_neg h1, if_pos h2] at h; cases h
  · rw [if_neg h1, if_neg h2] at h
    simpa using h

theorem ite_bit {α : Type} {b : Bool} {x y z : α} (h : b = true → x = y) :
    (if b = true then x else z) = if b = true then y else z := by
  cases b with
  | false => rfl
  | true => exact h rfl

theorem akey_of_labels {S : Setup} {h h' : List Callback} {c c' : SampleCtx} (hp : pidOf c = pidOf c')
    (hf : Fits c) (hf' : Fits c') (he : labelsOf S h c = labelsOf S h' c') : akey S h c = akey S h' c' := by
  have F := fun (i : Nat) (n : String) (o o' : Option LabelText) h1 h2 hb => fields_of_labels he i n o o' h1 h2 hb
  have mem : ∀ {α : Type} {l : List α} {x : α} (i : Nat), l[i]? = some x → x ∈ l := fun i h => List.mem_of_getElem? h
  dsimp only [akey]
  rw [AKey.mk.injEq]
  refine ⟨hp, ?_, ?_, ?_, ?_, ?_, ?_, ?_, ?_, ?_, ?_, ?_, ?_, ?_, ?_, ?_, ?_⟩
  · exact ite_bit fun hb => by rw [optNum_inj (F 1 "tid" _ _ (mem 1 rfl) (mem 1 rfl) hb)]
  · exact ite_bit fun hb => by rw [optNum_inj (F 2 "timestamp_ns" _ _ (mem 3 rfl) (mem 3 rfl) hb)]
  · refine ite_bit fun hb => ?_
    have := F 3 "execution_mode" _ _ (mem 4 rfl) (mem 4 rfl) hb
    rw [mode_label, mode_label] at this
    exact mode_inj this
  · cases hb : S.labels.testBit 4 with
    | false => rfl
    | true =>
      have := F 4 "comm" _ _ (mem 2 rfl) (mem 2 rfl) hb
      rw [← comm_txt, ← comm_txt] at this
      exact textLabel_inj this
  · cases hb : S.labels.testBit 5 with
    | false => unfold threadType?; rw [hb]; rfl
    | true =>
      have := F 5 "thread_type" _ _ (mem 5 rfl) (mem 5 rfl) hb
      rw [← tt_txt S _ hb, ← tt_txt S _ hb] at this
      exact textLabel_inj this
  · cases hb : S.labels.testBit 6 with
    | false => unfold threadCommAt; rw [hb]; rfl
    | true =>
      have := F 6 "thread_comm" _ _ (mem 6 rfl) (mem 6 rfl) hb
      rw [← tc_txt S _ _ hb, ← tc_txt S _ _ hb] at this
      exact textLabel_inj this
  · cases hb : S.labels.testBit 7 with
    | false => rfl
    | true => exact textLabel_inj (F 7 "cgroup" _ _ (mem 7 rfl) (mem 7 rfl) hb)
  · exact ite_bit fun hb => numLabel_inj (F 8 "code_page_size" _ _ (mem 8 rfl) (mem 8 rfl) hb)
  · exact ite_bit fun hb => numLabel_inj (F 9 "data_page_size" _ _ (mem 9 rfl) (mem 9 rfl) hb)
  · exact ite_bit fun hb => by rw [optNum_inj (F 10 "cpu" _ _ (mem 10 rfl) (mem 10 rfl) hb)]
  · exact ite_bit fun hb => numLabel_inj (F 11 "cache_latency" _ _ (mem 11 rfl) (mem 11 rfl) hb)
  · cases hb : S.labels.testBit 12 with
    | false => unfold dataSrc?; rw [hb]; rfl
    | true =>
      have := F 12 "data_src" _ _ (mem 12 rfl) (mem 12 rfl) hb
      rw [← level_txt S _ hb, ← level_txt S _ hb] at this
      exact ite_txt_inj this
  · cases hb : S.labels.testBit 12 with
    | false => unfold dataSrc?; rw [hb]; rfl
    | true =>
      have := F 12 "snoop_status" _ _ (mem 13 rfl) (mem 13 rfl) hb
      rw [← snoop_txt S _ hb, ← snoop_txt S _ hb] at this
      exact ite_txt_inj this
  · cases hb : S.labels.testBit 13 with
    | false => unfold totalLatency; rw [hb]; rfl
    | true =>
      rw [latencyOf_eq hf hb, latencyOf_eq hf' hb]
      exact numLabel_inj (F 13 "total_latency" _ _ (mem 14 rfl) (mem 14 rfl) hb)
  · exact ite_bit fun hb => numLabel_inj (F 14 "issue_latency" _ _ (mem 15 rfl) (mem 15 rfl) hb)
  · exact ite_bit fun hb => numLabel_inj (F 15 "translation_latency" _ _ (mem 16 rfl) (mem 16 rfl) hb)

theorem opt_eq {x y : Option Nat} (h : Unmixed x y) (h' : x.getD 0 = y.getD 0) : x = y := by
  cases x <;> cases y
  · rfl
  · cases h rfl h'.symm
  · cases h h' rfl
  · exact congrArg some h'

theorem labels_of_akey {S : Setup} {h h' : List Callback} {c c' : SampleCtx} (hs : SamePresence S.labels c c')
    (hf : Fits c) (hf' : Fits c') (he : akey S h c = akey S h' c') : labelsOf S h c = labelsOf S h' c' := by
  have hone : ∀ {i : Nat} {n : String} {o o' : Option LabelText}, (S.labels.testBit i = true → o = o') →
      one (S.labels.testBit i) n o = one (S.labels.testBit i) n o' := by
    intro i n o o' h
    cases hb : S.labels.testBit i with
    | false => rfl
    | true => rw [h hb]
  have e1 := congrArg AKey.pid he
  have e2 := congrArg AKey.tid he
  have e3 := congrArg AKey.timeNs he
  have e4 := congrArg AKey.execMode he
  have e5 := congrArg AKey.comm he
  have e6 := congrArg AKey.threadType he
  have e7 := congrArg AKey.threadComm he
  have e8 := congrArg AKey.cgroup he
  have e9 := congrArg AKey.codePageSize he
  have e10 := congrArg AKey.dataPageSize he
  have e11 := congrArg AKey.cpu he
  have e12 := congrArg AKey.cacheLatency he
  have e13 := congrArg AKey.dataSrc he
  have e14 := congrArg AKey.snoopStatus he
  have e15 := congrArg AKey.totalLatency he
  have e16 := congrArg AKey.issueLatency he
  have e17 := congrArg AKey.translationLatency he
  simp only [akey] at e1 e2 e3 e4 e5 e6 e7 e8 e9 e10 e11 e12 e13 e14 e15 e16 e17
  rw [labelsOf_eq, labelsOf_eq]
  unfold labelFields
  simp only [List.flatMap_cons, List.flatMap_nil, List.append_nil]
  congr 1
  · exact hone fun hb => by rw [opt_eq (hs.pid hb) e1]
  congr 1
  · exact hone fun hb => by rw [if_pos hb, if_pos hb] at e2; rw [opt_eq (hs.tid hb) e2]
  congr 1
  · refine hone fun hb => ?_
    rw [if_pos hb, if_pos hb] at e5
    rw [← comm_txt, ← comm_txt, ← txt_label, ← txt_label, e5]
  congr 1
  · exact hone fun hb => by rw [if_pos hb, if_pos hb] at e3; rw [opt_eq (hs.time hb) e3]
  congr 1
  · exact hone fun hb => by rw [if_pos hb, if_pos hb] at e4; rw [mode_label, mode_label, e4]
  congr 1
  · exact hone fun hb => by rw [← tt_txt S _ hb, ← tt_txt S _ hb, ← txt_label, ← txt_label, e6]
  congr 1
  · exact hone fun hb => by rw [← tc_txt S _ _ hb, ← tc_txt S _ _ hb, ← txt_label, ← txt_label, e7]
  congr 1
  · refine hone fun hb => ?_
    rw [if_pos hb, if_pos hb] at e8
    rw [← txt_label, ← txt_label, e8]
  congr 1
  · exact hone fun hb => by rw [if_pos hb, if_pos hb] at e9; rw [e9]
  congr 1
  · exact hone fun hb => by rw [if_pos hb, if_pos hb] at e10; rw [e10]
  congr 1
  · exact hone fun hb => by rw [if_pos hb, if_pos hb] at e11; rw [opt_eq (hs.cpu hb) e11]
  congr 1
  · exact hone fun hb => by rw [if_pos hb, if_pos hb] at e12; rw [e12]
  congr 1
  · exact hone fun hb => by rw [← level_txt S _ hb, ← level_txt S _ hb, e13]
  congr 1
  · exact hone fun hb => by rw [← snoop_txt S _ hb, ← snoop_txt S _ hb, e14]
  congr 1
  · exact hone fun hb => by rw [latencyOf_eq hf hb, latencyOf_eq hf' hb] at e15; rw [e15]
  congr 1
  · exact hone fun hb => by rw [if_pos hb, if_pos hb] at e16; rw [e16]
  · exact hone fun hb => by rw [if_pos hb, if_pos hb] at e17; rw [e17]

end Verif.Converter
