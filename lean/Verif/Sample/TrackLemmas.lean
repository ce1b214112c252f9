import Verif.Sample.ReadLemmas

/-! What a successful read of each part has seen. -/

namespace Verif.Sample
open Verif.Buffer Verif.Event

theorem leaf_readInfo (cross : Bool) (rf : Nat) (s : Sample) (h : rf.testBit 3 = false) :
    Leaf cross (readReadInfo rf s) (readLayout rf)
      (fun s' => ∃ te tr one g, s' = { s with timeEnabled := te, timeRunning := tr, one := one, group := g }) := by
  unfold readReadInfo
  refine Tracks.leaf (Tracks.bind (leaf_u64 _) fun v _ => Tracks.bind (Leaf.opt fun _ => leaf_u64 _) fun te _ =>
    Tracks.bind (Leaf.opt fun _ => leaf_u64 _) fun tr _ => Tracks.bind (Leaf.opt fun _ => leaf_u64 _) fun id _ =>
    Tracks.bind (Leaf.opt fun _ => leaf_u64 _) fun lost _ => Tracks.pure ?_ ⟨te, tr, ⟨v, id, lost⟩, s.group, rfl⟩)
  unfold readLayout
  rw [h]
  simp

theorem leaf_groupValue (cross : Bool) (rf : Nat) :
    Leaf cross (readGroupValue rf) (valueLayout rf) (fun _ => True) := by
  unfold readGroupValue
  refine Tracks.leaf (Tracks.bind (leaf_u64 _) fun v _ => Tracks.bind (Leaf.opt fun _ => leaf_u64 _) fun te _ =>
    Tracks.bind (Leaf.opt fun _ => leaf_u64 _) fun tr _ => Tracks.pure ?_ trivial)
  simp [valueLayout]

theorem leaf_groupReadInfo (cross : Bool) (rf : Nat) (s : Sample) (h : rf.testBit 3 = true)
    (h0 : s.group = none) :
    Leaf cross (readGroupReadInfo rf s) (readLayout rf)
      (fun s' => ∃ te tr one g, s' = { s with timeEnabled := te, timeRunning := tr, one := one, group := g }) := by
  unfold readGroupReadInfo
  have hg : ¬ (s.group ≠ none) := by simp [h0]
  simp only [if_neg hg]
  refine Tracks.leaf (Tracks.bind (leaf_u64 _) fun v _ => Tracks.bind (Leaf.opt fun _ => leaf_u64 _) fun te _ =>
    Tracks.bind (Leaf.opt fun _ => leaf_u64 _) fun tr _ => Tracks.guard (by omega)
      (Tracks.bind ((leaf_groupValue cross rf).times v) fun l hl => Tracks.pure ?_ ⟨te, tr, s.one, some l, rfl⟩))
  unfold readLayout
  rw [h]
  simp [hl.1]

theorem leaf_read (cross : Bool) (rf : Nat) (s : Sample) (h0 : s.group = none) :
    Leaf cross (if rf.testBit 3 then readGroupReadInfo rf s else readReadInfo rf s) (readLayout rf)
      (fun s' => ∃ te tr one g, s' = { s with timeEnabled := te, timeRunning := tr, one := one, group := g }) := by
  cases h : rf.testBit 3
  · exact leaf_readInfo cross rf s h
  · exact leaf_groupReadInfo cross rf s h h0

theorem leaf_callchain (cross : Bool) (s : Sample) (h0 : s.callchain = none) :
    Leaf cross (readCallchain s) callchainLayout (fun s' => ∃ l, s' = { s with callchain := l }) := by
  unfold readCallchain
  rw [if_neg (by simp [h0])]
  refine Tracks.leaf (Tracks.bind (leaf_u64 _) fun v _ => Tracks.guard (by omega)
      (Tracks.bind ((leaf_u64 cross).times v) fun l hl => Tracks.pure ?_ ⟨some l, rfl⟩))
  unfold callchainLayout
  simp [hl.1, List.map_eq_flatMap]

theorem leaf_tell (cross : Bool) {β : Type} {f : Nat → P β} {L : β → List Piece} {Q : β → Prop}
    (h : ∀ r : Reader, r.Ok → r.cross = cross → ∃ x r', f r.off r = some (x, r') ∧ r'.Ok ∧ r'.buf = r.buf ∧
      r'.cross = cross ∧ ∀ a, x = some a → Q a ∧ r.off ≤ r'.off ∧
        Matches cross (L a) ((r.buf.drop r.off).take (r'.off - r.off))) :
    Leaf cross (tell >>= f) L Q := by
  intro r hr hc
  rw [bind_of (p := tell) (a := r.off) (r' := r) rfl]
  exact h r hr hc

theorem leaf_raw (cross : Bool) (s : Sample) :
    Leaf cross (readRawData s) rawLayout (fun s' => ∃ d, s' = { s with raw := d }) := by
  unfold readRawData
  refine leaf_tell cross fun r hr hc => ?_
  have key : Leaf cross (u32 >>= fun size => guardAlloc size 1 (data size))
      (fun d => [.u32 d.length, .bytes d]) (fun d => d.length < 2 ^ 32) :=
    Tracks.leaf (Tracks.bind (leaf_u32 _) fun n hn => Tracks.guard (by omega)
      (fun r pre hr hc hp => by
        obtain ⟨x, r', e, ok, b, c, h⟩ := leaf_data cross n (by omega) r hr hc
        refine ⟨x, r', e, ok, b, c, fun a ha => ?_⟩
        obtain ⟨hl, hle, hm⟩ := h a ha
        refine ⟨by omega, hle, ?_⟩
        rw [hl]
        exact matches_append.mpr ⟨_, _, rfl, hp, hm⟩))
  obtain ⟨x, r1, e1, ok1, b1, c1, h1⟩ := key r hr hc
  -- the same code up to the seek
  obtain ⟨y, ry, ey, oky, by', cy, hy⟩ := leaf_u32 cross r hr hc
  cases y with
  | none => exact ⟨none, ry, by rw [bind_def, ey], oky, by', cy, by simp⟩
  | some n =>
    obtain ⟨hn, hle0, hm0⟩ := hy n rfl
    rw [bind_of ey] at e1 ⊢
    obtain ⟨z, rz, ez, okz, bz, cz, hz⟩ := leaf_data cross n (by omega) ry oky cy
    by_cases g : guardAlloc n 1 (data n) ry = data n ry
    · cases z with
      | none =>
        refine ⟨none, r1, ?_, ok1, b1, c1, by simp⟩
        rw [g, ez] at e1
        obtain ⟨rfl, rfl⟩ := by simpa using e1
        unfold guardAlloc at g ⊢
        split
        · rename_i hg
          rw [if_pos hg, ez] at g
          have : ry = rz := by simpa using g
          rw [this]
        · rename_i hg
          rw [if_neg hg] at g
          split
          · rename_i hg2
            rw [if_pos hg2, ez] at g
            cases g
          · rw [bind_def, ez]
      | some d =>
        rw [g, ez] at e1
        obtain ⟨rfl, rfl⟩ := by simpa using e1
        have hg : guardAlloc n 1 (data n) ry = some (some d, rz) := by rw [g, ez]
        rw [guard_of _ hg, bind_of ez]
        obtain ⟨hd, hle, hm⟩ := h1 d rfl
        obtain ⟨hdl, hle2, hm2⟩ := hz d rfl
        have hlen := matches_len hm
        obtain ⟨q1, q2, q3⟩ := hr
        obtain ⟨p1, p2, p3⟩ := okz
        rw [b1] at p1 p3
        simp only [List.length_take, List.length_drop, total_cons, total_nil, Piece.len] at hlen
        have hk : rz.off = r.off + (4 + n) := by omega
        rw [align_raw hn]
        have hk2 : 4 + n ≤ 4 + n + (8 - (4 + n) % 8) % 8 := Nat.le_add_right ..
        have hpad : rawLayout { s with raw := d } = [.u32 d.length, .bytes d] ++ [.pad ((8 - (4 + n) % 8) % 8)] := by
          simp [rawLayout, hdl]
        have hk3 : 4 + n + (8 - (4 + n) % 8) % 8 - (4 + n) = (8 - (4 + n) % 8) % 8 := by omega
        have hk4 : 4 + n + (8 - (4 + n) % 8) % 8 < 2 ^ 33 := by omega
        rw [← hk3] at hpad
        generalize 4 + n + (8 - (4 + n) % 8) % 8 = k at *
        have ea : addSz r.off k = r.off + k := Nat.mod_eq_of_lt (by omega)
        rw [ea]
        by_cases hs : r.off + k ≤ rz.size
        · rw [bind_of (seek_of hs), pure_def]
          refine ⟨_, _, rfl, ⟨?_, hs, ?_⟩, ?_, cz, ?_⟩
          · show rz.size = rz.buf.length; rw [b1]; omega
          · show rz.buf.length < _; rw [b1]; exact p3
          · exact b1
          · rintro a ⟨⟩
            refine ⟨⟨d, rfl⟩, by show r.off ≤ r.off + k; omega, ?_⟩
            show Matches cross _ ((r.buf.drop r.off).take (r.off + k - r.off))
            rw [take_split hle (show rz.off ≤ r.off + k by omega), hpad]
            refine matches_append.mpr ⟨_, _, rfl, hm, matches_one.mpr ?_⟩
            show List.length _ = _
            rw [List.length_take, List.length_drop]
            omega
        · refine ⟨none, rz, ?_, ⟨by rw [b1]; omega, p2, by rw [b1]; exact p3⟩, b1, cz, by simp⟩
          have : seek (r.off + k) rz = some (none, rz) := by
            unfold seek Reader.seekSet
            rw [if_pos (by omega)]
            rfl
          rw [bind_def, this]
    · -- the guard refuses
      refine ⟨none, ry, ?_, oky, by', cy, by simp⟩
      unfold guardAlloc at g ⊢
      split
      · rfl
      · rename_i hg
        rw [if_neg hg] at g
        split
        · rename_i hg2
          exfalso
          rw [Nat.div_one] at hg
          obtain ⟨p1, p2, p3⟩ := oky
          omega
        · rename_i hg2
          rw [if_neg hg2] at g
          exact absurd rfl g

theorem leaf_branchEntry (cross : Bool) :
    Leaf cross readBranchEntry (fun e => [.u64 e.fromIp, .u64 e.toIp, .u64 e.flags]) (fun _ => True) := by
  unfold readBranchEntry
  cases cross
  · have hd : Leaf false (data 8) (fun l => [.u64 (leNat l)]) (fun _ => True) :=
      (leaf_data false 8 (by omega)).weaken fun l hl => ⟨trivial, fun bs hb => by
        have : bs = l := matches_one.mp hb
        subst this
        exact matches_one.mpr ⟨hl, rfl⟩⟩
    refine Tracks.leaf (Tracks.bind (leaf_u64 _) fun v _ => Tracks.bind (leaf_u64 _) fun t _ =>
      Tracks.bind hd fun l _ => Tracks.bind (leaf_isCross _) fun c hc => ?_)
    subst hc
    exact Tracks.pure (by simp) trivial
  · refine Tracks.leaf (Tracks.bind (leaf_u64 _) fun v _ => Tracks.bind (leaf_u64 _) fun t _ =>
      Tracks.bind (leaf_data true 8 (by omega)) fun l _ => Tracks.bind (leaf_isCross _) fun c hc => ?_)
    subst hc
    exact Tracks.fail

theorem leaf_branch (cross hw : Bool) (s : Sample) (h0 : s.branchStack = none) :
    Leaf cross (readBranchStack { s with noHwIdx := !hw }) (branchLayout hw)
      (fun s' => ∃ b, s' = { s with noHwIdx := !hw, branchStack := b }) := by
  unfold readBranchStack
  rw [if_neg (by simp [h0])]
  refine Tracks.leaf (Tracks.bind (leaf_u64 _) fun v _ => Tracks.bind (Leaf.opt fun _ => leaf_u64 _) fun x _ =>
    Tracks.guard (by omega) (Tracks.bind ((leaf_branchEntry cross).times v) fun l hl =>
      Tracks.pure ?_ ⟨some ⟨x, l⟩, rfl⟩))
  unfold branchLayout
  simp [hl.1]

theorem leaf_weight (cross : Bool) (f old : Nat) :
    Leaf cross (readWeight f old)
      (fun w => only (f.testBit 14) [.u64 w] ++
        only (f.testBit 24) [.u32 (w % 2 ^ 32), .u16 (w / 2 ^ 32 % 2 ^ 16), .u16 (w / 2 ^ 48)])
      (fun _ => True) := by
  unfold readWeight
  cases h14 : f.testBit 14 <;> cases h24 : f.testBit 24 <;> simp only [Bool.and_self, Bool.and_false,
    Bool.and_true, Bool.false_eq_true, if_false, if_true, only, List.nil_append, List.append_nil]
  · exact Leaf.pure rfl trivial
  · refine Tracks.leaf (Tracks.bind (leaf_isCross _) fun c hc => ?_)
    cases c
    · refine Tracks.bind (leaf_u32 _) fun a ha => Tracks.bind (leaf_u16 _) fun b hb =>
        Tracks.bind (leaf_u16 _) fun c hc => Tracks.pure ?_ trivial
      have e1 : (a + 2 ^ 32 * b + 2 ^ 48 * c) % 2 ^ 32 = a := by omega
      have e2 : (a + 2 ^ 32 * b + 2 ^ 48 * c) / 2 ^ 32 % 2 ^ 16 = b := by omega
      have e3 : (a + 2 ^ 32 * b + 2 ^ 48 * c) / 2 ^ 48 = c := by omega
      rw [e1, e2, e3]; rfl
    · exact Tracks.fail
  · exact (leaf_u64 cross).weaken fun a _ => ⟨trivial, fun _ h => h⟩
  · exact Leaf.fail

theorem leaf_skip32 (cross : Bool) : Leaf cross u32 (fun _ => [.pad 4]) (fun _ => True) :=
  (leaf_u32 cross).weaken fun v _ => ⟨trivial, fun bs hb => matches_one.mpr (by
    have := matches_one.mp hb; exact this.1)⟩

theorem leaf_id (cross b : Bool) :
    Leaf cross u64 (fun v => [if b then .pad 8 else .u64 v]) (fun _ => True) := by
  intro r hr hc
  obtain ⟨x, r', e, hok, hb, hc', h⟩ := leaf_u64 cross r hr hc
  refine ⟨x, r', e, hok, hb, hc', fun a ha => ?_⟩
  obtain ⟨-, h2, h3⟩ := h a ha
  refine ⟨trivial, h2, ?_⟩
  cases b
  · exact h3
  · exact matches_one.mpr (matches_one.mp h3).1

theorem leaf_fields (cross : Bool) (a : Attr) (isSample : Bool) (f : Nat) (s₀ : Sample)
    (hf : ∀ b, f.testBit b = has a isSample b) (hact : (isSample || a.sampleIdAll) = true)
    (h0 : s₀.Empty) :
    Leaf cross (readFields a isSample f s₀) (layoutLoose a isSample) (fun _ => True) := by
  have hw := leaf_weight cross f
  simp only [hf] at hw
  unfold readFields
  simp only [hf]
  refine Tracks.leaf ?_
  refine Tracks.bind (Leaf.opt fun _ => leaf_id _ (has a isSample 6)) fun id1 q1 => ?_
  refine Tracks.bind (Leaf.opt fun _ => leaf_u64 _) fun ip _ => ?_
  refine Tracks.bind (Leaf.opt fun _ => leaf_u32 _) fun pid _ => ?_
  refine Tracks.bind (Leaf.opt fun _ => leaf_u32 _) fun tid _ => ?_
  refine Tracks.bind (Leaf.opt fun _ => leaf_u64 _) fun time _ => ?_
  refine Tracks.bind (Leaf.opt fun _ => leaf_u64 _) fun addr _ => ?_
  refine Tracks.bind (Leaf.opt fun _ => leaf_id _ (!isSample && has a isSample 16)) fun id2 q2 => ?_
  refine Tracks.bind (Leaf.opt fun _ => leaf_u64 _) fun streamId _ => ?_
  refine Tracks.bind (Leaf.opt fun _ => leaf_u32 _) fun cpu _ => ?_
  refine Tracks.bind (Leaf.opt fun _ => leaf_skip32 _) fun _ _ => ?_
  refine Tracks.bind (Leaf.opt fun _ => leaf_u64 _) fun id3 q3 => ?_
  refine Tracks.bind (Leaf.opt fun _ => leaf_u64 _) fun period _ => ?_
  refine Tracks.bind (Leaf.opt fun _ => leaf_read _ _ _ h0.2.2) fun s1 p1 => ?_
  have p1' : ∃ te tr one g, s1 = { s₀ with
      ip := ip, pid := pid, tid := tid, time := time, addr := addr, id := id3,
      streamId := streamId, cpu := cpu, period := period,
      timeEnabled := te, timeRunning := tr, one := one, group := g } := by
    cases h : has a isSample 4
    · exact ⟨_, _, _, _, p1.2 h⟩
    · exact p1.1 h
  obtain ⟨te, tr, one, g, e1⟩ := p1'
  refine Tracks.bind (Leaf.opt fun _ => leaf_callchain _ _ (by rw [e1]; exact h0.1)) fun s2 p2 => ?_
  have p2' : ∃ l, s2 = { s1 with callchain := l } := by
    cases h : has a isSample 5
    · exact ⟨s1.callchain, p2.2 h⟩
    · exact p2.1 h
  obtain ⟨cc, e2⟩ := p2'
  refine Tracks.bind (Leaf.opt fun _ => leaf_raw _ _) fun s3 p3 => ?_
  have p3' : ∃ d, s3 = { s2 with raw := d } := by
    cases h : has a isSample 10
    · exact ⟨s2.raw, p3.2 h⟩
    · exact p3.1 h
  obtain ⟨raw, e3⟩ := p3'
  refine Tracks.bind (Leaf.opt fun _ => leaf_branch _ _ _ (by rw [e3, e2, e1]; exact h0.2.1)) fun s4 p4 => ?_
  have p4' : ∃ n b, s4 = { s3 with noHwIdx := n, branchStack := b } := by
    cases h : has a isSample 11
    · exact ⟨s3.noHwIdx, s3.branchStack, p4.2 h⟩
    · exact ⟨_, p4.1 h⟩
  obtain ⟨nh, br, e4⟩ := p4'
  by_cases c12 : has a isSample 12 = true
  · rw [if_pos c12]; exact Tracks.fail
  rw [if_neg c12]
  by_cases c13 : has a isSample 13 = true
  · rw [if_pos c13]; exact Tracks.fail
  rw [if_neg c13]
  refine Tracks.bind (hw _) fun weight _ => ?_
  refine Tracks.bind (Leaf.opt fun _ => leaf_u64 _) fun dataSrc _ => ?_
  refine Tracks.bind (Leaf.opt fun _ => leaf_u64 _) fun trans _ => ?_
  by_cases c18 : has a isSample 18 = true
  · rw [if_pos c18]; exact Tracks.fail
  rw [if_neg c18]
  refine Tracks.bind (Leaf.opt fun _ => leaf_u64 _) fun phys _ => ?_
  refine Tracks.bind (Leaf.opt fun _ => leaf_u64 _) fun cgroup _ => ?_
  refine Tracks.bind (Leaf.opt fun _ => leaf_u64 _) fun dps _ => ?_
  refine Tracks.bind (Leaf.opt fun _ => leaf_u64 _) fun cps _ => ?_
  by_cases c25 : f >>> 25 ≠ 0
  · rw [if_pos c25]; exact Tracks.fail
  rw [if_neg c25]
  refine Tracks.pure ?_ trivial
  have i1 : only (isSample && has a isSample 16) [if has a isSample 6 then .pad 8 else Piece.u64 id3] =
      only (isSample && has a isSample 16) [if has a isSample 6 then .pad 8 else Piece.u64 id1] := by
    cases isSample
    · rfl
    · cases h6 : has a true 6
      · rw [q3.2 rfl, q2.2 h6]
      · rfl
  have i2 : only (has a isSample 6) [if !isSample && has a isSample 16 then .pad 8 else Piece.u64 id3] =
      only (has a isSample 6) [if !isSample && has a isSample 16 then .pad 8 else Piece.u64 id2] := by
    cases h : !isSample && has a isSample 16
    · rw [q3.2 h]
    · rfl
  unfold layoutLoose layoutIds
  rw [if_pos hact]
  subst e4 e3 e2 e1
  simp only [List.append_assoc, List.nil_append, ← i1, ← i2]
  rfl

end Verif.Sample
