import Verif.Sample.Lemmas

/-! Reading the parts of a sample, in both directions. -/

namespace Verif.Sample
open Verif.Buffer Verif.Event

/-! ## From bytes in the format to the sample -/

theorem reads_readInfo (cross : Bool) (rf : Nat) (s s₀ : Sample) (h : rf.testBit 3 = false) :
    Reads cross (readReadInfo rf s₀) (readLayout rf s)
      { s₀ with timeEnabled := if rf.testBit 0 then s.timeEnabled else s₀.timeEnabled
                timeRunning := if rf.testBit 1 then s.timeRunning else s₀.timeRunning
                one := ⟨s.one.value, if rf.testBit 2 then s.one.id else s₀.one.id,
                  if rf.testBit 4 then s.one.lost else s₀.one.lost⟩ } := by
  unfold readReadInfo readLayout
  rw [h]
  refine Reads.cons (reads_u64 _ _) (Reads.bind (Reads.opt fun _ => reads_u64 _ _)
    (Reads.bind (Reads.opt fun _ => reads_u64 _ _) (Reads.bind (Reads.opt fun _ => reads_u64 _ _)
    (Reads.bind0 (Reads.opt fun _ => reads_u64 _ _) (Reads.pure _)))))

theorem reads_groupValue (cross : Bool) (rf : Nat) (v : ReadValue) :
    Reads cross (readGroupValue rf) (valueLayout rf v) (v.pick rf) :=
  Reads.cons (reads_u64 _ _) (Reads.bind (Reads.opt fun _ => reads_u64 _ _)
    (Reads.bind0 (Reads.opt fun _ => reads_u64 _ _) (Reads.pure _)))

theorem total_only_u64 (c : Bool) (v : Nat) : total (only c [.u64 v]) = if c then 8 else 0 := by
  cases c <;> rfl

theorem total_flatMap {α : Type} (f : α → List Piece) (k : Nat) (h : ∀ a, total (f a) = k) :
    ∀ l : List α, total (l.flatMap f) = l.length * k
  | [] => by simp [total]
  | a :: l => by
    rw [List.flatMap_cons, total_append, h, total_flatMap f k h l, List.length_cons, Nat.succ_mul]
    omega

theorem total_value (rf : Nat) (v : ReadValue) :
    total (valueLayout rf v) = 8 + (if rf.testBit 2 then 8 else 0) + (if rf.testBit 4 then 8 else 0) := by
  unfold valueLayout
  rw [total_cons, total_append, total_only_u64, total_only_u64]
  simp only [Piece.len]; omega

theorem reads_groupReadInfo (cross : Bool) (rf : Nat) (s s₀ : Sample) (h : rf.testBit 3 = true)
    (h0 : s₀.group = none) :
    Reads cross (readGroupReadInfo rf s₀) (readLayout rf s)
      { s₀ with timeEnabled := if rf.testBit 0 then s.timeEnabled else s₀.timeEnabled
                timeRunning := if rf.testBit 1 then s.timeRunning else s₀.timeRunning
                group := some ((s.group.getD []).map (ReadValue.pick rf)) } := by
  unfold readGroupReadInfo readLayout
  rw [h, if_pos rfl]
  refine Reads.cons (reads_u64 _ _) (Reads.bind (Reads.opt fun _ => reads_u64 _ _)
    (Reads.bind (Reads.opt fun _ => reads_u64 _ _) ?_))
  rw [if_neg (by simp [h0])]
  refine Reads.guard (by omega) ?_ ?_
  · rw [total_flatMap _ _ (total_value rf)]; exact Nat.le_refl _
  · exact Reads.bind0 (Reads.times _ fun v _ => reads_groupValue cross rf v) (Reads.pure _)

theorem reads_callchain (cross : Bool) (s s₀ : Sample) (h0 : s₀.callchain = none) :
    Reads cross (readCallchain s₀) (callchainLayout s)
      { s₀ with callchain := some (s.callchain.getD []) } := by
  unfold readCallchain callchainLayout
  rw [if_neg (by simp [h0])]
  have e : (s.callchain.getD []).map Piece.u64 = (s.callchain.getD []).flatMap (fun v => [.u64 v]) := by
    rw [List.map_eq_flatMap]
  refine Reads.cons (reads_u64 _ _) (Reads.guard (by omega) ?_ ?_)
  · rw [e, total_flatMap _ 8 (fun _ => rfl)]; exact Nat.le_refl _
  · rw [e]
    have := Reads.times (cross := cross) (p := u64) (f := fun v => [Piece.u64 v]) (g := id)
      (s.callchain.getD []) (fun v _ => reads_u64 cross v)
    rw [List.map_id] at this
    exact Reads.bind0 this (Reads.pure _)

theorem align_raw {n : Nat} (h : n < 2 ^ 32) :
    Util.align 3 (addSz 4 n) = 4 + n + (8 - (4 + n) % 8) % 8 := by
  have e : addSz 4 n = 4 + n := by unfold addSz; omega
  rw [e, Util.align8 _ (by omega)]
  omega

theorem bind_of {α β : Type} {p : P α} {f : α → P β} {r r' : Reader} {a : α}
    (h : p r = some (some a, r')) : (p >>= f) r = f a r' := by rw [bind_def, h]

theorem guard_of {α β : Type} {num entry : Nat} {q : P α} (p : P β) {r r' : Reader} {d : α}
    (h : guardAlloc num entry q r = some (some d, r')) :
    guardAlloc num entry p r = p r := by
  unfold guardAlloc at h ⊢
  split at h
  · cases h
  split at h
  · cases h
  rename_i g1 g2
  rw [if_neg g1, if_neg g2]

theorem guard_inv {α : Type} {num entry : Nat} {q : P α} {r r' : Reader} {d : α}
    (h : guardAlloc num entry q r = some (some d, r')) : q r = some (some d, r') := by
  rw [← guard_of q h]; exact h

theorem seek_of {r : Reader} {o : Nat} (h : o ≤ r.size) :
    seek o r = some (some (), { r with off := o }) := by
  unfold seek Reader.seekSet
  rw [if_neg (by omega)]
  rfl

theorem reads_raw (cross : Bool) (s s₀ : Sample) :
    Reads cross (readRawData s₀) (rawLayout s) { s₀ with raw := s.raw } := by
  intro r bs tail hr hc hd hm
  obtain ⟨x, y, rfl, hx, hy⟩ := matches_cons.mp hm
  obtain ⟨z, w, rfl, hz, hw⟩ := matches_cons.mp hy
  have hxl : x.length = 4 := matches_len hx
  have h : s.raw.length < 2 ^ 32 := by
    have hd := decodeInt_lt cross x
    rw [hxl, (matches_one.mp hx).2] at hd
    exact hd
  have hzl : z.length = s.raw.length := by have := matches_len hz; simpa [total, Piece.len] using this
  have hwl : w.length = (8 - (4 + s.raw.length) % 8) % 8 := by
    have := matches_len hw; simpa [total, Piece.len] using this
  have hl := congrArg List.length hd
  simp only [List.length_drop, List.length_append] at hl
  have hr' := hr
  obtain ⟨h1, h2, h3⟩ := hr'
  have hd1 : r.buf.drop r.off = x ++ ((z ++ w) ++ tail) := by rw [hd]; simp
  have e1 := reads_u32 cross s.raw.length r x _ hr hc hd1 hx
  obtain ⟨ok1, dr1⟩ := ok_advance hr hd1
  have hd2 : r.buf.drop (r.off + x.length) = z ++ (w ++ tail) := by rw [dr1]; simp
  have e2 := Reads.guard (num := s.raw.length) (entry := 1) (by omega) (by simp [total, Piece.len])
    (reads_data cross s.raw (by omega)) _ z _ ok1 hc hd2 hz
  have hk : x.length + (z.length + w.length) = 4 + s.raw.length + (8 - (4 + s.raw.length) % 8) % 8 := by
    rw [hxl, hzl, hwl, Nat.add_assoc]
  have hlen : (x ++ (z ++ w)).length = 4 + s.raw.length + (8 - (4 + s.raw.length) % 8) % 8 := by
    rw [List.length_append, List.length_append, hk]
  unfold readRawData
  rw [bind_of (p := tell) (a := r.off) (r' := r) rfl, bind_of e1, guard_of _ e2, bind_of (guard_inv e2),
    align_raw h, hlen]
  rw [hk] at hl
  generalize 4 + s.raw.length + (8 - (4 + s.raw.length) % 8) % 8 = k at hl ⊢
  have ea : addSz r.off k = r.off + k := Nat.mod_eq_of_lt (by omega)
  rw [ea, bind_of (seek_of (by show r.off + k ≤ r.size; omega)), pure_def]

theorem Reads.skip32 {β : Type} {cross c : Bool} {p : P β} {M : List Piece} {b : β}
    (h : Reads cross p M b) : Reads cross (_root_.Verif.Sample.opt c u32 0 >>= fun _ => p) (only c [.pad 4] ++ M) b := by
  cases c
  · exact Reads.bind (Reads.pure 0) h
  · intro r bs tail hr hc hd hm
    obtain ⟨x, y, rfl, hx, hy⟩ := matches_append.mp hm
    have hl : x.length = 4 := matches_one.mp hx
    exact Reads.bind (reads_u32 cross (decodeInt cross x)) h r (x ++ y) tail hr hc hd
      (matches_append.mpr ⟨x, y, rfl, matches_one.mpr ⟨hl, rfl⟩, hy⟩)

theorem Reads.bind2 {α β : Type} {cross : Bool} {p : P α} {f : α → P β} {L L' M : List Piece} {a : α} {b : β}
    (hp : Reads cross p (L ++ L') a) (hf : Reads cross (f a) M b) :
    Reads cross (p >>= f) (L ++ (L' ++ M)) b := by
  rw [← List.append_assoc]; exact Reads.bind hp hf

theorem Reads.bindG {α β : Type} {cross : Bool} {p : P α} {f : α → P β} {L M : List Piece} {a : α} {b : β}
    (hp : Reads cross p L a) (hf : ∀ x, x = a → Reads cross (f x) M b) :
    Reads cross (p >>= f) (L ++ M) b := Reads.bind hp (hf a rfl)

theorem Reads.eq {α : Type} {cross : Bool} {p : P α} {L : List Piece} {a b : α} (h : Reads cross p L a)
    (e : a = b) : Reads cross p L b := e ▸ h

theorem reads_branchEntry (e : BranchEntry) :
    Reads false readBranchEntry [.u64 e.fromIp, .u64 e.toIp, .u64 e.flags] e := by
  unfold readBranchEntry
  refine Reads.cons (reads_u64 _ _) (Reads.cons (reads_u64 _ _) ?_)
  intro r bs tail hr hc hd hm
  obtain ⟨hl, hv⟩ := (matches_one.mp hm : bs.length = 8 ∧ decodeInt false bs = e.flags)
  have e1 := reads_data false bs (by omega) r bs tail hr hc hd (matches_one.mpr rfl)
  rw [hl] at e1
  rw [bind_def, e1]
  show (isCross >>= _) _ = _
  rw [bind_def]
  have hv' : leNat bs = e.flags := by simpa [decodeInt] using hv
  simp [isCross, hc, hv', pure_def, hl]

theorem reads_branch (cross : Bool) (s s₀ : Sample) (h0 : s₀.branchStack = none)
    (hx : cross = true → (s.branchStack.getD {}).entries = []) :
    Reads cross (readBranchStack s₀) (branchLayout (!s₀.noHwIdx) s)
      { s₀ with branchStack := some ⟨if s₀.noHwIdx then 0 else (s.branchStack.getD {}).hwIdx,
                  (s.branchStack.getD {}).entries⟩ } := by
  unfold readBranchStack branchLayout
  rw [if_neg (by simp [h0])]
  refine Reads.cons (reads_u64 _ _) (Reads.bind (Reads.opt fun _ => reads_u64 _ _)
    (Reads.guard (by omega) ?_ ?_))
  · rw [total_flatMap _ 24 (fun _ => rfl)]; exact Nat.le_refl _
  · cases cross
    · have := Reads.times (cross := false) (p := readBranchEntry) (g := id)
        (s.branchStack.getD {}).entries (fun e _ => reads_branchEntry e)
      rw [List.map_id] at this
      have e : (if (!s₀.noHwIdx) = true then (s.branchStack.getD {}).hwIdx else 0)
          = if s₀.noHwIdx = true then 0 else (s.branchStack.getD {}).hwIdx := by
        cases s₀.noHwIdx <;> rfl
      rw [← e]
      exact Reads.bind0 this (Reads.pure _)
    · rw [hx rfl]
      have e : (if (!s₀.noHwIdx) = true then (s.branchStack.getD {}).hwIdx else 0)
          = if s₀.noHwIdx = true then 0 else (s.branchStack.getD {}).hwIdx := by
        cases s₀.noHwIdx <;> rfl
      rw [← e]
      exact Reads.bind0 (Reads.pure _) (Reads.pure _)

theorem reads_branch' (cross hw : Bool) (s s₀ : Sample) (h0 : s₀.branchStack = none)
    (hx : cross = true → (s.branchStack.getD {}).entries = []) :
    Reads cross (readBranchStack { s₀ with noHwIdx := !hw }) (branchLayout hw s)
      { s₀ with noHwIdx := !hw
                branchStack := some ⟨if hw then (s.branchStack.getD {}).hwIdx else 0,
                  (s.branchStack.getD {}).entries⟩ } := by
  have := reads_branch cross s { s₀ with noHwIdx := !hw } h0 hx
  cases hw <;> exact this

theorem reads_weight (cross : Bool) (f w old : Nat) (hb : (f.testBit 14 && f.testBit 24) = false)
    (hx : cross = true → f.testBit 24 = false) :
    Reads cross (readWeight f old)
      (only (f.testBit 14) [.u64 w] ++
        only (f.testBit 24) [.u32 (w % 2 ^ 32), .u16 (w / 2 ^ 32 % 2 ^ 16), .u16 (w / 2 ^ 48)])
      (if f.testBit 14 || f.testBit 24 then w else old) := by
  unfold readWeight
  rw [hb]
  cases h14 : f.testBit 14
  · cases h24 : f.testBit 24
    · exact Reads.pure old
    · have hc : cross = false := by cases cross; rfl; rw [hx rfl] at h24; cases h24
      subst hc
      simp only [only, Bool.false_eq_true, if_false, if_true, List.nil_append, Bool.or_true]
      have hw : w = w % 2 ^ 32 + 2 ^ 32 * (w / 2 ^ 32 % 2 ^ 16) + 2 ^ 48 * (w / 2 ^ 48) := by omega
      have key : Reads false (u32 >>= fun a => u16 >>= fun b => u16 >>= fun c =>
          (pure (a + 2 ^ 32 * b + 2 ^ 48 * c) : P Nat))
          [.u32 (w % 2 ^ 32), .u16 (w / 2 ^ 32 % 2 ^ 16), .u16 (w / 2 ^ 48)]
          (w % 2 ^ 32 + 2 ^ 32 * (w / 2 ^ 32 % 2 ^ 16) + 2 ^ 48 * (w / 2 ^ 48)) :=
        Reads.cons (reads_u32 _ _) (Reads.cons (reads_u16 _ _) (Reads.bind0 (reads_u16 _ _) (Reads.pure _)))
      rw [← hw] at key
      intro r bs tail hr hc hd hm
      have := key r bs tail hr hc hd hm
      rw [bind_def]
      simp only [isCross, hc, Bool.false_eq_true, if_false]
      rw [hc] at this
      exact this
  · have h24 : f.testBit 24 = false := by rw [h14] at hb; simpa using hb
    rw [h24]
    exact reads_u64 cross w

theorem reads_read (cross : Bool) (rf : Nat) (s s₀ : Sample) (h0 : s₀.group = none) :
    Reads cross (if rf.testBit 3 then readGroupReadInfo rf s₀ else readReadInfo rf s₀) (readLayout rf s)
      { s₀ with timeEnabled := if rf.testBit 0 then s.timeEnabled else s₀.timeEnabled
                timeRunning := if rf.testBit 1 then s.timeRunning else s₀.timeRunning
                one := if rf.testBit 3 then s₀.one
                  else ⟨s.one.value, if rf.testBit 2 then s.one.id else s₀.one.id,
                    if rf.testBit 4 then s.one.lost else s₀.one.lost⟩
                group := if rf.testBit 3 then some ((s.group.getD []).map (ReadValue.pick rf))
                  else s₀.group } := by
  cases h : rf.testBit 3
  · exact reads_readInfo cross rf s s₀ h
  · exact reads_groupReadInfo cross rf s s₀ h h0

theorem id_eq (iS h6 h16 : Bool) (x y : Nat) :
    (if (!iS && h16) = true then x else if h6 = true then x else if (iS && h16) = true then x else y)
      = if (h6 || h16) = true then x else y := by
  cases iS <;> cases h6 <;> cases h16 <;> rfl

theorem reads_fields (cross : Bool) (a : Attr) (isSample : Bool) (f : Nat) (s s₀ : Sample)
    (hf : ∀ b, f.testBit b = has a isSample b) (hact : (isSample || a.sampleIdAll) = true)
    (hsup : Supported a isSample) (hcr : cross = true → CrossOk a isSample s) (h0 : s₀.Empty) :
    Reads cross (readFields a isSample f s₀) (layout a isSample s) (pick a isSample s s₀) := by
  have hw := reads_weight cross f s.weight
  simp only [hf] at hw
  have hsh : f >>> 25 = 0 := by
    apply Nat.eq_of_testBit_eq
    intro i
    rw [Nat.testBit_shiftRight, hf, hsup.2.2.2.2 _ (by omega), Nat.zero_testBit]
  obtain ⟨s12, s13, s18, s14, -⟩ := hsup
  unfold readFields layout layoutIds
  rw [if_pos hact]
  simp only [hf, hsh, s12, s13, s18, Bool.false_eq_true, if_false, ne_eq, not_true]
  refine Reads.bind (Reads.opt fun _ => reads_u64 _ _) ?_
  refine Reads.bind (Reads.opt fun _ => reads_u64 _ _) ?_
  refine Reads.bind (Reads.opt fun _ => reads_u32 _ _) ?_
  refine Reads.bind (Reads.opt fun _ => reads_u32 _ _) ?_
  refine Reads.bind (Reads.opt fun _ => reads_u64 _ _) ?_
  refine Reads.bind (Reads.opt fun _ => reads_u64 _ _) ?_
  refine Reads.bind (Reads.opt fun _ => reads_u64 _ _) ?_
  refine Reads.bind (Reads.opt fun _ => reads_u64 _ _) ?_
  refine Reads.bind (Reads.opt fun _ => reads_u32 _ _) ?_
  refine Reads.skip32 ?_
  refine Reads.bind (Reads.opt fun _ => reads_u64 _ _) ?_
  refine Reads.bind (Reads.opt fun _ => reads_u64 _ _) ?_
  refine Reads.bindG (Reads.opt fun _ => reads_read _ _ s _ h0.2.2) fun s1 hs1 => ?_
  have e1 : s1.callchain = none ∧ s1.branchStack = none := by
    rw [hs1]; cases has a isSample 4 <;> exact ⟨h0.1, h0.2.1⟩
  refine Reads.bindG (Reads.opt fun _ => reads_callchain _ s _ e1.1) fun s2 hs2 => ?_
  have e2 : s2.branchStack = none := by
    rw [hs2]; cases has a isSample 5 <;> exact e1.2
  refine Reads.bindG (Reads.opt fun _ => reads_raw _ s _) fun s3 hs3 => ?_
  have e3 : s3.branchStack = none := by
    rw [hs3]; cases has a isSample 10 <;> exact e2
  refine Reads.bindG (Reads.opt fun h11 => reads_branch' _ _ s _ e3 fun hc => (hcr hc).1 h11) fun s4 hs4 => ?_
  refine Reads.bind2 (hw _ s14 fun hc => (hcr hc).2) ?_
  refine Reads.bind (Reads.opt fun _ => reads_u64 _ _) ?_
  refine Reads.bind (Reads.opt fun _ => reads_u64 _ _) ?_
  refine Reads.bind (Reads.opt fun _ => reads_u64 _ _) ?_
  refine Reads.bind (Reads.opt fun _ => reads_u64 _ _) ?_
  refine Reads.bind (Reads.opt fun _ => reads_u64 _ _) ?_
  refine Reads.bind0 (Reads.opt fun _ => reads_u64 _ _) (Reads.eq (Reads.pure _) ?_)
  unfold pick
  rw [if_pos hact]
  simp only [id_eq] at hs1
  cases h4 : has a isSample 4 <;> cases h5 : has a isSample 5 <;> cases h10 : has a isSample 10 <;>
    cases h11 : has a isSample 11 <;>
    simp only [h4, h5, h10, h11, Bool.false_eq_true, if_false, if_true] at hs1 hs2 hs3 hs4 <;>
    simp only [hs4, hs3, hs2, hs1, h4, h5, h10, h11, Bool.false_eq_true, if_false, if_true, Bool.true_and, Bool.false_and] <;>
    cases a.readFormat.testBit 3 <;> rfl

end Verif.Sample
