import Verif.Sample.ReadLemmas

/-! Writing the parts of a sample. -/

namespace Verif.Sample
open Verif.Buffer Verif.Event

/-- `w` writes bytes that match `L` if there is room, or, when writes are skipped, counts them. -/
def Emits (skip : Bool) (w : W → Option W) (L : List Piece) : Prop :=
  (skip = true → ∀ st, w st = some { st with size := st.size + total L }) ∧
  (skip = false → ∀ st : W, st.pos + total L ≤ st.mem.length → ∃ bs, Matches false L bs ∧
    w st = some ⟨overwrite st.mem st.pos bs, st.pos + total L, st.size + total L⟩)

theorem overwrite_nil' (buf : List UInt8) (pos : Nat) : overwrite buf pos [] = buf := by
  simp [overwrite]

theorem Emits.nil {skip : Bool} : Emits skip some [] := by
  refine ⟨fun _ st => by simp [total], fun _ st _ => ⟨[], rfl, ?_⟩⟩
  simp [total, overwrite_nil']

theorem Emits.bind {skip : Bool} {w v : W → Option W} {L M : List Piece} (hw : Emits skip w L)
    (hv : Emits skip v M) : Emits skip (fun st => (w st).bind v) (L ++ M) := by
  refine ⟨fun hs st => ?_, fun hs st hl => ?_⟩
  · show (w st).bind v = _
    rw [hw.1 hs st, total_append]
    show v _ = _
    rw [hv.1 hs]
    simp [Nat.add_assoc]
  · rw [total_append] at hl ⊢
    obtain ⟨a, ha, ea⟩ := hw.2 hs st (by omega)
    have hla := matches_len ha
    have hlen : (overwrite st.mem st.pos a).length = st.mem.length := overwrite_length (by omega)
    obtain ⟨b, hb, eb⟩ := hv.2 hs ⟨overwrite st.mem st.pos a, st.pos + total L, st.size + total L⟩
      (by show st.pos + total L + total M ≤ (overwrite st.mem st.pos a).length; omega)
    have hlb := matches_len hb
    refine ⟨a ++ b, matches_append.mpr ⟨a, b, rfl, ha, hb⟩, ?_⟩
    show (w st).bind v = _
    rw [ea]
    show v _ = _
    rw [eb]
    show some (W.mk (overwrite (overwrite st.mem st.pos a) (st.pos + total L) b) _ _) = _
    rw [← hla, overwrite_append (by omega)]
    simp [Nat.add_assoc]

theorem Emits.opt {skip c : Bool} {w : W → Option W} {L : List Piece} (h : c = true → Emits skip w L) :
    Emits skip (wOpt c w) (only c L) := by
  cases c
  · exact Emits.nil
  · exact h rfl

theorem Emits.opt2 {skip c : Bool} {w : W → Option W} {L L' : List Piece}
    (h : c = true → Emits skip w (L ++ L')) : Emits skip (wOpt c w) (only c L ++ only c L') := by
  cases c
  · exact Emits.nil
  · exact h rfl

theorem Emits.each {α : Type} {skip : Bool} {w : α → W → Option W} {f : α → List Piece} :
    ∀ l : List α, (∀ a ∈ l, Emits skip (w a) (f a)) → Emits skip (wEach w l) (l.flatMap f)
  | [], _ => Emits.nil
  | a :: l, h => Emits.bind (h a (List.mem_cons_self ..))
      (Emits.each l fun b hb => h b (List.mem_cons_of_mem _ hb))

/-- A store of bytes that fill the move. -/
theorem emits_store {skip : Bool} {bs : List UInt8} {n : Nat} {L : List Piece} (hn : bs.length = n)
    (hm : Matches false L bs) : Emits skip (store skip bs n) L := by
  have ht := matches_len hm
  refine ⟨fun hs st => ?_, fun hs st hl => ⟨bs, hm, ?_⟩⟩
  · subst hs; simp only [store, if_true]; rw [← hn, ht]
  · subst hs
    simp only [store, Bool.false_eq_true, if_false]
    rw [if_pos (by omega), ← ht, ← hn]
    rfl

theorem is_toLE {n v : Nat} (h : v < 256 ^ n) : (toLE n v).length = n ∧ decodeInt false (toLE n v) = v :=
  ⟨toLE_length n v, by simpa [decodeInt] using leNat_toLE_of_lt h⟩

theorem emits_w64 {skip : Bool} {v : Nat} (h : v < 2 ^ 64) : Emits skip (w64 skip v) [.u64 v] :=
  emits_store (toLE_length 8 v) (matches_one.mpr (is_toLE (n := 8) h))

/-- Two integers next to each other are the bytes of one. -/
theorem toLE_split (n m a b : Nat) (ha : a < 256 ^ n) (hb : b < 256 ^ m) :
    toLE (n + m) (a + 256 ^ n * b) = toLE n a ++ toLE m b := by
  have hlt : a + 256 ^ n * b < 256 ^ (n + m) := by
    rw [Nat.pow_add]
    calc a + 256 ^ n * b < 256 ^ n + 256 ^ n * b := by omega
      _ = 256 ^ n * (b + 1) := by rw [Nat.mul_succ]; omega
      _ ≤ 256 ^ n * 256 ^ m := Nat.mul_le_mul_left _ hb
  apply leNat_inj (by simp)
  rw [leNat_toLE_of_lt hlt, leNat_append, leNat_toLE_of_lt ha, leNat_toLE_of_lt hb, toLE_length]

theorem emits_pair {skip : Bool} {a b : Nat} (ha : a < 2 ^ 32) (hb : b < 2 ^ 32) :
    Emits skip (w64 skip (a + 2 ^ 32 * b)) ([.u32 a] ++ [.u32 b]) := by
  refine emits_store (toLE_length 8 _) ?_
  have := toLE_split 4 4 a b ha hb
  have e : toLE 8 (a + 2 ^ 32 * b) = toLE 4 a ++ toLE 4 b := this
  rw [e]
  exact matches_append.mpr ⟨_, _, rfl, matches_one.mpr (is_toLE (n := 4) ha), matches_one.mpr (is_toLE (n := 4) hb)⟩

theorem emits_cpu {skip : Bool} {a : Nat} (ha : a < 2 ^ 32) :
    Emits skip (w64 skip a) ([.u32 a] ++ [.pad 4]) := by
  refine emits_store (toLE_length 8 _) ?_
  have e : toLE 8 a = toLE 4 a ++ toLE 4 0 := by
    have := toLE_split 4 4 a 0 ha (by decide); rw [Nat.mul_zero, Nat.add_zero] at this; exact this
  rw [e]
  exact matches_append.mpr ⟨_, _, rfl, matches_one.mpr (is_toLE (n := 4) ha), matches_one.mpr (toLE_length 4 0)⟩

theorem emits_weight {skip : Bool} {w : Nat} {x y : Bool} (hw : w < 2 ^ 64) (h : (x && y) = false) :
    Emits skip (wOpt (x || y) (w64 skip w)) (only x [.u64 w] ++
      only y [.u32 (w % 2 ^ 32), .u16 (w / 2 ^ 32 % 2 ^ 16), .u16 (w / 2 ^ 48)]) := by
  cases x
  · cases y
    · exact Emits.nil
    · refine emits_store (toLE_length 8 _) ?_
      show Matches false [.u32 (w % 2 ^ 32), .u16 (w / 2 ^ 32 % 2 ^ 16), .u16 (w / 2 ^ 48)] _
      have h1 : w % 2 ^ 32 < 256 ^ 4 := Nat.mod_lt _ (by decide)
      have h2 : w / 2 ^ 32 % 2 ^ 16 < 256 ^ 2 := Nat.mod_lt _ (by decide)
      have h3 : w / 2 ^ 48 < 256 ^ 2 := by rw [Nat.div_lt_iff_lt_mul (by decide)]; exact hw
      have e1 := toLE_split 2 2 _ _ h2 h3
      have hlt : w / 2 ^ 32 % 2 ^ 16 + 256 ^ 2 * (w / 2 ^ 48) < 256 ^ 4 := by omega
      have e2 := toLE_split 4 4 _ _ h1 hlt
      have e3 : w % 2 ^ 32 + 256 ^ 4 * (w / 2 ^ 32 % 2 ^ 16 + 256 ^ 2 * (w / 2 ^ 48)) = w := by omega
      rw [e3] at e2
      have e : toLE 8 w = toLE 4 (w % 2 ^ 32) ++ (toLE 2 (w / 2 ^ 32 % 2 ^ 16) ++ toLE 2 (w / 2 ^ 48)) := by
        rw [← e1]; exact e2
      rw [e]
      exact ⟨_, _, rfl, is_toLE h1, _, _, rfl, is_toLE h2, _, _, (List.append_nil _).symm, is_toLE h3, rfl⟩
  · cases y
    · exact emits_w64 hw
    · cases h

theorem emits_raw {skip : Bool} {s : Sample} (h : s.raw.length < 2 ^ 31 - 16) :
    Emits skip (wRaw skip s.raw) (rawLayout s) := by
  have hmod : s.raw.length % 2 ^ 32 = s.raw.length := Nat.mod_eq_of_lt (by omega)
  have hal := align_raw (n := s.raw.length) (by omega)
  have ht : total (rawLayout s) = 4 + s.raw.length + (8 - (4 + s.raw.length) % 8) % 8 := by
    simp only [rawLayout, total_cons, total_nil, Piece.len]; omega
  have hlt : ¬ 4 + s.raw.length + (8 - (4 + s.raw.length) % 8) % 8 ≥ 2 ^ 31 := by omega
  refine ⟨fun hs st => ?_, fun hs st hl => ?_⟩
  · unfold wRaw
    simp only [hmod, hal, if_neg hlt]
    subst hs
    simp only [store, if_true]
    rw [ht]
  · rw [ht] at hl
    -- the padding keeps its old content
    refine ⟨(toLE 4 s.raw.length ++ s.raw) ++
      ((st.mem.drop (st.pos + (4 + s.raw.length))).take ((8 - (4 + s.raw.length) % 8) % 8)), ?_, ?_⟩
    · refine matches_append (L := [.u32 s.raw.length, .bytes s.raw])
        (M := [.pad ((8 - (4 + s.raw.length) % 8) % 8)]) |>.mpr ⟨_, _, rfl, ?_, matches_one.mpr ?_⟩
      · exact ⟨_, _, rfl, is_toLE (n := 4) (by omega), _, _, (List.append_nil _).symm, rfl, rfl⟩
      · show List.length _ = _
        rw [List.length_take, List.length_drop]; omega
    · unfold wRaw
      simp only [hmod, hal, if_neg hlt]
      subst hs
      simp only [store, Bool.false_eq_true, if_false]
      rw [if_pos (by simp; omega), ht]
      have hl1 : (toLE 4 s.raw.length ++ s.raw).length = 4 + s.raw.length := by simp
      generalize hp : (8 - (4 + s.raw.length) % 8) % 8 = p at hl ⊢
      generalize toLE 4 s.raw.length ++ s.raw = x at hl1 ⊢
      rw [← hl1] at hl ⊢
      have hdp : ((st.mem.drop (st.pos + x.length)).take p).length = p := by
        rw [List.length_take, List.length_drop]; omega
      have e : overwrite st.mem st.pos (x ++ (st.mem.drop (st.pos + x.length)).take p)
          = st.mem.take st.pos ++ x ++ st.mem.drop (st.pos + x.length) := by
        unfold overwrite
        rw [List.length_append, hdp, ← Nat.add_assoc,
          ← List.drop_drop (i := p) (j := st.pos + x.length)]
        generalize st.mem.drop (st.pos + x.length) = y
        simp only [List.append_assoc, List.take_append_drop]
      rw [e]

theorem emits_read {skip : Bool} {rf : Nat} {s : Sample} (hs : Fits s) :
    Emits skip (wRead skip rf s) (readLayout rf s) := by
  unfold wRead readLayout
  cases rf.testBit 3
  · exact Emits.bind (emits_w64 hs.one.1) (Emits.bind (Emits.opt fun _ => emits_w64 hs.timeEnabled)
      (Emits.bind (Emits.opt fun _ => emits_w64 hs.timeRunning) (Emits.bind
        (Emits.opt fun _ => emits_w64 hs.one.2.1) (Emits.opt fun _ => emits_w64 hs.one.2.2))))
  · exact Emits.bind (emits_w64 hs.groupLen) (Emits.bind (Emits.opt fun _ => emits_w64 hs.timeEnabled)
      (Emits.bind (Emits.opt fun _ => emits_w64 hs.timeRunning) (Emits.each _ fun v hv =>
        Emits.bind (emits_w64 (hs.group v hv).1) (Emits.bind (Emits.opt fun _ => emits_w64 (hs.group v hv).2.1)
          (Emits.opt fun _ => emits_w64 (hs.group v hv).2.2)))))

theorem emits_callchain {skip : Bool} {s : Sample} (hs : Fits s) :
    Emits skip (wCallchain skip s) (callchainLayout s) := by
  unfold wCallchain callchainLayout
  rw [List.map_eq_flatMap]
  exact Emits.bind (emits_w64 hs.callchainLen) (Emits.each _ fun v hv => emits_w64 (hs.callchain v hv))

theorem emits_branch {skip : Bool} {s : Sample} (hs : Fits s) :
    Emits skip (wBranch skip s) (branchLayout (!s.noHwIdx) s) := by
  unfold wBranch branchLayout
  exact Emits.bind (emits_w64 hs.branchLen) (Emits.bind (Emits.opt fun _ => emits_w64 hs.hwIdx)
    (Emits.each _ fun e he => Emits.bind (emits_w64 (hs.branch e he).1) (Emits.bind
      (emits_w64 (hs.branch e he).2.1) (emits_w64 (hs.branch e he).2.2))))

theorem Emits.bind2 {skip : Bool} {w v : W → Option W} {L L' M : List Piece} (hw : Emits skip w (L ++ L'))
    (hv : Emits skip v M) : Emits skip (fun st => (w st).bind v) (L ++ (L' ++ M)) := by
  rw [← List.append_assoc]; exact Emits.bind hw hv

theorem emits_fields {skip : Bool} {a : Attr} {isSample : Bool} {f : Nat} {s : Sample}
    (hf : ∀ b, f.testBit b = has a isSample b) (hact : (isSample || a.sampleIdAll) = true)
    (hsup : Supported a isSample) (hs : Fits s)
    (hh : has a isSample 11 = true → s.noHwIdx = !a.branchSampleType.testBit 17) :
    Emits skip (writeFields skip a isSample f s) (layout a isSample s) := by
  obtain ⟨s12, s13, s18, s14, -⟩ := hsup
  have hb : has a isSample 11 = true → Emits skip (wBranch skip s)
      (branchLayout (a.branchSampleType.testBit 17) s) := fun h => by
    have := emits_branch (skip := skip) hs
    rw [hh h, Bool.not_not] at this
    exact this
  unfold layout layoutIds
  rw [if_pos hact]
  unfold writeFields
  simp only [hf, s12, s13, s18, Bool.false_eq_true, if_false]
  refine Emits.bind (Emits.opt fun _ => emits_w64 hs.id) ?_
  refine Emits.bind (Emits.opt fun _ => emits_w64 hs.ip) ?_
  refine Emits.bind2 (Emits.opt2 fun _ => emits_pair hs.pid hs.tid) ?_
  refine Emits.bind (Emits.opt fun _ => emits_w64 hs.time) ?_
  refine Emits.bind (Emits.opt fun _ => emits_w64 hs.addr) ?_
  refine Emits.bind (Emits.opt fun _ => emits_w64 hs.id) ?_
  refine Emits.bind (Emits.opt fun _ => emits_w64 hs.streamId) ?_
  refine Emits.bind2 (Emits.opt2 fun _ => emits_cpu hs.cpu) ?_
  refine Emits.bind (Emits.opt fun _ => emits_w64 hs.id) ?_
  refine Emits.bind (Emits.opt fun _ => emits_w64 hs.period) ?_
  refine Emits.bind (Emits.opt fun _ => emits_read hs) ?_
  refine Emits.bind (Emits.opt fun _ => emits_callchain hs) ?_
  refine Emits.bind (Emits.opt fun _ => emits_raw hs.raw) ?_
  refine Emits.bind (Emits.opt hb) ?_
  refine Emits.bind2 (emits_weight hs.weight s14) ?_
  refine Emits.bind (Emits.opt fun _ => emits_w64 hs.dataSrc) ?_
  refine Emits.bind (Emits.opt fun _ => emits_w64 hs.transaction) ?_
  refine Emits.bind (Emits.opt fun _ => emits_w64 hs.physAddr) ?_
  refine Emits.bind (Emits.opt fun _ => emits_w64 hs.cgroup) ?_
  refine Emits.bind (Emits.opt fun _ => emits_w64 hs.dataPageSize) ?_
  exact Emits.opt fun _ => emits_w64 hs.codePageSize

end Verif.Sample
