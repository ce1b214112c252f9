import Verif.Serial.Lemmas

/-! Writing the parts of a sample into zeroed memory. -/

namespace Verif.Serial
open Verif.Buffer Verif.Event Verif.Sample Verif.Attr Verif.Util

/-- In memory that is zero `w` leaves exactly the bytes of `L`. -/
def Exact (w : W → Option W) (L : List Piece) : Prop :=
  ∀ (P : Bytes) (k size : Nat),
    w ⟨P ++ zeros (total L + k), P.length, size⟩ = some ⟨P ++ image L ++ zeros k, P.length + total L, size + total L⟩

theorem Exact.nil : Exact some [] := fun P k size => by simp [total, image]

theorem Exact.bind {w v : W → Option W} {L M : List Piece} (hw : Exact w L) (hv : Exact v M) :
    Exact (fun st => (w st).bind v) (L ++ M) := fun P k size => by
  show (w _).bind v = _
  rw [total_append, Nat.add_assoc, hw P (total M + k) size]
  show v _ = _
  have := hv (P ++ image L) k (size + total L)
  rw [List.length_append, image_length] at this
  rw [this, image_append]
  simp [Nat.add_assoc]

theorem Exact.opt {c : Bool} {w : W → Option W} {L : List Piece} (h : c = true → Exact w L) : Exact (wOpt c w) (only c L) := by
  cases c
  · exact Exact.nil
  · exact h rfl

theorem Exact.opt2 {c : Bool} {w : W → Option W} {L L' : List Piece} (h : c = true → Exact w (L ++ L')) :
    Exact (wOpt c w) (only c L ++ only c L') := by
  cases c
  · exact Exact.nil
  · exact h rfl

theorem Exact.bind2 {w v : W → Option W} {L L' M : List Piece} (hw : Exact w (L ++ L')) (hv : Exact v M) :
    Exact (fun st => (w st).bind v) (L ++ (L' ++ M)) := by
  rw [← List.append_assoc]; exact Exact.bind hw hv

theorem Exact.each {α : Type} {w : α → W → Option W} {f : α → List Piece} :
    ∀ l : List α, (∀ a ∈ l, Exact (w a) (f a)) → Exact (wEach w l) (l.flatMap f)
  | [], _ => Exact.nil
  | a :: l, h => Exact.bind (h a (List.mem_cons_self ..)) (Exact.each l fun b hb => h b (List.mem_cons_of_mem _ hb))

theorem exact_store {bs : Bytes} {n : Nat} {L : List Piece} {j : Nat} (hn : bs.length + j = n) (hm : image L = bs ++ zeros j) :
    Exact (Sample.store false bs n) L := fun P k size => by
  have ht : total L = bs.length + j := by rw [← image_length, hm]; simp
  simp only [Sample.store, Bool.false_eq_true, if_false]
  rw [if_pos (by simp; omega), ht, ← hn]
  have := overwrite_zeros P bs 0 (j + k)
  unfold overwrite at this
  simp only [Nat.zero_add, Nat.add_zero] at this
  rw [Nat.add_assoc, this, hm, zeros_add]
  simp

theorem exact_w64 {v : Nat} : Exact (w64 false v) [.u64 v] :=
  exact_store (j := 0) (by simp) (by simp [image, pieceBytes])

theorem exact_pair {a b : Nat} (ha : a < 2 ^ 32) (hb : b < 2 ^ 32) :
    Exact (w64 false (a + 2 ^ 32 * b)) ([.u32 a] ++ [.u32 b]) := by
  refine exact_store (j := 0) (by simp) ?_
  have e : toLE 8 (a + 2 ^ 32 * b) = toLE 4 a ++ toLE 4 b := toLE_split 4 4 a b ha hb
  rw [e]
  simp [image, pieceBytes]

theorem exact_cpu {a : Nat} (ha : a < 2 ^ 32) : Exact (w64 false a) ([.u32 a] ++ [.pad 4]) := by
  refine exact_store (j := 0) (by simp) ?_
  have e : toLE 8 a = toLE 4 a ++ toLE 4 0 := by
    have := toLE_split 4 4 a 0 ha (by decide); rw [Nat.mul_zero, Nat.add_zero] at this; exact this
  rw [e]
  rfl

theorem exact_weight {w : Nat} {x y : Bool} (hw : w < 2 ^ 64) (h : (x && y) = false) :
    Exact (wOpt (x || y) (w64 false w)) (only x [.u64 w] ++
      only y [.u32 (w % 2 ^ 32), .u16 (w / 2 ^ 32 % 2 ^ 16), .u16 (w / 2 ^ 48)]) := by
  cases x
  · cases y
    · exact Exact.nil
    · refine exact_store (j := 0) (by simp) ?_
      show image [.u32 (w % 2 ^ 32), .u16 (w / 2 ^ 32 % 2 ^ 16), .u16 (w / 2 ^ 48)] = _
      have h1 : w % 2 ^ 32 < 256 ^ 4 := Nat.mod_lt _ (by decide)
      have h2 : w / 2 ^ 32 % 2 ^ 16 < 256 ^ 2 := Nat.mod_lt _ (by decide)
      have h3 : w / 2 ^ 48 < 256 ^ 2 := by rw [Nat.div_lt_iff_lt_mul (by decide)]; exact hw
      have e1 := toLE_split 2 2 _ _ h2 h3
      have hlt : w / 2 ^ 32 % 2 ^ 16 + 256 ^ 2 * (w / 2 ^ 48) < 256 ^ 4 := by omega
      have e2 := toLE_split 4 4 _ _ h1 hlt
      have e3 : w % 2 ^ 32 + 256 ^ 4 * (w / 2 ^ 32 % 2 ^ 16 + 256 ^ 2 * (w / 2 ^ 48)) = w := by omega
      rw [e3] at e2
      have e : toLE 8 w = toLE 4 (w % 2 ^ 32) ++ (toLE 2 (w / 2 ^ 32 % 2 ^ 16) ++ toLE 2 (w / 2 ^ 48)) := by
        rw [← e1]; exact e2
      rw [e]
      simp [image, pieceBytes]
  · cases y
    · exact exact_w64
    · cases h

theorem exact_raw {s : Sample} (h : s.raw.length < 2 ^ 31 - 16) : Exact (wRaw false s.raw) (rawLayout s) := by
  have hmod : s.raw.length % 2 ^ 32 = s.raw.length := Nat.mod_eq_of_lt (by omega)
  have hal := align_raw (n := s.raw.length) (by omega)
  have hlt : ¬ 4 + s.raw.length + (8 - (4 + s.raw.length) % 8) % 8 ≥ 2 ^ 31 := by omega
  have e : wRaw false s.raw = Sample.store false (toLE 4 s.raw.length ++ s.raw) (4 + s.raw.length + (8 - (4 + s.raw.length) % 8) % 8) := by
    funext w
    unfold wRaw
    simp only [hmod, hal, if_neg hlt]
  rw [e]
  refine exact_store (j := (8 - (4 + s.raw.length) % 8) % 8) (by simp) ?_
  simp [rawLayout, image, pieceBytes]

theorem exact_read {rf : Nat} {s : Sample} : Exact (wRead false rf s) (readLayout rf s) := by
  unfold wRead readLayout
  cases rf.testBit 3
  · exact Exact.bind exact_w64 (Exact.bind (Exact.opt fun _ => exact_w64)
      (Exact.bind (Exact.opt fun _ => exact_w64) (Exact.bind
        (Exact.opt fun _ => exact_w64) (Exact.opt fun _ => exact_w64))))
  · exact Exact.bind exact_w64 (Exact.bind (Exact.opt fun _ => exact_w64)
      (Exact.bind (Exact.opt fun _ => exact_w64) (Exact.each _ fun v _ =>
        Exact.bind exact_w64 (Exact.bind (Exact.opt fun _ => exact_w64)
          (Exact.opt fun _ => exact_w64)))))

theorem exact_callchain {s : Sample} : Exact (wCallchain false s) (callchainLayout s) := by
  unfold wCallchain callchainLayout
  rw [List.map_eq_flatMap]
  exact Exact.bind exact_w64 (Exact.each _ fun v _ => exact_w64)

theorem exact_branch {s : Sample} : Exact (wBranch false s) (branchLayout (!s.noHwIdx) s) := by
  unfold wBranch branchLayout
  exact Exact.bind exact_w64 (Exact.bind (Exact.opt fun _ => exact_w64)
    (Exact.each _ fun e _ => Exact.bind exact_w64 (Exact.bind exact_w64 exact_w64)))

theorem exact_fields {a : Sample.Attr} {isSample : Bool} {f : Nat} {s : Sample}
    (hf : ∀ b, f.testBit b = has a isSample b) (hact : (isSample || a.sampleIdAll) = true)
    (hsup : Supported a isSample) (hs : Fits s)
    (hh : has a isSample 11 = true → s.noHwIdx = !a.branchSampleType.testBit 17) :
    Exact (writeFields false a isSample f s) (layout a isSample s) := by
  obtain ⟨s12, s13, s18, s14, -⟩ := hsup
  have hb : has a isSample 11 = true → Exact (wBranch false s)
      (branchLayout (a.branchSampleType.testBit 17) s) := fun h => by
    have := exact_branch (s := s)
    rw [hh h, Bool.not_not] at this
    exact this
  unfold layout layoutIds
  rw [if_pos hact]
  unfold writeFields
  simp only [hf, s12, s13, s18, Bool.false_eq_true, if_false]
  refine Exact.bind (Exact.opt fun _ => exact_w64) ?_
  refine Exact.bind (Exact.opt fun _ => exact_w64) ?_
  refine Exact.bind2 (Exact.opt2 fun _ => exact_pair hs.pid hs.tid) ?_
  refine Exact.bind (Exact.opt fun _ => exact_w64) ?_
  refine Exact.bind (Exact.opt fun _ => exact_w64) ?_
  refine Exact.bind (Exact.opt fun _ => exact_w64) ?_
  refine Exact.bind (Exact.opt fun _ => exact_w64) ?_
  refine Exact.bind2 (Exact.opt2 fun _ => exact_cpu hs.cpu) ?_
  refine Exact.bind (Exact.opt fun _ => exact_w64) ?_
  refine Exact.bind (Exact.opt fun _ => exact_w64) ?_
  refine Exact.bind (Exact.opt fun _ => exact_read) ?_
  refine Exact.bind (Exact.opt fun _ => exact_callchain) ?_
  refine Exact.bind (Exact.opt fun _ => exact_raw hs.raw) ?_
  refine Exact.bind (Exact.opt hb) ?_
  refine Exact.bind2 (exact_weight hs.weight s14) ?_
  refine Exact.bind (Exact.opt fun _ => exact_w64) ?_
  refine Exact.bind (Exact.opt fun _ => exact_w64) ?_
  refine Exact.bind (Exact.opt fun _ => exact_w64) ?_
  refine Exact.bind (Exact.opt fun _ => exact_w64) ?_
  refine Exact.bind (Exact.opt fun _ => exact_w64) ?_
  exact Exact.opt fun _ => exact_w64

/-- Writing a sample into an event whose memory behind its own data is zero. -/
theorem write_zeros {e : RawEvent} {a : Sample.Attr} {s : Sample} {p : Bytes} (hty : carriesSample e.type = true)
    (hst : a.sampleType < 2 ^ 64) (hsup : Supported a (e.type = SAMPLE)) (hs : Fits s)
    (hh : has a (e.type = SAMPLE) 11 = true → s.noHwIdx = !a.branchSampleType.testBit 17)
    (hp : e.payload = p ++ zeros (total (layout a (e.type = SAMPLE) s))) (hd : eventDataSize e = some (8 + p.length)) :
    writePerfSampleInfo a s e = some (true, { e with payload := p ++ image (layout a (e.type = SAMPLE) s) }) := by
  have hsz : e.size = 8 + p.length + total (layout a (e.type = SAMPLE) s) := by
    unfold RawEvent.size; rw [hp]; simp; omega
  unfold writePerfSampleInfo
  rw [supported_carries, hty, hd]
  simp only [not_true, if_false]
  rw [if_neg (by omega), show 8 + p.length - 8 = p.length by omega]
  unfold writeSample
  by_cases hact : e.type = SAMPLE ∨ a.sampleIdAll = true
  · rw [if_neg (fun h => h hact)]
    obtain ⟨f, hf, hbits⟩ := fieldsFor_some hst hty a rfl
    rw [hf]
    simp only
    have hact' : (decide (e.type = SAMPLE) || a.sampleIdAll) = true := by simpa using hact
    have hx := exact_fields hbits hact' hsup hs hh p 0 0
    rw [Nat.add_zero] at hx
    rw [hp, hx]
    simp only [Nat.zero_add]
    rw [hsz]
    simp
  · rw [if_pos hact]
    have hact' : ¬ ((decide (e.type = SAMPLE) || a.sampleIdAll) = true) := by simpa using hact
    have hL : layout a (e.type = SAMPLE) s = [] := by
      unfold layout layoutIds
      rw [if_neg hact']
    rw [hL] at hsz hp ⊢
    simp only
    rw [hsz, hp]
    simp [total, image]

theorem matches_of {w : W → Option W} {L : List Piece} (he : Emits false w L) (hx : Exact w L) : Matches false L (image L) := by
  obtain ⟨bs, hm, hb⟩ := he.2 rfl ⟨zeros (total L), 0, 0⟩ (by simp)
  have := hx [] 0 0
  simp only [List.nil_append, Nat.add_zero, List.length_nil] at this
  rw [hb] at this
  simp only [Option.some.injEq, W.mk.injEq] at this
  have hl := matches_len hm
  have e : bs = image L := by
    have h := this.1
    unfold overwrite at h
    rw [hl] at h
    simpa using h
  rw [← e]; exact hm

/-- The bytes of the sample fields match the fields. -/
theorem matches_layout {a : Sample.Attr} {isSample : Bool} {s : Sample} (hst : a.sampleType < 2 ^ 64) (hsup : Supported a isSample)
    (hs : Fits s) : Matches false (layout a isSample s) (image (layout a isSample s)) := by
  by_cases hact : (isSample || a.sampleIdAll) = true
  · let s' := { s with noHwIdx := !a.branchSampleType.testBit 17 }
    have hs' : Fits s' := ⟨hs.ip, hs.pid, hs.tid, hs.time, hs.addr, hs.id, hs.streamId, hs.period, hs.weight, hs.transaction, hs.cpu,
      hs.raw, hs.dataSrc, hs.callchainLen, hs.callchain, hs.hwIdx, hs.branchLen, hs.branch, hs.timeEnabled, hs.timeRunning, hs.one,
      hs.groupLen, hs.group, hs.physAddr, hs.cgroup, hs.dataPageSize, hs.codePageSize⟩
    have hL : layout a isSample s = layout a isSample s' := rfl
    obtain ⟨f, hf, hbits⟩ : ∃ f : Nat, True ∧ ∀ b, f.testBit b = has a isSample b := by
      cases isSample
      · obtain ⟨f, -, h⟩ := fieldsFor_some (t := MMAP) hst (by decide) a rfl
        exact ⟨f, trivial, h⟩
      · obtain ⟨f, -, h⟩ := fieldsFor_some (t := SAMPLE) hst (by decide) a rfl
        exact ⟨f, trivial, h⟩
    rw [hL]
    exact matches_of (emits_fields hbits hact hsup hs' (fun _ => rfl)) (exact_fields hbits hact hsup hs' (fun _ => rfl))
  · unfold layout layoutIds
    rw [if_neg hact]
    rfl

end Verif.Serial
