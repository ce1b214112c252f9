import Verif.Sample.TrackLemmas
import Verif.Sample.WriteLemmas
import Verif.Event.Local

/-!
# Sample data (C24, C25, C26, C62)
-/

namespace Verif.Sample
open Verif.Buffer Verif.Event

theorem supported_carries (t : Nat) : isSupportedEventType t = carriesSample t := rfl

theorem mask_bit (b : Nat) : sampleIdMask.testBit b = [1, 2, 6, 7, 9, 16].contains b := by
  by_cases h : b < 17
  · have key : ∀ b : Fin 17, sampleIdMask.testBit b.val = [1, 2, 6, 7, 9, 16].contains b.val := by decide
    exact key ⟨b, h⟩
  · rw [Nat.testBit_lt_two_pow (Nat.lt_of_lt_of_le (show sampleIdMask < 2 ^ 17 by decide)
      (Nat.pow_le_pow_right (by decide) (by omega)))]
    simp; omega

/-- The fields selected for an event are those of the format. -/
theorem fieldsFor_some {t st : Nat} (hst : st < 2 ^ 64) (h : carriesSample t = true) (a : Attr)
    (ha : a.sampleType = st) :
    ∃ f, fieldsFor t st = some f ∧ ∀ b, f.testBit b = has a (t = SAMPLE) b := by
  unfold fieldsFor has
  simp only [carriesSample, decide_eq_true_eq] at h
  by_cases c : t = SAMPLE
  · subst c
    rw [if_neg (by decide), if_pos rfl]
    refine ⟨_, rfl, fun b => ?_⟩
    rw [ha, Nat.and_two_pow_sub_one_eq_mod, Nat.mod_eq_of_lt hst]
    simp
  · rw [if_pos (by rcases h with c' | h
                   · exact absurd c' c
                   · grind)]
    refine ⟨_, rfl, fun b => ?_⟩
    rw [ha, Nat.testBit_and, mask_bit]
    simp [c]

/-! ## C24 -/

/-- C24: the sample part of an event carries the sample: if the bytes behind the event's own data are the
fields of `s` in the documented layout, in either byte order, reading gives `s`, restricted to the selected
fields, and it does so only because it consumed all these bytes. -/
theorem read_layout (e : RawEvent) (header : List UInt8) (a : Attr) (cross : Bool) (s s₀ : Sample)
    (own bs : List UInt8) (hok : e.Ok) (hh : header.length = 8) (hty : carriesSample e.type = true)
    (hst : a.sampleType < 2 ^ 64) (hsup : Supported a (e.type = SAMPLE))
    (hcr : cross = true → CrossOk a (e.type = SAMPLE) s) (h0 : s₀.Empty)
    (hp : e.payload = own ++ bs) (hd : eventDataSize e = some (8 + own.length))
    (hbs : Matches cross (layout a (e.type = SAMPLE) s) bs) :
    readPerfSampleInfo e header a cross s₀ = some (some (pick a (e.type = SAMPLE) s s₀)) := by
  have hok' : e.size < 2 ^ 16 := hok
  have hsz : e.size = 8 + own.length + bs.length := by unfold RawEvent.size; rw [hp]; simp; omega
  have hbl : (header ++ e.payload).length = e.size := by rw [hsz, hp]; simp; omega
  unfold readPerfSampleInfo readPerfSampleFromData
  rw [supported_carries, hty, hd]
  simp only [not_true, if_false]
  rw [if_neg (by omega)]
  have hseek : (Reader.new (header ++ e.payload) cross).seekSet (8 + own.length) =
      (true, ⟨header ++ e.payload, (header ++ e.payload).length, 8 + own.length, cross⟩) := by
    unfold Reader.seekSet Reader.new
    simp only
    rw [if_neg (by omega)]
  rw [hseek]
  simp only [not_true, if_false]
  by_cases hact : e.type = SAMPLE ∨ a.sampleIdAll = true
  · rw [if_neg (fun h => h hact)]
    obtain ⟨f, hf, hbits⟩ := fieldsFor_some hst hty a rfl
    rw [hf]
    simp only
    have hact' : (decide (e.type = SAMPLE) || a.sampleIdAll) = true := by simpa using hact
    have hr := reads_fields cross a (e.type = SAMPLE) f s s₀ hbits hact' hsup hcr h0
      ⟨header ++ e.payload, (header ++ e.payload).length, 8 + own.length, cross⟩ bs []
      ⟨rfl, by show 8 + own.length ≤ (header ++ e.payload).length; omega,
        by show (header ++ e.payload).length < 2 ^ 63; omega⟩ rfl
      (by
        show (header ++ e.payload).drop (8 + own.length) = bs ++ []
        rw [hp, ← List.append_assoc, List.drop_left' (by simp; omega), List.append_nil]) hbs
    rw [hr]
    simp only
    rw [if_pos (by omega)]
  · rw [if_pos hact]
    simp only
    have hact' : ¬ ((decide (e.type = SAMPLE) || a.sampleIdAll) = true) := by simpa using hact
    unfold layout layoutIds at hbs
    rw [if_neg hact'] at hbs
    have hbs' : bs = [] := hbs
    unfold pick
    rw [if_neg hact', if_pos (by rw [hsz, hbs']; rfl)]

/-- A sample event with TIME, CALLCHAIN and RAW fields, with two addresses and three raw bytes. -/
def exAttr : Attr := { sampleType := 4 + 32 + 1024, readFormat := 0, branchSampleType := 0, sampleIdAll := true }
def exSample : Sample := { time := 77, callchain := some [5, 2 ^ 64 - 1], raw := [1, 2, 3] }
def exBytes : List UInt8 :=
  toLE 8 77 ++ (toLE 8 2 ++ toLE 8 5 ++ toLE 8 (2 ^ 64 - 1)) ++ (toLE 4 3 ++ [1, 2, 3, 9])
def exEvent : RawEvent := { type := SAMPLE, payload := exBytes }

instance (a : Attr) (i : Bool) (s : Sample) : Decidable (CrossOk a i s) := by unfold CrossOk; infer_instance

instance (cross : Bool) (bs : List UInt8) : (p : Piece) → Decidable (p.Is cross bs)
  | .u16 _ | .u32 _ | .u64 _ => by unfold Piece.Is; infer_instance
  | .bytes _ | .pad _ => by unfold Piece.Is; infer_instance

theorem exAttr_supported : Supported exAttr true := by
  refine ⟨by decide, by decide, by decide, by decide, fun b hb => ?_⟩
  unfold has
  rw [Nat.testBit_lt_two_pow (Nat.lt_of_lt_of_le (show exAttr.sampleType < 2 ^ 25 by decide)
    (Nat.pow_le_pow_right (by decide) hb))]
  rfl

theorem exBytes_match : Matches false (layout exAttr true exSample) exBytes := by
  refine ⟨toLE 8 77, _, by unfold exBytes; rw [List.append_assoc], by decide +kernel, ?_⟩
  refine ⟨toLE 8 2, _, by rw [List.append_assoc, List.append_assoc], by decide +kernel, ?_⟩
  refine ⟨toLE 8 5, _, rfl, by decide +kernel, ?_⟩
  refine ⟨toLE 8 (2 ^ 64 - 1), _, rfl, by decide +kernel, ?_⟩
  refine ⟨toLE 4 3, _, rfl, by decide +kernel, ?_⟩
  exact ⟨[1, 2, 3], [9], rfl, rfl, [9], [], rfl, rfl, rfl⟩

example : readPerfSampleInfo exEvent (toLE 8 0) exAttr false {} = some (some exSample) :=
  read_layout exEvent (toLE 8 0) exAttr false exSample {} [] exBytes (by decide +kernel) (by decide) (by decide) (by decide)
    exAttr_supported (by simp) ⟨rfl, rfl, rfl⟩ rfl (by decide +kernel) exBytes_match

/-! ## C25 -/

/-- The number of bytes is a multiple of eight. -/
abbrev M8 (L : List Piece) : Prop := total L % 8 = 0

theorem M8.append {L M : List Piece} (h : M8 L) (h' : M8 M) : M8 (L ++ M) := by
  unfold M8 at *; rw [total_append]; omega
theorem M8.only {c : Bool} {L : List Piece} (h : M8 L) : M8 (only c L) := by
  cases c
  · rfl
  · exact h
theorem M8.pair {c : Bool} {L L' M : List Piece} (h : M8 (L ++ L')) (h' : M8 M) :
    M8 (Sample.only c L ++ (Sample.only c L' ++ M)) := by
  rw [← List.append_assoc]
  refine M8.append ?_ h'
  cases c
  · rfl
  · exact h
theorem M8.flat {α : Type} {f : α → List Piece} : ∀ {l : List α}, (∀ a ∈ l, M8 (f a)) → M8 (l.flatMap f)
  | [], _ => rfl
  | a :: l, h => by
    rw [List.flatMap_cons]
    exact M8.append (h a (List.mem_cons_self ..)) (M8.flat fun b hb => h b (List.mem_cons_of_mem _ hb))
theorem M8.cons {v : Nat} {L : List Piece} (h : M8 L) : M8 (.u64 v :: L) := M8.append (L := [.u64 v]) (M := L) (by simp [M8, total, Piece.len]) h

theorem m8_layout (p q : Piece) (hp : p.len = 8) (hq : q.len = 8) (a : Attr) (i : Bool) (s : Sample) :
    M8 (layoutIds p q a i s) := by
  have one : ∀ x : Piece, x.len = 8 → M8 [x] := fun x h => by
    unfold M8; rw [total_cons, total_nil, h]
  unfold layoutIds
  by_cases h : (i || a.sampleIdAll) = true
  case neg =>
    rw [if_neg h]; simp [M8, total]
  rw [if_pos h]
  refine M8.append (M8.only (one _ hp)) ?_
  refine M8.append (M8.only (by simp [M8, total, Piece.len])) ?_
  refine M8.pair (by simp [M8, total, Piece.len]) ?_
  refine M8.append (M8.only (by simp [M8, total, Piece.len])) ?_
  refine M8.append (M8.only (by simp [M8, total, Piece.len])) ?_
  refine M8.append (M8.only (one _ hq)) ?_
  refine M8.append (M8.only (by simp [M8, total, Piece.len])) ?_
  refine M8.pair (by simp [M8, total, Piece.len]) ?_
  refine M8.append (M8.only (by simp [M8, total, Piece.len])) ?_
  refine M8.append (M8.only (by simp [M8, total, Piece.len])) ?_
  refine M8.append (M8.only ?_) ?_
  · unfold readLayout
    split
    · exact M8.cons (M8.append (M8.only (by simp [M8, total, Piece.len])) (M8.append (M8.only (by simp [M8, total, Piece.len])) (M8.flat fun v _ =>
        M8.cons (M8.append (M8.only (by simp [M8, total, Piece.len])) (M8.only (by simp [M8, total, Piece.len]))))))
    · exact M8.cons (M8.append (M8.only (by simp [M8, total, Piece.len])) (M8.append (M8.only (by simp [M8, total, Piece.len])) (M8.append (M8.only (by simp [M8, total, Piece.len])) (M8.only (by simp [M8, total, Piece.len])))))
  refine M8.append (M8.only ?_) ?_
  · unfold callchainLayout
    rw [List.map_eq_flatMap]
    exact M8.cons (M8.flat fun _ _ => by simp [M8, total, Piece.len])
  refine M8.append (M8.only ?_) ?_
  · unfold M8 rawLayout
    simp only [total_cons, total_nil, Piece.len]
    omega
  refine M8.append (M8.only ?_) ?_
  · exact M8.cons (M8.append (M8.only (by simp [M8, total, Piece.len])) (M8.flat fun _ _ => by simp [M8, total, Piece.len]))
  refine M8.append (M8.only (by simp [M8, total, Piece.len])) ?_
  refine M8.append (M8.only (by simp [M8, total, Piece.len])) ?_
  refine M8.append (M8.only (by simp [M8, total, Piece.len])) ?_
  refine M8.append (M8.only (by simp [M8, total, Piece.len])) ?_
  refine M8.append (M8.only (by simp [M8, total, Piece.len])) ?_
  refine M8.append (M8.only (by simp [M8, total, Piece.len])) ?_
  exact M8.append (M8.only (by simp [M8, total, Piece.len])) (M8.only (by simp [M8, total, Piece.len]))

/-- Whatever the fields, the number of bytes written does not depend on whether writing is skipped. -/
theorem emits_any (a : Attr) (i : Bool) (f : Nat) (s : Sample) (hs : Fits s) :
    ∃ L, M8 L ∧ ∀ skip, Emits skip (writeFields skip a i f s) L := by
  have m1 : ∀ v, M8 [.u64 v] := fun v => by simp [M8, total, Piece.len]
  let E (w : Bool → W → Option W) : Prop := ∃ L, M8 L ∧ ∀ skip, Emits skip (w skip) L
  have bind : ∀ {w v : Bool → W → Option W}, E w → E v → E (fun skip st => (w skip st).bind (v skip)) :=
    fun ⟨L, h1, h2⟩ ⟨M, h3, h4⟩ => ⟨L ++ M, M8.append h1 h3, fun k => Emits.bind (h2 k) (h4 k)⟩
  have opt : ∀ {c : Bool} {w : Bool → W → Option W}, E w → E (fun skip => wOpt c (w skip)) :=
    fun {c w} ⟨L, h1, h2⟩ => ⟨only c L, M8.only h1, fun k => Emits.opt fun _ => h2 k⟩
  have nil : E (fun _ => some) := ⟨[], by simp [M8, total], fun _ => Emits.nil⟩
  have w64 : ∀ {v}, v < 2 ^ 64 → E (fun k => w64 k v) := fun h => ⟨_, m1 _, fun _ => emits_w64 h⟩
  have each : ∀ {α : Type} {w : Bool → α → W → Option W} (l : List α), (∀ x ∈ l, E (fun k => w k x)) →
      E (fun k => wEach (w k) l) := by
    intro α w l
    induction l with
    | nil => exact fun _ => nil
    | cons x l ih =>
      intro h
      exact bind (h x (List.mem_cons_self ..)) (ih fun y hy => h y (List.mem_cons_of_mem _ hy))
  have ite : ∀ {c : Prop} [Decidable c] {w v : Bool → W → Option W}, E w → E v →
      E (fun k st => if c then w k st else v k st) := by
    intro c _ w v hw hv
    by_cases h : c
    · simp only [if_pos h]; exact hw
    · simp only [if_neg h]; exact hv
  have read : E (fun k => wRead k a.readFormat s) := by
    unfold wRead
    refine ite (c := a.readFormat.testBit 3 = true) ?_ ?_
    · exact bind (w64 hs.groupLen) (bind (opt (w64 hs.timeEnabled)) (bind (opt (w64 hs.timeRunning))
        (each _ fun v hv => bind (w64 (hs.group v hv).1) (bind (opt (w64 (hs.group v hv).2.1))
          (opt (w64 (hs.group v hv).2.2))))))
    · exact bind (w64 hs.one.1) (bind (opt (w64 hs.timeEnabled)) (bind (opt (w64 hs.timeRunning))
        (bind (opt (w64 hs.one.2.1)) (opt (w64 hs.one.2.2)))))
  have call : E (fun k => wCallchain k s) :=
    bind (w64 hs.callchainLen) (each _ fun v hv => w64 (hs.callchain v hv))
  have raw : E (fun k => wRaw k s.raw) := ⟨rawLayout s, by
    unfold M8 rawLayout
    simp only [total_cons, total_nil, Piece.len]
    omega, fun _ => emits_raw hs.raw⟩
  have branch : E (fun k => wBranch k s) :=
    bind (w64 hs.branchLen) (bind (opt (w64 hs.hwIdx)) (each _ fun e he =>
      bind (w64 (hs.branch e he).1) (bind (w64 (hs.branch e he).2.1) (w64 (hs.branch e he).2.2))))
  have pidtid : s.pid + 2 ^ 32 * s.tid < 2 ^ 64 := by have := hs.pid; have := hs.tid; omega
  show E (fun k => writeFields k a i f s)
  unfold writeFields
  refine bind (opt (w64 hs.id)) (bind (opt (w64 hs.ip)) (bind (opt (w64 pidtid)) (bind (opt (w64 hs.time))
    (bind (opt (w64 hs.addr)) (bind (opt (w64 hs.id)) (bind (opt (w64 hs.streamId))
    (bind (opt (w64 (Nat.lt_trans hs.cpu (by decide)))) (bind (opt (w64 hs.id)) (bind (opt (w64 hs.period))
    (bind (opt read) (bind (opt call) (bind (opt raw) (bind (opt branch) ?_)))))))))))))
  refine ite nil (ite nil ?_)
  refine bind (opt (w64 hs.weight)) (bind (opt (w64 hs.dataSrc)) (bind (opt (w64 hs.transaction)) (ite nil ?_)))
  exact bind (opt (w64 hs.physAddr)) (bind (opt (w64 hs.cgroup)) (bind (opt (w64 hs.dataPageSize))
    (opt (w64 hs.codePageSize))))

/-- C25: for every attribute, supported or not, and every sample, the predicted size is a multiple of 8 and
it is what the writer returns and the number of bytes it writes; no other bytes change. -/
theorem sampleDataSize_exact (a : Attr) (type : Nat) (s : Sample) (hty : carriesSample type = true)
    (hst : a.sampleType < 2 ^ 64) (hs : Fits s) :
    ∃ n, sampleDataSize a type s = some n ∧ n % 8 = 0 ∧
      ∀ (mem : List UInt8) (pos : Nat), pos + n ≤ mem.length →
        ∃ bs, bs.length = n ∧
          writeSample false a type s mem pos = some (n, mem.take pos ++ bs ++ mem.drop (pos + n)) := by
  unfold sampleDataSize writeSample
  by_cases hact : type = SAMPLE ∨ a.sampleIdAll = true
  · simp only [if_neg (fun h : ¬ (type = SAMPLE ∨ a.sampleIdAll = true) => h hact)]
    obtain ⟨f, hf, -⟩ := fieldsFor_some hst hty a rfl
    obtain ⟨L, h8, hL⟩ := emits_any a (type = SAMPLE) f s hs
    simp only [hf]
    refine ⟨total L, ?_, h8, fun mem pos hm => ?_⟩
    · rw [(hL true).1 rfl]; simp
    · obtain ⟨bs, hbs, he⟩ := (hL false).2 rfl ⟨mem, pos, 0⟩ hm
      have := matches_len hbs
      refine ⟨bs, this, ?_⟩
      rw [he]
      simp only [Nat.zero_add, overwrite, this]
  · simp only [if_pos hact]
    refine ⟨0, rfl, rfl, fun mem pos _ => ⟨[], rfl, ?_⟩⟩
    simp

/-- `no_hw_idx` of the sample says what the attribute says. -/
def HwIdxOk (a : Attr) (isSample : Bool) (s : Sample) : Prop :=
  has a isSample 11 = true → s.noHwIdx = !a.branchSampleType.testBit 17

instance (a : Attr) (i : Bool) (s : Sample) : Decidable (HwIdxOk a i s) := by unfold HwIdxOk; infer_instance

/-- C25: the predicted size is the size of the fields in the documented layout, and a multiple of 8. -/
theorem sampleDataSize_layout (a : Attr) (type : Nat) (s : Sample) (hty : carriesSample type = true)
    (hst : a.sampleType < 2 ^ 64) (hsup : Supported a (type = SAMPLE)) (hs : Fits s)
    (hh : HwIdxOk a (type = SAMPLE) s) :
    sampleDataSize a type s = some (total (layout a (type = SAMPLE) s)) ∧
    total (layout a (type = SAMPLE) s) % 8 = 0 := by
  refine ⟨?_, m8_layout _ _ rfl rfl a _ s⟩
  unfold sampleDataSize writeSample
  by_cases hact : type = SAMPLE ∨ a.sampleIdAll = true
  · rw [if_neg (fun h => h hact)]
    obtain ⟨f, hf, hbits⟩ := fieldsFor_some hst hty a rfl
    have hact' : (decide (type = SAMPLE) || a.sampleIdAll) = true := by simpa using hact
    have he := (emits_fields (skip := true) hbits hact' hsup hs hh).1 rfl ⟨[], 0, 0⟩
    rw [hf]
    simp only
    rw [he]
    simp
  · rw [if_pos hact]
    have hact' : ¬ ((decide (type = SAMPLE) || a.sampleIdAll) = true) := by simpa using hact
    unfold layout layoutIds
    rw [if_neg hact']
    rfl

/-- C24, C25, C62 (first part): if there is room behind the event's own data for as many bytes as
predicted, exactly that many bytes are written, they are the fields of the sample in the documented layout,
nothing else changes, and the verdict says whether they fill the event. -/
theorem write_layout (e : RawEvent) (a : Attr) (s : Sample) (own room : List UInt8) (n : Nat)
    (hty : carriesSample e.type = true) (hst : a.sampleType < 2 ^ 64)
    (hsup : Supported a (e.type = SAMPLE)) (hs : Fits s) (hh : HwIdxOk a (e.type = SAMPLE) s)
    (hp : e.payload = own ++ room) (hd : eventDataSize e = some (8 + own.length))
    (hn : sampleDataSize a e.type s = some n) (hroom : n ≤ room.length) :
    ∃ bs, bs.length = n ∧ Matches false (layout a (e.type = SAMPLE) s) bs ∧
      writePerfSampleInfo a s e =
        some (decide (n = room.length), { e with payload := own ++ bs ++ room.drop n }) := by
  have hn' : total (layout a (e.type = SAMPLE) s) = n := by
    have := (sampleDataSize_layout a e.type s hty hst hsup hs hh).1
    rw [hn] at this; exact (Option.some.inj this).symm
  have hsz : e.size = 8 + own.length + room.length := by unfold RawEvent.size; rw [hp]; simp; omega
  unfold writePerfSampleInfo
  rw [supported_carries, hty, hd]
  simp only [not_true, if_false]
  rw [if_neg (by omega)]
  unfold writeSample
  by_cases hact : e.type = SAMPLE ∨ a.sampleIdAll = true
  · rw [if_neg (fun h => h hact)]
    obtain ⟨f, hf, hbits⟩ := fieldsFor_some hst hty a rfl
    have hact' : (decide (e.type = SAMPLE) || a.sampleIdAll) = true := by simpa using hact
    have hpos : 8 + own.length - 8 = own.length := by omega
    rw [hf, hpos]
    simp only
    obtain ⟨bs, hbs, he⟩ := (emits_fields (skip := false) hbits hact' hsup hs hh).2 rfl
      ⟨e.payload, own.length, 0⟩ (by show own.length + _ ≤ e.payload.length; rw [hn', hp]; simp; omega)
    have hlen := matches_len hbs
    rw [hn'] at hlen
    refine ⟨bs, hlen, hbs, ?_⟩
    rw [he]
    simp only [hn', Nat.zero_add]
    have e1 : overwrite e.payload own.length bs = own ++ bs ++ room.drop n := by
      unfold overwrite
      rw [hp, List.take_left' rfl, ← List.drop_drop, List.drop_left' rfl, hlen]
    have e2 : (8 + own.length + n = e.size) = (n = room.length) := by
      rw [hsz]; apply propext; omega
    rw [e1]
    simp only [e2]
  · rw [if_pos hact]
    have hact' : ¬ ((decide (e.type = SAMPLE) || a.sampleIdAll) = true) := by simpa using hact
    unfold layout layoutIds at hn' ⊢
    rw [if_neg hact'] at hn' ⊢
    have h0 : n = 0 := hn'.symm
    subst h0
    refine ⟨[], rfl, rfl, ?_⟩
    have e2 : (8 + own.length + 0 = e.size) = (0 = room.length) := by
      rw [hsz]; apply propext; omega
    simp only [e2, List.append_nil, List.drop_zero, ← hp]

theorem exSample_fits : Fits exSample := by
  constructor <;> decide

example : ∃ bs, bs.length = 40 ∧ Matches false (layout exAttr true exSample) bs ∧
    writePerfSampleInfo exAttr exSample { type := SAMPLE, payload := List.replicate 40 0 } =
      some (true, { type := SAMPLE, payload := bs }) := by
  obtain ⟨bs, h1, h2, h3⟩ := write_layout { type := SAMPLE, payload := List.replicate 40 0 } exAttr exSample []
    (List.replicate 40 0) 40 (by decide) (by decide) exAttr_supported exSample_fits (by decide) rfl (by decide +kernel)
    (by decide +kernel) (by decide)
  exact ⟨bs, h1, h2, by simpa using h3⟩

example : sampleDataSize exAttr SAMPLE exSample = some 40 ∧ 40 % 8 = 0 := by
  have h := sampleDataSize_layout exAttr SAMPLE exSample (by decide) (by decide) exAttr_supported exSample_fits
    (by decide)
  exact h

/-- C24: writing the sample into an event that has exactly the predicted room, and reading it back, gives
the sample restricted to the selected fields. -/
theorem write_read_partial (e : RawEvent) (header : List UInt8) (a : Attr) (s s₀ : Sample) (off n : Nat)
    (hok : e.Ok) (hh8 : header.length = 8) (hty : carriesSample e.type = true) (hst : a.sampleType < 2 ^ 64)
    (hsup : Supported a (e.type = SAMPLE)) (hs : Fits s) (hh : HwIdxOk a (e.type = SAMPLE) s) (h0 : s₀.Empty)
    (hd : eventDataSize e = some off) (hoff : 8 ≤ off)
    (hn : sampleDataSize a e.type s = some n) (hsize : off + n = e.size) :
    ∃ e', writePerfSampleInfo a s e = some (true, e') ∧ e'.type = e.type ∧ e'.misc = e.misc ∧
      e'.size = e.size ∧ e'.payload.take (off - 8) = e.payload.take (off - 8) ∧
      readPerfSampleInfo e' header a false s₀ = some (some (pick a (e.type = SAMPLE) s s₀)) := by
  have hsz : e.size = 8 + e.payload.length := rfl
  have hol : (e.payload.take (off - 8)).length = off - 8 := by simp; omega
  have hrl : (e.payload.drop (off - 8)).length = n := by simp; omega
  have hd' : eventDataSize e = some (8 + (e.payload.take (off - 8)).length) := by
    rw [hd, hol]; congr 1; omega
  obtain ⟨bs, hl, hm, hw⟩ := write_layout e a s (e.payload.take (off - 8)) (e.payload.drop (off - 8)) n hty hst
    hsup hs hh (List.take_append_drop _ _).symm hd' hn (by omega)
  have hde : (e.payload.drop (off - 8)).drop n = [] := List.drop_eq_nil_of_le (by omega)
  rw [hde, hrl, List.append_nil, decide_eq_true rfl] at hw
  refine ⟨_, hw, rfl, rfl, ?_, ?_, ?_⟩
  · unfold RawEvent.size; simp only [List.length_append]; omega
  · show (e.payload.take (off - 8) ++ bs).take (off - 8) = _
    rw [List.take_left' hol]
  · have hok' : RawEvent.Ok { e with payload := e.payload.take (off - 8) ++ bs } := by
      unfold RawEvent.Ok RawEvent.size at *
      simp only [List.length_append]
      omega
    exact read_layout { e with payload := e.payload.take (off - 8) ++ bs } header a false s s₀ _ bs hok' hh8 hty
      hst hsup (by simp) h0 rfl
      (eventDataSize_local (e := e) hok rfl hty (List.take_append_drop _ _).symm rfl (by omega) hd') hm

/-- A COMM event with a thread id and time behind the name. -/
def exComm : RawEvent := { type := COMM, payload := List.replicate 8 1 ++ [97, 98, 0, 0, 0, 0, 0, 0] ++ List.replicate 16 7 }
def exCommAttr : Attr := { sampleType := 2 + 4 + 8, readFormat := 0, branchSampleType := 0, sampleIdAll := true }

example : ∃ e', writePerfSampleInfo exCommAttr { pid := 3, tid := 4, time := 5 } exComm = some (true, e') ∧
    readPerfSampleInfo e' (toLE 8 0) exCommAttr false {} = some (some { pid := 3, tid := 4, time := 5 }) := by
  obtain ⟨e', h1, -, -, -, -, h2⟩ := write_read_partial exComm (toLE 8 0) exCommAttr { pid := 3, tid := 4, time := 5 } {} 24 16
    (by decide +kernel) (by decide) (by decide) (by decide)
    ⟨by decide, by decide, by decide, by decide, fun b hb => by
      unfold has
      rw [Nat.testBit_lt_two_pow (Nat.lt_of_lt_of_le (show exCommAttr.sampleType < 2 ^ 25 by decide)
        (Nat.pow_le_pow_right (by decide) hb))]
      rfl⟩
    (by constructor <;> decide) (by decide) ⟨rfl, rfl, rfl⟩ (by decide +kernel) (by decide) (by decide +kernel)
    (by decide)
  exact ⟨e', h1, h2⟩

/-- C24 without `HwIdxOk` is false: a sample whose `no_hw_idx` does not agree with the attribute is written
in a form that reads back as something else, or not at all. -/
theorem write_read_violated :
    let a : Attr := { sampleType := 2048, readFormat := 0, branchSampleType := 0, sampleIdAll := true }
    let s : Sample := { branchStack := some ⟨0, []⟩ }
    let e : RawEvent := { type := SAMPLE, payload := List.replicate 16 0 }
    sampleDataSize a SAMPLE s = some 16 ∧
    writePerfSampleInfo a s e = some (true, e) ∧ readPerfSampleInfo e (toLE 8 0) a false {} = some none := by
  decide +kernel

/-! ## C26 -/

/-- C26: whatever the bytes of the event, the attribute and the byte order, reading stays within the event
and aborts nowhere. If it succeeds, the bytes behind the event's own data are, all of them, the fields of
the sample that was read, in the documented layout. -/
theorem read_safe (e : RawEvent) (header : List UInt8) (a : Attr) (cross : Bool) (s₀ : Sample)
    (hok : e.Ok) (hh : header.length = 8) (hst : a.sampleType < 2 ^ 64) (h0 : s₀.Empty) :
    ∃ x, readPerfSampleInfo e header a cross s₀ = some x ∧
      ∀ s, x = some s → ∃ own bs, e.payload = own ++ bs ∧ eventDataSize e = some (8 + own.length) ∧
        Matches cross (layoutLoose a (e.type = SAMPLE) s) bs := by
  have hok' : e.size < 2 ^ 16 := hok
  have hsz : e.size = 8 + e.payload.length := rfl
  have hbl : (header ++ e.payload).length = e.size := by simp; omega
  unfold readPerfSampleInfo
  rw [supported_carries]
  by_cases hty : carriesSample e.type = true
  case neg =>
    rw [if_pos hty]; exact ⟨none, rfl, by simp⟩
  rw [if_neg (fun h => h hty)]
  unfold readPerfSampleFromData
  obtain ⟨sk, hd, hle, -⟩ := eventDataSize_safe e hok
  rw [hd]
  simp only
  by_cases hz : sk = 0
  · rw [if_pos hz]; exact ⟨none, rfl, by simp⟩
  rw [if_neg hz]
  have h8 : 8 ≤ sk := by
    unfold eventDataSize at hd
    cases hf : fixedPayloadSize e.type with
    | none => rw [hf] at hd; simp only [Option.some.injEq] at hd; omega
    | some f =>
      have := (fixed_facts hf).2.1
      rw [hf] at hd
      simp only at hd
      split at hd
      · simp only [Option.some.injEq] at hd; omega
      · split at hd
        · cases hd
        · simp only [Option.some.injEq] at hd; omega
        · simp only [Option.some.injEq] at hd; omega
  have hseek : (Reader.new (header ++ e.payload) cross).seekSet sk =
      (true, ⟨header ++ e.payload, (header ++ e.payload).length, sk, cross⟩) := by
    unfold Reader.seekSet Reader.new
    simp only
    rw [if_neg (by omega)]
  rw [hseek]
  simp only [not_true, if_false]
  have hol : (e.payload.take (sk - 8)).length = sk - 8 := by simp; omega
  by_cases hact : e.type = SAMPLE ∨ a.sampleIdAll = true
  · rw [if_neg (fun h => h hact)]
    obtain ⟨f, hf, hbits⟩ := fieldsFor_some hst hty a rfl
    rw [hf]
    simp only
    have hact' : (decide (e.type = SAMPLE) || a.sampleIdAll) = true := by simpa using hact
    obtain ⟨x, r', hr, hrok, hrb, -, hx⟩ := leaf_fields cross a (e.type = SAMPLE) f s₀ hbits hact' h0
      ⟨header ++ e.payload, (header ++ e.payload).length, sk, cross⟩
      ⟨rfl, by show sk ≤ (header ++ e.payload).length; omega,
        by show (header ++ e.payload).length < 2 ^ 63; omega⟩ rfl
    rw [hr]
    cases x with
    | none => exact ⟨none, rfl, by simp⟩
    | some s =>
      simp only
      by_cases hfull : r'.off = e.size
      case neg =>
        rw [if_neg hfull]; exact ⟨none, rfl, by simp⟩
      · rw [if_pos hfull]
        refine ⟨some s, rfl, fun s' hs' => ?_⟩
        simp only [Option.some.injEq] at hs'
        subst hs'
        obtain ⟨-, -, hm⟩ := hx s rfl
        refine ⟨e.payload.take (sk - 8), e.payload.drop (sk - 8), (List.take_append_drop _ _).symm,
          by rw [hol]; congr 1; omega, ?_⟩
        have e1 : ((header ++ e.payload).drop sk).take (r'.off - sk) = e.payload.drop (sk - 8) := by
          rw [List.drop_append, List.drop_eq_nil_of_le (by omega), List.nil_append, hh,
            List.take_of_length_le (by simp; omega)]
        rw [← e1]
        exact hm
  · rw [if_pos hact]
    simp only
    have hact' : ¬ ((decide (e.type = SAMPLE) || a.sampleIdAll) = true) := by simpa using hact
    by_cases hfull : sk = e.size
    case neg =>
      rw [if_neg hfull]; exact ⟨none, rfl, by simp⟩
    · rw [if_pos hfull]
      refine ⟨some s₀, rfl, fun s' hs' => ?_⟩
      refine ⟨e.payload, [], (List.append_nil _).symm, by rw [hfull, hsz], ?_⟩
      unfold layoutLoose layoutIds
      rw [if_neg hact']
      rfl

theorem layout_ge (p q : Piece) (a : Attr) (s : Sample) :
    (has a true 4 = true → total (readLayout a.readFormat s) ≤ total (layoutIds p q a true s)) ∧
    (has a true 5 = true → total (callchainLayout s) ≤ total (layoutIds p q a true s)) ∧
    (has a true 10 = true → total (rawLayout s) ≤ total (layoutIds p q a true s)) ∧
    (has a true 11 = true → total (branchLayout (a.branchSampleType.testBit 17) s) ≤
      total (layoutIds p q a true s)) := by
  unfold layoutIds
  rw [if_pos (by simp)]
  simp only [total_append]
  have one : ∀ (c : Bool) L, c = true → total L = total (only c L) := fun c L h => by rw [h]; rfl
  refine ⟨fun h => ?_, fun h => ?_, fun h => ?_, fun h => ?_⟩
  · rw [one _ _ h]
    iterate 12 refine Nat.le_trans ?_ (Nat.le_add_left _ _)
    exact Nat.le_add_right _ _
  · rw [one _ _ h]
    iterate 13 refine Nat.le_trans ?_ (Nat.le_add_left _ _)
    exact Nat.le_add_right _ _
  · rw [one _ _ h]
    iterate 14 refine Nat.le_trans ?_ (Nat.le_add_left _ _)
    exact Nat.le_add_right _ _
  · rw [one _ _ h]
    iterate 15 refine Nat.le_trans ?_ (Nat.le_add_left _ _)
    exact Nat.le_add_right _ _

/-- C26: the lists and raw data read are no longer than the bytes of the event. -/
theorem read_lists_bounded (e : RawEvent) (header : List UInt8) (a : Attr) (cross : Bool) (s₀ s : Sample)
    (hok : e.Ok) (hh : header.length = 8) (hst : a.sampleType < 2 ^ 64) (h0 : s₀.Empty)
    (h : readPerfSampleInfo e header a cross s₀ = some (some s))
    (hty : e.type = SAMPLE) :
    (a.sampleType.testBit 5 = true → 8 * (s.callchain.getD []).length < e.size) ∧
    (a.sampleType.testBit 11 = true → 24 * (s.branchStack.getD {}).entries.length < e.size) ∧
    (a.sampleType.testBit 10 = true → s.raw.length < e.size) ∧
    (a.sampleType.testBit 4 = true → a.readFormat.testBit 3 = true → 8 * (s.group.getD []).length < e.size) := by
  obtain ⟨x, hx, hs⟩ := read_safe e header a cross s₀ hok hh hst h0
  rw [h] at hx
  simp only [Option.some.injEq] at hx
  obtain ⟨own, bs, hp, -, hm⟩ := hs s hx.symm
  have hl := matches_len hm
  have hsz : bs.length < e.size := by unfold RawEvent.size; rw [hp]; simp; omega
  rw [hl] at hsz
  have hb : ∀ b, has a true b = a.sampleType.testBit b := fun b => by simp [has]
  rw [hty] at hsz
  obtain ⟨g4, g5, g10, g11⟩ := layout_ge (if has a true 6 then .pad 8 else .u64 s.id)
    (if !true && has a true 16 then .pad 8 else .u64 s.id) a s
  have hsz' : total (layoutIds (if has a true 6 then .pad 8 else .u64 s.id)
    (if !true && has a true 16 then .pad 8 else .u64 s.id) a true s) < e.size := hsz
  generalize total (layoutIds (if has a true 6 then .pad 8 else .u64 s.id)
    (if !true && has a true 16 then .pad 8 else .u64 s.id) a true s) = T at *
  simp only [hb] at g4 g5 g10 g11
  refine ⟨fun h5 => ?_, fun h11 => ?_, fun h10 => ?_, fun h4 h3 => ?_⟩
  · have := g5 h5
    have e1 : total (callchainLayout s) = 8 + 8 * (s.callchain.getD []).length := by
      unfold callchainLayout
      rw [total_cons, List.map_eq_flatMap, total_flatMap _ 8 fun _ => by simp [total, Piece.len]]
      simp [Piece.len, Nat.mul_comm]
    omega
  · have := g11 h11
    have e1 : total (branchLayout (a.branchSampleType.testBit 17) s) ≥
        8 + 24 * (s.branchStack.getD {}).entries.length := by
      unfold branchLayout
      rw [total_cons, total_append, total_flatMap _ 24 fun _ => by simp [total, Piece.len]]
      simp only [Piece.len]
      omega
    omega
  · have := g10 h10
    have e1 : total (rawLayout s) ≥ s.raw.length := by
      unfold rawLayout
      simp only [total_cons, Piece.len]
      omega
    omega
  · have := g4 h4
    have e1 : total (readLayout a.readFormat s) ≥ 8 + 8 * (s.group.getD []).length := by
      unfold readLayout
      rw [if_pos h3, total_cons, total_append, total_append]
      have : total ((s.group.getD []).flatMap (valueLayout a.readFormat)) ≥ 8 * (s.group.getD []).length := by
        generalize s.group.getD [] = l
        induction l with
        | nil => simp [total]
        | cons v l ih =>
          rw [List.flatMap_cons, total_append, List.length_cons]
          have : total (valueLayout a.readFormat v) ≥ 8 := by
            unfold valueLayout; rw [total_cons]; simp only [Piece.len]; omega
          omega
      simp only [Piece.len]
      omega
    omega

/-- The callchain of this event claims more entries than there are bytes; it is refused. -/
example : readPerfSampleInfo { type := SAMPLE, payload := toLE 8 1 ++ toLE 8 (2 ^ 61 + 1) ++ toLE 8 0 } (toLE 8 0) exAttr
    false {} = some none := by decide +kernel

example : readPerfSampleInfo exEvent (toLE 8 0) exAttr false {} = some (some exSample) ∧ exEvent.Ok := by
  decide +kernel

/-! ## C62 -/

/-- C62 is violated: the writer does not look at the size of the event before it writes. Here the event is
only a header, and the instruction pointer is written behind it. -/
theorem write_inside_violated :
    let a : Attr := { sampleType := 1, readFormat := 0, branchSampleType := 0, sampleIdAll := true }
    let e : RawEvent := { type := SAMPLE, payload := [] }
    e.Ok ∧ Fits { ip := 5 } ∧ eventDataSize e = some 8 ∧ writePerfSampleInfo a { ip := 5 } e = none := by
  refine ⟨by decide, by constructor <;> decide, by decide +kernel, by decide +kernel⟩

/-- C62, partial: the writer stays inside an event that has room for the predicted size. -/
theorem write_inside_partial (e : RawEvent) (a : Attr) (s : Sample) (off n : Nat)
    (hty : carriesSample e.type = true) (hst : a.sampleType < 2 ^ 64)
    (hsup : Supported a (e.type = SAMPLE)) (hs : Fits s) (hh : HwIdxOk a (e.type = SAMPLE) s)
    (hd : eventDataSize e = some off) (hoff : 8 ≤ off)
    (hn : sampleDataSize a e.type s = some n) (hsize : off + n ≤ e.size) :
    ∃ e', writePerfSampleInfo a s e = some (decide (off + n = e.size), e') ∧ e'.size = e.size ∧
      e'.type = e.type ∧ e'.misc = e.misc ∧ e'.payload.take (off - 8) = e.payload.take (off - 8) ∧
      e'.payload.drop (off + n - 8) = e.payload.drop (off + n - 8) := by
  have hsz : e.size = 8 + e.payload.length := rfl
  have hol : (e.payload.take (off - 8)).length = off - 8 := by simp; omega
  have hrl : (e.payload.drop (off - 8)).length = e.payload.length - (off - 8) := by simp
  have hd' : eventDataSize e = some (8 + (e.payload.take (off - 8)).length) := by
    rw [hd, hol]; congr 1; omega
  obtain ⟨bs, hl, hm, hw⟩ := write_layout e a s (e.payload.take (off - 8)) (e.payload.drop (off - 8)) n hty hst
    hsup hs hh (List.take_append_drop _ _).symm hd' hn (by omega)
  have e2 : (n = (e.payload.drop (off - 8)).length) = (off + n = e.size) := by
    apply propext; omega
  simp only [e2] at hw
  refine ⟨_, hw, ?_, rfl, rfl, ?_, ?_⟩
  · unfold RawEvent.size; simp only [List.length_append, List.length_drop]; omega
  · show (e.payload.take (off - 8) ++ bs ++ _).take (off - 8) = _
    rw [List.append_assoc, List.take_left' hol]
  · show (e.payload.take (off - 8) ++ bs ++ (e.payload.drop (off - 8)).drop n).drop (off + n - 8) = _
    rw [List.drop_left' (by rw [List.length_append, hol, hl]; omega), List.drop_drop]
    congr 1; omega

example : ∃ e', writePerfSampleInfo exAttr exSample { type := SAMPLE, payload := List.replicate 48 0 } = some (false, e') := by
  obtain ⟨e', h, -⟩ := write_inside_partial { type := SAMPLE, payload := List.replicate 48 0 } exAttr exSample 8 40
    (by decide) (by decide) exAttr_supported exSample_fits (by decide) (by decide +kernel) (by decide) (by decide +kernel)
    (by decide)
  exact ⟨e', h⟩

end Verif.Sample
