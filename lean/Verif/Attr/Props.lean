import Verif.Attr.Lemmas
import Verif.Sample.Safe

/-!
# Attributes (C97)
-/

namespace Verif.Attr
open Verif.Buffer Verif.Event Verif.Sample

/-! ## Reading attributes from files -/

theorem known_drop (bs : List UInt8) (h : 8 ≤ bs.length) :
    ∃ k, (known bs).drop 8 = (bs.take 96).drop 8 ++ List.replicate k 0 := by
  refine ⟨96 - bs.length, ?_⟩
  unfold known
  rw [List.drop_append_of_le_length (by simp; omega)]

theorem known_front (bs : List UInt8) (h : 8 ≤ bs.length) (o n : Nat) (hn : o + n ≤ 8) :
    ((known bs).drop o).take n = (bs.drop o).take n := by
  unfold known
  rw [List.drop_append_of_le_length (by simp; omega), List.take_append_of_le_length (by simp; omega),
    List.drop_take, List.take_take]
  congr 1; omega

theorem member_known (bs : List UInt8) (h : 8 ≤ bs.length) (o n : Nat) (ho : 8 ≤ o) :
    member ((bs.take 96).drop 8) o n = leNat (((known bs).drop o).take n) := by
  obtain ⟨k, hk⟩ := known_drop bs h
  rw [member_pad _ k, ← hk, List.drop_drop]
  congr 3; omega

/-- C97: an attribute stored on a machine of the same byte order is read back, whatever the version of its
structure, and the reader is behind it afterwards. (The size becomes that of the known structure.) -/
theorem read_attr (r : Reader) (a : EventAttr) (bs tail : List UInt8) (hr : r.Ok) (hc : r.cross = false)
    (hd : r.buf.drop r.off = bs ++ tail) (hl : bs.length = a.size) (h8 : 8 ≤ a.size)
    (hm : Matches false (attrLayout a (.u64 a.flags)) (known bs)) :
    readEventAttr r = some (some { a with size := 96 }, { r with off := r.off + a.size }) := by
  have h8' : 8 ≤ bs.length := by omega
  have m0 : Piece.Is _ _ (.u32 a.type) := matches_at (A := []) hm
  have m1 : Piece.Is _ _ (.u32 a.size) := matches_at (A := (attrLayout a (.u64 a.flags)).take 1) hm
  have m2 : Piece.Is _ _ (.u64 a.config) := matches_at (A := (attrLayout a (.u64 a.flags)).take 2) hm
  have m3 : Piece.Is _ _ (.u64 a.samplePeriod) := matches_at (A := (attrLayout a (.u64 a.flags)).take 3) hm
  have m4 : Piece.Is _ _ (.u64 a.sampleType) := matches_at (A := (attrLayout a (.u64 a.flags)).take 4) hm
  have m5 : Piece.Is _ _ (.u64 a.readFormat) := matches_at (A := (attrLayout a (.u64 a.flags)).take 5) hm
  have m6 : Piece.Is _ _ (.u64 a.flags) := matches_at (A := (attrLayout a (.u64 a.flags)).take 6) hm
  have m7 : Piece.Is _ _ (.u32 a.wakeup) := matches_at (A := (attrLayout a (.u64 a.flags)).take 7) hm
  have m8 : Piece.Is _ _ (.u32 a.bpType) := matches_at (A := (attrLayout a (.u64 a.flags)).take 8) hm
  have m9 : Piece.Is _ _ (.u64 a.bpAddr) := matches_at (A := (attrLayout a (.u64 a.flags)).take 9) hm
  have m10 : Piece.Is _ _ (.u64 a.bpLen) := matches_at (A := (attrLayout a (.u64 a.flags)).take 10) hm
  have m11 : Piece.Is _ _ (.u64 a.branchSampleType) := matches_at (A := (attrLayout a (.u64 a.flags)).take 11) hm
  have m12 : Piece.Is _ _ (.u64 a.sampleRegsUser) := matches_at (A := (attrLayout a (.u64 a.flags)).take 12) hm
  have m13 : Piece.Is _ _ (.u32 a.sampleStackUser) := matches_at (A := (attrLayout a (.u64 a.flags)).take 13) hm
  have m14 : Piece.Is _ _ (.u32 a.reserved2) := matches_at (A := (attrLayout a (.u64 a.flags)).take 14) hm
  simp only [attrLayout, List.take, total, List.map_cons, List.map_nil, List.sum_cons, List.sum_nil,
    Piece.len, Piece.Is, Nat.add_zero, Nat.reduceAdd] at m0 m1 m2 m3 m4 m5 m6 m7 m8 m9 m10 m11 m12 m13 m14
  have d0 := m0.2
  have d1 := m1.2
  rw [known_front bs h8' _ _ (by omega)] at d0 d1
  have hsz : a.size < 2 ^ 32 := by
    have := decodeInt_lt false ((bs.drop 4).take 4)
    rw [d1, show ((bs.drop 4).take 4).length = 4 by simp; omega] at this
    exact this
  rw [read_bytes r false a.type a.size bs tail hr hc hd hl h8 hsz (by simpa using d0) d1]
  unfold ofMemory
  simp only [member_known bs h8' _ _ (show 8 ≤ 8 by omega), member_known bs h8' _ _ (show 8 ≤ 16 by omega),
    member_known bs h8' _ _ (show 8 ≤ 24 by omega), member_known bs h8' _ _ (show 8 ≤ 32 by omega),
    member_known bs h8' _ _ (show 8 ≤ 40 by omega), member_known bs h8' _ _ (show 8 ≤ 48 by omega),
    member_known bs h8' _ _ (show 8 ≤ 52 by omega), member_known bs h8' _ _ (show 8 ≤ 56 by omega),
    member_known bs h8' _ _ (show 8 ≤ 64 by omega), member_known bs h8' _ _ (show 8 ≤ 72 by omega),
    member_known bs h8' _ _ (show 8 ≤ 80 by omega), member_known bs h8' _ _ (show 8 ≤ 88 by omega),
    member_known bs h8' _ _ (show 8 ≤ 92 by omega)]
  have dec : ∀ l, decodeInt false l = leNat l := fun _ => rfl
  simp only [dec] at m2 m3 m4 m5 m6 m7 m8 m9 m10 m11 m12 m13 m14
  rw [m2.2, m3.2, m4.2, m5.2, m6.2, m7.2, m8.2, m9.2, m10.2, m11.2, m12.2, m13.2, m14.2, hl]
  rfl

/-- C97, the part that holds in the other byte order: all members are right except the type (and the reserved
word). The full claim would be that the attribute read is `{ a with size := 96 }`. -/
theorem read_attr_foreign_partial (r : Reader) (a : EventAttr) (bs tail fl : List UInt8) (hr : r.Ok) (hc : r.cross = true)
    (hd : r.buf.drop r.off = bs ++ tail) (hl : bs.length = a.size) (h8 : 8 ≤ a.size)
    (hf : a.flags < 2 ^ 64) (hfl : StoredBigEndian fl a.flags)
    (hm : Matches true (attrLayout a (.bytes fl)) (known bs)) :
    readEventAttr r = some (some { a with size := 96, type := Util.bswap32 a.type, reserved2 := Util.bswap32 a.reserved2 },
      { r with off := r.off + a.size }) := by
  have h8' : 8 ≤ bs.length := by omega
  have m0 : Piece.Is _ _ (.u32 a.type) := matches_at (A := []) hm
  have m1 : Piece.Is _ _ (.u32 a.size) := matches_at (A := (attrLayout a (.bytes fl)).take 1) hm
  have m2 : Piece.Is _ _ (.u64 a.config) := matches_at (A := (attrLayout a (.bytes fl)).take 2) hm
  have m3 : Piece.Is _ _ (.u64 a.samplePeriod) := matches_at (A := (attrLayout a (.bytes fl)).take 3) hm
  have m4 : Piece.Is _ _ (.u64 a.sampleType) := matches_at (A := (attrLayout a (.bytes fl)).take 4) hm
  have m5 : Piece.Is _ _ (.u64 a.readFormat) := matches_at (A := (attrLayout a (.bytes fl)).take 5) hm
  have m6 : Piece.Is _ _ (.bytes fl) := matches_at (A := (attrLayout a (.bytes fl)).take 6) hm
  have m7 : Piece.Is _ _ (.u32 a.wakeup) := matches_at (A := (attrLayout a (.bytes fl)).take 7) hm
  have m8 : Piece.Is _ _ (.u32 a.bpType) := matches_at (A := (attrLayout a (.bytes fl)).take 8) hm
  have m9 : Piece.Is _ _ (.u64 a.bpAddr) := matches_at (A := (attrLayout a (.bytes fl)).take 9) hm
  have m10 : Piece.Is _ _ (.u64 a.bpLen) := matches_at (A := (attrLayout a (.bytes fl)).take 10) hm
  have m11 : Piece.Is _ _ (.u64 a.branchSampleType) := matches_at (A := (attrLayout a (.bytes fl)).take 11) hm
  have m12 : Piece.Is _ _ (.u64 a.sampleRegsUser) := matches_at (A := (attrLayout a (.bytes fl)).take 12) hm
  have m13 : Piece.Is _ _ (.u32 a.sampleStackUser) := matches_at (A := (attrLayout a (.bytes fl)).take 13) hm
  have m14 : Piece.Is _ _ (.u32 a.reserved2) := matches_at (A := (attrLayout a (.bytes fl)).take 14) hm
  simp only [attrLayout, List.take, total, List.map_cons, List.map_nil, List.sum_cons, List.sum_nil,
    Piece.len, Piece.Is, Nat.add_zero, Nat.reduceAdd, hfl.1] at m0 m1 m2 m3 m4 m5 m6 m7 m8 m9 m10 m11 m12 m13 m14
  have d0 := m0.2
  have d1 := m1.2
  rw [known_front bs h8' _ _ (by omega)] at d0 d1
  have hsz : a.size < 2 ^ 32 := by
    have := decodeInt_lt true ((bs.drop 4).take 4)
    rw [d1, show ((bs.drop 4).take 4).length = 4 by simp; omega] at this
    exact this
  rw [read_bytes r true a.type a.size bs tail hr hc hd hl h8 hsz (by simpa using d0) d1]
  unfold ofMemory
  simp only [member_known bs h8' _ _ (show 8 ≤ 8 by omega), member_known bs h8' _ _ (show 8 ≤ 16 by omega),
    member_known bs h8' _ _ (show 8 ≤ 24 by omega), member_known bs h8' _ _ (show 8 ≤ 32 by omega),
    member_known bs h8' _ _ (show 8 ≤ 40 by omega), member_known bs h8' _ _ (show 8 ≤ 48 by omega),
    member_known bs h8' _ _ (show 8 ≤ 52 by omega), member_known bs h8' _ _ (show 8 ≤ 56 by omega),
    member_known bs h8' _ _ (show 8 ≤ 64 by omega), member_known bs h8' _ _ (show 8 ≤ 72 by omega),
    member_known bs h8' _ _ (show 8 ≤ 80 by omega), member_known bs h8' _ _ (show 8 ≤ 88 by omega),
    member_known bs h8' _ _ (show 8 ≤ 92 by omega)]
  have dec : ∀ l, decodeInt true l = leNat l.reverse := fun _ => rfl
  simp only [dec] at m2 m3 m4 m5 m7 m8 m9 m10 m11 m12 m13 m14
  simp only [if_true, EventAttr.swap]
  rw [swap64 m2.1, swap64 m3.1, swap64 m4.1, swap64 m5.1, swap32 m7.1, swap32 m8.1, swap64 m9.1, swap64 m10.1,
    swap64 m11.1, swap64 m12.1, swap32 m13.1, m2.2, m3.2, m4.2, m5.2, m7.2, m8.2, m9.2, m10.2, m11.2, m12.2,
    m13.2, hl]
  rw [m6, swapFlags_spec fl a.flags hf hfl]
  have e14 : leNat (((known bs).drop 92).take 4) = Util.bswap32 a.reserved2 := by
    rw [← m14.2, swap32 (by rw [List.length_reverse]; exact m14.1), List.reverse_reverse]
  rw [e14]

/-- An attribute of a big-endian machine in a structure of 72 bytes: type 2, `inherit` and `precise_ip` 2. -/
def exForeign : List UInt8 :=
  [0, 0, 0, 2, 0, 0, 0, 72, 0, 0, 0, 0, 0, 0, 0, 5] ++ List.replicate 24 0 ++
  [0x40, 0x01, 0, 0, 0, 0, 0, 0] ++ List.replicate 24 0
def exAttr : EventAttr := { type := 2, size := 72, config := 5, flags := 2 + 2 ^ 16 }
def exFlags : List UInt8 := [0x40, 0x01, 0, 0, 0, 0, 0, 0]

theorem exFlags_stored : StoredBigEndian exFlags exAttr.flags := by
  refine ⟨rfl, ?_⟩
  decide

theorem matches_ok {cross : Bool} : ∀ {L : List Piece} {bs : List UInt8},
    (bs.length = total L ∧ ∀ k, k < L.length → ((L.drop k).head?).all (fun p =>
      match p with
      | .u16 v => decodeInt cross ((bs.drop (total (L.take k))).take 2) == v
      | .u32 v => decodeInt cross ((bs.drop (total (L.take k))).take 4) == v
      | .u64 v => decodeInt cross ((bs.drop (total (L.take k))).take 8) == v
      | .bytes l => ((bs.drop (total (L.take k))).take l.length) == l
      | .pad _ => true) = true) → Matches cross L bs
  | [], bs, h => List.length_eq_zero_iff.mp h.1
  | p :: L, bs, ⟨hl, h⟩ => by
    rw [total_cons] at hl
    refine ⟨bs.take p.len, bs.drop p.len, (List.take_append_drop ..).symm, ?_, matches_ok ⟨by simp; omega, ?_⟩⟩
    · have h0 := h 0 (by simp)
      simp only [List.drop_zero, List.head?_cons, Option.all_some, List.take_zero, total_nil] at h0
      cases p <;> simp only [Piece.len] at hl ⊢ <;> simp_all [Piece.Is]
    · intro k hk
      have hk' := h (k + 1) (by simp; omega)
      simp only [List.drop_succ_cons, List.take_succ_cons, total_cons] at hk'
      simp only [List.drop_drop]
      exact hk'

theorem exForeign_matches : Matches true (attrLayout exAttr (.bytes exFlags)) (known exForeign) :=
  matches_ok (by decide +kernel)

example : readEventAttr (Reader.new exForeign true) =
    some (some { exAttr with size := 96, type := 0x02000000 }, { Reader.new exForeign true with off := 72 }) :=
  read_attr_foreign_partial (Reader.new exForeign true) exAttr exForeign [] exFlags
    ⟨rfl, by decide, by decide⟩ rfl (by simp [Reader.new]) rfl (by decide) (by decide) exFlags_stored exForeign_matches

/-- C97 fails in the other byte order: the type of a tracepoint event (2) is read as 33554432. The type has
already been converted when all members are. -/
theorem read_attr_foreign_violated :
    ∃ (r : Reader) (a : EventAttr) (bs fl : List UInt8), r.Ok ∧ r.cross = true ∧ r.buf.drop r.off = bs ∧
      bs.length = a.size ∧ StoredBigEndian fl a.flags ∧ a.reserved2 = 0 ∧
      Matches true (attrLayout a (.bytes fl)) (known bs) ∧
      ∃ b r', readEventAttr r = some (some b, r') ∧ b.type ≠ a.type := by
  refine ⟨Reader.new exForeign true, exAttr, exForeign, exFlags, ⟨rfl, by decide, by decide⟩, rfl, rfl, rfl,
    exFlags_stored, rfl, exForeign_matches, { exAttr with size := 96, type := 0x02000000 },
    { Reader.new exForeign true with off := 72 }, by decide +kernel, by decide⟩

/-- An attribute of this machine in a structure of 72 bytes, followed by two more bytes. -/
def exNative : List UInt8 :=
  toLE 4 2 ++ toLE 4 72 ++ toLE 8 5 ++ List.replicate 24 0 ++ toLE 8 (2 + 2 ^ 16) ++ List.replicate 24 0

example : readEventAttr (Reader.new (exNative ++ [1, 2]) false) =
    some (some { exAttr with size := 96 }, { Reader.new (exNative ++ [1, 2]) false with off := 72 }) :=
  read_attr (Reader.new (exNative ++ [1, 2]) false) exAttr exNative [1, 2] ⟨rfl, by decide, by decide⟩ rfl
    (by simp [Reader.new]) rfl (by decide) (matches_ok (by decide +kernel))

/-- C97: reading an attribute touches nothing outside of the file. -/
theorem read_attr_safe : Safe readEventAttr := by
  unfold readEventAttr
  refine Safe.bind safe_u32 fun type => Safe.bind32 fun size hs => Safe.bind (safe_data (Nat.mod_lt _ (by decide)))
    fun d => Safe.bind safe_tell fun o => Safe.bind (safe_seek _) fun _ => Safe.bind safe_isCross fun c => Safe.pure _

theorem data_huge (r : Reader) (n : Nat) (h : r.off > 2 ^ 64 - 1 - n) : data n r = some (none, r) := by
  unfold data Reader.readData Reader.refuses
  simp only [h, decide_true, Bool.true_or, if_true]

theorem restSize_short (o1 size : Nat) (h8 : size < 8) (o2 : 8 ≤ o1) : o1 > 2 ^ 64 - 1 - restSize size := by unfold restSize; omega
theorem bind_none {α β : Type} {p : P α} {f : α → P β} {r r' : Reader}
    (h : p r = some (none, r')) : (p >>= f) r = some (none, r') := by rw [bind_def, h]

/-- C97: an attribute that claims to be shorter than its first two members is refused. -/
theorem read_attr_short (r : Reader) (bs tail : List UInt8) (type size : Nat) (hr : r.Ok)
    (hd : r.buf.drop r.off = bs ++ tail) (hm : Matches r.cross [.u32 type, .u32 size] bs) (h8 : size < 8) :
    ∃ r', readEventAttr r = some (none, r') := by
  obtain ⟨x, y, rfl, hx, hy⟩ := matches_cons.mp hm
  rw [List.append_assoc] at hd
  have e1 := reads_u32 r.cross type r x _ hr rfl hd hx
  obtain ⟨ok1, dr1⟩ := ok_advance hr hd
  have e2 := reads_u32 r.cross size _ y _ ok1 rfl dr1 hy
  have l1 : x.length = 4 := matches_len hx
  have l2 : y.length = 4 := matches_len hy
  have hn := restSize_short (r.off + x.length + y.length) size h8 (by omega)
  unfold readEventAttr
  rw [bind_of e1, bind_of e2]
  exact ⟨_, bind_none (data_huge _ (restSize size) hn)⟩

example : ∃ r', readEventAttr (Reader.new [1, 0, 0, 0, 7, 0, 0, 0, 9, 9, 9] false) = some (none, r') :=
  read_attr_short (Reader.new [1, 0, 0, 0, 7, 0, 0, 0, 9, 9, 9] false) [1, 0, 0, 0, 7, 0, 0, 0] [9, 9, 9] 1 7
    ⟨rfl, by decide, by decide⟩ rfl (matches_ok (by decide +kernel)) (by decide)

/-! ## Attributes as messages -/

/-- The bit fields that messages have: `disabled` (bit 0) to `ksymbol` (bit 29) and `cgroup` (bit 32). -/
def inMessage (b : Nat) : Bool := b < 30 || b = 32

theorem carried_bit (b : Nat) : carried.testBit b = inMessage b := by
  by_cases h : b < 33
  · have key : ∀ b : Fin 33, carried.testBit b.val = inMessage b.val := by decide
    exact key ⟨b, h⟩
  · rw [Nat.testBit_lt_two_pow (Nat.lt_of_lt_of_le (show carried < 2 ^ 33 by decide)
      (Nat.pow_le_pow_right (by decide) (by omega)))]
    simp [inMessage]; omega

theorem carried_id {f : Nat} (h : ∀ b, f.testBit b = true → inMessage b = true) : f &&& carried = f := by
  apply Nat.eq_of_testBit_eq
  intro b
  rw [Nat.testBit_and, carried_bit]
  cases hb : f.testBit b
  · rfl
  · rw [h b hb]; rfl

/-- C97, messages: an attribute that uses only bit fields known to messages, and not the reserved word, survives
the way into a message and back. The full claim would be for every attribute. -/
theorem proto_round_trip_partial (f : FileAttr) (hf : ∀ b, f.attr.flags.testBit b = true → inMessage b = true)
    (hr : f.attr.reserved2 = 0) : deserializeFileAttr (serializeFileAttr f) = f := by
  obtain ⟨a, ids⟩ := f
  unfold deserializeFileAttr serializeFileAttr
  congr 1
  unfold deserializeAttr serializeAttr
  have h := carried_id hf
  obtain ⟨_, _, _, _, _, _, fl, _, _, _, _, _, _, _, _⟩ := a
  simp only at h hr
  simp only [Nat.zero_testBit, Bool.false_eq_true, if_false, h]
  cases h14 : fl.testBit 14 <;> simp [h, hr, h14]

example : let f : FileAttr := ⟨{ type := 1, size := 96, samplePeriod := 4000, flags := 2 ^ 10 + 2 ^ 14 + 2 ^ 32, wakeup := 3 }, [4, 5]⟩
    deserializeFileAttr (serializeFileAttr f) = f := by decide

/-- Bit fields are lost: `bpf_event` is bit 30. -/
theorem proto_round_trip_violated :
    ∃ f : FileAttr, f.attr.flags = 2 ^ 30 ∧ deserializeFileAttr (serializeFileAttr f) ≠ f :=
  ⟨⟨{ flags := 2 ^ 30 }, []⟩, rfl, by decide⟩

/-- C97: the members of the message that a user looks at. Whether the period is meant or a frequency, it is found
in the member `sample_period`; the wakeup parameter is found in the member `watermark` tells. -/
theorem proto_members (a : EventAttr) :
    let p := serializeAttr a
    p.type = a.type ∧ p.size = a.size ∧ p.config = a.config ∧ p.samplePeriod = a.samplePeriod ∧ p.sampleFreq = 0 ∧
    p.sampleType = a.sampleType ∧ p.readFormat = a.readFormat ∧
    (∀ b, p.flags.testBit b = (a.flags.testBit b && inMessage b)) ∧
    p.wakeupWatermark = (if a.flags.testBit 14 then a.wakeup else 0) ∧
    p.wakeupEvents = (if a.flags.testBit 14 then 0 else a.wakeup) ∧
    p.bpType = a.bpType ∧ p.bpAddr = a.bpAddr ∧ p.bpLen = a.bpLen ∧ p.branchSampleType = a.branchSampleType ∧
    p.sampleRegsUser = a.sampleRegsUser ∧ p.sampleStackUser = a.sampleStackUser := by
  have hb : ∀ b, (a.flags &&& carried).testBit b = (a.flags.testBit b && inMessage b) := fun b => by
    rw [Nat.testBit_and, carried_bit]
  have h14 := hb 14
  simp only [show inMessage 14 = true from rfl, Bool.and_true] at h14
  unfold serializeAttr
  simp only [Nat.zero_testBit, Bool.false_eq_true, if_false, h14]
  cases a.flags.testBit 14 <;> simp [hb]

/-- The frequency of an event that is sampled with a frequency is not in the member `sample_freq`. -/
theorem freq_stored_violated :
    ∃ a : EventAttr, a.flags.testBit 10 = true ∧ a.samplePeriod = 4000 ∧ (serializeAttr a).sampleFreq = 0 :=
  ⟨{ flags := 2 ^ 10, samplePeriod := 4000 }, by decide, rfl, by decide⟩

/-- A frequency given in a message in its own member is dropped. -/
theorem freq_read_violated :
    ∃ p : ProtoAttr, p.flags.testBit 10 = true ∧ p.sampleFreq = 4000 ∧ (deserializeAttr p).samplePeriod = 0 :=
  ⟨{ flags := 2 ^ 10, sampleFreq := 4000 }, by decide, rfl, by decide⟩

/-- C97, the other direction: a message that gives a period, and only the wakeup parameter that `watermark` tells,
survives the way into an attribute and back, but for bit fields outside of the message. -/
theorem proto_attr_round_trip_partial (p : ProtoAttr) (hf : ∀ b, p.flags.testBit b = true → inMessage b = true)
    (h1 : p.sampleFreq = 0) (h2 : p.flags.testBit 14 = true → p.wakeupEvents = 0)
    (h3 : p.flags.testBit 14 = false → p.wakeupWatermark = 0) : serializeAttr (deserializeAttr p) = p := by
  unfold deserializeAttr serializeAttr
  have h := carried_id hf
  obtain ⟨_, _, _, _, _, _, _, fl, _, _, _, _, _, _, _, _⟩ := p
  simp only at h h1 h2 h3
  simp only [Nat.zero_testBit, Bool.false_eq_true, if_false, h]
  cases h14 : fl.testBit 14 <;> simp_all

example : serializeAttr (deserializeAttr { type := 1, samplePeriod := 7, flags := 2 ^ 14 + 1, wakeupWatermark := 9 }) =
    { type := 1, samplePeriod := 7, flags := 2 ^ 14 + 1, wakeupWatermark := 9 } := by decide

end Verif.Attr
