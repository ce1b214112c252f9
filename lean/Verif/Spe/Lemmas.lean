import Verif.Spe.Model
import Verif.Spe.Spec
import Verif.Util.Lemmas

/-! # Lemmas about the SPE decoder -/

namespace Verif.Spe

/-! ## Bits -/

theorem mask_7_1 : mask 7 1 = 254 := by decide +kernel
theorem mask_55_0 : mask 55 0 = 2 ^ 56 - 1 := by decide +kernel
theorem mask_1_0 : mask 1 0 = 3 := by decide +kernel

theorem and_bit (v n : Nat) : decide (v &&& bit n ≠ 0) = v.testBit n := by
  unfold bit
  rw [Nat.one_shiftLeft]
  cases h : v.testBit n with
  | true =>
    simp only [decide_eq_true_eq]
    intro h0
    have h1 : (v &&& 2 ^ n).testBit n = true := by simp [h]
    rw [h0] at h1; simp at h1
  | false =>
    simp only [decide_eq_false_iff_not, ne_eq, Classical.not_not]
    apply Nat.eq_of_testBit_eq
    intro i
    rw [Nat.testBit_and, Nat.testBit_two_pow]
    by_cases e : n = i
    · subst e; simp [h]
    · simp [e]

theorem eventOf_eq (v : Nat) : eventOf v = specEvent v := by
  simp only [eventOf, specEvent, and_bit]

theorem opFacts : ∀ v, v < 256 →
    decide (v &&& (bit 7 ||| bit 3 ||| bit 0) = 0x8) = (!v.testBit 7 && v.testBit 3 && !v.testBit 0) ∧
    decide (v &&& (mask 7 5 ||| bit 1) = 0x2) = (v / 32 == 0 && v.testBit 1) ∧
    decide (v &&& mask 7 1 = 0) = (v / 2 == 0) ∧
    decide (v &&& mask 7 1 = 0x4) = (v / 2 == 2) ∧
    decide (v &&& (bit 3 ||| bit 1) = 0x8) = (v.testBit 3 && !v.testBit 1) ∧
    decide (v &&& mask 7 1 = 0x10) = (v / 2 == 8) ∧
    decide (v &&& mask 7 1 = 0x30) = (v / 2 == 24) ∧
    decide (v &&& mask 7 1 = 0x12) = (v / 2 == 9) ∧
    decide (v &&& mask 7 1 = 0x20) = (v / 2 == 16) ∧
    decide (v &&& mask 7 0 = 0x25) = (v == 0x25) ∧
    decide (v &&& bit 0 = 1) = v.testBit 0 ∧
    decide (v &&& mask 7 1 = 0x2) = (v / 2 == 1) := by decide +kernel

theorem opOf_eq (op : Op) (cls : Fin 3) (v : Nat) (hv : v < 256) :
    opOf op cls.val v = some (specOp cls v op) := by
  obtain ⟨h1, h2, h3, h4, h5, h6, h7, h8, h9, h10, h11, h12⟩ := opFacts v hv
  match cls with
  | 0 =>
    show opOf op 0 v = _
    simp only [opOf, specOp, and_bit, h1, if_true]
  | 1 =>
    show opOf op 1 v = _
    simp only [opOf, specOp, and_bit, h2, h3, h4, h5, h6, h7, h8, h9, h10, if_true]
    rfl
  | 2 =>
    show opOf op 2 v = _
    simp only [opOf, specOp, h11, h12, if_true]
    rfl

theorem or_ff (v : Nat) (hv : v < 2 ^ 64) : v ||| (0xff <<< 56) = kernelAddr v := by
  unfold kernelAddr
  rw [Nat.mul_comm, Nat.two_pow_add_eq_or_of_lt (Nat.mod_lt _ (Nat.two_pow_pos 56)), Nat.mul_comm,
    ← Nat.shiftLeft_eq]
  apply Nat.eq_of_testBit_eq
  intro i
  simp only [Nat.testBit_or, Nat.testBit_shiftLeft, Nat.testBit_mod_two_pow]
  by_cases h1 : i < 56
  · simp [h1, show ¬ 56 ≤ i by omega]
  · by_cases h2 : i < 64
    · have : Nat.testBit 255 (i - 56) = true := by
        have : ∀ k, k < 8 → Nat.testBit 255 k = true := by decide
        exact this _ (by omega)
      simp [this, show 56 ≤ i by omega]
    · have : v.testBit i = false := by
        apply Nat.testBit_lt_two_pow
        have : 2 ^ 64 ≤ 2 ^ i := Nat.pow_le_pow_right (by omega) (by omega)
        omega
      simp [this, h1]

theorem and_mask_shift (v : Nat) (h l k : Nat) (hm : mask h l >>> l = 2 ^ k - 1) :
    (v &&& mask h l) >>> l = v / 2 ^ l % 2 ^ k := by
  rw [Nat.shiftRight_and_distrib, hm, Nat.and_two_pow_sub_one_eq_mod, Nat.shiftRight_eq_div_pow]

theorem and_bit_shift (v n : Nat) : (v &&& bit n) >>> n = v / 2 ^ n % 2 := by
  rw [Nat.shiftRight_and_distrib]
  have : bit n >>> n = 2 ^ 1 - 1 := by
    unfold bit; rw [Nat.shiftLeft_eq, Nat.shiftRight_eq_div_pow, Nat.one_mul]
    exact Nat.div_self (Nat.two_pow_pos n)
  rw [this, Nat.and_two_pow_sub_one_eq_mod, Nat.shiftRight_eq_div_pow]

theorem and_mask_55 (v : Nat) : v &&& mask 55 0 = v % 2 ^ 56 := by
  rw [mask_55_0, Nat.and_two_pow_sub_one_eq_mod]

theorem ipOf_eq (v : Nat) (hv : v < 2 ^ 64) : ipOf v = specIP v := by
  have e1 : (v &&& mask 62 61) >>> 61 = v / 2 ^ 61 % 4 := and_mask_shift v 62 61 2 (by decide +kernel)
  have e2 : (v &&& bit 63) >>> 63 = v / 2 ^ 63 := by
    rw [and_bit_shift]; omega
  simp only [ipOf, specIP, e1, e2, or_ff v hv, and_mask_55]
  have h : v / 2 ^ 63 < 2 := by omega
  congr 1
  by_cases hz : v / 2 ^ 63 = 0
  · rw [if_neg (by simp [hz]), if_neg (by rw [hz]; simp)]
  · have h1 : v / 2 ^ 63 = 1 := by omega
    rw [h1]; simp

theorem addressOf_eq (r : Record) (seen index v : Nat) (hv : v < 2 ^ 64) :
    (addressOf r seen index v).1 = specAddr index v r := by
  have e1 : (v &&& mask 63 56) >>> 56 = v / 2 ^ 56 := by
    rw [and_mask_shift v 63 56 8 (by decide +kernel)]; omega
  have e2 : (v &&& bit 63) >>> 63 = v / 2 ^ 63 := by
    rw [and_bit_shift]; omega
  have e3 : (v &&& bit 62) >>> 62 = v / 2 ^ 62 % 2 := and_bit_shift v 62
  have e4 : (v &&& mask 59 56) >>> 56 = v / 2 ^ 56 % 16 :=
    and_mask_shift v 59 56 4 (by decide +kernel)
  have e5 : ((v % 2 ^ 56) >>> 48 &&& 0xf0 = 0xf0) ↔ v / 2 ^ 52 % 16 = 15 := by
    rw [Nat.shiftRight_eq_div_pow]
    have hb : v % 2 ^ 56 / 2 ^ 48 < 256 := by omega
    have key : ∀ x, x < 256 → (x &&& 0xf0 = 0xf0 ↔ x / 16 = 15) := by decide +kernel
    rw [key _ hb]
    have : v % 2 ^ 56 / 2 ^ 48 / 16 = v / 2 ^ 52 % 16 := by omega
    rw [this]
  match index with
  | 0 => simp [addressOf, specAddr, ipOf_eq v hv]
  | 1 => simp [addressOf, specAddr, ipOf_eq v hv]
  | 2 =>
    simp only [addressOf, specAddr, e1, e5, or_ff v hv, and_mask_55]
    rfl
  | 3 =>
    simp only [addressOf, specAddr, e2, e3, e4, and_mask_55]
    rfl
  | 4 => simp [addressOf, specAddr, ipOf_eq v hv]
  | n + 5 =>
    simp only [addressOf, specAddr]
    rw [if_neg (by omega), if_neg (by omega), if_neg (by omega)]
    split <;> rfl

theorem counterOf_eq (r : Record) (index v : Nat) (hv : v < 2 ^ 16) :
    counterOf r index v = specCounter index v r := by
  have : v % 2 ^ 32 = v := Nat.mod_eq_of_lt (by omega)
  unfold counterOf
  rw [this]
  match index with
  | 0 => rfl
  | 1 => rfl
  | 2 => rfl
  | n + 3 => rfl

/-! ## Payloads -/

theorem getPayloadSize_cases (h : Nat) : getPayloadSize h = 1 ∨ getPayloadSize h = 2 ∨
    getPayloadSize h = 4 ∨ getPayloadSize h = 8 := by
  unfold getPayloadSize
  have e : (h &&& mask 5 4) >>> 4 = h / 2 ^ 4 % 4 := and_mask_shift h 5 4 2 (by decide +kernel)
  rw [e]
  have : h / 2 ^ 4 % 4 < 4 := Nat.mod_lt _ (by omega)
  have key : ∀ k, k < 4 → (1 <<< k = 1 ∨ 1 <<< k = 2 ∨ 1 <<< k = 4 ∨ 1 <<< k = 8) := by decide
  exact key _ this

theorem byte_lt {d : Dec} {i : Nat} (h : i < d.buf.length) : ∃ x, d.byte i = some x := by
  unfold Dec.byte
  rw [List.getElem?_eq_getElem h]
  exact ⟨_, rfl⟩

theorem setPayload_safe (d : Dec) (p : Packet)
    (h : d.pos + (if p.extHeader ≠ 0 then 2 else 1) - 1 < d.buf.length) :
    ∃ x, setPayloadAndSize d p = some x ∧ ∀ p', x = some p' →
      1 ≤ p'.size ∧ d.pos + p'.size ≤ d.buf.length ∧ p'.extHeader = p.extHeader ∧
      p'.header = p.header := by
  obtain ⟨b, hb⟩ := byte_lt h
  generalize hs : (if p.extHeader ≠ 0 then 2 else 1) = hsz at *
  have hsz1 : hsz = 1 ∨ hsz = 2 := by rw [← hs]; split <;> simp
  unfold setPayloadAndSize
  simp only [hs, hb, Option.bind_eq_bind, Option.bind_some, Option.pure_def]
  have hc := getPayloadSize_cases b
  generalize getPayloadSize b = n at *
  split
  · exact ⟨none, rfl, by simp⟩
  · rename_i hlen
    have hle : d.pos + hsz + n ≤ d.buf.length := by omega
    split
    · rename_i h1
      subst h1
      simp only [Dec.load, hle, if_true, Option.bind_some]
      refine ⟨_, rfl, ?_⟩
      intro p' hp
      simp only [Option.some.injEq] at hp
      subst hp
      exact ⟨by simp only; omega, by simp only; omega, rfl, rfl⟩
    · split
      · rename_i h1 h2
        simp only [Dec.load, hle, if_true, Option.bind_some]
        have hsw : ∃ y, Util.maybeSwap n (leNat ((d.buf.drop (d.pos + hsz)).take n)) d.cross = some y := by
          unfold Util.maybeSwap
          split
          · exact Util.byteSwap_isSome _ (by omega)
          · exact ⟨_, rfl⟩
        obtain ⟨y, hy⟩ := hsw
        rw [hy]
        refine ⟨_, rfl, ?_⟩
        intro p' hp
        simp only [Option.some.injEq] at hp
        subst hp
        exact ⟨by simp only; omega, by simp only; omega, rfl, rfl⟩
      · omega

/-- A good outcome of one packet. -/
def Good (d : Dec) (x : Option (Option Effect)) : Prop :=
  ∃ y, x = some y ∧ ∀ e, y = some e → 1 ≤ e.size ∧ d.pos + e.size ≤ d.buf.length

theorem good_none (d : Dec) : Good d (some none) := ⟨none, rfl, by simp⟩

theorem good_payload (d : Dec) (p : Packet) (f : Packet → Option Effect)
    (h : d.pos + (if p.extHeader ≠ 0 then 2 else 1) - 1 < d.buf.length)
    (hf : ∀ p' e, f p' = some e → e.size = p'.size) :
    Good d ((setPayloadAndSize d p).bind (fun x => match x with
      | none => some none
      | some p' => some (f p'))) := by
  obtain ⟨x, hx, hp⟩ := setPayload_safe d p h
  rw [hx]
  cases x with
  | none => exact good_none d
  | some p' =>
    refine ⟨f p', rfl, ?_⟩
    intro e he
    rw [hf p' e he]
    exact ⟨(hp p' rfl).1, (hp p' rfl).2.1⟩

theorem packetIndex_some (d : Dec) (p : Packet) (h : d.pos + (if p.extHeader ≠ 0 then 2 else 1) - 1 < d.buf.length) :
    ∃ i, packetIndex d p = some i := by
  unfold packetIndex
  by_cases he : p.extHeader ≠ 0
  · simp only [he, if_true, ne_eq, not_false_eq_true] at h ⊢
    obtain ⟨a, ha⟩ := byte_lt (d := d) (i := d.pos) (by omega)
    obtain ⟨b, hb⟩ := byte_lt (d := d) (i := d.pos + 1) (by omega)
    rw [ha, hb]; exact ⟨_, rfl⟩
  · simp only [he, if_false] at h ⊢
    obtain ⟨a, ha⟩ := byte_lt (d := d) (i := d.pos) (by omega)
    rw [ha]; exact ⟨_, rfl⟩

theorem indexed_good (d : Dec) (p : Packet) (r : Record)
    (h : d.pos + (if p.extHeader ≠ 0 then 2 else 1) - 1 < d.buf.length) : Good d (indexedPacket d p r) := by
  obtain ⟨x, hx, hp⟩ := setPayload_safe d p h
  unfold indexedPacket
  simp only [hx, Option.bind_eq_bind, Option.bind_some, Option.pure_def]
  have body : ∀ p', x = some p' → ∃ i, packetIndex d p' = some i := by
    intro p' he
    apply packetIndex_some
    rw [(hp p' he).2.2.1]; exact h
  split
  · cases x with
    | none => exact good_none d
    | some p' =>
      obtain ⟨i, hi⟩ := body p' rfl
      simp only [hi, Option.bind_some]
      refine ⟨_, rfl, ?_⟩
      intro e he
      simp only [Option.some.injEq] at he
      subst he
      exact ⟨(hp p' rfl).1, (hp p' rfl).2.1⟩
  · split
    · cases x with
      | none => exact good_none d
      | some p' =>
        obtain ⟨i, hi⟩ := body p' rfl
        simp only [hi, Option.bind_some]
        refine ⟨_, rfl, ?_⟩
        intro e he
        simp only [Option.some.injEq] at he
        subst he
        exact ⟨(hp p' rfl).1, (hp p' rfl).2.1⟩
    · exact good_none d

theorem and_le_right' (a b : Nat) : a &&& b ≤ b := Nat.and_le_right

theorem packet_good (d : Dec) (r : Record) (h : d.pos < d.buf.length) : Good d (packet d r) := by
  obtain ⟨b, hb⟩ := byte_lt h
  unfold packet
  simp only [hb, Option.bind_eq_bind, Option.bind_some, Option.pure_def]
  have h1 : d.pos + (if ({ header := b } : Packet).extHeader ≠ 0 then 2 else 1) - 1 < d.buf.length := by
    simp; exact h
  have simple : ∀ f : Packet → Effect, (∀ p', (f p').size = p'.size) →
      Good d ((setPayloadAndSize d { header := b }).bind (fun x => match x with
      | none => some none
      | some p' => some (some (f p')))) := by
    intro f hf
    apply good_payload d { header := b } (fun p => some (f p)) h1
    intro p' e he
    simp only [Option.some.injEq] at he
    rw [← he, hf]
  by_cases c0 : b = 0
  · rw [if_pos c0]
    exact ⟨_, rfl, by intro e he; simp only [Option.some.injEq] at he; subst he; exact ⟨by simp, by simp only; omega⟩⟩
  rw [if_neg c0]
  by_cases c1 : b = 1
  · rw [if_pos c1]
    exact ⟨_, rfl, by intro e he; simp only [Option.some.injEq] at he; subst he; exact ⟨by simp, by simp only; omega⟩⟩
  rw [if_neg c1]
  by_cases c2 : b = 0x71
  · rw [if_pos c2]
    exact simple (fun p => ⟨p.size, true, { r with timestamp := p.payload }, d.seen⟩) (fun _ => rfl)
  rw [if_neg c2]
  by_cases c3 : b &&& hdrMaskEvSrc = 0x42
  · rw [if_pos c3]
    exact simple (fun p => ⟨p.size, false, { r with event := eventOf p.payload }, d.seen⟩) (fun _ => rfl)
  rw [if_neg c3]
  by_cases c4 : b &&& hdrMaskEvSrc = 0x43
  · rw [if_pos c4]
    exact simple (fun p => ⟨p.size, false, { r with source := some p.payload }, d.seen⟩) (fun _ => rfl)
  rw [if_neg c4]
  by_cases c5 : b &&& hdrMaskCtxOpExt = 0x64
  · rw [if_pos c5]
    exact simple (fun p => ⟨p.size, false, { r with context :=
        { id := p.payload, el1 := p.header &&& mask 1 0 = 0, el2 := p.header &&& mask 1 0 = 1 } }, d.seen⟩) (fun _ => rfl)
  rw [if_neg c5]
  by_cases c6 : b &&& hdrMaskCtxOpExt = 0x48
  · rw [if_pos c6]
    obtain ⟨x, hx, hp⟩ := setPayload_safe d { header := b } h1
    rw [hx]
    cases x with
    | none => exact good_none d
    | some p' =>
      simp only [Option.bind_some]
      split
      · exact good_none d
      · refine ⟨_, rfl, ?_⟩
        intro e he
        simp only [Option.some.injEq] at he
        subst he
        exact ⟨(hp p' rfl).1, (hp p' rfl).2.1⟩
  rw [if_neg c6]
  by_cases c7 : b &&& hdrMaskCtxOpExt = 0x20
  · rw [if_pos c7]
    split
    · exact good_none d
    · rename_i hne
      obtain ⟨x, hx⟩ := byte_lt (d := d) (i := d.pos + 1) (by omega)
      rw [hx]
      simp only [Option.bind_some]
      split
      · split
        · exact good_none d
        · rename_i hal
          refine ⟨_, rfl, ?_⟩
          intro e he
          simp only [Option.some.injEq] at he
          subst he
          have hpos : 0 < 1 <<< ((b &&& 0xf) + 1) := by
            rw [Nat.one_shiftLeft]; exact Nat.two_pow_pos _
          have := and_le_right' (d.base + d.pos) (1 <<< ((b &&& 0xf) + 1) - 1)
          simp only
          omega
      · rename_i hx0
        apply indexed_good
        simp only [ne_eq, hx0, not_false_eq_true, if_true]
        omega
  · rw [if_neg c7]
    exact indexed_good d _ r h1

/-! ## The loop -/

/-- Whether a packet fails does not depend on the record so far. -/
theorem opOf_fail (op op' : Op) (cls v v' : Nat) (h : opOf op cls v = none) : opOf op' cls v' = none := by
  unfold opOf at h ⊢
  by_cases h0 : cls = 0
  · simp [h0] at h
  by_cases h1 : cls = 1
  · simp [h1] at h
  by_cases h2 : cls = 2
  · simp [h2] at h
  simp [h0, h1, h2]

theorem indexed_fail (d : Dec) (p : Packet) (r r' : Record) (h : indexedPacket d p r = some none) :
    indexedPacket d p r' = some none := by
  unfold indexedPacket at h ⊢
  simp only [Option.bind_eq_bind, Option.pure_def] at h ⊢
  by_cases c1 : getCorrectHeader p &&& hdrMaskAddrCtr = 0xb0
  · simp only [c1, if_true] at h ⊢
    cases hx : setPayloadAndSize d p with
    | none => rw [hx] at h; cases h
    | some x =>
      rw [hx] at h
      cases x with
      | none => rfl
      | some p' =>
        simp only [Option.bind_some] at h
        cases hi : packetIndex d p' with
        | none => rw [hi] at h; cases h
        | some i => rw [hi] at h; simp at h
  · rw [if_neg c1] at h ⊢
    by_cases c2 : getCorrectHeader p &&& hdrMaskAddrCtr = 0x98
    · simp only [c2, if_true] at h ⊢
      cases hx : setPayloadAndSize d p with
      | none => rw [hx] at h; cases h
      | some x =>
        rw [hx] at h
        cases x with
        | none => rfl
        | some p' =>
          simp only [Option.bind_some] at h
          cases hi : packetIndex d p' with
          | none => rw [hi] at h; cases h
          | some i => rw [hi] at h; simp at h
    · rw [if_neg c2]

theorem packet_fail (d : Dec) (r r' : Record) (h : packet d r = some none) : packet d r' = some none := by
  unfold packet at h ⊢
  simp only [Option.bind_eq_bind, Option.pure_def] at h ⊢
  cases hb : d.byte d.pos with
  | none => rw [hb] at h; cases h
  | some b =>
    rw [hb] at h
    simp only [Option.bind_some] at h ⊢
    have pay : ∀ (f g : Packet → Effect),
        (setPayloadAndSize d { header := b }).bind (fun x => match x with
          | none => some none
          | some p' => some (some (f p'))) = some none →
        (setPayloadAndSize d { header := b }).bind (fun x => match x with
          | none => some none
          | some p' => some (some (g p'))) = some none := by
      intro f g h
      cases hx : setPayloadAndSize d { header := b } with
      | none => rw [hx] at h; cases h
      | some x =>
        rw [hx] at h
        cases x with
        | none => rfl
        | some p' => simp at h
    by_cases c0 : b = 0
    · simp [c0] at h
    rw [if_neg c0] at h ⊢
    by_cases c1 : b = 1
    · simp [c1] at h
    rw [if_neg c1] at h ⊢
    by_cases c2 : b = 0x71
    · rw [if_pos c2] at h ⊢
      exact pay (fun p => ⟨p.size, true, { r with timestamp := p.payload }, d.seen⟩)
        (fun p => ⟨p.size, true, { r' with timestamp := p.payload }, d.seen⟩) h
    rw [if_neg c2] at h ⊢
    by_cases c3 : b &&& hdrMaskEvSrc = 0x42
    · rw [if_pos c3] at h ⊢
      exact pay (fun p => ⟨p.size, false, { r with event := eventOf p.payload }, d.seen⟩)
        (fun p => ⟨p.size, false, { r' with event := eventOf p.payload }, d.seen⟩) h
    rw [if_neg c3] at h ⊢
    by_cases c4 : b &&& hdrMaskEvSrc = 0x43
    · rw [if_pos c4] at h ⊢
      exact pay (fun p => ⟨p.size, false, { r with source := some p.payload }, d.seen⟩)
        (fun p => ⟨p.size, false, { r' with source := some p.payload }, d.seen⟩) h
    rw [if_neg c4] at h ⊢
    by_cases c5 : b &&& hdrMaskCtxOpExt = 0x64
    · rw [if_pos c5] at h ⊢
      exact pay (fun p => ⟨p.size, false, { r with context :=
          { id := p.payload, el1 := p.header &&& mask 1 0 = 0, el2 := p.header &&& mask 1 0 = 1 } }, d.seen⟩)
        (fun p => ⟨p.size, false, { r' with context :=
          { id := p.payload, el1 := p.header &&& mask 1 0 = 0, el2 := p.header &&& mask 1 0 = 1 } }, d.seen⟩) h
    rw [if_neg c5] at h ⊢
    by_cases c6 : b &&& hdrMaskCtxOpExt = 0x48
    · rw [if_pos c6] at h ⊢
      cases hx : setPayloadAndSize d { header := b } with
      | none => rw [hx] at h; cases h
      | some x =>
        rw [hx] at h
        cases x with
        | none => rfl
        | some p' =>
          simp only [Option.bind_some] at h ⊢
          cases ho : opOf r.op (p'.header &&& mask 1 0) p'.payload with
          | none => rw [opOf_fail _ r'.op _ _ p'.payload ho]
          | some op => rw [ho] at h; simp at h
    rw [if_neg c6] at h ⊢
    by_cases c7 : b &&& hdrMaskCtxOpExt = 0x20
    · rw [if_pos c7] at h ⊢
      by_cases c8 : d.buf.length - d.pos = 1
      · rw [if_pos c8]
      rw [if_neg c8] at h ⊢
      cases hx : d.byte (d.pos + 1) with
      | none => rw [hx] at h; cases h
      | some ext =>
        rw [hx] at h
        simp only [Option.bind_some] at h ⊢
        by_cases c9 : ext = 0
        · rw [if_pos c9] at h ⊢
          by_cases c10 : d.buf.length - d.pos < 1 <<< ((b &&& 0xf) + 1)
          · rw [if_pos c10]
          · rw [if_neg c10] at h; simp at h
        · rw [if_neg c9] at h ⊢
          exact indexed_fail d _ r r' h
    · rw [if_neg c7] at h ⊢
      exact indexed_fail d _ r r' h

theorem loop_spec (fuel : Nat) : ∀ (d : Dec) (r : Record), d.pos ≤ d.buf.length →
    d.buf.length - d.pos < fuel → ∃ ok r' d', loop fuel d r = some (ok, r', d') ∧
      d'.buf = d.buf ∧ d'.base = d.base ∧ d'.cross = d.cross ∧
      d.pos ≤ d'.pos ∧ d'.pos ≤ d.buf.length ∧
      (ok = true → d.pos < d.buf.length → d.pos < d'.pos) ∧
      (ok = false → d'.pos < d.buf.length ∧ packet d' r' = some none) := by
  induction fuel with
  | zero => intro d r _ h; omega
  | succ fuel ih =>
    intro d r hle hf
    simp only [loop]
    by_cases hpos : d.pos < d.buf.length
    · rw [if_pos hpos]
      obtain ⟨y, hy, he⟩ := packet_good d r hpos
      rw [hy]
      cases y with
      | none => exact ⟨false, r, d, rfl, rfl, rfl, rfl, Nat.le_refl _, hle, by simp, fun _ => ⟨hpos, hy⟩⟩
      | some e =>
        obtain ⟨h1, h2⟩ := he e rfl
        simp only
        split
        · exact ⟨true, _, _, rfl, rfl, rfl, rfl, by simp only; omega, by simp only; omega, by simp only; omega, by simp⟩
        · obtain ⟨ok, r', d', g1, g2, g3, g4, g5, g6, g7, g8⟩ :=
            ih { d with pos := d.pos + e.size, seen := e.seen } e.record h2 (by simp only; omega)
          simp only at g2 g3 g4 g5 g6 g7 g8
          exact ⟨ok, r', d', g1, g2, g3, g4, by omega, g6, fun _ _ => by omega, g8⟩
    · rw [if_neg hpos]
      exact ⟨true, r, d, rfl, rfl, rfl, rfl, Nat.le_refl _, hle, fun _ h => absurd h hpos, by simp⟩

/-- More fuel makes no difference: the loop has ended. -/
theorem loop_fuel (fuel : Nat) : ∀ (d : Dec) (r : Record) (x : Bool × Record × Dec),
    loop fuel d r = some x → ∀ k, loop (fuel + k) d r = some x := by
  induction fuel with
  | zero => intro d r x h; simp [loop] at h
  | succ fuel ih =>
    intro d r x h k
    rw [show fuel + 1 + k = (fuel + k) + 1 by omega]
    simp only [loop] at h ⊢
    split
    · rename_i hpos
      rw [if_pos hpos] at h
      cases hp : packet d r with
      | none => rw [hp] at h; cases h
      | some y =>
        rw [hp] at h
        cases y with
        | none => exact h
        | some e =>
          simp only at h ⊢
          split
          · rename_i he; rw [if_pos he] at h; exact h
          · rename_i he; rw [if_neg he] at h; exact ih _ _ _ h k
    · rename_i hpos
      rw [if_neg hpos] at h; exact h

theorem next_spec (d : Dec) (out : Record) (h : d.pos ≤ d.buf.length) :
    ∃ ok r' d', nextRecord d out = some (ok, r', d') ∧
      d'.buf = d.buf ∧ d'.base = d.base ∧ d'.cross = d.cross ∧
      d.pos ≤ d'.pos ∧ d'.pos ≤ d.buf.length ∧ (ok = true → d.pos < d'.pos) ∧
      (ok = false → r' = out ∧ (d'.pos ≥ d'.buf.length ∨ packet d' {} = some none)) := by
  unfold nextRecord
  by_cases hp : d.pos ≥ d.buf.length
  · rw [if_pos hp]
    exact ⟨false, out, d, rfl, rfl, rfl, rfl, Nat.le_refl _, h, by simp, fun _ => ⟨rfl, Or.inl hp⟩⟩
  · rw [if_neg hp]
    obtain ⟨ok, r', d', g1, g2, g3, g4, g5, g6, g7, g8⟩ := loop_spec (d.buf.length + 1) d {} h (by omega)
    rw [g1]
    cases ok with
    | true => exact ⟨true, r', d', rfl, g2, g3, g4, g5, g6, fun _ => g7 rfl (by omega), by simp⟩
    | false =>
      exact ⟨false, out, d', rfl, g2, g3, g4, g5, g6, by simp,
        fun _ => ⟨rfl, Or.inr (packet_fail _ _ _ (g8 rfl).2)⟩⟩

/-! ## Encoded packets -/

/-- The unread bytes. -/
def Dec.rest (d : Dec) : List UInt8 := d.buf.drop d.pos

theorem byte_rest (d : Dec) (i : Nat) : d.byte (d.pos + i) = (d.rest[i]?).map (·.toNat) := by
  simp [Dec.byte, Dec.rest, List.getElem?_drop]

theorem rest_length (d : Dec) : d.rest.length = d.buf.length - d.pos := by simp [Dec.rest]

theorem load_rest (d : Dec) (i n : Nat) (h : i + n ≤ d.rest.length) (hn : 0 < n) :
    d.load (d.pos + i) n = some (leNat ((d.rest.drop i).take n)) := by
  rw [rest_length] at h
  unfold Dec.load Dec.rest
  rw [if_pos (by omega), List.drop_drop]

theorem payloadBytes_length (cross : Bool) (n v : Nat) : (payloadBytes cross n v).length = n := by
  unfold payloadBytes; split <;> simp

theorem payload_back (cross : Bool) (n v : Nat) (hn : n = 1 ∨ n = 2 ∨ n = 4 ∨ n = 8) (hv : v < 256 ^ n) :
    Util.maybeSwap n (leNat (payloadBytes cross n v)) cross = some v := by
  unfold Util.maybeSwap payloadBytes
  cases cross with
  | false => simp [leNat_toLE_of_lt hv]
  | true =>
    simp only [if_true]
    have h := @Util.byteSwap_leNat (toLE n v).reverse (by simpa using hn)
    simp only [List.length_reverse, toLE_length, List.reverse_reverse] at h
    rw [h, leNat_toLE_of_lt hv]

theorem payload_back_one (cross : Bool) (v : Nat) (hv : v < 256) : leNat (payloadBytes cross 1 v) = v := by
  have : payloadBytes cross 1 v = toLE 1 v := by
    unfold payloadBytes; cases cross <;> rfl
  rw [this, leNat_toLE_of_lt (by simpa using hv)]

theorem setPayload_encoded (d : Dec) (p : Packet) (hs : List UInt8) (h : UInt8) (n v : Nat) (tail : List UInt8)
    (hrest : d.rest = hs ++ h :: payloadBytes d.cross n v ++ tail)
    (hext : (if p.extHeader ≠ 0 then 2 else 1) = hs.length + 1)
    (hsz : getPayloadSize h.toNat = n) (hv : v < 256 ^ n) :
    setPayloadAndSize d p = some (some { p with payload := v, payloadSize := n, size := hs.length + 1 + n }) := by
  have hc := getPayloadSize_cases h.toNat
  rw [hsz] at hc
  have hlen : d.rest.length = hs.length + 1 + n + tail.length := by
    rw [hrest]; simp [payloadBytes_length]; omega
  have hlen' := rest_length d
  have hbyte : d.byte (d.pos + (hs.length + 1) - 1) = some h.toNat := by
    rw [show d.pos + (hs.length + 1) - 1 = d.pos + hs.length by omega, byte_rest, hrest]
    simp
  have hload : d.load (d.pos + (hs.length + 1)) n = some (leNat (payloadBytes d.cross n v)) := by
    rw [load_rest _ _ _ (by omega) (by omega), hrest]
    congr 2
    have : (hs ++ h :: payloadBytes d.cross n v ++ tail).drop (hs.length + 1) =
        payloadBytes d.cross n v ++ tail := by
      rw [List.append_assoc, List.drop_append]
      simp
    rw [this]
    have := List.take_left (l₁ := payloadBytes d.cross n v) (l₂ := tail)
    rw [payloadBytes_length] at this
    exact this
  unfold setPayloadAndSize
  simp only [hext, hbyte, hsz, Option.bind_eq_bind, Option.bind_some, Option.pure_def]
  rw [if_neg (by omega)]
  by_cases h1 : n = 1
  · subst h1
    simp only [if_true, hload, Option.bind_some]
    rw [payload_back_one _ _ (by simpa using hv)]
  · rw [if_neg h1, if_pos (by omega), hload]
    simp only [Option.bind_some]
    rw [payload_back _ _ _ hc hv]
    rfl

theorem packetIndex_short (d : Dec) (p : Packet) (h : UInt8) (t : List UInt8) (hrest : d.rest = h :: t)
    (he : p.extHeader = 0) : packetIndex d p = some (hdrIndex h.toNat) := by
  have hb : d.byte d.pos = some h.toNat := by
    have := byte_rest d 0
    rw [hrest] at this
    simpa using this
  unfold packetIndex
  simp [he, hb]

theorem packetIndex_ext (d : Dec) (p : Packet) (h h' : UInt8) (t : List UInt8) (hrest : d.rest = h :: h' :: t)
    (he : p.extHeader ≠ 0) : packetIndex d p = some (hdrExtendedIndex h.toNat h'.toNat) := by
  have hb : d.byte d.pos = some h.toNat := by
    have := byte_rest d 0
    rw [hrest] at this
    simpa using this
  have hb' : d.byte (d.pos + 1) = some h'.toNat := by
    have := byte_rest d 1
    rw [hrest] at this
    simpa using this
  unfold packetIndex
  simp [he, hb, hb']

/-- Header bytes are what they are meant to be. -/
theorem hdr_event : ∀ s : Fin 4, let h := (UInt8.ofNat (0x42 + 16 * s.val)).toNat
    h ≠ 0 ∧ h ≠ 1 ∧ h ≠ 0x71 ∧ h &&& hdrMaskEvSrc = 0x42 ∧ getPayloadSize h = 2 ^ s.val := by decide +kernel
theorem hdr_source : ∀ s : Fin 4, let h := (UInt8.ofNat (0x43 + 16 * s.val)).toNat
    h ≠ 0 ∧ h ≠ 1 ∧ h ≠ 0x71 ∧ h &&& hdrMaskEvSrc ≠ 0x42 ∧ h &&& hdrMaskEvSrc = 0x43 ∧
    getPayloadSize h = 2 ^ s.val := by decide +kernel
theorem hdr_context : ∀ s : Fin 4, let h := (UInt8.ofNat (0x64 + s.val)).toNat
    h ≠ 0 ∧ h ≠ 1 ∧ h ≠ 0x71 ∧ h &&& hdrMaskEvSrc ≠ 0x42 ∧ h &&& hdrMaskEvSrc ≠ 0x43 ∧
    h &&& hdrMaskCtxOpExt = 0x64 ∧ getPayloadSize h = 4 ∧ h &&& mask 1 0 = s.val := by decide +kernel
theorem hdr_op : ∀ s : Fin 3, let h := (UInt8.ofNat (0x48 + s.val)).toNat
    h ≠ 0 ∧ h ≠ 1 ∧ h ≠ 0x71 ∧ h &&& hdrMaskEvSrc ≠ 0x42 ∧ h &&& hdrMaskEvSrc ≠ 0x43 ∧
    h &&& hdrMaskCtxOpExt ≠ 0x64 ∧ h &&& hdrMaskCtxOpExt = 0x48 ∧ getPayloadSize h = 1 ∧
    h &&& mask 1 0 = s.val := by decide +kernel
theorem hdr_addr : ∀ s : Fin 8, let h := (UInt8.ofNat (0xb0 + s.val)).toNat
    h ≠ 0 ∧ h ≠ 1 ∧ h ≠ 0x71 ∧ h &&& hdrMaskEvSrc ≠ 0x42 ∧ h &&& hdrMaskEvSrc ≠ 0x43 ∧
    h &&& hdrMaskCtxOpExt ≠ 0x64 ∧ h &&& hdrMaskCtxOpExt ≠ 0x48 ∧ h &&& hdrMaskCtxOpExt ≠ 0x20 ∧
    h &&& hdrMaskAddrCtr = 0xb0 ∧ getPayloadSize h = 8 ∧ hdrIndex h = s.val := by decide +kernel
theorem hdr_counter : ∀ s : Fin 8, let h := (UInt8.ofNat (0x98 + s.val)).toNat
    h ≠ 0 ∧ h ≠ 1 ∧ h ≠ 0x71 ∧ h &&& hdrMaskEvSrc ≠ 0x42 ∧ h &&& hdrMaskEvSrc ≠ 0x43 ∧
    h &&& hdrMaskCtxOpExt ≠ 0x64 ∧ h &&& hdrMaskCtxOpExt ≠ 0x48 ∧ h &&& hdrMaskCtxOpExt ≠ 0x20 ∧
    h &&& hdrMaskAddrCtr ≠ 0xb0 ∧ h &&& hdrMaskAddrCtr = 0x98 ∧ getPayloadSize h = 2 ∧
    hdrIndex h = s.val := by decide +kernel
theorem hdr_ext : ∀ s : Fin 32, let h := (UInt8.ofNat (0x20 + s.val / 8)).toNat
    h ≠ 0 ∧ h ≠ 1 ∧ h ≠ 0x71 ∧ h &&& hdrMaskEvSrc ≠ 0x42 ∧ h &&& hdrMaskEvSrc ≠ 0x43 ∧
    h &&& hdrMaskCtxOpExt ≠ 0x64 ∧ h &&& hdrMaskCtxOpExt ≠ 0x48 ∧ h &&& hdrMaskCtxOpExt = 0x20 := by
  decide +kernel
theorem hdr_addrExt : ∀ s : Fin 32, let h := (UInt8.ofNat (0xb0 + s.val % 8)).toNat
    h ≠ 0 ∧ h &&& hdrMaskAddrCtr = 0xb0 ∧ getPayloadSize h = 8 ∧
    hdrExtendedIndex (UInt8.ofNat (0x20 + s.val / 8)).toNat h = s.val := by decide +kernel
theorem hdr_counterExt : ∀ s : Fin 32, let h := (UInt8.ofNat (0x98 + s.val % 8)).toNat
    h ≠ 0 ∧ h &&& hdrMaskAddrCtr ≠ 0xb0 ∧ h &&& hdrMaskAddrCtr = 0x98 ∧ getPayloadSize h = 2 ∧
    hdrExtendedIndex (UInt8.ofNat (0x20 + s.val / 8)).toNat h = s.val := by decide +kernel

theorem byte_pos (d : Dec) (h : UInt8) (t : List UInt8) (hrest : d.rest = h :: t) :
    d.byte d.pos = some h.toNat := by
  have := byte_rest d 0
  rw [hrest] at this
  simpa using this

theorem packet_encoded (d : Dec) (r : Record) (p : Pkt) (tail : List UInt8)
    (hrest : d.rest = p.bytes d.cross ++ tail) (hf : p.Fits) :
    ∃ seen, packet d r = some (some ⟨(p.bytes d.cross).length, false, p.apply r, seen⟩) := by
  have short : ∀ (h : UInt8) (n v : Nat), d.rest = h :: payloadBytes d.cross n v ++ tail →
      getPayloadSize h.toNat = n → v < 256 ^ n →
      setPayloadAndSize d { header := h.toNat } =
        some (some { header := h.toNat, payload := v, payloadSize := n, size := 1 + n }) := by
    intro h n v hr hsz hv
    have := setPayload_encoded d { header := h.toNat } [] h n v tail (by simpa using hr) (by simp) hsz hv
    simpa using this
  cases p with
  | pad =>
    refine ⟨d.seen, ?_⟩
    have hb := byte_pos d 0 tail (by simpa [Pkt.bytes] using hrest)
    unfold packet
    simp only [hb, Option.bind_eq_bind, Option.bind_some, Option.pure_def]
    rfl
  | event s v =>
    refine ⟨d.seen, ?_⟩
    obtain ⟨c0, c1, c2, c3, c4⟩ := hdr_event s
    have hb := byte_pos d _ _ hrest
    have hp := short _ (2 ^ s.val) v hrest c4 hf
    unfold packet
    simp only [hb, Option.bind_eq_bind, Option.bind_some, Option.pure_def]
    rw [if_neg c0, if_neg c1, if_neg c2, if_pos c3, hp]
    simp [Pkt.bytes, Pkt.apply, payloadBytes_length, eventOf_eq, Nat.add_comm]
  | source s v =>
    refine ⟨d.seen, ?_⟩
    obtain ⟨c0, c1, c2, c3, c3', c4⟩ := hdr_source s
    have hb := byte_pos d _ _ hrest
    have hp := short _ (2 ^ s.val) v hrest c4 hf
    unfold packet
    simp only [hb, Option.bind_eq_bind, Option.bind_some, Option.pure_def]
    rw [if_neg c0, if_neg c1, if_neg c2, if_neg c3, if_pos c3', hp]
    simp [Pkt.bytes, Pkt.apply, payloadBytes_length, Nat.add_comm]
  | context s v =>
    refine ⟨d.seen, ?_⟩
    obtain ⟨c0, c1, c2, c3, c3', c4, c5, c6⟩ := hdr_context s
    have hb := byte_pos d _ _ hrest
    have hv : v < 256 ^ 4 := by simpa [Pkt.Fits] using hf
    have hp := short _ 4 v hrest c5 hv
    unfold packet
    simp only [hb, Option.bind_eq_bind, Option.bind_some, Option.pure_def]
    rw [if_neg c0, if_neg c1, if_neg c2, if_neg c3, if_neg c3', if_pos c4, hp]
    simp only [Option.bind_some, c6, Pkt.bytes, Pkt.apply, List.length_cons, payloadBytes_length]
    rfl
  | op s v =>
    refine ⟨d.seen, ?_⟩
    obtain ⟨c0, c1, c2, c3, c3', c4, c5, c6, c7⟩ := hdr_op s
    have hb := byte_pos d _ _ hrest
    have hv : v < 256 ^ 1 := by simpa [Pkt.Fits] using hf
    have hp := short _ 1 v hrest c6 hv
    unfold packet
    simp only [hb, Option.bind_eq_bind, Option.bind_some, Option.pure_def]
    rw [if_neg c0, if_neg c1, if_neg c2, if_neg c3, if_neg c3', if_neg c4, if_pos c5, hp]
    simp only [Option.bind_some, c7, opOf_eq _ s v (by simpa using hv)]
    simp [Pkt.bytes, Pkt.apply, payloadBytes_length]
  | addr s v =>
    obtain ⟨c0, c1, c2, c3, c3', c4, c5, c6, c7, c8, c9⟩ := hdr_addr s
    have hb := byte_pos d _ _ hrest
    have hv : v < 256 ^ 8 := by simpa [Pkt.Fits] using hf
    have hv' : v < 2 ^ 64 := hf
    have hp := short _ 8 v hrest c8 hv
    have hi := packetIndex_short d { header := (UInt8.ofNat (0xb0 + s.val)).toNat, payload := v, payloadSize := 8, size := 1 + 8 }
      _ _ hrest rfl
    refine ⟨(addressOf r d.seen s.val v).2, ?_⟩
    unfold packet
    simp only [hb, Option.bind_eq_bind, Option.bind_some, Option.pure_def]
    rw [if_neg c0, if_neg c1, if_neg c2, if_neg c3, if_neg c3', if_neg c4, if_neg c5, if_neg c6]
    unfold indexedPacket
    have hg : getCorrectHeader { header := (UInt8.ofNat (0xb0 + s.val)).toNat } =
      (UInt8.ofNat (0xb0 + s.val)).toNat := rfl
    simp only [hg, Option.bind_eq_bind, Option.pure_def]
    rw [if_pos c7, hp]
    simp only [Option.bind_some, hi, c9, addressOf_eq _ _ _ _ hv', Pkt.apply]
    simp [Pkt.bytes, payloadBytes_length]
  | addrExt s v =>
    obtain ⟨c0, c1, c2, c3, c3', c4, c5, c6⟩ := hdr_ext s
    obtain ⟨e0, e1, e2, e3⟩ := hdr_addrExt s
    have hb := byte_pos d _ _ hrest
    have hv : v < 256 ^ 8 := by simpa [Pkt.Fits] using hf
    have hv' : v < 2 ^ 64 := hf
    have hb1 : d.byte (d.pos + 1) = some (UInt8.ofNat (0xb0 + s.val % 8)).toNat := by
      rw [byte_rest, hrest]; simp [Pkt.bytes]
    have hlen : d.buf.length - d.pos = 10 + tail.length := by
      rw [← rest_length, hrest]; simp [Pkt.bytes, payloadBytes_length]; omega
    have hp := setPayload_encoded d { header := (UInt8.ofNat (0x20 + s.val / 8)).toNat, extHeader := (UInt8.ofNat (0xb0 + s.val % 8)).toNat }
      [UInt8.ofNat (0x20 + s.val / 8)] _ 8 v tail hrest
      (by simp only [ne_eq, e0, not_false_eq_true, if_true, List.length_singleton]) e2 hv
    have hi := packetIndex_ext d { header := (UInt8.ofNat (0x20 + s.val / 8)).toNat, extHeader := (UInt8.ofNat (0xb0 + s.val % 8)).toNat, payload := v, payloadSize := 8, size := [UInt8.ofNat (0x20 + s.val / 8)].length + 1 + 8 }
      _ _ _ hrest e0
    refine ⟨(addressOf r d.seen s.val v).2, ?_⟩
    unfold packet
    simp only [hb, Option.bind_eq_bind, Option.bind_some, Option.pure_def]
    rw [if_neg c0, if_neg c1, if_neg c2, if_neg c3, if_neg c3', if_neg c4, if_neg c5, if_pos c6,
      if_neg (by omega), hb1]
    simp only [Option.bind_some]
    rw [if_neg e0]
    unfold indexedPacket
    have hg : getCorrectHeader { header := (UInt8.ofNat (0x20 + s.val / 8)).toNat, extHeader := (UInt8.ofNat (0xb0 + s.val % 8)).toNat } =
      (UInt8.ofNat (0xb0 + s.val % 8)).toNat := by
      unfold getCorrectHeader; exact if_neg e0
    simp only [hg, Option.bind_eq_bind, Option.pure_def]
    rw [if_pos e1, hp]
    simp only [Option.bind_some, hi, e3, addressOf_eq _ _ _ _ hv', Pkt.apply]
    simp [Pkt.bytes, payloadBytes_length]
  | counter s v =>
    obtain ⟨c0, c1, c2, c3, c3', c4, c5, c6, c7, c7', c8, c9⟩ := hdr_counter s
    have hb := byte_pos d _ _ hrest
    have hv : v < 256 ^ 2 := by simpa [Pkt.Fits] using hf
    have hv' : v < 2 ^ 16 := hf
    have hp := short _ 2 v hrest c8 hv
    have hi := packetIndex_short d { header := (UInt8.ofNat (0x98 + s.val)).toNat, payload := v, payloadSize := 2, size := 1 + 2 }
      _ _ hrest rfl
    refine ⟨d.seen, ?_⟩
    unfold packet
    simp only [hb, Option.bind_eq_bind, Option.bind_some, Option.pure_def]
    rw [if_neg c0, if_neg c1, if_neg c2, if_neg c3, if_neg c3', if_neg c4, if_neg c5, if_neg c6]
    unfold indexedPacket
    have hg : getCorrectHeader { header := (UInt8.ofNat (0x98 + s.val)).toNat } =
      (UInt8.ofNat (0x98 + s.val)).toNat := rfl
    simp only [hg, Option.bind_eq_bind, Option.pure_def]
    rw [if_neg c7, if_pos c7', hp]
    simp only [Option.bind_some, hi, c9, counterOf_eq _ _ _ hv', Pkt.apply]
    simp [Pkt.bytes, payloadBytes_length]
  | counterExt s v =>
    obtain ⟨c0, c1, c2, c3, c3', c4, c5, c6⟩ := hdr_ext s
    obtain ⟨e0, e1, e1', e2, e3⟩ := hdr_counterExt s
    have hb := byte_pos d _ _ hrest
    have hv : v < 256 ^ 2 := by simpa [Pkt.Fits] using hf
    have hv' : v < 2 ^ 16 := hf
    have hb1 : d.byte (d.pos + 1) = some (UInt8.ofNat (0x98 + s.val % 8)).toNat := by
      rw [byte_rest, hrest]; simp [Pkt.bytes]
    have hlen : d.buf.length - d.pos = 4 + tail.length := by
      rw [← rest_length, hrest]; simp [Pkt.bytes, payloadBytes_length]; omega
    have hp := setPayload_encoded d { header := (UInt8.ofNat (0x20 + s.val / 8)).toNat, extHeader := (UInt8.ofNat (0x98 + s.val % 8)).toNat }
      [UInt8.ofNat (0x20 + s.val / 8)] _ 2 v tail hrest
      (by simp only [ne_eq, e0, not_false_eq_true, if_true, List.length_singleton]) e2 hv
    have hi := packetIndex_ext d { header := (UInt8.ofNat (0x20 + s.val / 8)).toNat, extHeader := (UInt8.ofNat (0x98 + s.val % 8)).toNat, payload := v, payloadSize := 2, size := [UInt8.ofNat (0x20 + s.val / 8)].length + 1 + 2 }
      _ _ _ hrest e0
    refine ⟨d.seen, ?_⟩
    unfold packet
    simp only [hb, Option.bind_eq_bind, Option.bind_some, Option.pure_def]
    rw [if_neg c0, if_neg c1, if_neg c2, if_neg c3, if_neg c3', if_neg c4, if_neg c5, if_pos c6,
      if_neg (by omega), hb1]
    simp only [Option.bind_some]
    rw [if_neg e0]
    unfold indexedPacket
    have hg : getCorrectHeader { header := (UInt8.ofNat (0x20 + s.val / 8)).toNat, extHeader := (UInt8.ofNat (0x98 + s.val % 8)).toNat } =
      (UInt8.ofNat (0x98 + s.val % 8)).toNat := by
      unfold getCorrectHeader; exact if_neg e0
    simp only [hg, Option.bind_eq_bind, Option.pure_def]
    rw [if_neg e1, if_pos e1', hp]
    simp only [Option.bind_some, hi, e3, counterOf_eq _ _ _ hv', Pkt.apply]
    simp [Pkt.bytes, payloadBytes_length]

theorem packet_last (d : Dec) (r : Record) (l : Last) (tail : List UInt8)
    (hrest : d.rest = l.bytes d.cross ++ tail) (hf : l.Fits) :
    packet d r = some (some ⟨(l.bytes d.cross).length, true, l.apply r, d.seen⟩) := by
  cases l with
  | endOfRecord =>
    have hb := byte_pos d 1 tail (by simpa [Last.bytes] using hrest)
    unfold packet
    simp only [hb, Option.bind_eq_bind, Option.bind_some, Option.pure_def]
    rfl
  | timestamp v =>
    have hb := byte_pos d _ _ hrest
    have hv : v < 256 ^ 8 := by simpa [Last.Fits] using hf
    have hp := setPayload_encoded d { header := (0x71 : UInt8).toNat } [] 0x71 8 v tail
      hrest (by simp) (by decide +kernel) hv
    unfold packet
    simp only [hb, Option.bind_eq_bind, Option.bind_some, Option.pure_def]
    rw [if_neg (by decide), if_neg (by decide), if_pos (by decide), hp]
    simp [Last.bytes, Last.apply, payloadBytes_length, Nat.add_comm]

theorem bytes_pos (cross : Bool) (p : Pkt) : 0 < (p.bytes cross).length := by
  cases p <;> simp [Pkt.bytes]

theorem lastBytes_pos (cross : Bool) (l : Last) : 0 < (l.bytes cross).length := by
  cases l <;> simp [Last.bytes]

theorem loop_encoded (ps : List Pkt) (l : Last) (hl : l.Fits) : ∀ (fuel : Nat) (d : Dec) (r : Record) (tail : List UInt8),
    d.rest = ps.flatMap (Pkt.bytes d.cross) ++ (l.bytes d.cross ++ tail) → (∀ p ∈ ps, p.Fits) →
    d.rest.length < fuel →
    ∃ seen, loop fuel d r = some (true, l.apply (ps.foldl Pkt.apply r),
      { d with pos := d.pos + (ps.flatMap (Pkt.bytes d.cross)).length + (l.bytes d.cross).length, seen := seen }) := by
  induction ps with
  | nil =>
    intro fuel d r tail hrest _ hfuel
    obtain ⟨f, rfl⟩ : ∃ f, fuel = f + 1 := ⟨fuel - 1, by omega⟩
    simp only [List.flatMap_nil, List.nil_append] at hrest
    have hp := packet_last d r l tail hrest hl
    have hpos : d.pos < d.buf.length := by
      have := rest_length d
      have h2 := lastBytes_pos d.cross l
      rw [hrest, List.length_append] at this
      omega
    refine ⟨d.seen, ?_⟩
    simp only [loop]
    rw [if_pos hpos, hp]
    simp
  | cons p ps ih =>
    intro fuel d r tail hrest hf hfuel
    obtain ⟨f, rfl⟩ : ∃ f, fuel = f + 1 := ⟨fuel - 1, by omega⟩
    simp only [List.flatMap_cons, List.append_assoc] at hrest
    obtain ⟨seen, hp⟩ := packet_encoded d r p _ hrest (hf p (by simp))
    have h2 := bytes_pos d.cross p
    have hlen := rest_length d
    have hpos : d.pos < d.buf.length := by
      rw [hrest, List.length_append] at hlen
      omega
    have hrest' : ({ d with pos := d.pos + (p.bytes d.cross).length, seen := seen } : Dec).rest =
        ps.flatMap (Pkt.bytes d.cross) ++ (l.bytes d.cross ++ tail) := by
      have : d.buf.drop d.pos = _ := hrest
      unfold Dec.rest
      simp only
      rw [← List.drop_drop, this, List.drop_left]
    obtain ⟨seen', hl'⟩ := ih f { d with pos := d.pos + (p.bytes d.cross).length, seen := seen } (p.apply r) tail
      hrest' (fun q hq => hf q (List.mem_cons_of_mem _ hq)) (by
        have e1 := rest_length { d with pos := d.pos + (p.bytes d.cross).length, seen := seen }
        simp only at e1
        omega)
    refine ⟨seen', ?_⟩
    simp only [loop]
    rw [if_pos hpos, hp]
    simp only [Bool.false_eq_true, if_false]
    rw [hl']
    simp [Nat.add_assoc]

theorem next_encoded (t : Traced) (ht : t.Fits) (d : Dec) (out : Record) (tail : List UInt8)
    (hrest : d.rest = t.bytes d.cross ++ tail) :
    ∃ d', nextRecord d out = some (true, t.record, d') ∧ d'.rest = tail ∧ d'.cross = d.cross ∧
      d'.buf = d.buf := by
  have hlen := rest_length d
  have h2 := lastBytes_pos d.cross t.last
  have hpos : d.pos < d.buf.length := by
    rw [hrest] at hlen
    simp only [Traced.bytes, List.length_append] at hlen
    omega
  obtain ⟨seen, h⟩ := loop_encoded t.pkts t.last ht.2 (d.buf.length + 1) d {} tail
    (by rw [hrest, Traced.bytes, List.append_assoc]) ht.1 (by omega)
  unfold nextRecord
  rw [if_neg (by omega), h]
  refine ⟨_, rfl, ?_, rfl, rfl⟩
  have : d.buf.drop d.pos = _ := hrest
  unfold Dec.rest
  simp only
  rw [Nat.add_assoc, ← List.drop_drop, this, ← List.length_append]
  exact List.drop_left

end Verif.Spe
