import Verif.Spe.Lemmas

/-!
# Properties of the ARM SPE decoder (C12, C13, C14, C58, C59)

`nextRecord d out = none` would mean a read outside the buffer, an abort or a loop that does not end.
-/

namespace Verif.Spe

/-- A decoder on a new trace (`arm_spe_decoder.h`, the constructor). -/
def start (buf : List UInt8) (base : Nat) (cross : Bool) : Dec := { buf, base, cross }

/-! ## C12 -/

/-- C12: on any bytes, at any position in them, whatever the byte order, the address of the buffer and
the kinds of addresses seen so far, `NextRecord` returns without reading outside the buffer, stays inside
it, never changes it, and consumes at least one byte whenever it reports a record. -/
theorem nextRecord_safe (d : Dec) (out : Record) (h : d.pos ≤ d.buf.length) :
    ∃ ok r' d', nextRecord d out = some (ok, r', d') ∧ d'.buf = d.buf ∧ d'.cross = d.cross ∧
      d.pos ≤ d'.pos ∧ d'.pos ≤ d'.buf.length ∧ (ok = true → d.pos < d'.pos) := by
  obtain ⟨ok, r', d', h1, h2, h3, h4, h5, h6, h7, h8⟩ := next_spec d out h
  exact ⟨ok, r', d', h1, h2, h4, h5, by rw [h2]; exact h6, h7⟩

example : ∃ ok r' d', nextRecord (start [0x20, 0xb5, 1, 2] 3 true) {} = some (ok, r', d') ∧
    d'.buf = [0x20, 0xb5, 1, 2] ∧ d'.cross = true ∧ 0 ≤ d'.pos ∧ d'.pos ≤ d'.buf.length ∧
    (ok = true → 0 < d'.pos) := nextRecord_safe _ _ (by decide)

theorem decodeAll_aux (n : Nat) : ∀ (d : Dec) (out : Record), d.pos ≤ d.buf.length →
    d.buf.length - d.pos ≤ n → ∃ rs d', (∀ k, decodeAll (n + 1 + k) d out = some (rs, d')) ∧
      rs.length ≤ d'.pos - d.pos ∧ d.pos ≤ d'.pos ∧ d'.pos ≤ d.buf.length := by
  induction n with
  | zero =>
    intro d out h hn
    have : nextRecord d out = some (false, out, d) := by unfold nextRecord; rw [if_pos (by omega)]
    refine ⟨[], d, ?_, by simp, Nat.le_refl _, h⟩
    intro k
    rw [show 0 + 1 + k = k + 1 by omega]
    simp [decodeAll, this]
  | succ n ih =>
    intro d out h hn
    obtain ⟨ok, r', d', h1, h2, h3, h4, h5, h6, h7, h8⟩ := next_spec d out h
    cases ok with
    | false =>
      refine ⟨[], d', ?_, by simp, h5, h6⟩
      intro k
      rw [show n + 1 + 1 + k = (n + 1 + k) + 1 by omega]
      simp [decodeAll, h1]
    | true =>
      have := h7 rfl
      obtain ⟨rs, d'', g1, g2, g3, g4⟩ := ih d' r' (by rw [h2]; exact h6) (by rw [h2]; omega)
      refine ⟨r' :: rs, d'', ?_, ?_, by omega, by rw [h2] at g4; exact g4⟩
      · intro k
        rw [show n + 1 + 1 + k = (n + 1 + k) + 1 by omega]
        simp [decodeAll, h1, g1]
      · simp only [List.length_cons]; omega

/-- C12: decoding a whole trace ends, after at most one call per byte and one more; it yields no more
records than there are bytes; and allowing more calls changes nothing. -/
theorem decodeAll_terminates (buf : List UInt8) (base : Nat) (cross : Bool) (out : Record) :
    ∃ rs d', (∀ k, decodeAll (buf.length + 1 + k) (start buf base cross) out = some (rs, d')) ∧
      rs.length ≤ buf.length ∧ d'.pos ≤ buf.length := by
  obtain ⟨rs, d', h1, h2, h3, h4⟩ := decodeAll_aux buf.length (start buf base cross) out (by simp [start]) (by simp [start])
  have e : (start buf base cross).buf = buf := rfl
  rw [e] at h4
  exact ⟨rs, d', h1, by omega, h4⟩

example : ∃ rs d', (∀ k, decodeAll (4 + 1 + k) (start [1, 0, 1, 7] 0 false) {} = some (rs, d')) ∧
    rs.length ≤ 4 ∧ d'.pos ≤ 4 := decodeAll_terminates [1, 0, 1, 7] 0 false {}
/-- Two records come out of it. -/
example : (decodeAll 5 (start [1, 0, 1, 7] 0 false) {}).map (fun x => (x.1.length, x.2.pos)) = some (2, 3) := by
  decide +kernel

/-! ## C13 -/

/-- C13: a call that fails leaves the caller's record as it was, and from then on every call fails,
leaving record and position as they are. -/
theorem nextRecord_failure_stable (d d' : Dec) (out out' : Record) (hpos : d.pos ≤ d.buf.length)
    (h : nextRecord d out = some (false, out', d')) :
    out' = out ∧ ∀ out2, nextRecord d' out2 = some (false, out2, d') := by
  obtain ⟨ok, r', d2, h1, h2, h3, h4, h5, h6, h7, h8⟩ := next_spec d out hpos
  rw [h] at h1
  simp only [Option.some.injEq, Prod.mk.injEq] at h1
  obtain ⟨e1, e2, e3⟩ := h1
  subst e1 e2 e3
  obtain ⟨g1, g2⟩ := h8 rfl
  refine ⟨g1, ?_⟩
  intro out2
  unfold nextRecord
  by_cases hp : d'.pos ≥ d'.buf.length
  · rw [if_pos hp]
  · rw [if_neg hp]
    rcases g2 with g2 | g2
    · exact absurd g2 hp
    · simp only [loop]
      rw [if_pos (by omega), g2]

example : (nextRecord (start [1, 7, 1] 0 false) {}).map (fun x => (x.1, x.2.2.pos)) = some (true, 1) ∧
    (nextRecord { start [1, 7, 1] 0 false with pos := 1 } { totalLat := 5 }) =
      some (false, { totalLat := 5 }, { start [1, 7, 1] 0 false with pos := 1 }) := by decide +kernel

/-! ## C14 -/

theorem decodeAll_encoded_aux (ts : List Traced) : ∀ (d : Dec) (out : Record), (∀ t ∈ ts, t.Fits) →
    d.rest = ts.flatMap (Traced.bytes d.cross) → ∀ k,
    ∃ d', decodeAll (ts.length + 1 + k) d out = some (ts.map Traced.record, d') ∧ d'.rest = [] ∧ d'.buf = d.buf := by
  induction ts with
  | nil =>
    intro d out _ h k
    have hlen := rest_length d
    rw [h] at hlen
    have : nextRecord d out = some (false, out, d) := by
      unfold nextRecord; rw [if_pos]; simp at hlen; omega
    refine ⟨d, ?_, by simpa using h, rfl⟩
    rw [show [].length + 1 + k = k + 1 by simp; omega]
    simp [decodeAll, this]
  | cons t ts ih =>
    intro d out hf h k
    simp only [List.flatMap_cons] at h
    obtain ⟨d', h1, h2, h3, h4⟩ := next_encoded t (hf t (by simp)) d out _ h
    obtain ⟨d'', g1, g2, g3⟩ := ih d' t.record (fun t ht => hf t (List.mem_cons_of_mem _ ht)) (by rw [h2, h3]) k
    refine ⟨d'', ?_, g2, by rw [g3, h4]⟩
    rw [show (t :: ts).length + 1 + k = (ts.length + 1 + k) + 1 by simp; omega]
    simp [decodeAll, h1, g1]

/-- C14: decoding the bytes of any sequence of records, each any sequence of packets closed by an end or
timestamp packet, in either byte order and at any address, yields exactly those records, in order, and
then stops with every byte consumed. -/
theorem decodeAll_encoded (ts : List Traced) (hf : ∀ t ∈ ts, t.Fits) (base : Nat) (cross : Bool)
    (out : Record) (k : Nat) :
    ∃ d', decodeAll (ts.length + 1 + k) (start (ts.flatMap (Traced.bytes cross)) base cross) out =
        some (ts.map Traced.record, d') ∧
      d'.buf.drop d'.pos = [] := by
  obtain ⟨d', h1, h2, h3⟩ := decodeAll_encoded_aux ts (start (ts.flatMap (Traced.bytes cross)) base cross) out hf
    (by simp [Dec.rest, start]) k
  exact ⟨d', h1, h2⟩

/-- Two records, with a kernel instruction address through a two-byte header, a latency, padding, an
operation and both kinds of last packet. -/
def sampleTraces : List Traced :=
  [⟨[.addrExt 0 0xa0ffff0012345678, .counter 1 500, .pad, .op 1 0x1e, .event 1 0x52], .timestamp 0x1122334455667788⟩,
   ⟨[.pad, .addr 3 0xc5000000deadbeef, .context 1 77], .endOfRecord⟩]

example : (∀ t ∈ sampleTraces, t.Fits) := by
  intro t ht
  simp only [sampleTraces, List.mem_cons, List.not_mem_nil, or_false] at ht
  rcases ht with rfl | rfl <;>
  · refine ⟨?_, ?_⟩
    · intro p hp
      simp only [List.mem_cons, List.not_mem_nil, or_false] at hp
      rcases hp with rfl | rfl | rfl | rfl | rfl <;> simp [Pkt.Fits]
    · simp [Last.Fits]

example : ((decodeAll 3 (start (sampleTraces.flatMap (Traced.bytes true)) 7 true) {}).map (fun x => x.1) =
    some (sampleTraces.map Traced.record)) ∧
    ((sampleTraces.map Traced.record).map (fun r => (r.ip.addr, r.ip.el, r.issueLat, r.timestamp, r.phys.addr, r.context.id)) =
      [(0xffffff0012345678, 1, 500, 0x1122334455667788, 0, 0), (0, 0, 0, 0, 0xdeadbeef, 77)]) := by
  decide +kernel

/-- C14, one record: whatever follows it in the buffer is left unread. -/
theorem nextRecord_encoded (t : Traced) (ht : t.Fits) (pre tail : List UInt8) (base seen : Nat) (cross : Bool)
    (out : Record) :
    ∃ d', nextRecord { buf := pre ++ (t.bytes cross ++ tail), base := base, cross := cross, pos := pre.length, seen := seen } out =
        some (true, t.record, d') ∧ d'.buf.drop d'.pos = tail := by
  obtain ⟨d', h1, h2, h3, h4⟩ := next_encoded t ht
    { buf := pre ++ (t.bytes cross ++ tail), base := base, cross := cross, pos := pre.length, seen := seen } out tail
    (by simp [Dec.rest])
  exact ⟨d', h1, h2⟩

/-! ## C58 -/

theorem loop_end (fuel : Nat) : ∀ (d : Dec) (r r' : Record) (d' : Dec), loop fuel d r = some (true, r', d') →
    d'.pos ≥ d'.buf.length ∨ ∃ d1 r1 e, packet d1 r1 = some (some e) ∧ e.isEnd = true ∧
      d1.buf = d.buf ∧ d.pos ≤ d1.pos ∧ d'.pos = d1.pos + e.size := by
  induction fuel with
  | zero => intro d r r' d' h; simp [loop] at h
  | succ fuel ih =>
    intro d r r' d' h
    simp only [loop] at h
    split at h
    · rename_i hpos
      cases hp : packet d r with
      | none => rw [hp] at h; cases h
      | some y =>
        rw [hp] at h
        cases y with
        | none => simp at h
        | some e =>
          simp only at h
          split at h
          · rename_i he
            simp only [Option.some.injEq, Prod.mk.injEq, true_and] at h
            obtain ⟨h1, h2⟩ := h
            subst h2
            exact Or.inr ⟨d, r, e, hp, he, rfl, Nat.le_refl _, rfl⟩
          · rcases ih { d with pos := d.pos + e.size, seen := e.seen } _ _ _ h with h | ⟨d1, r1, e1, g1, g2, g3, g4, g5⟩
            · exact Or.inl h
            · exact Or.inr ⟨d1, r1, e1, g1, g2, g3, by simp only at g4; omega, g5⟩
    · rename_i hpos
      simp only [Option.some.injEq, Prod.mk.injEq, true_and] at h
      obtain ⟨h1, h2⟩ := h
      subst h2
      left; omega

theorem setPayload_ts (d : Dec) (p' : Packet) (hb : d.byte d.pos = some 0x71)
    (h : setPayloadAndSize d { header := 0x71 } = some (some p')) : p'.size = 9 := by
  have hz : getPayloadSize 0x71 = 8 := by decide +kernel
  unfold setPayloadAndSize at h
  simp only [ne_eq, not_true_eq_false, if_false, show d.pos + 1 - 1 = d.pos by omega, hb,
    Option.bind_eq_bind, Option.bind_some, Option.pure_def, hz] at h
  split at h
  · simp at h
  · simp only [show ¬ (8 = 1) by decide, if_false, or_true, if_true] at h
    cases hl : d.load (d.pos + 1) 8 with
    | none => rw [hl] at h; cases h
    | some v =>
      rw [hl] at h
      simp only [Option.bind_some] at h
      cases hm : Util.maybeSwap 8 v d.cross with
      | none => rw [hm] at h; cases h
      | some w =>
        rw [hm] at h
        simp only [Option.bind_some, Option.some.injEq] at h
        subst h; rfl

theorem isEnd_header (d : Dec) (r : Record) (e : Effect) (h : packet d r = some (some e)) (he : e.isEnd = true) :
    d.byte d.pos = some 1 ∧ e.size = 1 ∨ d.byte d.pos = some 0x71 ∧ e.size = 9 := by
  unfold packet at h
  simp only [Option.bind_eq_bind, Option.pure_def] at h
  cases hb : d.byte d.pos with
  | none => rw [hb] at h; cases h
  | some b =>
    rw [hb] at h
    simp only [Option.bind_some] at h
    have idx : ∀ p, indexedPacket d p r = some (some e) → False := by
      intro p h
      unfold indexedPacket at h
      simp only [Option.bind_eq_bind, Option.pure_def] at h
      by_cases c1 : getCorrectHeader p &&& hdrMaskAddrCtr = 0xb0
      · simp only [c1, if_true] at h
        cases hx : setPayloadAndSize d p with
        | none => rw [hx] at h; cases h
        | some x =>
          rw [hx] at h
          cases x with
          | none => simp at h
          | some p' =>
            simp only [Option.bind_some] at h
            cases hi : packetIndex d p' with
            | none => rw [hi] at h; cases h
            | some i =>
              rw [hi] at h
              simp only [Option.bind_some, Option.some.injEq] at h
              subst h; simp at he
      · rw [if_neg c1] at h
        by_cases c2 : getCorrectHeader p &&& hdrMaskAddrCtr = 0x98
        · simp only [c2, if_true] at h
          cases hx : setPayloadAndSize d p with
          | none => rw [hx] at h; cases h
          | some x =>
            rw [hx] at h
            cases x with
            | none => simp at h
            | some p' =>
              simp only [Option.bind_some] at h
              cases hi : packetIndex d p' with
              | none => rw [hi] at h; cases h
              | some i =>
                rw [hi] at h
                simp only [Option.bind_some, Option.some.injEq] at h
                subst h; simp at he
        · rw [if_neg c2] at h; simp at h
    have pay : ∀ (f : Packet → Effect), (∀ p, (f p).isEnd = false) →
        (setPayloadAndSize d { header := b }).bind (fun x => match x with
          | none => some none
          | some p' => some (some (f p'))) = some (some e) → False := by
      intro f hf h
      cases hx : setPayloadAndSize d { header := b } with
      | none => rw [hx] at h; cases h
      | some x =>
        rw [hx] at h
        cases x with
        | none => simp at h
        | some p' =>
          simp only [Option.bind_some, Option.some.injEq] at h
          have := hf p'
          rw [h, he] at this; cases this
    by_cases c0 : b = 0
    · rw [if_pos c0] at h
      simp only [Option.some.injEq] at h
      subst h; simp at he
    rw [if_neg c0] at h
    by_cases c1 : b = 1
    · left
      rw [if_pos c1] at h
      simp only [Option.some.injEq] at h
      rw [← h, c1]; exact ⟨rfl, rfl⟩
    rw [if_neg c1] at h
    by_cases c2 : b = 0x71
    · right
      rw [if_pos c2] at h
      subst c2
      refine ⟨rfl, ?_⟩
      cases hx : setPayloadAndSize d { header := 0x71 } with
      | none => rw [hx] at h; cases h
      | some x =>
        rw [hx] at h
        cases x with
        | none => simp at h
        | some p' =>
          simp only [Option.bind_some, Option.some.injEq] at h
          rw [← h]
          exact setPayload_ts d p' hb hx
    rw [if_neg c2] at h
    exfalso
    by_cases c3 : b &&& hdrMaskEvSrc = 0x42
    · rw [if_pos c3] at h
      exact pay (fun p => ⟨p.size, false, { r with event := eventOf p.payload }, d.seen⟩) (fun _ => rfl) h
    rw [if_neg c3] at h
    by_cases c4 : b &&& hdrMaskEvSrc = 0x43
    · rw [if_pos c4] at h
      exact pay (fun p => ⟨p.size, false, { r with source := some p.payload }, d.seen⟩) (fun _ => rfl) h
    rw [if_neg c4] at h
    by_cases c5 : b &&& hdrMaskCtxOpExt = 0x64
    · rw [if_pos c5] at h
      exact pay (fun p => ⟨p.size, false, { r with context :=
        { id := p.payload, el1 := p.header &&& mask 1 0 = 0, el2 := p.header &&& mask 1 0 = 1 } }, d.seen⟩) (fun _ => rfl) h
    rw [if_neg c5] at h
    by_cases c6 : b &&& hdrMaskCtxOpExt = 0x48
    · rw [if_pos c6] at h
      cases hx : setPayloadAndSize d { header := b } with
      | none => rw [hx] at h; cases h
      | some x =>
        rw [hx] at h
        cases x with
        | none => simp at h
        | some p' =>
          simp only [Option.bind_some] at h
          cases ho : opOf r.op (p'.header &&& mask 1 0) p'.payload with
          | none => rw [ho] at h; simp at h
          | some op =>
            rw [ho] at h
            simp only [Option.some.injEq] at h
            subst h; simp at he
    rw [if_neg c6] at h
    by_cases c7 : b &&& hdrMaskCtxOpExt = 0x20
    · rw [if_pos c7] at h
      by_cases c8 : d.buf.length - d.pos = 1
      · rw [if_pos c8] at h; simp at h
      rw [if_neg c8] at h
      cases hx : d.byte (d.pos + 1) with
      | none => rw [hx] at h; cases h
      | some ext =>
        rw [hx] at h
        simp only [Option.bind_some] at h
        by_cases c9 : ext = 0
        · rw [if_pos c9] at h
          by_cases c10 : d.buf.length - d.pos < 1 <<< ((b &&& 0xf) + 1)
          · rw [if_pos c10] at h; simp at h
          · rw [if_neg c10] at h
            simp only [Option.some.injEq] at h
            subst h; simp at he
        · rw [if_neg c9] at h
          exact idx _ h
    · rw [if_neg c7] at h
      exact idx _ h

/-- C58, what holds of it: a record is reported only when the packet that ended it has an end (`0x01`) or
timestamp (`0x71`) header, or when there is nothing left to read. -/
theorem nextRecord_complete_partial (d d' : Dec) (out r : Record) (h : nextRecord d out = some (true, r, d')) :
    d'.pos ≥ d'.buf.length ∨
      ∃ i, i < d'.pos ∧ d.pos ≤ i ∧ (d.buf[i]? = some 0x01 ∧ d'.pos = i + 1 ∨ d.buf[i]? = some 0x71 ∧ d'.pos = i + 9) := by
  unfold nextRecord at h
  split at h
  · simp at h
  · cases hl : loop (d.buf.length + 1) d {} with
    | none => rw [hl] at h; cases h
    | some x =>
      obtain ⟨ok, r1, d1⟩ := x
      rw [hl] at h
      cases ok with
      | false => simp at h
      | true =>
        simp only [Option.some.injEq, Prod.mk.injEq, true_and] at h
        obtain ⟨e1, e2⟩ := h
        subst e1 e2
        rcases loop_end _ _ _ _ _ hl with h | ⟨d2, r2, e, g1, g2, g3, g4, g5⟩
        · exact Or.inl h
        · refine Or.inr ⟨d2.pos, ?_⟩
          have tn : ∀ k : UInt8, d2.byte d2.pos = some k.toNat → d.buf[d2.pos]? = some k := by
            intro k hk
            unfold Dec.byte at hk
            rw [g3] at hk
            cases hq : d.buf[d2.pos]? with
            | none => rw [hq] at hk; cases hk
            | some q =>
              rw [hq] at hk
              simp only [Option.map_some, Option.some.injEq] at hk
              rw [UInt8.toNat_inj.mp hk]
          rcases isEnd_header _ _ _ g1 g2 with ⟨h1, h2⟩ | ⟨h1, h2⟩
          · exact ⟨by omega, g4, Or.inl ⟨tn 1 h1, by omega⟩⟩
          · exact ⟨by omega, g4, Or.inr ⟨tn 0x71 h1, by omega⟩⟩

example : ∃ r d', nextRecord (start [0, 1, 0] 0 false) {} = some (true, r, d') ∧ d'.pos = 2 :=
  ⟨{}, { start [0, 1, 0] 0 false with pos := 2 }, by decide +kernel⟩

/-- C58 fails: a trace that stops after an address packet, with no end packet, and one that ends in
padding, each yield a record reported as complete. -/
theorem nextRecord_complete_violated :
    (nextRecord (start (Pkt.bytes false (.addr 0 0x1000)) 0 false) {}).map (fun x => (x.1, x.2.1.ip.addr)) =
      some (true, 0x1000) ∧
    (nextRecord { start [1, 0, 0] 0 false with pos := 1 } {}).map (fun x => (x.1, x.2.1)) = some (true, {}) := by
  decide +kernel

/-! ## C59 -/

theorem packet_align (d : Dec) (r : Record) (k : Fin 4) (t : List UInt8)
    (hrest : d.buf.drop d.pos = UInt8.ofNat (0x20 + k.val) :: 0 :: t)
    (hlen : 2 ^ (k.val + 1) ≤ d.buf.length - d.pos) :
    packet d r = some (some ⟨2 ^ (k.val + 1) - (d.base + d.pos) % 2 ^ (k.val + 1), false, r, d.seen⟩) := by
  have hr : d.rest = UInt8.ofNat (0x20 + k.val) :: 0 :: t := hrest
  have hk : ∀ k : Fin 4, let h := (UInt8.ofNat (0x20 + k.val)).toNat
      h ≠ 0 ∧ h ≠ 1 ∧ h ≠ 0x71 ∧ h &&& hdrMaskEvSrc ≠ 0x42 ∧ h &&& hdrMaskEvSrc ≠ 0x43 ∧
      h &&& hdrMaskCtxOpExt ≠ 0x64 ∧ h &&& hdrMaskCtxOpExt ≠ 0x48 ∧ h &&& hdrMaskCtxOpExt = 0x20 ∧
      1 <<< ((h &&& 0xf) + 1) = 2 ^ (k.val + 1) := by decide +kernel
  obtain ⟨c0, c1, c2, c3, c4, c5, c6, c7, c8⟩ := hk k
  have hb := byte_pos d _ _ hr
  have hb1 : d.byte (d.pos + 1) = some 0 := by rw [byte_rest, hr]; rfl
  have h2 : 2 ≤ 2 ^ (k.val + 1) := by
    have := Nat.two_pow_pos k.val
    rw [Nat.pow_succ]; omega
  unfold packet
  simp only [hb, Option.bind_eq_bind, Option.bind_some, Option.pure_def]
  rw [if_neg c0, if_neg c1, if_neg c2, if_neg c3, if_neg c4, if_neg c5, if_neg c6, if_pos c7, if_neg (by omega), hb1]
  simp only [Option.bind_some, if_true]
  rw [c8, if_neg (by omega), Nat.and_two_pow_sub_one_eq_mod]

/-- C59, what holds of it: an alignment packet (header `0x20 + k`, then zero) with at least `2^(k+1)`
bytes from it to the end of the trace makes the decoder go on at the next address that is a multiple of
`2^(k+1)`, with nothing else changed. -/
theorem nextRecord_align_partial (d : Dec) (out : Record) (k : Fin 4) (t : List UInt8)
    (hrest : d.buf.drop d.pos = UInt8.ofNat (0x20 + k.val) :: 0 :: t)
    (hlen : 2 ^ (k.val + 1) ≤ d.buf.length - d.pos) :
    ∃ pos', d.pos < pos' ∧ pos' ≤ d.pos + 2 ^ (k.val + 1) ∧ (d.base + pos') % 2 ^ (k.val + 1) = 0 ∧
      (pos' < d.buf.length → nextRecord d out = nextRecord { d with pos := pos' } out) := by
  have hp := packet_align d {} k t hrest hlen
  have h2 := Nat.two_pow_pos (k.val + 1)
  generalize 2 ^ (k.val + 1) = m at *
  have hm := Nat.mod_lt (d.base + d.pos) h2
  refine ⟨d.pos + (m - (d.base + d.pos) % m), by omega, by omega, ?_, ?_⟩
  · have := Nat.div_add_mod (d.base + d.pos) m
    rw [show d.base + (d.pos + (m - (d.base + d.pos) % m)) = m * ((d.base + d.pos) / m) + m by omega]
    simp
  · intro hlt
    have e : loop (d.buf.length + 1) d {} =
        loop d.buf.length { d with pos := d.pos + (m - (d.base + d.pos) % m) } {} := by
      simp only [loop]
      rw [if_pos (by omega), hp]
      simp
    obtain ⟨ok, r', d', g1, -⟩ := loop_spec d.buf.length { d with pos := d.pos + (m - (d.base + d.pos) % m) } {}
      (by simp only; omega) (by simp only; omega)
    have g2 := loop_fuel _ _ _ _ g1 1
    unfold nextRecord
    rw [if_neg (by omega), if_neg (by simp only; omega), e, g1]
    simp only
    rw [g2]

example : ∃ pos', 1 < pos' ∧ pos' ≤ 1 + 2 ^ (2 + 1) ∧ (3 + pos') % 2 ^ (2 + 1) = 0 ∧
    (pos' < 10 → nextRecord { start [1, 0x22, 0, 9, 9, 1, 0, 0, 0, 1] 3 false with pos := 1 } {} =
      nextRecord { start [1, 0x22, 0, 9, 9, 1, 0, 0, 0, 1] 3 false with pos := pos' } {}) :=
  nextRecord_align_partial { start [1, 0x22, 0, 9, 9, 1, 0, 0, 0, 1] 3 false with pos := 1 } {} 2 [9, 9, 1, 0, 0, 0, 1]
    (by decide) (by decide)

/-- C59 fails: an alignment packet whose padding ends exactly at the end of the trace is rejected, because
the whole alignment, not the padding, is compared with the bytes left (the same trace decodes when four
more bytes follow); and the same bytes decode differently at another address. -/
theorem nextRecord_align_violated :
    (nextRecord (start [0, 0, 0, 0, 0, 0, 0x22, 0] 0 false) {}).map (·.1) = some false ∧
    (nextRecord (start ([0, 0, 0, 0, 0, 0, 0x22, 0] ++ [0, 0, 0, 0, 0, 0]) 0 false) {}).map (·.1) = some true ∧
    (nextRecord (start [0x22, 0, 0, 0, 1, 0, 0, 0, 1] 0 false) {}).map (·.2.2.pos) ≠
      (nextRecord (start [0x22, 0, 0, 0, 1, 0, 0, 0, 1] 4 false) {}).map (·.2.2.pos) := by
  decide +kernel

/-- C59, no dependence on the address without alignment packets: see `decodeAll_encoded`, which holds for
every `base`. -/
theorem decodeAll_encoded_base (ts : List Traced) (hf : ∀ t ∈ ts, t.Fits) (b1 b2 : Nat) (cross : Bool)
    (out : Record) (k : Nat) :
    (decodeAll (ts.length + 1 + k) (start (ts.flatMap (Traced.bytes cross)) b1 cross) out).map (·.1) =
    (decodeAll (ts.length + 1 + k) (start (ts.flatMap (Traced.bytes cross)) b2 cross) out).map (·.1) := by
  obtain ⟨d1, h1, -⟩ := decodeAll_encoded ts hf b1 cross out k
  obtain ⟨d2, h2, -⟩ := decodeAll_encoded ts hf b2 cross out k
  rw [h1, h2]; rfl

end Verif.Spe
