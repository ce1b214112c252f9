import Verif.File.Foreign

/-! Reading records in the other byte order. -/

namespace Verif.File
open Verif.Buffer Verif.Event Verif.Sample Verif.Attr Verif.Names Verif.Text Verif.Util Verif.Meta Verif.Serial Verif.Data

theorem foreign_is {p : Piece} (h : p.Is false (pieceBytes p)) : p.Is true (foreignBytes p) := by
  cases p with
  | bytes l => rfl
  | pad n => simp [Piece.Is, foreignBytes]
  | _ v =>
    obtain ⟨h1, h2⟩ := h
    refine ⟨by simp [foreignBytes], ?_⟩
    simp only [foreignBytes, decodeInt, if_true, List.reverse_reverse]
    simpa only [pieceBytes, decodeInt, Bool.false_eq_true, if_false] using h2

/-- Fields that are right in one byte order are right in the other. -/
theorem foreign_matches : ∀ {L : List Piece}, Matches false L (Serial.image L) → Matches true L (foreignImage L)
  | [], _ => rfl
  | p :: L, h => by
    obtain ⟨a, b, hab, ha, hb⟩ := h
    rw [Serial.image_cons] at hab
    obtain ⟨rfl, rfl⟩ := List.append_inj hab (by rw [pieceBytes_length, is_len ha])
    exact ⟨_, _, rfl, foreign_is ha, foreign_matches hb⟩

/-- The event in memory: its own fields are converted, sample fields are not. -/
def half (a : Sample.Attr) (m : Msg) : RawEvent :=
  ⟨m.type, m.misc, Serial.image (own m.type m.body) ++ foreignImage (sampleFields a m.body)⟩

theorem half_size (a : Sample.Attr) (m : Msg) : (half a m).size = (wire a m).size := by
  unfold RawEvent.size
  rw [wire_payload]
  simp [half, foreignImage_length, Serial.image_length]

theorem fields_nil {env : Serial.Env} {a : Sample.Attr} {t misc : Nat} {b : Body} (h : BodyOk env t misc b) (hc : carriesSample t = false) :
    sampleFields a b = [] := by
  rcases carries_of h with ⟨s, -, ht⟩ | ⟨i, -, -, ht⟩ | ⟨-, -, -, h⟩
  · rw [ht] at hc; cases hc
  · rw [ht] at hc; cases hc
  · exact h a

theorem half_dataSize {env : Serial.Env} {a : Sample.Attr} {m : Msg} (h : MsgOk env a m) :
    eventDataSize (half a m) = some (8 + (Serial.image (own m.type m.body)).length) := by
  rw [Serial.image_length]
  refine dataSize_own (e := half a m) h.body rfl (by show (half a m).size < _; rw [half_size, ← h.size]; exact h.fits) fun hc => ?_
  rw [fields_nil h.body hc]
  rfl

section
variable {env : Serial.Env} {i : Info} {f : FileAttr} {m : Msg} {ser : Ser}

theorem foreign_carries (h : ForeignOk env i f m) (hs : registerAll {} true [f] = some ser) :
    containsSampleInfo ser (bare m).type = (decide ((bare m).type = SAMPLE) || (carriesSample (bare m).type && f.attr.flags.testBit 18)) :=
  carries_info [f] true _ ser (by simp) hs (by simp) _

theorem half_ok (h : ForeignOk env i f m) : (half f.attr.sample (bare m)).Ok := by
  show (half f.attr.sample (bare m)).size < _
  rw [half_size, ← h.message.size]
  exact h.message.fits

theorem info_fields {a : Sample.Attr} {j : SampleInfo} (hok : InfoOk a j) (h : a.sampleIdAll = true) : Fits (infoSample j) := by
  unfold InfoOk at hok
  rw [if_pos h] at hok
  exact hok.2.2.2.2.2.2

theorem foreign_serialize (h : ForeignOk env i f m) (hs : registerAll {} true [f] = some ser) :
    serialize env ser (half f.attr.sample (bare m)) = some (some (bare m)) := by
  have hm := h.message
  have hc := foreign_carries h hs
  refine serialize_of hm.body rfl rfl (by rw [half_size]; exact hm.size) hm.stamp
    (readBody_of (rest := foreignImage (sampleFields f.attr.sample (bare m).body)) hm.body (half_ok h) rfl rfl rfl (fun hn => ?_) (fun j hj => ?_) (fun s hb => ?_))
  · show Serial.image _ ++ foreignImage _ = _
    rw [fields_nil hm.body hn]
    simp [foreignImage]
  · have hty := info_type hm.body hj
    have hok := hm.info j hj
    refine readInfo_of (f := f) (by rw [show (half f.attr.sample (bare m)).type = (bare m).type from rfl, hc]; simp [hty.1, hty.2]) hok fun h18 => ?_
    obtain ⟨hsup, hcr⟩ := h.info j hj h18
    have hd : decide ((half f.attr.sample (bare m)).type = SAMPLE) = false := decide_eq_false hty.1
    have hat := (attributed_only (header := headerBytes (half f.attr.sample (bare m))) (s := infoSample j) (e := half f.attr.sample (bare m))
      hs h.type (by rw [hd]; exact hsup) (fun _ => by rw [hd]; exact hcr) h.noId (half_ok h) (header_length _) hty.2 rfl
      (half_dataSize hm) (by rw [hd, fields_info hj]; exact foreign_matches (matches_layout h.type hsup (info_fields hok h18)))).2.1
    rw [hat, hd]
  · have hty : (bare m).type = SAMPLE := by
      have := hm.body; rw [hb] at this; exact this
    have hok := hm.sample s hb
    obtain ⟨hsup, hcr⟩ := h.sample s hb
    have hd : decide ((half f.attr.sample (bare m)).type = SAMPLE) = true := decide_eq_true hty
    have hfields : sampleFields f.attr.sample (bare m).body = layout f.attr.sample true (eventSample s) := by rw [hb]; rfl
    obtain ⟨h1, h2, -⟩ := attributed_only (header := headerBytes (half f.attr.sample (bare m))) (s := eventSample s)
      (e := half f.attr.sample (bare m)) hs h.type (by rw [hd]; exact hsup) (fun _ => by rw [hd]; exact hcr) h.noId (half_ok h) (header_length _)
      (by show carriesSample (bare m).type = true; rw [hty]; decide) rfl
      (half_dataSize hm) (by rw [hd, hfields]; exact foreign_matches (matches_layout h.type hsup hok.fits))
    rw [hd] at h2
    exact readSample_of hok hsup h1 h2

theorem foreign_decode (h : ForeignOk env i f m) (hs : registerAll {} true [f] = some ser) {fixed : Nat}
    (hf : fixedPayloadSize (bare m).type = some fixed) :
    decode ser true fixed ⟨(bare m).type, (bare m).misc,
        foreignImage (own (bare m).type (bare m).body ++ sampleFields f.attr.sample (bare m).body)⟩ =
      some (some (half f.attr.sample (bare m))) := by
  have hm := h.message
  have hok : (half f.attr.sample (bare m)).size < 2 ^ 16 := half_ok h
  have hsz : (half f.attr.sample (bare m)).size = 8 + total (own (bare m).type (bare m).body) +
      (foreignImage (sampleFields f.attr.sample (bare m).body)).length := by
    simp [half, RawEvent.size, Serial.image_length]; omega
  have hnil : carriesSample (bare m).type = false → foreignImage (sampleFields f.attr.sample (bare m).body) = [] := fun hn => by
    rw [fields_nil hm.body hn]; rfl
  have hk : (bare m).type ≠ KSYMBOL ∧ (bare m).type ≠ CGROUP := by rw [(bare_same m).1]; exact h.kind
  rw [foreignImage_append, decode_foreign hm.body hk (by omega) hnil hf]
  obtain ⟨-, h2, h3⟩ := fixed_of (e := half f.attr.sample (bare m)) hm.body rfl (half_ok h) hnil hf
  have e : (⟨(bare m).type, (bare m).misc, Serial.image (own (bare m).type (bare m).body) ++
      foreignImage (sampleFields f.attr.sample (bare m).body)⟩ : RawEvent) = half f.attr.sample (bare m) := rfl
  rw [e]
  unfold decode
  simp only [Bool.false_eq_true, if_false, h3]
  rw [if_neg]
  rintro ⟨c1, c2⟩
  apply c2
  have : foreignImage (sampleFields f.attr.sample (bare m).body) = [] := by
    rw [show (half f.attr.sample (bare m)).type = (bare m).type from rfl, foreign_carries h hs] at c1
    rcases carries_of hm.body with ⟨s, -, ht⟩ | ⟨j, hj, ht, hcs⟩ | ⟨-, -, -, h⟩
    · simp [ht] at c1
    · rw [fields_info hj]
      have h18 : f.attr.flags.testBit 18 = false := by
        cases h18 : f.attr.flags.testBit 18
        · rfl
        · simp [hcs, h18] at c1
      have hall : f.attr.sample.sampleIdAll = false := h18
      unfold layout layoutIds
      rw [hall]
      rfl
    · rw [h]; rfl
  rw [this] at hsz
  simp only [List.length_nil] at hsz
  have h2' : fixed ≤ 8 + total (own (bare m).type (bare m).body) := h2
  show _ = fixed + (8 + total (own (bare m).type (bare m).body) - fixed)
  omega

/-- A record in the other byte order is read as the message it was made from. -/
theorem gets_foreign {cfg : Cfg} {st : Data.St} {o : Nat} (h : ForeignOk cfg.env i f m) (hs : registerAll {} true [f] = some st.base.ser)
    (ha : st.base.info.attrs = i.attrs) (hskip : cfg.skip = []) (hl : (foreignRecord f.attr.sample m).length < 2 ^ 63) :
    Gets true o 0 (one cfg st) (foreignRecord f.attr.sample m) (absorb cfg st m, (foreignRecord f.attr.sample m).length - 8) := by
  have hd : (foreignImage (own (bare m).type (bare m).body ++ sampleFields f.attr.sample (bare m).body)).length =
      (wire f.attr.sample (bare m)).payload.length := by
    rw [wire_payload]
    simp [foreignImage_length, Serial.image_length, total_append]
  have := gets_one_of (o := o) h.message h.trace h.kernel h.timeout (readers_ne (List.mem_singleton.mpr rfl) hs) hd
    (fun _ hf => foreign_decode h hs hf) rfl rfl rfl (foreign_serialize h hs) ha hskip (by
      unfold foreignRecord at hl
      rw [List.length_append] at hl
      omega)
  unfold foreignRecord
  rwa [← (bare_same m).1, ← (bare_same m).2.1]

end

/-- Records in the other byte order are read as the messages they were made from. -/
theorem foreign_records {cfg : Cfg} {i : Info} {st : Data.St} {l : List (FileAttr × Msg)} {r : Reader} {offset : Nat} {tail : Serial.Bytes}
    (hr : r.Ok) (hc : r.cross = true) (ho : offset ≤ r.buf.length)
    (hd : r.buf.drop offset = (l.flatMap fun e => foreignRecord e.1.attr.sample e.2) ++ tail)
    (h : ∀ e ∈ l, ForeignOk cfg.env i e.1 e.2) (hs : registerAll {} true (i.attrs.map deserializeFileAttr) = some st.base.ser)
    (ha : st.base.info.attrs = i.attrs) (hskip : cfg.skip = []) :
    readDataSection cfg st offset (l.flatMap fun e => foreignRecord e.1.attr.sample e.2).length r =
      some (some (absorbAll cfg st (l.map (·.2))), { r with off := offset + (l.flatMap fun e => foreignRecord e.1.attr.sample e.2).length }) := by
  obtain ⟨h1, h2, h3, h4⟩ := seek_drop hr hd ho
  have hl : (l.flatMap fun e => foreignRecord e.1.attr.sample e.2).length ≤ r.buf.length := by
    have := congrArg List.length hd
    rw [List.length_drop, List.length_append] at this
    omega
  have hlim := hr.2.2
  have hsz := hr.1
  unfold readDataSection
  rw [bind_of h1]
  have hg := gets_records_of (cross := true) (cfg := cfg) (attrs := i.attrs) (ser := st.base.ser)
    (rec := fun e => foreignRecord e.1.attr.sample e.2) (fun e => by
      unfold foreignRecord
      simp [Meta.image, u32F, u16F, Fld.image, Item.encode, encodeInt_length]
      omega) (fun e => ForeignOk cfg.env i e.1 e.2)
    (fun e st o he k1 k2 k3 => gets_foreign he (by rw [k1, ← hs, he.only]) k2 hskip k3)
    l (o := offset) (fuel := r.size + 1) h rfl ha (by omega) (by omega)
  exact hg { r with off := offset } tail h2 hc rfl hd (Nat.zero_le _)

end Verif.File
