import Verif.File.Write
import Verif.Meta.Props2
import Verif.Data.Skip

/-! Reading the bytes of a recording. -/

namespace Verif.File
open Verif.Buffer Verif.Event Verif.Sample Verif.Attr Verif.Names Verif.Text Verif.Util Verif.Meta Verif.Serial Verif.Data

/-- The result of code that does not read. -/
theorem gets_lift {α : Type} {cross : Bool} {o : Nat} {y : Option (Option α)} {a : α} (h : y = some (some a)) :
    Gets cross o 0 (Data.lift y) [] a := by
  intro r tail _ _ _ _ _
  rw [h, lift_eq]
  simp

/-! ## Build IDs -/

theorem withoutZeros_length (b : Serial.Bytes) (hb : b.length = 20) : ∀ k, k ≤ 5 →
    (withoutZeros b k).length ≤ 4 * k ∧ CanonicalHash (withoutZeros b k) ∧
      ((b.drop (4 * k)).all (· == 0) = true → zeroPad 20 (withoutZeros b k) = b)
  | 0, _ => by
    refine ⟨by simp [withoutZeros], ⟨by simp [withoutZeros], by simp [withoutZeros], by simp [withoutZeros]⟩, fun h => ?_⟩
    unfold withoutZeros zeroPad
    have h' : ∀ x ∈ b, x = 0 := by
      intro x hx
      have := List.all_eq_true.mp h x (by simpa using hx)
      simpa using this
    rw [List.nil_append, List.eq_replicate_of_mem h', hb]
    simp
  | k + 1, hk => by
    unfold withoutZeros
    split
    · rename_i hz
      obtain ⟨h1, h2, h3⟩ := withoutZeros_length b hb k (by omega)
      refine ⟨by omega, h2, fun h => h3 ?_⟩
      rw [← List.take_append_drop 4 (b.drop (4 * k)), hz, List.all_append, List.drop_drop, show 4 * k + 4 = 4 * (k + 1) by omega, h]
      rfl
    · rename_i hz
      have hl : (b.take (4 * (k + 1))).length = 4 * (k + 1) := by rw [List.length_take]; omega
      refine ⟨by omega, ⟨by omega, by omega, ?_⟩, fun h => ?_⟩
      · rw [hl, show 4 * (k + 1) - 4 = 4 * k by omega, List.drop_take, show 4 * (k + 1) - 4 * k = 4 by omega]
        exact hz
      · unfold zeroPad
        rw [hl]
        conv => rhs; rw [← List.take_append_drop (4 * (k + 1)) b]
        congr 1
        have h' : ∀ x ∈ b.drop (4 * (k + 1)), x = 0 := by
          intro x hx
          have := List.all_eq_true.mp h x hx
          simpa using this
        rw [List.eq_replicate_of_mem h', List.length_drop, hb]

/-- The entry made for the bytes of a build ID. -/
theorem newEntry_bytes (md5 : Serial.Bytes → Nat) {id name : Serial.Bytes} {misc : Nat} (hl : id.length ≤ 20) (hn : (0 : UInt8) ∉ name) :
    newEntry md5 (rawDataToHexString id) name misc = some {
      misc := misc, pid := 2 ^ 32 - 1, hash := withoutZeros (zeroPad 20 id) 5, filename := name, md5 := md5 name
      size := if misc.testBit 15 then some 0 else none, injected := true } := by
  have hr := Util.C15_roundtrip id (List.replicate 20 0) 20 hl (by simp)
  have ha : (hexStringToRawData (rawDataToHexString id) (List.replicate 20 0) 20).2 = zeroPad 20 id := by
    rw [hr]; simp only [List.drop_replicate]; rfl
  obtain ⟨-, hc, hz⟩ := withoutZeros_length (zeroPad 20 id) (zeroPad_length hl) 5 (by omega)
  have hz' : zeroPad 20 (withoutZeros (zeroPad 20 id) 5) = zeroPad 20 id := by
    apply hz
    rw [List.drop_eq_nil_of_le (by rw [zeroPad_length hl]; omega)]
    rfl
  have hk : keptHash (zeroPad 20 id) = some (withoutZeros (zeroPad 20 id) 5) := by
    have := keptHash_canonical hc
    rw [hz'] at this
    exact this
  unfold keptHash at hk
  unfold newEntry
  rw [ha, cStr_plain hn]
  simp only at hk ⊢
  split at hk
  · rename_i c
    rw [if_pos c]
    simp only [Option.some.injEq] at hk
    rw [hk]
  · cases hk

/-! ## One record -/

/-- What reading an event adds. -/
def absorb (cfg : Cfg) (st : Data.St) (m : Msg) : Data.St :=
  { base := { st.base with info := { st.base.info with buildIds := st.base.info.buildIds ++ mappedIds cfg.env.md5 st.named [m] } }
    events := st.events ++ [m]
    named := st.named ++ (mappedIds cfg.env.md5 st.named [m]).map (·.filename)
    reported := st.reported ++ (if cfg.callback then samplesOf [m] else []) }

theorem known_type {env : Serial.Env} {t misc : Nat} {b : Body} (h : BodyOk env t misc b) : Data.known t = true := by
  cases b <;> simp only [BodyOk] at h
  case none => rw [h]; decide
  case mmap m =>
    obtain ⟨-, -, -, -, -, -, ⟨h, -⟩ | ⟨h, -⟩⟩ := h <;> rw [h] <;> decide
  case sample => rw [h]; decide
  case throttle => rcases h.1 with h | h <;> rw [h] <;> decide
  case switch => rcases h.2 with ⟨h, -⟩ | ⟨h, -⟩ <;> rw [h] <;> decide
  all_goals (rw [h.1]; decide)

theorem fixed_wire {env : Serial.Env} {a : Sample.Attr} {m : Msg} (h : MsgOk env a m) :
    ∃ fixed var, fixedPayloadSize m.type = some fixed ∧ fixed ≤ (wire a m).size ∧
      variablePayloadSize (wire a m) ((wire a m).size - fixed) = some (some var) ∧
      fixed + var = 8 + (Serial.image (own m.type m.body)).length := by
  have hd := wire_dataSize h
  unfold eventDataSize at hd
  change (match fixedPayloadSize m.type with
    | none => some 0
    | some fixed =>
      if fixed > (wire a m).size then some 0
      else match variablePayloadSize (wire a m) ((wire a m).size - fixed) with
        | none => none
        | some none => some 0
        | some (some n) => some (fixed + n)) = _ at hd
  cases hf : fixedPayloadSize m.type with
  | none => rw [hf] at hd; simp only [Option.some.injEq] at hd; omega
  | some fixed =>
    rw [hf] at hd
    simp only at hd
    split at hd
    · simp only [Option.some.injEq] at hd; omega
    · rename_i hle
      cases hv : variablePayloadSize (wire a m) ((wire a m).size - fixed) with
      | none => rw [hv] at hd; cases hd
      | some o =>
        rw [hv] at hd
        cases o with
        | none => simp only [Option.some.injEq] at hd; omega
        | some n =>
          simp only [Option.some.injEq] at hd
          exact ⟨fixed, n, rfl, by omega, hv, hd⟩

/-- The event of a message is accepted as it is. -/
theorem decode_wire {env : Serial.Env} {fs : List FileAttr} {ser : Ser} {f : FileAttr} {m : Msg} (hr : Recorded fs ser f m.body)
    (hm : MsgOk env f.attr.sample m) {fixed : Nat} (hf : fixedPayloadSize m.type = some fixed) :
    decode ser false fixed (wire f.attr.sample m) = some (some (wire f.attr.sample m)) := by
  obtain ⟨fixed', var, hf', hle, hv, hsum⟩ := fixed_wire hm
  rw [hf] at hf'
  obtain rfl := Option.some.inj hf'
  unfold decode
  simp only [Bool.false_eq_true, if_false, hv]
  split
  · rename_i c
    exfalso
    obtain ⟨c1, c2⟩ := c
    change ¬ containsSampleInfo ser m.type = true at c1
    apply c2
    have hp := congrArg List.length (wire_payload f.attr.sample m)
    rw [List.length_append] at hp
    have : Serial.image (sampleFields f.attr.sample m.body) = [] := by
      rcases carries_of hm.body with ⟨s, hs, ht⟩ | ⟨i, hi, -⟩ | ⟨-, -, -, hs⟩
      · exfalso
        apply c1
        have hfs : fs ≠ [] := fun h => by have := hr.mem; rw [h] at this; cases this
        rw [carries_info fs false (f.attr.flags.testBit 18) ser hfs hr.reg hr.all m.type, ht]
        rfl
      · rcases (recorded_info hr hm hi).2.2.2 with ⟨-, -, h⟩ | ⟨-, h, -⟩
        · rw [h]; rfl
        · exact absurd h c1
      · rw [hs]; rfl
    rw [this] at hp
    unfold RawEvent.size
    simp only [List.length_nil] at hp
    omega
  · rfl

theorem mmap_len {env : Serial.Env} {e : RawEvent} {m : Msg} {rest : Serial.Bytes} {p : MMap} (hb : m.body = .mmap p)
    (ho : BodyOk env m.type m.misc m.body) (hp : e.payload = Serial.image (own m.type m.body) ++ rest) :
    e.int 24 8 = some p.len := by
  rw [hb] at hp ho
  obtain ⟨-, -, -, h4, -, -, hc⟩ := ho
  rcases hc with ⟨ht, -⟩ | ⟨ht, -⟩
  · rw [ht] at hp
    exact u64_image (A := [.u32 p.pid, .u32 p.tid, .u64 p.start]) hp rfl h4
  · rw [ht] at hp
    exact u64_image (A := [.u32 p.pid, .u32 p.tid, .u64 p.start]) hp rfl h4

/-- The build ID in the event of a mapping. -/
theorem mmap_id {env : Serial.Env} {e : RawEvent} {m : Msg} {rest : Serial.Bytes} {p : MMap} {id : Serial.Bytes} (hb : m.body = .mmap p)
    (ho : BodyOk env m.type m.misc m.body) (hp : e.payload = Serial.image (own m.type m.body) ++ rest)
    (hi : p.buildId = some (rawDataToHexString id)) (hl : id.length ≤ 20) :
    m.type = MMAP2 ∧ m.misc.testBit 14 = true ∧ cstr e 72 = some p.filename ∧ e.int 40 1 = some id.length ∧
      fetch e.payload 36 id.length = some id := by
  rw [hb] at hp ho
  obtain ⟨-, -, -, -, -, ⟨⟨hn, -⟩, -⟩, hc⟩ := ho
  rcases hc with ⟨-, -, -, -, -, -, -, hno⟩ | ⟨ht, h6, h7, hbid, -⟩
  · rw [hi] at hno; cases hno
  · rw [hi] at hbid
    rw [ht] at hp
    let F : List Piece := [.u32 p.pid, .u32 p.tid, .u64 p.start, .u64 p.len, .u64 p.pgoff]
    have hL : own MMAP2 (.mmap p) = F ++ buildIdFields id ++ [.u32 p.prot, .u32 p.flags] ++ text p.filename := by
      simp [own, hi, F, unhex_hex]
    have hF : total (F ++ buildIdFields id) = 56 := by rw [total_append, total_buildId hl]; rfl
    rw [hL] at hp
    refine ⟨ht, hbid.symm, ?_, ?_, ?_⟩
    · exact cstr_image (A := F ++ buildIdFields id ++ [.u32 p.prot, .u32 p.flags]) (B := []) (k := 8 - p.filename.length % 8)
        (rest := rest) (by rw [hp]; simp [text]) (by rw [total_append, hF]; rfl) pad_pos hn
    · exact int_image (A := F) (p := .bytes [UInt8.ofNat id.length]) hp rfl rfl (by omega)
    · have hl' : e.payload = Serial.image (F ++ [.bytes [UInt8.ofNat id.length], .pad 3]) ++ (id ++
          (Serial.image ([.pad (20 - id.length)] ++ [.u32 p.prot, .u32 p.flags] ++ text p.filename) ++ rest)) := by
        rw [hp]; simp [Serial.image, pieceBytes, buildIdFields]
      have h36 : (Serial.image (F ++ [.bytes [UInt8.ofNat id.length], .pad 3])).length = 36 := by rw [Serial.image_length]; rfl
      unfold fetch
      rw [if_pos (by rw [hl']; simp [h36]), hl', List.drop_append_of_le_length (by omega), List.drop_of_length_le (by omega)]
      simp

theorem bare_body {m : Msg} {p : MMap} : (bare m).body = .mmap p ↔ m.body = .mmap p := by
  unfold bare
  split
  · rename_i a ha
    simp [ha]
  · rfl

theorem addBuildId_of {cfg : Cfg} {st : Data.St} {e : RawEvent} {m : Msg} {rest : Serial.Bytes}
    (hbody : BodyOk cfg.env (bare m).type (bare m).misc (bare m).body) (het : e.type = (bare m).type) (hem : e.misc = (bare m).misc)
    (hp : e.payload = Serial.image (own (bare m).type (bare m).body) ++ rest) :
    addBuildId cfg st e = some (some { st with
      base := { st.base with info := { st.base.info with buildIds := st.base.info.buildIds ++ mappedIds cfg.env.md5 st.named [m] } }
      named := st.named ++ (mappedIds cfg.env.md5 st.named [m]).map (·.filename) }) := by
  unfold addBuildId
  by_cases hc : e.type = MMAP2 ∧ e.misc.testBit 14 = true
  · rw [if_pos hc]
    obtain ⟨hc1, hc2⟩ := hc
    rw [het] at hc1
    rw [hem] at hc2
    have ho := hbody
    rw [hc1] at ho
    cases hb : (bare m).body <;> rw [hb] at ho <;> simp only [BodyOk] at ho
    case mmap p =>
      have hn : (0 : UInt8) ∉ p.filename := ho.2.2.2.2.2.1.1.1
      rcases ho.2.2.2.2.2.2 with ⟨ht, -⟩ | ⟨-, -, -, hbid, hs⟩
      · exact absurd ht (by decide)
      · rw [hc2] at hbid
        obtain ⟨hx, hi⟩ := Option.isSome_iff_exists.mp hbid
        rw [hi] at hs
        obtain ⟨-, -, -, -, id, hl, rfl⟩ := hs
        obtain ⟨-, -, k1, k2, k3⟩ := mmap_id hb hbody hp hi hl
        have hmb := bare_body.mp hb
        have hid : mappedId cfg.env.md5 m = some {
            misc := m.misc, pid := 2 ^ 32 - 1, hash := withoutZeros (zeroPad 20 id) 5, filename := p.filename
            md5 := cfg.env.md5 p.filename, size := if m.misc.testBit 15 then some 0 else none } := by
          unfold mappedId
          rw [hmb]
          simp only [hi, unhex_hex]
        rw [k1]
        simp only [Option.bind_eq_bind, Option.bind_some]
        rw [mappedIds, hid]
        simp only [mappedIds]
        by_cases hm : p.filename ∈ st.named
        · rw [if_pos (by simpa using hm), if_pos hm]
          simp
        · rw [if_neg (by simpa using hm), if_neg hm, k2]
          simp only [Option.bind_some]
          rw [if_neg (by omega), k3]
          simp only [Option.bind_some]
          rw [show e.misc = m.misc from hem.trans (bare_same m).2.1, newEntry_bytes _ hl hn]
          rfl
    case throttle => exact absurd ho.1 (by decide)
    case switch => rcases ho.2 with ⟨h, -⟩ | ⟨h, -⟩ <;> exact absurd h (by decide)
    all_goals first | exact absurd ho (by decide) | exact absurd ho.1 (by decide)
  · rw [if_neg hc]
    have : mappedId cfg.env.md5 m = none := by
      unfold mappedId
      split
      · rename_i p hp
        split
        · rename_i hx hi
          exfalso
          have hb := bare_body.mpr hp
          have ho := hbody
          rw [hb] at ho
          rcases ho.2.2.2.2.2.2 with ⟨-, -, -, -, -, -, -, hno⟩ | ⟨ht, -, -, hbid, -⟩
          · rw [hi] at hno; cases hno
          · rw [hi] at hbid
            exact hc ⟨het.trans ht, by rw [hem]; exact hbid.symm⟩
        · rfl
      · rfl
    simp [mappedIds, this]

theorem emptyKernel_of {env : Serial.Env} {st : Data.St} {i : Info} {e : RawEvent} {m : Msg} {rest : Serial.Bytes}
    (hbody : BodyOk env (bare m).type (bare m).misc (bare m).body) (hk : ¬ EmptyKernelMap i m) (het : e.type = (bare m).type)
    (hem : e.misc = (bare m).misc) (hp : e.payload = Serial.image (own (bare m).type (bare m).body) ++ rest)
    (ha : st.base.info.attrs = i.attrs) : emptyKernel st e = some false := by
  unfold emptyKernel
  split
  · rename_i c
    rw [ha]
    cases hi : i.attrs with
    | nil => rfl
    | cons g l =>
      simp only
      split
      · rename_i c2
        have ho := hbody
        have c' : (bare m).type = MMAP ∨ (bare m).type = MMAP2 := het ▸ c
        obtain ⟨p, hb⟩ : ∃ p, (bare m).body = .mmap p := by
          cases hb : (bare m).body <;> rw [hb] at ho <;> simp only [BodyOk] at ho
          case mmap p => exact ⟨p, rfl⟩
          all_goals (exfalso; rcases c' with c | c <;> rw [c] at ho <;> revert ho)
          all_goals first | decide | (intro ho; exact absurd ho.1 (by decide)) | (intro ho; rcases ho.2 with ⟨h, -⟩ | ⟨h, -⟩ <;> exact absurd h (by decide))
        rw [mmap_len hb hbody hp]
        unfold EmptyKernelMap at hk
        simp only [Option.map_some, Option.some.injEq, decide_eq_false_iff_not]
        intro h0
        exact hk ⟨⟨p, bare_body.mp hb, h0⟩, by have := c2.2; rwa [show e.misc = m.misc from hem.trans (bare_same m).2.1] at this,
          g, l, hi, c2.1⟩
      · rfl
  · rfl

theorem gets_readTrace {cross : Bool} {m : Msg} {d : Serial.Bytes} {o : Nat} (hd : d.length = m.body.getAuxtrace.size)
    (hl : d.length < 2 ^ 64) : Gets cross o 0 (readTrace m) d
      (if m.body.getAuxtrace.size = 0 then m else { m with body := .auxtrace { m.body.getAuxtrace with trace := d } }) := by
  unfold readTrace
  refine gets_remaining fun n hn => ?_
  rw [if_neg (by omega), ← List.append_nil d]
  refine Gets.bind (n := 0) (gets_data hd.symm hl) ?_ (by omega)
  rw [List.append_nil]
  exact Gets.pure _

/-- The data of a tracing unit. -/
theorem gets_trace {cross : Bool} {env : Serial.Env} {a : Sample.Attr} {m : Msg} {o : Nat} (h : MsgOk env a (bare m))
    (htr : (traceOf m).length = announced m) (ht : (bare m).type = AUXTRACE)
    (hl : (traceOf m).length < 2 ^ 64) : Gets cross o 0 (readTrace (bare m)) (traceOf m) m := by
  obtain ⟨x, hx⟩ := auxtrace_body h ((bare_same m).1 ▸ ht)
  have h1 : traceOf m = x.trace := by unfold traceOf; rw [hx]
  have h2 : announced m = x.size := by unfold announced; rw [hx]
  have h3 : bare m = { m with body := .auxtrace { x with trace := [] } } := by unfold bare; rw [hx]
  have h4 : (bare m).body.getAuxtrace = { x with trace := [] } := by rw [h3]; rfl
  rw [h1] at hl htr ⊢
  rw [h2] at htr
  have := gets_readTrace (cross := cross) (m := bare m) (o := o) (by rw [h4]; exact htr) hl
  rw [h4] at this
  simp only at this
  split at this
  · rename_i c
    have h0 : x.trace = [] := List.eq_nil_of_length_eq_zero (by omega)
    have hbm : bare m = m := by
      rw [h3]
      obtain ⟨m1, m2, m3, m4, m5⟩ := m
      obtain ⟨x1, x2, x3, x4, x5, x6, x7⟩ := x
      simp only at h0 hx
      subst h0 hx
      rfl
    have e := congrArg (fun y => Gets cross o 0 (readTrace (bare m)) x.trace y) hbm
    exact e.mp this
  · have e : ({ bare m with body := .auxtrace { ({ x with trace := [] } : Auxtrace) with trace := x.trace } } : Msg) = m := by
      rw [h3]
      obtain ⟨m1, m2, m3, m4, m5⟩ := m
      simp only at hx
      subst hx
      rfl
    rwa [e] at this

/-- What becomes of an event in memory that is converted to a message. -/
theorem gets_keep_of {cross : Bool} {cfg : Cfg} {st : Data.St} {i : Info} {a : Sample.Attr} {e : RawEvent} {m : Msg} {rest : Serial.Bytes}
    {o : Nat} (h : MsgOk cfg.env a (bare m)) (htr : (traceOf m).length = announced m) (hk : ¬ EmptyKernelMap i m)
    (het : e.type = (bare m).type) (hem : e.misc = (bare m).misc)
    (hp : e.payload = Serial.image (own (bare m).type (bare m).body) ++ rest)
    (hser : serialize cfg.env st.base.ser e = some (some (bare m))) (ha : st.base.info.attrs = i.attrs)
    (hskip : cfg.skip = []) (hl : (traceOf m).length < 2 ^ 64) :
    Gets cross o 0 (keep cfg st e) (traceOf m) (absorb cfg st m, (traceOf m).length) := by
  rw [keep_eq]
  refine Gets.bindL (gets_lift (a := false) (by rw [emptyKernel_of h.body hk het hem hp ha]; rfl)) ?_
  rw [if_neg (by decide)]
  refine Gets.bindL (gets_lift (addBuildId_of h.body het hem hp)) ?_
  rw [if_neg (by rw [hskip]; simp), wanted_eq]
  refine Gets.bindL (gets_lift hser) ?_
  have habs : report cfg { ({ st with
      base := { st.base with info := { st.base.info with buildIds := st.base.info.buildIds ++ mappedIds cfg.env.md5 st.named [m] } }
      named := st.named ++ (mappedIds cfg.env.md5 st.named [m]).map (·.filename) } : Data.St) with events := st.events ++ [m] } m = absorb cfg st m := by
    cases hb : m.body with
    | sample s =>
      rw [report_some hb]
      unfold absorb samplesOf
      simp only [List.filterMap_cons, hb]
      split <;> simp_all
    | _ =>
      rw [report_none (by intro s; rw [hb]; nofun)]
      unfold absorb samplesOf
      simp only [List.filterMap_cons, hb]
      split <;> simp_all
  by_cases ht : (bare m).type = AUXTRACE
  · rw [wanted'_aux ht, ← List.append_nil (traceOf m)]
    refine Gets.bind (n := 0) (gets_trace h htr ht hl) ?_ (by omega)
    rw [List.append_nil]
    obtain ⟨x, hx⟩ := auxtrace_body h ((bare_same m).1 ▸ ht)
    have e : m.body.getAuxtrace.size = (traceOf m).length := by
      rw [htr, hx]; unfold announced; rw [hx]; rfl
    simp only
    rw [habs, e]
    exact Gets.pure _
  · have : traceOf m = [] := by
      unfold traceOf
      split
      · rename_i x hx; exact absurd (by rw [(bare_same m).1]; exact bare_type h hx) ht
      · rfl
    have hb : bare m = m := by
      unfold bare
      split
      · rename_i x hx; exact absurd (by rw [(bare_same m).1]; exact bare_type h hx) ht
      · rfl
    rw [this]
    intro r tail _ _ _ _ _
    rw [wanted'_other ht]
    simp only [hb, habs]
    simp

/-- What becomes of the event of a message. -/
theorem gets_keep {cfg : Cfg} {st : Data.St} {i : Info} {f : FileAttr} {m : Msg} {o : Nat} (h : EventOk cfg.env i f m)
    (hs : registerAll {} false (i.attrs.map deserializeFileAttr) = some st.base.ser) (ha : st.base.info.attrs = i.attrs)
    (hskip : cfg.skip = []) (hl : (traceOf m).length < 2 ^ 64) :
    Gets false o 0 (keep cfg st (wire f.attr.sample (bare m))) (traceOf m) (absorb cfg st m, (traceOf m).length) := by
  obtain ⟨ser', hr⟩ := h.recorded
  obtain rfl : ser' = st.base.ser := by
    have := hr.reg; rw [hs] at this; exact (Option.some.inj this).symm
  exact gets_keep_of h.message h.trace h.kernel rfl rfl (wire_payload _ _) (serialize_wire hr h.message) ha hskip hl

/-- A record is read as the message it was made from, if its bytes are turned into an event that is converted to the message. -/
theorem gets_one_of {cross : Bool} {cfg : Cfg} {st : Data.St} {i : Info} {a : Sample.Attr} {e : RawEvent} {m : Msg}
    {d rest : Serial.Bytes} {o : Nat} (h : MsgOk cfg.env a (bare m)) (htr : (traceOf m).length = announced m)
    (hk : ¬ EmptyKernelMap i m) (hto : ¬ TimedOut m) (hne : st.base.ser.readers ≠ [])
    (hd : d.length = (wire a (bare m)).payload.length)
    (hdec : ∀ fixed, fixedPayloadSize (bare m).type = some fixed →
      decode st.base.ser cross fixed ⟨(bare m).type, (bare m).misc, d⟩ = some (some e))
    (het : e.type = (bare m).type) (hem : e.misc = (bare m).misc)
    (hp : e.payload = Serial.image (own (bare m).type (bare m).body) ++ rest)
    (hser : serialize cfg.env st.base.ser e = some (some (bare m))) (ha : st.base.info.attrs = i.attrs)
    (hskip : cfg.skip = []) (hl : (traceOf m).length < 2 ^ 63) :
    Gets cross o 0 (one cfg st) (Meta.image cross [u32F (bare m).type, u16F (bare m).misc, u16F (wire a (bare m)).size] ++ d ++ traceOf m)
      (absorb cfg st m, (Meta.image cross [u32F (bare m).type, u16F (bare m).misc, u16F (wire a (bare m)).size] ++ d ++ traceOf m).length - 8) := by
  have hok := wire_ok h
  have hsz : (wire a (bare m)).size = 8 + (wire a (bare m)).payload.length := rfl
  have hok' : (wire a (bare m)).size < 2 ^ 16 := hok
  obtain ⟨fixed, var, hf, hle, -, -⟩ := fixed_wire h
  have hty : (bare m).type < 2 ^ 32 := by
    have := known_type h.body
    rcases Nat.lt_or_ge (bare m).type (2 ^ 32) with h | h
    · exact h
    · exfalso
      rw [known_iff] at this
      have hu : ∀ t ∈ understood, t < 2 ^ 32 := by decide
      have := hu _ this
      omega
  have hmi : (bare m).misc < 2 ^ 16 := h.misc
  unfold one
  rw [List.append_assoc]
  have hlen : (Meta.image cross [u32F (bare m).type, u16F (bare m).misc, u16F (wire a (bare m)).size]).length = 8 := by
    simp [Meta.image, u32F, u16F, Fld.image, Item.encode, encodeInt_length]
  refine Gets.bind (n := (wire a (bare m)).size - 8)
    (gets_header (h := ⟨(bare m).type, (bare m).misc, (wire a (bare m)).size⟩) hty hmi hok' (by show 8 ≤ (wire a (bare m)).size; omega)) ?_
    (by rw [List.length_append]; omega)
  rw [hlen]
  unfold readEvent
  simp only
  rw [if_neg (by rw [known_type h.body]; decide), if_neg hne, hf]
  simp only
  rw [if_neg (by omega), if_neg ?_]
  · refine Gets.bind (n := 0) (gets_data (by omega) (by omega)) ?_ (by omega)
    refine Gets.bindL (gets_isCross _ _) ?_
    refine Gets.bindL (gets_lift (a := e) (hdec fixed hf)) ?_
    rw [← List.append_nil (traceOf m)]
    refine Gets.bind (n := 0) (gets_keep_of h htr hk het hem hp hser ha hskip (by omega)) ?_ (by omega)
    rw [List.append_nil]
    have : addSz ((wire a (bare m)).size - 8) (traceOf m).length =
        (Meta.image cross [u32F (bare m).type, u16F (bare m).misc, u16F (wire a (bare m)).size] ++
          (d ++ traceOf m)).length - 8 := by
      unfold addSz
      rw [List.length_append, List.length_append, hlen]
      omega
    simp only
    rw [this]
    exact Gets.pure _
  · unfold timedOut
    unfold TimedOut at hto
    intro c
    simp only [Bool.and_eq_true, Bool.or_eq_true, beq_iff_eq] at c
    obtain ⟨c1, c2⟩ := c
    have ho := h.body
    obtain ⟨p, hb⟩ : ∃ p, (bare m).body = .mmap p := by
      cases hb : (bare m).body <;> rw [hb] at ho <;> simp only [BodyOk] at ho
      case mmap p => exact ⟨p, rfl⟩
      all_goals (exfalso; rcases c1 with c | c <;> rw [c] at ho <;> revert ho)
      all_goals first | decide | (intro ho; exact absurd ho.1 (by decide)) |
        (intro ho; rcases ho.2 with ⟨h, -⟩ | ⟨h, -⟩ <;> exact absurd h (by decide))
    exact hto ⟨⟨p, bare_body.mp hb⟩, by rw [← (bare_same m).2.1]; exact c2⟩

/-- A record is read as the message it was made from. -/
theorem gets_one {cfg : Cfg} {st : Data.St} {i : Info} {f : FileAttr} {m : Msg} {o : Nat} (h : EventOk cfg.env i f m)
    (hs : registerAll {} false (i.attrs.map deserializeFileAttr) = some st.base.ser) (ha : st.base.info.attrs = i.attrs)
    (hskip : cfg.skip = []) (hl : (traceOf m).length < 2 ^ 63) :
    Gets false o 0 (one cfg st) (record f.attr.sample m) (absorb cfg st m, (record f.attr.sample m).length - 8) := by
  obtain ⟨ser', hr⟩ := h.recorded
  obtain rfl : ser' = st.base.ser := by
    have := hr.reg; rw [hs] at this; exact (Option.some.inj this).symm
  have := gets_one_of (o := o) h.message h.trace h.kernel h.timeout (readers_ne hr.mem hs) rfl
    (fun _ hf => decode_wire hr h.message hf) rfl rfl (wire_payload _ _) (serialize_wire hr h.message) ha hskip hl
  unfold record
  rwa [← (bare_same m).1, ← (bare_same m).2.1]

/-! ## The data section -/

/-- What reading events adds. -/
def absorbAll (cfg : Cfg) : Data.St → List Msg → Data.St
  | st, [] => st
  | st, m :: l => absorbAll cfg (absorb cfg st m) l

theorem mappedIds_append (md5 : Serial.Bytes → Nat) : ∀ (named : List Serial.Bytes) (l k : List Msg),
    mappedIds md5 named (l ++ k) = mappedIds md5 named l ++ mappedIds md5 (named ++ (mappedIds md5 named l).map (·.filename)) k
  | named, [], k => by simp [mappedIds]
  | named, m :: l, k => by
    rw [List.cons_append, mappedIds, mappedIds]
    split
    · split
      · exact mappedIds_append md5 named l k
      · rw [mappedIds_append md5 _ l k]; simp
    · exact mappedIds_append md5 named l k

theorem absorbAll_eq (cfg : Cfg) : ∀ (l : List Msg) (st : Data.St), absorbAll cfg st l =
    { base := { st.base with info := { st.base.info with buildIds := st.base.info.buildIds ++ mappedIds cfg.env.md5 st.named l } }
      events := st.events ++ l
      named := st.named ++ (mappedIds cfg.env.md5 st.named l).map (·.filename)
      reported := st.reported ++ (if cfg.callback then samplesOf l else []) }
  | [], st => by simp [absorbAll, mappedIds, samplesOf]
  | m :: l, st => by
    rw [absorbAll, absorbAll_eq cfg l]
    have h1 : mappedIds cfg.env.md5 st.named (m :: l) = _ := mappedIds_append cfg.env.md5 st.named [m] l
    have h2 : samplesOf (m :: l) = samplesOf [m] ++ samplesOf l := List.filterMap_append (l := [m])
    rw [h1, h2]
    unfold absorb
    split <;> simp

theorem record_pos (a : Sample.Attr) (m : Msg) : 8 ≤ (record a m).length := by
  unfold record
  simp [Meta.image, u32F, u16F, Fld.image, Item.encode, encodeInt_length]
  omega

theorem trace_le (a : Sample.Attr) (m : Msg) : (traceOf m).length ≤ (record a m).length := by
  unfold record
  rw [List.length_append]
  omega

/-- Records are read as the messages they were made from, if each one is. -/
theorem gets_records_of {cross : Bool} {cfg : Cfg} {attrs : List ProtoFileAttr} {ser : Ser} {rec : FileAttr × Msg → Serial.Bytes}
    (h8 : ∀ e, 8 ≤ (rec e).length) (P : FileAttr × Msg → Prop)
    (hone : ∀ (e : FileAttr × Msg) (st : Data.St) (o : Nat), P e → st.base.ser = ser → st.base.info.attrs = attrs → (rec e).length < 2 ^ 63 →
      Gets cross o 0 (one cfg st) (rec e) (absorb cfg st e.2, (rec e).length - 8)) :
    ∀ (l : List (FileAttr × Msg)) {st : Data.St} {o fuel : Nat},
    (∀ e ∈ l, P e) → st.base.ser = ser → st.base.info.attrs = attrs → (l.flatMap rec).length < 2 ^ 63 → (l.flatMap rec).length < fuel →
    Gets cross o 0 (readEvents cfg fuel (l.flatMap rec).length st) (l.flatMap rec) (absorbAll cfg st (l.map (·.2)))
  | [], st, o, fuel, _, _, _, _, hf => by
    obtain ⟨k, rfl⟩ : ∃ k, fuel = k + 1 := ⟨fuel - 1, by omega⟩
    rw [List.flatMap_nil, readEvents, if_pos (by rfl)]
    exact Gets.pure st
  | e :: l, st, o, fuel, h, hs, ha, hl, hf => by
    have hp := h8 e
    rw [List.flatMap_cons, List.length_append] at hl hf
    obtain ⟨k, rfl⟩ : ∃ k, fuel = k + 1 := ⟨fuel - 1, by omega⟩
    rw [List.flatMap_cons, readEvents_step (by rw [List.length_append]; omega)]
    refine Gets.bind (n := 0) (hone e st o (h e (List.mem_cons_self ..)) hs ha (by omega)) ?_ (by omega)
    have hleft : ((rec e ++ l.flatMap rec).length + 2 ^ 64 - addSz 8 ((rec e).length - 8)) % 2 ^ 64 = (l.flatMap rec).length := by
      unfold addSz
      rw [List.length_append]
      omega
    simp only
    rw [hleft]
    exact gets_records_of h8 P hone l (fun e he => h e (List.mem_cons_of_mem _ he)) hs ha (by omega) (by omega)

/-- The records are read as the messages they were made from. -/
theorem gets_records {cfg : Cfg} {i : Info} (hskip : cfg.skip = []) (l : List (FileAttr × Msg)) {st : Data.St} {o fuel : Nat}
    (h : ∀ e ∈ l, EventOk cfg.env i e.1 e.2) (hs : registerAll {} false (i.attrs.map deserializeFileAttr) = some st.base.ser)
    (ha : st.base.info.attrs = i.attrs) (hl : (l.flatMap fun e => record e.1.attr.sample e.2).length < 2 ^ 63)
    (hf : (l.flatMap fun e => record e.1.attr.sample e.2).length < fuel) :
    Gets false o 0 (readEvents cfg fuel (l.flatMap fun e => record e.1.attr.sample e.2).length st)
      (l.flatMap fun e => record e.1.attr.sample e.2) (absorbAll cfg st (l.map (·.2))) :=
  gets_records_of (rec := fun e => record e.1.attr.sample e.2) (fun e => record_pos _ _) (fun e => EventOk cfg.env i e.1 e.2)
    (fun e st o he h1 h2 h3 => gets_one he (by rw [h1]; exact hs) h2 hskip (by have := trace_le e.1.attr.sample e.2; omega))
    l h rfl ha hl hf

end Verif.File
