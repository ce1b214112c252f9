import Verif.File.Foreign2
import Verif.File.Props2

/-! # Properties of reading records of the other byte order, and of records with bytes left over -/

namespace Verif.File
open Verif.Buffer Verif.Event Verif.Sample Verif.Attr Verif.Names Verif.Text Verif.Util Verif.Meta Verif.Serial Verif.Data

/-- C102: the records of a machine with the other byte order are read as the messages they were made from, in order and to the last byte;
the build IDs in mappings and the samples reported are the same as for a file in native order. Missing: what `ForeignOk` leaves out, see the
violations below. -/
theorem foreign_section_partial {cfg : Cfg} {i : Info} {st : Data.St} {l : List (FileAttr × Msg)} {r : Reader} {offset : Nat} {tail : Serial.Bytes}
    (hr : r.Ok) (hc : r.cross = true) (ho : offset ≤ r.buf.length)
    (hd : r.buf.drop offset = (l.flatMap fun e => foreignRecord e.1.attr.sample e.2) ++ tail)
    (h : ∀ e ∈ l, ForeignOk cfg.env i e.1 e.2) (hs : registerAll {} true (i.attrs.map deserializeFileAttr) = some st.base.ser)
    (ha : st.base.info.attrs = i.attrs) (hskip : cfg.skip = []) :
    ∃ st', readDataSection cfg st offset (l.flatMap fun e => foreignRecord e.1.attr.sample e.2).length r =
        some (some st', { r with off := offset + (l.flatMap fun e => foreignRecord e.1.attr.sample e.2).length }) ∧
      st'.events = st.events ++ l.map (·.2) ∧ st'.base.ser = st.base.ser ∧
      st'.base.info = { st.base.info with buildIds := st.base.info.buildIds ++ mappedIds cfg.env.md5 st.named (l.map (·.2)) } ∧
      st'.reported = st.reported ++ (if cfg.callback then samplesOf (l.map (·.2)) else []) := by
  refine ⟨_, foreign_records hr hc ho hd h hs ha hskip, ?_, ?_, ?_, ?_⟩ <;> rw [absorbAll_eq]

theorem bind_fail {α β : Type} {p : P α} {f : α → P β} {r r' : Reader} (h : p r = some (none, r')) : (p >>= f) r = some (none, r') := by
  rw [bind_def, h]

/-- C27: a record with bytes behind its content is refused, unless the record has sample data, to which these bytes would belong. -/
theorem surplus_refused {cfg : Cfg} {st : Data.St} {fs : List FileAttr} {type misc size : Nat} {b : Body} {rest tail : Serial.Bytes}
    {r : Reader} {offset : Nat} (hr : r.Ok) (hc : r.cross = false) (ho : offset ≤ r.buf.length)
    (hd : r.buf.drop offset = Meta.image false [u32F type, u16F misc, u16F size] ++ Serial.image (own type b) ++ rest ++ tail)
    (hsize : size = 8 + (Serial.image (own type b)).length + rest.length) (hlt : size < 2 ^ 16)
    (hb : BodyOk cfg.env type misc b) (hm : misc < 2 ^ 16) (ht : carriesSample type = true ∧ type ≠ SAMPLE)
    (hs : registerAll {} false fs = some st.base.ser) (hall : ∀ f ∈ fs, f.attr.flags.testBit 18 = false)
    (hto : ¬ ((∃ p, b = .mmap p) ∧ misc.testBit 12 = true)) (hrest : rest ≠ []) :
    ∃ r', readDataSection cfg st offset size r = some (none, r') := by
  have hpos : 0 < rest.length := List.length_pos_iff.mpr hrest
  obtain ⟨h1, h2, -, -⟩ := seek_drop hr hd ho
  have hlim := hr.2.2
  unfold readDataSection
  rw [bind_of h1, readEvents, if_neg (by omega)]
  have hty : type < 2 ^ 32 := by
    have := known_type hb
    rw [known_iff] at this
    have hu : ∀ t ∈ understood, t < 2 ^ 32 := by decide
    exact hu _ this
  have hlen : (Meta.image false [u32F type, u16F misc, u16F size]).length = 8 := by
    simp [Meta.image, u32F, u16F, Fld.image, Item.encode, encodeInt_length]
  have hl := congrArg List.length hd
  simp only [List.length_append, List.length_drop, hlen] at hl
  have hg := gets_header (cross := false) (o := offset) (h := ⟨type, misc, size⟩) hty hm hlt (by show 8 ≤ size; omega)
    { r with off := offset } (Serial.image (own type b) ++ rest ++ tail) h2 hc rfl
    (by show r.buf.drop offset = _; rw [hd]; simp only [List.append_assoc]) (by
      show size - 8 ≤ _
      simp only [List.length_append]; omega)
  rw [bind_of hg]
  simp only [hlen]
  obtain ⟨r', hr'⟩ : ∃ r', readEvent cfg st ⟨type, misc, size⟩ { r with off := offset + 8 } = some (none, r') := by
    unfold readEvent
    simp only
    rw [if_neg (by rw [known_type hb]; decide)]
    by_cases hne : st.base.ser.readers = []
    · rw [if_pos hne]; exact ⟨_, rfl⟩
    rw [if_neg hne]
    cases hf : fixedPayloadSize type with
    | none => exact ⟨_, rfl⟩
    | some fixed =>
      simp only
      by_cases hsf : size < fixed
      · rw [if_pos hsf]; exact ⟨_, rfl⟩
      rw [if_neg hsf, if_neg (by
        unfold timedOut
        intro hx
        rw [Bool.and_eq_true, Bool.or_eq_true] at hx
        apply hto
        refine ⟨?_, hx.2⟩
        rcases hx.1 with hx | hx
        all_goals
          rw [beq_iff_eq] at hx
          simp only at hx
          subst hx
          cases b <;> simp only [BodyOk] at hb
          all_goals first
            | exact ⟨_, rfl⟩
            | exact absurd hb (by decide)
            | exact absurd hb.1 (by decide)
            | exact (by rcases hb.2 with ⟨h, -⟩ | ⟨h, -⟩ <;> exact absurd h (by decide)))]
      have h3 : Reader.Ok { r with off := offset + 8 } := ⟨hr.1, by have := hr.1; show offset + 8 ≤ r.size; omega, hr.2.2⟩
      have hdat : (Serial.image (own type b) ++ rest).length = size - 8 := by rw [List.length_append]; omega
      have hg2 := gets_data (cross := false) (o := offset + 8) (n := size - 8) (bs := Serial.image (own type b) ++ rest) hdat.symm (by omega)
        { r with off := offset + 8 } tail h3 hc rfl (by
          show r.buf.drop (offset + 8) = _
          rw [← List.drop_drop, hd, List.append_assoc, List.append_assoc, List.drop_left' hlen, List.append_assoc]) (by omega)
      rw [bind_of hg2]
      have hdec : decode st.base.ser false fixed ⟨type, misc, Serial.image (own type b) ++ rest⟩ = some none := by
        have hok : RawEvent.Ok ⟨type, misc, Serial.image (own type b) ++ rest⟩ := by
          show 8 + (Serial.image (own type b) ++ rest).length < 2 ^ 16
          omega
        obtain ⟨hle, hle', hv⟩ := fixed_of (e := ⟨type, misc, Serial.image (own type b) ++ rest⟩) (rest := rest) hb rfl hok
          (fun h => by rw [ht.1] at h; cases h) hf
        unfold decode
        simp only [Bool.false_eq_true, if_false, hv]
        rw [if_pos]
        have hsz : RawEvent.size ⟨type, misc, Serial.image (own type b) ++ rest⟩ = 8 + (Serial.image (own type b) ++ rest).length := rfl
        rw [hsz, hdat]
        rw [Serial.image_length] at hsize
        refine ⟨?_, by simp only at hle'; omega⟩
        by_cases hfs : fs = []
        · subst hfs
          simp only [registerAll, Option.some.injEq] at hs
          rw [← hs] at hne
          exact absurd rfl hne
        · rw [carries_info fs false false _ hfs hs hall]
          simp [ht.2]
      refine ⟨?_, ?_⟩
      rotate_left
      · rw [bind_of (a := false) (r' := { r with off := offset + 8 + (size - 8) }) (by unfold isCross; rw [hdat, hc])]
        exact bind_fail (by unfold lift; rw [hdec])
  exact ⟨r', bind_fail hr'⟩

/-! ## The claims are not empty -/

/-- An event `cycles` sampled with many fields, but without ids and branches; all events have sample data. -/
def exOtherAttr : ProtoFileAttr :=
  ⟨{ type := 0, size := 96, config := 1, samplePeriod := 1000, readFormat := 1 + 2 + 4 + 8, flags := 2 ^ 18,
     sampleType := 1 + 2 + 4 + 8 + 16 + 32 + 128 + 256 + 512 + 1024 + 16384 + 2 ^ 19 }, []⟩
def exOther : FileAttr := deserializeFileAttr exOtherAttr
def exOtherSer : Ser := (registerAll {} true [exOther]).getD {}
def exOtherInfo : SampleInfo := { pid := some 10, tid := some 11, time := some 123456, cpu := some 2, streamId := some 3 }
def exOtherSample : SampleEvent := { Serial.exSample with id := none, branches := [], noHwIdx := none, hwIdx := none }
def exOtherMsg (type misc : Nat) (b : Body) : Msg := ⟨type, misc, (wire exOther.attr.sample ⟨type, misc, 0, b, 0⟩).size, b, stamp b⟩

/-- A mapping with a build ID, a sample, a new process, a list of CPUs and threads, and the data of a tracing unit. -/
def exOtherEvents : List (FileAttr × Msg) :=
  [(exOther, exOtherMsg MMAP2 (2 + 2 ^ 14) (.mmap { exMap with info := exOtherInfo })), (exOther, exOtherMsg SAMPLE 2 (.sample exOtherSample)),
   (exOther, exOtherMsg FORK 0 (.fork { pid := 1, ppid := 2, tid := 3, ptid := 4, time := 5, info := exOtherInfo })),
   (exOther, exOtherMsg ID_INDEX 0 (.idIndex [⟨1, 2, 3, 4⟩, ⟨5, 6, 7, 8⟩])),
   (exOther, { exOtherMsg AUXTRACE 0 (.auxtrace { size := 3, idx := 1, trace := [7, 8, 9] }) with
      size := (wire exOther.attr.sample ⟨AUXTRACE, 0, 0, .auxtrace { size := 3, idx := 1 }, 0⟩).size })]

theorem ex_other_supported (b : Bool) : Supported exOther.attr.sample b := by
  refine ⟨?_, ?_, ?_, ?_, ?_⟩
  · cases b <;> decide
  · cases b <;> decide
  · cases b <;> decide
  · cases b <;> decide
  · intro i hi
    simp only [has]
    rw [Nat.testBit_lt_two_pow (Nat.lt_of_lt_of_le (show Sample.Attr.sampleType _ < 2 ^ 25 by decide) (Nat.pow_le_pow_right (by decide) hi))]
    rfl

theorem ex_other_sample : SampleOk exOther.attr.sample exOtherSample where
  ip := by decide
  pid := by decide
  tid := by decide
  time := by decide
  addr := by decide
  read := by decide
  callchain := by decide
  id := by decide
  cpu := by decide
  period := by decide
  streamId := by decide
  raw := by decide
  rawSize := by decide
  branches := by decide
  noHwIdx := by decide
  hwIdx := by decide
  hwIdx0 := by decide
  weight := by decide
  dataSrc := by decide
  transaction := by decide
  physAddr := by decide
  cgroup := by decide
  dataPageSize := by decide
  codePageSize := by decide
  weightStruct := by decide
  readOk := fun r hr => by
    cases hr
    exact ⟨by decide, by decide, by decide, fun h => absurd h (by decide)⟩
  branchOk := by decide
  weightOk := fun w hw => by cases hw
  fits := by constructor <;> decide

theorem ex_other_info : InfoOk exOther.attr.sample exOtherInfo := by
  unfold InfoOk
  rw [if_pos (by decide)]
  refine ⟨by decide, by decide, by decide, by decide, by decide, by decide, ?_⟩
  constructor <;> decide

theorem ex_other_ok {m : Msg} {type misc : Nat} {b : Body} (hbare : bare m = exOtherMsg type misc b) (hk : type ≠ KSYMBOL ∧ type ≠ CGROUP)
    (hb : BodyOk exEnv type misc b) (hs : ∀ s, b = .sample s → s = exOtherSample) (hi : ∀ j, info b = some j → j = exOtherInfo)
    (hf : (exOtherMsg type misc b).size < 2 ^ 16) (htr : (traceOf m).length = announced m) (ht : m.type = type) (hmi : m.misc = misc)
    (h0 : misc < 2 ^ 16 ∧ misc.testBit 0 = false ∧ misc.testBit 12 = false) : ForeignOk exEnv { attrs := [exOtherAttr] } exOther m where
  only := rfl
  type := by decide
  noId := by decide
  sample := fun s h => by
    rw [hbare] at h
    rw [hs s h]
    exact ⟨ex_other_supported true, by unfold CrossOk; decide⟩
  info := fun j h _ => by
    rw [hbare] at h
    rw [hi j h]
    exact ⟨ex_other_supported false, by unfold CrossOk; decide⟩
  kind := by rw [ht]; exact hk
  message := by
    rw [hbare]
    exact ⟨hb, fun s h => by rw [hs s h]; exact ex_other_sample, fun j h => by rw [hi j h]; exact ex_other_info, h0.1, rfl, hf, rfl⟩
  trace := htr
  kernel := fun h => by have h := h.2.1; rw [hmi, h0.2.1] at h; cases h
  timeout := fun h => by have h := h.2; rw [hmi, h0.2.2] at h; cases h

theorem ex_other_events : ∀ e ∈ exOtherEvents, ForeignOk exEnv { attrs := [exOtherAttr] } e.1 e.2 := by
  intro e he
  simp only [exOtherEvents, List.mem_cons, List.not_mem_nil, or_false] at he
  rcases he with rfl | rfl | rfl | rfl | rfl
  · exact ex_other_ok (type := MMAP2) (misc := 2 + 2 ^ 14) (b := .mmap { exMap with info := exOtherInfo }) rfl (by decide)
      ⟨by decide, by decide, by decide, by decide, by decide,
        ⟨⟨by decide +kernel, by decide +kernel⟩, by decide +kernel, by rw [show rootPath _ = _ from ex_root]; decide +kernel,
          by rw [show rootPath _ = _ from ex_root]; decide +kernel⟩,
        Or.inr ⟨rfl, by decide, by decide, by decide, rfl, rfl, rfl, rfl, _, by decide, rfl⟩⟩ (fun _ h => by cases h)
      (fun j h => by cases h; rfl) (by decide +kernel) rfl rfl rfl (by decide)
  · exact ex_other_ok (type := SAMPLE) (misc := 2) (b := .sample exOtherSample) rfl (by decide) rfl (fun s h => by cases h; rfl)
      (fun j h => by cases h) (by decide +kernel) rfl rfl rfl (by decide)
  · exact ex_other_ok (type := FORK) (misc := 0) rfl (by decide) ⟨rfl, by decide, by decide, by decide, by decide, by decide⟩
      (fun _ h => by cases h) (fun j h => by cases h; rfl) (by decide +kernel) rfl rfl rfl (by decide)
  · exact ex_other_ok (type := ID_INDEX) (misc := 0) rfl (by decide) ⟨rfl, by decide⟩ (fun _ h => by cases h)
      (fun j h => by cases h) (by decide +kernel) rfl rfl rfl (by decide)
  · exact ex_other_ok (type := AUXTRACE) (misc := 0) (b := .auxtrace { size := 3, idx := 1 }) rfl (by decide)
      ⟨rfl, by decide, by decide, by decide, by decide, by decide, by decide, rfl⟩ (fun _ h => by cases h)
      (fun j h => by cases h) (by decide +kernel) rfl rfl rfl (by decide)

def exOtherBytes : Serial.Bytes := exOtherEvents.flatMap fun e => foreignRecord e.1.attr.sample e.2
def exOtherState : Data.St := { base := { ser := exOtherSer, info := { attrs := [exOtherAttr] } } }

example : ∃ st', readDataSection { env := exEnv, callback := true } exOtherState 0 exOtherBytes.length (Reader.new exOtherBytes true) =
      some (some st', { Reader.new exOtherBytes true with off := 0 + exOtherBytes.length }) ∧
    st'.events = exOtherEvents.map (·.2) ∧ st'.base.ser = exOtherSer ∧
    st'.base.info = { ({ attrs := [exOtherAttr] } : Info) with buildIds := mappedIds exEnv.md5 [] (exOtherEvents.map (·.2)) } ∧
    st'.reported = [exOtherSample] := by
  have hd : (Reader.new exOtherBytes true).buf.drop 0 = exOtherBytes ++ [] := by rw [List.append_nil]; rfl
  obtain ⟨st', h1, h2, h3, h4, h5⟩ := foreign_section_partial (cfg := { env := exEnv, callback := true }) (i := { attrs := [exOtherAttr] })
    (st := exOtherState) (l := exOtherEvents) (r := Reader.new exOtherBytes true) (offset := 0) (tail := [])
    ⟨rfl, Nat.zero_le _, by decide +kernel⟩ rfl (Nat.zero_le _) hd ex_other_events (by decide +kernel) rfl rfl
  rw [show (exOtherEvents.flatMap fun e => foreignRecord e.1.attr.sample e.2) = exOtherBytes from rfl] at h1
  exact ⟨st', h1, h2, h3, h4, h5⟩

/-- A recording without sample data in its events, and a mapping followed by eight more bytes. -/
example : ∃ r', readDataSection { env := exEnv } { base := { ser := (registerAll {} false [⟨{ sampleType := 7 }, []⟩]).getD {} } } 0 72
    (Reader.new (toLE 4 1 ++ toLE 2 2 ++ toLE 2 72 ++ Serial.image (own MMAP (.mmap { exMap with prot := 0, flags := 0, buildId := none })) ++
      List.replicate 8 1) false) = some (none, r') := by
  refine surplus_refused (fs := [⟨{ sampleType := 7 }, []⟩]) (type := MMAP) (misc := 2)
    (b := .mmap { exMap with prot := 0, flags := 0, buildId := none }) (rest := List.replicate 8 1) (tail := [])
    ⟨rfl, Nat.zero_le _, by decide +kernel⟩ rfl (Nat.zero_le _) (by decide +kernel) (by decide +kernel) (by decide) ?_ (by decide)
    (by decide) (by decide +kernel) (by decide) (fun h => absurd h.2 (by decide)) (by decide)
  exact ⟨by decide, by decide, by decide, by decide, by decide,
        ⟨⟨by decide +kernel, by decide +kernel⟩, by decide +kernel, by rw [show rootPath _ = _ from ex_root]; decide +kernel,
          by rw [show rootPath _ = _ from ex_root]; decide +kernel⟩,
        Or.inl ⟨rfl, rfl, rfl, rfl, rfl, rfl, rfl, rfl⟩⟩

/-! ## Where it fails -/

/-- The events that are read from a section of the other byte order. -/
def otherEvents (b : Serial.Bytes) : Option (Option (List Msg)) :=
  (readDataSection { env := exEnv } exOtherState 0 b.length (Reader.new b true)).map fun y => y.1.map (·.events)

theorem ex_other_msg {type misc : Nat} {b : Body} (hb : BodyOk exEnv type misc b) (hs : ∀ s, b ≠ .sample s)
    (hi : ∀ j, info b = some j → j = exOtherInfo) (hf : (exOtherMsg type misc b).size < 2 ^ 16) (h0 : misc < 2 ^ 16) :
    MsgOk exEnv exOther.attr.sample (exOtherMsg type misc b) :=
  ⟨hb, fun s h => absurd h (hs s), fun j h => by rw [hi j h]; exact ex_other_info, h0, rfl, hf, rfl⟩

/-- A kernel symbol. -/
def exKsymbol (kind : Nat) : Msg :=
  exOtherMsg KSYMBOL 0 (.ksymbol { addr := 1, len := 2, ksymType := kind, flags := 3, name := [97], info := exOtherInfo })

/-- C102 fails for kernel symbols: the kind of the symbol, 1 for a BPF program, is read as 256. -/
theorem foreign_ksymbol_violated : MsgOk exEnv exOther.attr.sample (exKsymbol 1) ∧
    otherEvents (foreignRecord exOther.attr.sample (exKsymbol 1)) = some (some [exKsymbol 256]) :=
  ⟨ex_other_msg ⟨rfl, by decide, by decide, by decide, by decide, by decide, by decide⟩ (fun _ h => by cases h) (fun j h => by cases h; rfl)
    (by decide +kernel) (by decide), by decide +kernel⟩

/-- A control group. -/
def exCgroup : Msg := exOtherMsg CGROUP 0 (.cgroup { id := 5, path := [47, 97], info := exOtherInfo })

/-- C102 fails for control groups: a recording with one is refused. -/
theorem foreign_cgroup_violated : MsgOk exEnv exOther.attr.sample exCgroup ∧
    otherEvents (foreignRecord exOther.attr.sample exCgroup) = some none :=
  ⟨ex_other_msg ⟨rfl, by decide, by decide, by decide⟩ (fun _ h => by cases h) (fun j h => by cases h; rfl)
    (by decide +kernel) (by decide), by decide +kernel⟩

/-- A file of the other byte order with an attribute, a record, and the name of the host. -/
def foreignFile : Serial.Bytes :=
  Meta.image true [.raw [50, 69, 76, 73, 70, 82, 69, 80], u64F 104, u64F 112, u64F 104, u64F 112, u64F 216, u64F 8, u64F 216, u64F 0,
    u64F 8, .raw (List.replicate 24 0)] ++
  Meta.image true (attrFlds { size := 96, sampleType := 7 } ++ [u64F 0, u64F 0]) ++
  Meta.image true [u32F 68, u16F 0, u16F 8] ++ metadataImage true { mask := 8, hostname := some (ascii "host") } 224

/-- C102 fails for the features: a file of the other byte order is read, with its attribute and its event, but the name of the host is not. The
bits of the features are noted before they are converted. -/
theorem foreign_features_violated :
    (readBytes { env := exEnv } foreignFile).map (·.map fun s => (s.base.info.mask, s.base.info.hostname, s.base.info.attrs.map (·.attr.sampleType),
      s.events.map (·.type))) = some (some (2 ^ 59, none, [7], [68])) := by decide +kernel

end Verif.File
