import Verif.File.Spec
import Verif.Meta.Props3
import Verif.Serial.Props2

/-! Writing a recording that a file can hold. -/

namespace Verif.File
open Verif.Buffer Verif.Event Verif.Sample Verif.Attr Verif.Names Verif.Text Verif.Util Verif.Meta Verif.Serial

/-- From the position `o` on, `m` writes `bs`, if there is room for more. -/
def Steps {α : Type} (o : Nat) (m : W α) (bs : Serial.Bytes) (a : α) : Prop :=
  ∀ w : Writer, w.Ok → w.off = o → o + bs.length < w.buf.length →
    m w = some (some a, { w with buf := overwrite w.buf o bs, off := o + bs.length })

theorem Steps.pure {α : Type} {o : Nat} (a : α) : Steps o (pure a : W α) [] a := by
  intro w _ ho _
  subst ho
  rw [Meta.overwrite_nil']
  rfl

theorem Steps.bind {α β : Type} {o : Nat} {m : W α} {f : α → W β} {bs cs : Serial.Bytes} {a : α} {b : β}
    (h1 : Steps o m bs a) (h2 : Steps (o + bs.length) (f a) cs b) : Steps o (m >>= f) (bs ++ cs) b := by
  intro w hw ho hr
  rw [List.length_append] at hr
  obtain ⟨k1, k2, k3⟩ := hw
  have hl : (overwrite w.buf o bs).length = w.buf.length := overwrite_length (by omega)
  have hok : Writer.Ok { w with buf := overwrite w.buf o bs, off := o + bs.length } := by
    refine ⟨?_, ?_, ?_⟩
    · simp only [hl]; exact k1
    · simp only; omega
    · simp only [hl]; exact k3
  rw [wbind_of (h1 w ⟨k1, k2, k3⟩ ho (by omega)), h2 _ hok rfl (by simp only [hl]; omega)]
  simp only
  rw [overwrite_append (by omega), List.length_append, Nat.add_assoc]

theorem Steps.puts {o : Nat} {m : W Unit} {bs : Serial.Bytes} (h : Puts m bs) : Steps o m bs () := by
  intro w hw ho hr
  obtain ⟨cs, hc, rfl⟩ := h
  subst ho
  exact (hc w hw).1 (fits_of_lt hr)

theorem Steps.data {o : Nat} {bs : Serial.Bytes} (h : bs.length < 2 ^ 63) : Steps o (wdata bs) bs () := Steps.puts (puts_data h)

theorem Steps.tell {o : Nat} : Steps o wtell [] o := by
  intro w _ ho _
  subst ho
  rw [Meta.overwrite_nil']
  rfl

theorem Steps.check {o : Nat} {c : Bool} (h : c = true) : Steps o (wcheck c) [] () := by
  unfold wcheck; rw [if_pos h]; exact Steps.pure ()

theorem Steps.lift {α : Type} {o : Nat} {x : Option (Option α)} {a : α} (h : x = some (some a)) : Steps o (wlift x) [] a := by
  intro w _ ho _
  subst ho
  rw [Meta.overwrite_nil']
  unfold wlift
  rw [h]
  rfl

/-- `bind` when the first part writes nothing. -/
theorem Steps.bindL {α β : Type} {o : Nat} {m : W α} {f : α → W β} {cs : Serial.Bytes} {a : α} {b : β}
    (h1 : Steps o m [] a) (h2 : Steps o (f a) cs b) : Steps o (m >>= f) cs b := Steps.bind (bs := []) h1 h2

/-! ## Ids and attributes -/

theorem ids_steps : ∀ (l : List ProtoFileAttr) {o : Nat},
    Steps o (writeIds l) (l.flatMap idsImage) (sectionsFrom o (l.map idsImage))
  | [], _ => Steps.pure []
  | f :: l, o => by
    have hl : (idsImage f).length = 8 * f.ids.length := by
      unfold idsImage
      rw [words_length (w := 8) (fun v => u64_length false v)]
      omega
    unfold writeIds
    rw [List.flatMap_cons]
    refine Steps.bindL Steps.tell (Steps.bind (a := ()) (Steps.puts ?_) ?_)
    · have : idsImage f = f.ids.flatMap fun v => (u64F v).image false := by
        unfold idsImage Meta.image; rw [List.flatMap_map]
      rw [this]
      exact Puts.each _ fun v _ => puts_u64 v
    · have := Steps.bind (f := fun t => (pure ((o, 8 * f.ids.length) :: t) : W (List (Nat × Nat))))
        (ids_steps l (o := o + (idsImage f).length)) (Steps.pure _)
      rw [List.append_nil] at this
      rw [List.map_cons, sectionsFrom, hl]
      rw [hl] at this
      exact this

theorem section_memory (s : Nat × Nat) : sectionMemory s = Meta.image false [u64F s.1, u64F s.2] := by
  simp [sectionMemory, Meta.image, u64F, Fld.image, Item.encode, encodeInt]

theorem attrs_puts : ∀ (l : List ProtoFileAttr) (s : List (Nat × Nat)), l.length = s.length → (∀ f ∈ l, AttrOk f.attr) →
    Puts (writeAttrList l s) ((l.zip s).flatMap fun y => Meta.image false (attrFlds (attrOf y.1.attr) ++ [u64F y.2.1, u64F y.2.2]))
  | [], _, _, _ => Puts.pure
  | _ :: _, [], h, _ => by simp at h
  | f :: l, s :: t, hl, h => by
    have ih := attrs_puts l t (by simpa using hl) fun g hg => h g (List.mem_cons_of_mem _ hg)
    have ha : (deserializeFileAttr f).attr = attrOf f.attr := by
      unfold deserializeFileAttr; simp only [deserialize_eq (h f (List.mem_cons_self ..))]
    rw [List.zip_cons_cons, List.flatMap_cons, Meta.image_append, List.append_assoc]
    unfold writeAttrList
    refine Puts.bind ?_ (Puts.bind ?_ ih)
    · rw [ha, attrMemory_eq]
      exact puts_data (by rw [attr_image_length]; omega)
    · rw [section_memory]
      exact puts_data (by rw [Meta.image_cons, image_one, List.length_append, u64_length, u64_length]; omega)

theorem ids_length (i : Info) : (i.attrs.flatMap idsImage).length = idsSize i := by
  unfold idsSize
  generalize i.attrs = l
  induction l with
  | nil => rfl
  | cons f l ih =>
    rw [List.flatMap_cons, List.length_append, ih, List.map_cons, List.sum_cons]
    unfold idsImage
    rw [words_length (w := 8) (fun v => u64_length false v)]
    omega

theorem attrs_length : ∀ (l : List ProtoFileAttr) (s : List (Nat × Nat)), l.length = s.length →
    ((l.zip s).flatMap fun y => Meta.image false (attrFlds (attrOf y.1.attr) ++ [u64F y.2.1, u64F y.2.2])).length = 112 * l.length
  | [], _, _ => rfl
  | _ :: _, [], h => by simp at h
  | f :: l, s :: t, hl => by
    have ih := attrs_length l t (by simpa using hl)
    rw [List.zip_cons_cons, List.flatMap_cons, List.length_append, ih, Meta.image_append, List.length_append, attr_image_length, Meta.image_cons,
      image_one, List.length_append, u64_length, u64_length, List.length_cons]
    omega

theorem attrsImage_length (x : Recording) : (attrsImage x).length = 112 * x.info.attrs.length :=
  attrs_length _ _ (by rw [sections_length, List.length_map])

/-! ## Events -/

theorem bare_same (m : Msg) : (bare m).type = m.type ∧ (bare m).misc = m.misc ∧ (bare m).size = m.size ∧
    (bare m).timestamp = m.timestamp := by
  unfold bare; split <;> exact ⟨rfl, rfl, rfl, rfl⟩

theorem bare_type {env : Serial.Env} {a : Sample.Attr} {m : Msg} (h : MsgOk env a (bare m)) {x : Auxtrace} (hb : m.body = .auxtrace x) :
    m.type = AUXTRACE := by
  have := h.body
  rw [(bare_same m).1] at this
  unfold bare at this
  rw [hb] at this
  exact this.1

theorem auxtrace_body {env : Serial.Env} {a : Sample.Attr} {m : Msg} (h : MsgOk env a (bare m)) (ht : m.type = AUXTRACE) :
    ∃ x, m.body = .auxtrace x := by
  cases hb : m.body with
  | auxtrace x => exact ⟨x, rfl⟩
  | _ =>
    exfalso
    have hbare : bare m = m := by unfold bare; rw [hb]
    have := h.body
    rw [hbare, hb, ht] at this
    simp [BodyOk, FINISHED_ROUND, MMAP, MMAP2, SAMPLE, COMM, FORK, EXIT, LOST, THROTTLE, UNTHROTTLE, AUX, ITRACE_START, LOST_SAMPLES,
      SWITCH, SWITCH_CPU_WIDE, NAMESPACES, CGROUP, KSYMBOL, BPF_METADATA, AUXTRACE_INFO, AUXTRACE, AUXTRACE_ERROR, ID_INDEX, THREAD_MAP,
      STAT_CONFIG, STAT, STAT_ROUND, TIME_CONV] at this

theorem bare_writes {env : Serial.Env} {ser : Ser} {a : Sample.Attr} {m : Msg} (h : MsgOk env a (bare m)) :
    eventSize env ser m = eventSize env ser (bare m) ∧ deserialize env ser m = deserialize env ser (bare m) := by
  cases hb : m.body with
  | auxtrace x =>
    have ht := bare_type h hb
    clear h
    obtain ⟨type, misc, size, ts, body⟩ := m
    simp only at ht hb
    subst ht hb
    constructor
    · unfold eventSize
      have h1 : containsSampleInfo ser AUXTRACE = false := rfl
      simp only [bare, h1]
      rfl
    · unfold deserialize
      rfl
  | _ =>
    have : bare m = m := by unfold bare; rw [hb]
    rw [this]
    exact ⟨rfl, rfl⟩

theorem record_eq {env : Serial.Env} {a : Sample.Attr} {m : Msg} (h : MsgOk env a (bare m)) :
    record a m = eventMemory (wire a (bare m)) ++ traceOf m := by
  unfold record eventMemory
  have h1 : (wire a (bare m)).type = m.type := (bare_same m).1
  have h2 : (wire a (bare m)).misc = m.misc := (bare_same m).2.1
  rw [h1, h2]
  simp [Meta.image, u32F, u16F, Fld.image, Item.encode, encodeInt]

theorem wire_length {env : Serial.Env} {a : Sample.Attr} {m : Msg} (h : MsgOk env a (bare m)) :
    (eventMemory (wire a (bare m))).length = m.size := by
  have h1 : (wire a (bare m)).size = m.size := by rw [← h.size, (bare_same m).2.2.1]
  rw [← h1]
  unfold eventMemory RawEvent.size
  simp only [List.length_append, toLE_length]

theorem counted_record {env : Serial.Env} {i : Info} {f : FileAttr} {m : Msg} (h : EventOk env i f m) :
    (record f.attr.sample m).length = countedSize m := by
  rw [record_eq h.message, List.length_append, wire_length h.message, h.trace]
  unfold countedSize announced
  congr 1
  by_cases ht : m.type = AUXTRACE
  · obtain ⟨x, hx⟩ := auxtrace_body h.message ht
    rw [if_pos ht, hx]
    rfl
  · rw [if_neg ht]
    split
    · rename_i x hx; exact absurd (bare_type h.message hx) ht
    · rfl

theorem event_steps {env : Serial.Env} {i : Info} {ser : Ser} {f : FileAttr} {m : Msg} {o : Nat} (h : EventOk env i f m)
    (hs : registerAll {} false (i.attrs.map deserializeFileAttr) = some ser) (hl : (record f.attr.sample m).length < 2 ^ 63) :
    Steps o (writeEvent env ser m) (record f.attr.sample m) () := by
  obtain ⟨ser', hr⟩ := h.recorded
  obtain rfl : ser' = ser := by
    have := hr.reg; rw [hs] at this; exact (Option.some.inj this).symm
  obtain ⟨b1, b2⟩ := bare_writes (ser := ser') h.message
  obtain ⟨e, k1, k2, k3, k4, k5⟩ := event_size_partial hr h.message
  have he : e = wire f.attr.sample (bare m) := by
    have := deserialize_wire hr h.message
    rw [k1] at this
    exact Option.some.inj (Option.some.inj this)
  rw [(bare_same m).2.2.1] at k3
  rw [record_eq h.message, List.length_append] at hl
  unfold writeEvent
  refine Steps.bindL (Steps.lift (a := e.size) (by rw [b1, k2]; rfl)) ?_
  rw [if_neg (by omega), if_neg (by omega), record_eq h.message]
  refine Steps.bindL (Steps.lift (a := e) (by rw [b2, k1])) ?_
  rw [he]
  refine Steps.bind (Steps.data (by omega)) ?_
  have htr := h.trace
  by_cases ht : m.type = AUXTRACE
  · obtain ⟨x, hx⟩ := auxtrace_body h.message ht
    have h1 : traceOf m = x.trace := by unfold traceOf; rw [hx]
    have h2 : announced m = x.size := by unfold announced; rw [hx]
    have h3 : m.body.getAuxtrace = x := by rw [hx]; rfl
    rw [h3, h1]
    rw [h1, h2] at htr
    by_cases h0 : x.size > 0
    · rw [if_pos ⟨ht, h0⟩]
      exact Steps.data (by rw [h1] at hl; omega)
    · rw [if_neg (fun hh => h0 hh.2)]
      have : x.trace = [] := List.eq_nil_of_length_eq_zero (by omega)
      rw [this]
      exact Steps.pure ()
  · rw [if_neg (fun hh => ht hh.1)]
    have : traceOf m = [] := by
      unfold traceOf
      split
      · rename_i x hx; exact absurd (bare_type h.message hx) ht
      · rfl
    rw [this]
    exact Steps.pure ()

theorem events_steps {env : Serial.Env} {i : Info} {ser : Ser} (hs : registerAll {} false (i.attrs.map deserializeFileAttr) = some ser) :
    ∀ (l : List (FileAttr × Msg)) {o : Nat}, (∀ e ∈ l, EventOk env i e.1 e.2) →
      (l.flatMap fun e => record e.1.attr.sample e.2).length < 2 ^ 63 →
      Steps o (each (writeEvent env ser) (l.map (·.2))) (l.flatMap fun e => record e.1.attr.sample e.2) ()
  | [], _, _, _ => Steps.pure ()
  | (f, m) :: l, o, h, hl => by
    rw [List.flatMap_cons, List.length_append] at hl
    rw [List.flatMap_cons, List.map_cons]
    unfold each
    exact Steps.bind (event_steps (h _ (List.mem_cons_self ..)) hs (by simp only at hl ⊢; omega))
      (events_steps hs l (fun e he => h e (List.mem_cons_of_mem _ he)) (by omega))

theorem data_length {env : Serial.Env} {x : Recording} (h : ∀ e ∈ x.events, EventOk env x.info e.1 e.2) :
    (dataImage x).length = (x.messages.map countedSize).sum := by
  unfold dataImage Recording.messages
  revert h
  generalize x.events = l
  intro h
  induction l with
  | nil => rfl
  | cons e l ih =>
    rw [List.flatMap_cons, List.length_append, ih (fun e he => h e (List.mem_cons_of_mem _ he)),
      counted_record (h e (List.mem_cons_self ..))]
    rfl

/-! ## The whole file -/

theorem image_lengths (x : Recording) : (headerImage x).length = 104 ∧ (x.info.attrs.flatMap idsImage).length = idsSize x.info ∧
    (attrsImage x).length = 112 * x.info.attrs.length ∧ attrsAt x = 104 + idsSize x.info ∧
    dataAt x = 104 + idsSize x.info + 112 * x.info.attrs.length ∧
    (fileImage x).length = dataAt x + (dataImage x).length +
      (metadataImage false (stored x.info) (dataAt x + (dataImage x).length)).length := by
  have h1 : (headerImage x).length = 104 := by
    unfold headerImage headerWith
    simp [Meta.image, u64F, Fld.image, Item.encode, encodeInt]
  have h2 := ids_length x.info
  have h3 := attrsImage_length x
  have h4 : attrsAt x = 104 + idsSize x.info := by unfold attrsAt; rw [h2]
  have h5 : dataAt x = 104 + idsSize x.info + 112 * x.info.attrs.length := by unfold dataAt; rw [h4]
  refine ⟨h1, h2, h3, h4, h5, ?_⟩
  unfold fileImage fileWith
  rw [show headerWith (dataAt x, 0) x = headerImage x from rfl]
  simp only [List.length_append, h1, h2, h3]
  omega

theorem header_fields {env : Serial.Env} {x : Recording} (h : Complete env x) :
    generateHeader x.info x.messages = ⟨104, 112, (attrsAt x, 112 * x.info.attrs.length), (dataAt x, (dataImage x).length),
      (dataAt x, 0), x.info.mask⟩ := by
  obtain ⟨_, _, _, h4, h5, h6⟩ := image_lengths x
  have hs := h.size
  have hd := data_length h.events
  have hm : x.info.mask &&& supported = x.info.mask := mask_supported h.info.mask
  unfold generateHeader
  simp only [hm]
  rw [← hd, Nat.mod_eq_of_lt (a := (dataImage x).length) (by omega), Nat.mod_eq_of_lt (by omega), Nat.mod_eq_of_lt (by omega),
    Nat.mod_eq_of_lt (by omega), h4, h5]

theorem header_memory {env : Serial.Env} {x : Recording} (h : Complete env x) :
    headerMemory (generateHeader x.info x.messages) = headerImage x := by
  rw [header_fields h]
  unfold headerMemory headerImage headerWith
  simp only [section_memory]
  have hm : toLE 8 magic = [80, 69, 82, 70, 73, 76, 69, 50] := by decide
  rw [hm]
  simp [Meta.image, u64F, Fld.image, Item.encode, encodeInt]

theorem attrs_steps {env : Serial.Env} {x : Recording} (h : Complete env x) :
    Steps 104 (writeAttrs x.info (generateHeader x.info x.messages)) (x.info.attrs.flatMap idsImage ++ attrsImage x) () := by
  obtain ⟨_, h2, _, h4, _, _⟩ := image_lengths x
  rw [header_fields h]
  unfold writeAttrs
  refine Steps.bindL Steps.tell (Steps.bindL (Steps.check (by simp)) (Steps.bind (ids_steps _) (Steps.bindL Steps.tell
    (Steps.bindL (Steps.check (by simp only [h4, h2, decide_true])) (Steps.puts ?_)))))
  exact attrs_puts _ _ (by rw [sections_length, List.length_map]) fun f hf => (h.attrs f hf).1

theorem writeFeature_stored (i : Info) {t : Nat} (h : i.mask.testBit t = true) : writeFeature (stored i) t = writeFeature i t := by
  unfold writeFeature
  split <;> try rfl
  unfold stored
  simp only [h, if_true]

theorem writeFeatures_stored (i : Info) : ∀ l : List Nat, writeFeatures (stored i) i.mask l = writeFeatures i i.mask l
  | [] => rfl
  | t :: l => by
    unfold writeFeatures
    rw [writeFeatures_stored i l]
    by_cases ht : i.mask.testBit t = true
    · rw [if_pos ht, if_pos ht, writeFeature_stored i ht]
    · rw [if_neg ht, if_neg ht]

theorem writeMetadata_stored (i : Info) (d : Nat) : writeMetadata (stored i) i.mask d = writeMetadata i i.mask d := by
  unfold writeMetadata
  rw [writeFeatures_stored]
  rfl

theorem metadataSize_stored (i : Info) : metadataSize i = metadataSize (stored i) +
    (if i.mask.testBit 2 then 0 else buildIdSize i) := by
  unfold metadataSize
  have h1 : buildIdSize i = buildIdSize (stored i) + (if i.mask.testBit 2 then 0 else buildIdSize i) := by
    unfold stored
    by_cases h : i.mask.testBit 2 = true
    · rw [if_pos h, if_pos h]; rfl
    · rw [if_neg h, if_neg h]; simp [buildIdSize]
  have h2 : stringSize (stored i) = stringSize i := rfl
  have h3 : eventDescSize (stored i) = eventDescSize i := rfl
  rw [h2, h3]
  have : (stored i).mask = i.mask ∧ (stored i).tracing = i.tracing ∧ (stored i).uint32s = i.uint32s ∧ (stored i).uint64s = i.uint64s ∧
    (stored i).topology = i.topology ∧ (stored i).numa = i.numa ∧ (stored i).pmus = i.pmus ∧ (stored i).groups = i.groups ∧
    (stored i).hybrids = i.hybrids := ⟨rfl, rfl, rfl, rfl, rfl, rfl, rfl, rfl, rfl⟩
  obtain ⟨k1, k2, k3, k4, k5, k6, k7, k8, k9⟩ := this
  rw [k1, k2, k3, k4, k5, k6, k7, k8, k9]
  omega

theorem readers_ne {fs : List FileAttr} {cross : Bool} {ser : Ser} {f : FileAttr} (hf : f ∈ fs)
    (hreg : registerAll {} cross fs = some ser) : ser.readers ≠ [] := by
  have inv := register_inv fs (empty_inv cross) hreg
  rw [List.nil_append] at inv
  intro he
  obtain ⟨id, hid⟩ : ∃ id, (regIds f).contains id = true := by
    unfold regIds
    split
    · exact ⟨0, rfl⟩
    · rename_i h
      cases hi : f.ids with
      | nil => exact absurd hi h
      | cons x l => exact ⟨x, by simp⟩
  have h1 := inv.find id
  rw [he] at h1
  have : (owner fs id).isSome := by
    unfold owner
    rw [List.find?_isSome]
    exact ⟨f, by simpa using hf, hid⟩
  obtain ⟨g, hg⟩ := Option.isSome_iff_exists.mp this
  rw [hg] at h1
  cases h1

/-- The registered attributes are there if there is an event. -/
theorem readers_of {env : Serial.Env} {x : Recording} (h : Complete env x) {ser : Ser}
    (hs : registerAll {} false (x.info.attrs.map deserializeFileAttr) = some ser) (hne : x.events ≠ []) : ser.readers ≠ [] := by
  obtain ⟨e, he⟩ := List.exists_mem_of_ne_nil _ hne
  obtain ⟨ser', hr⟩ := (h.events e he).recorded
  exact readers_ne hr.mem hs

/-- Writing a recording into a buffer with enough room. -/
theorem write_all {env : Serial.Env} {x : Recording} (h : Complete env x) {ser : Ser}
    (hs : registerAll {} false (x.info.attrs.map deserializeFileAttr) = some ser)
    (hcmd : x.info.mask.testBit 11 = true → x.info.cmdTokens ≠ []) {buf : Serial.Bytes} (hb : buf.length < 2 ^ 63)
    (hroom : dataAt x + (dataImage x).length + metadataSize x.info ≤ buf.length) :
    writeAll env ser x.info x.messages (Writer.new buf) = some (some (), ⟨overwrite buf 0 (fileImage x), buf.length, (fileImage x).length⟩) := by
  obtain ⟨h1, h2, h3, h4, h5, h6⟩ := image_lengths x
  have hsz := h.size
  have hms : metadataSize (stored x.info) ≤ metadataSize x.info := by rw [metadataSize_stored x.info]; omega
  have hslack := metadata_size env.md5 (stored x.info) (dataAt x + (dataImage x).length) h.info hcmd
  have hpos : 0 < metadataSize x.info := by unfold metadataSize topologySize; omega
  have hpre : Steps 0 (do
      wdata (headerMemory (generateHeader x.info x.messages))
      writeAttrs x.info (generateHeader x.info x.messages)
      writeEvents env ser x.messages (generateHeader x.info x.messages))
      (headerImage x ++ ((x.info.attrs.flatMap idsImage ++ attrsImage x) ++ dataImage x)) () := by
    rw [header_memory h]
    refine Steps.bind (Steps.data (by omega)) (Steps.bind (a := ()) ?_ ?_)
    · rw [h1]; exact attrs_steps h
    · have hp : 0 + (headerImage x).length + (x.info.attrs.flatMap idsImage ++ attrsImage x).length = dataAt x := by
        rw [List.length_append, h1, h2, h3, h5]; omega
      rw [hp]
      unfold writeEvents
      by_cases he : x.messages = []
      · rw [if_pos he]
        have : dataImage x = [] := by
          unfold dataImage Recording.messages at *
          rw [List.map_eq_nil_iff.mp he]; rfl
        rw [this]
        exact Steps.pure ()
      · rw [if_neg he, header_fields h]
        have hne : x.events ≠ [] := fun h0 => he (by unfold Recording.messages; rw [h0]; rfl)
        exact Steps.bindL (Steps.check (by simpa using readers_of h hs hne)) (Steps.bindL Steps.tell
          (Steps.bindL (Steps.check (by simp)) (events_steps hs _ h.events (by
            have : (dataImage x).length < 2 ^ 63 := by omega
            exact this))))
  have hlen : (headerImage x ++ ((x.info.attrs.flatMap idsImage ++ attrsImage x) ++ dataImage x)).length =
      dataAt x + (dataImage x).length := by
    simp only [List.length_append, h1, h2, h3]; omega
  have hok : (Writer.new buf).Ok := ⟨rfl, by unfold Writer.new; simp only; omega, by unfold Writer.new; simp only; omega⟩
  have hw := hpre (Writer.new buf) hok rfl (by rw [hlen]; unfold Writer.new; simp only; omega)
  have hsplit : writeAll env ser x.info x.messages = (do
      wdata (headerMemory (generateHeader x.info x.messages))
      writeAttrs x.info (generateHeader x.info x.messages)
      writeEvents env ser x.messages (generateHeader x.info x.messages)) >>= fun _ =>
      writeMetadata x.info (generateHeader x.info x.messages).mask
        (addSz (generateHeader x.info x.messages).data.1 (generateHeader x.info x.messages).data.2) := by
    funext w
    unfold writeAll
    simp only [wbind_def]
    split <;> try rfl
    split <;> try rfl
  rw [hsplit, wbind_of hw]
  rw [hlen, Nat.zero_add]
  have hadd : addSz (generateHeader x.info x.messages).data.1 (generateHeader x.info x.messages).data.2 =
      dataAt x + (dataImage x).length := by
    rw [header_fields h]; unfold addSz; simp only; omega
  have hmask : (generateHeader x.info x.messages).mask = x.info.mask := by rw [header_fields h]
  rw [hadd, hmask, ← writeMetadata_stored]
  have hl : (overwrite buf 0 (headerImage x ++ ((x.info.attrs.flatMap idsImage ++ attrsImage x) ++ dataImage x))).length = buf.length :=
    overwrite_length (by omega)
  have hfit := metadata_fits env.md5 (stored x.info) ⟨overwrite buf 0 (headerImage x ++ ((x.info.attrs.flatMap idsImage ++ attrsImage x) ++
    dataImage x)), buf.length, dataAt x + (dataImage x).length⟩ h.info hcmd ⟨hl.symm ▸ rfl, by simp only; omega, by simp only [hl]; omega⟩
    (by simp only [hl]; omega)
  simp only at hfit
  have hmk : (stored x.info).mask = x.info.mask := rfl
  rw [hmk] at hfit
  refine Eq.trans hfit ?_
  have hap := overwrite_append (buf := buf) (a := headerImage x ++ ((x.info.attrs.flatMap idsImage ++ attrsImage x) ++ dataImage x))
    (b := metadataImage false (stored x.info) (dataAt x + (dataImage x).length)) (pos := 0) (by rw [hlen]; omega)
  rw [hlen, Nat.zero_add] at hap
  rw [hap, ← h6]
  unfold fileImage fileWith
  rw [show headerWith (dataAt x, 0) x = headerImage x from rfl]
  simp only [List.append_assoc]

end Verif.File
