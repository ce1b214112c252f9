import Verif.File.OldSpec
import Verif.File.Pipe2

/-! Reading recordings of the old form. -/

namespace Verif.File
open Verif.Buffer Verif.Event Verif.Sample Verif.Attr Verif.Names Verif.Text Verif.Util Verif.Meta Verif.Serial Verif.Data

theorem zeroPad_length {n : Nat} {s : Serial.Bytes} (h : s.length ≤ n) : (zeroPad n s).length = n := by
  unfold zeroPad; simp; omega

theorem zeroPad_stop {n : Nat} {s : Serial.Bytes} (h : (0 : UInt8) ∉ s) : (zeroPad n s).takeWhile (· ≠ 0) = s := by
  unfold zeroPad
  rw [List.takeWhile_append_of_pos (fun a ha => by
    rw [decide_eq_true_eq]; rintro rfl; exact h ha)]
  have : ∀ k, (List.replicate k (0 : UInt8)).takeWhile (· ≠ 0) = [] := by
    intro k; cases k <;> simp [List.replicate_succ]
  rw [this, List.append_nil]

theorem nameImage_length {n : Nat} {t : Nat × Serial.Bytes} (h : t.2.length ≤ n) : (nameImage n t).length = 8 + n := by
  unfold nameImage
  rw [List.length_append, zeroPad_length h, Meta.image_one, u64_length]

/-- A name in a field of `n` bytes. -/
theorem gets_name {cross : Bool} {o n : Nat} {s : Serial.Bytes} (h0 : (0 : UInt8) ∉ s) (hl : s.length ≤ n) (hn : n < 2 ^ 64) :
    Gets cross o 0 (str n) (zeroPad n s) s := by
  intro r tail hr _ _ hd _
  unfold str
  have hz := zeroPad_length hl
  rw [readString_spec hr hn]
  have hlen := congrArg List.length hd
  rw [List.length_drop, List.length_append, hz] at hlen
  have : slice r.buf r.off n = some (zeroPad n s) := by
    unfold slice
    have := hr.2.1
    have := hr.1
    rw [if_pos (by omega), hd, List.take_left' hz]
  rw [this]
  simp only
  rw [zeroPad_stop h0, hz]

/-- One name, outside of an event (`size` is 0, 64 bytes) or in an event. -/
theorem gets_eventType {o n size idx : Nat} {st : Meta.St} {f : ProtoFileAttr} {s : Serial.Bytes} (hi : st.info.attrs[idx]? = some f)
    (hc : f.attr.config < 2 ^ 64) (h0 : (0 : UInt8) ∉ s) (hl : s.length ≤ n) (hn : n < 2 ^ 63) (hsz : (size = 0 ∧ n = 64) ∨ size = 16 + n) :
    Gets false o 0 (readEventType st idx size) (nameImage n (f.attr.config, s))
      { st with info := { st.info with eventTypes := st.info.eventTypes ++ [(f.attr.config, s)] } } := by
  have e : (if size = 0 then 64 else (size + 2 ^ 64 - 16) % 2 ^ 64) = n := by
    rcases hsz with ⟨rfl, rfl⟩ | rfl
    · rfl
    · rw [if_neg (by omega)]; omega
  unfold readEventType nameImage
  rw [Meta.image_one, e]
  refine Gets.bind (gets_u64 hc) ?_ (Nat.zero_le _)
  have := Gets.bind (o := o + ((u64F f.attr.config).image false).length) (cross := false)
    (f := fun name => (match st.info.attrs[idx]? with
      | none => fail
      | some g => if f.attr.config ≠ g.attr.config then fail
        else pure { st with info := { st.info with eventTypes := st.info.eventTypes ++ [(g.attr.config, name)] } } : P Meta.St))
    (gets_name h0 hl (by omega)) (m := 0) (cs := [])
    (b := { st with info := { st.info with eventTypes := st.info.eventTypes ++ [(f.attr.config, s)] } }) (by
      rw [hi]
      simp only [ne_eq, not_true_eq_false, if_false]
      exact Gets.pure _) (Nat.zero_le _)
  rw [List.append_nil] at this
  exact this

/-- All names of the section. -/
theorem gets_types : ∀ (l : List ProtoFileAttr) (names : List Serial.Bytes) (o : Nat) (st : Meta.St) (idx : Nat),
    names.length = l.length → st.info.attrs.drop idx = l → (∀ f ∈ l, f.attr.config < 2 ^ 64) →
    (∀ s ∈ names, (0 : UInt8) ∉ s ∧ s.length ≤ 64) →
    Gets false o 0 (readTypes names.length idx st) (((l.zip names).map fun y => (y.1.attr.config, y.2)).flatMap (nameImage 64))
      { st with info := { st.info with eventTypes := st.info.eventTypes ++ (l.zip names).map fun y => (y.1.attr.config, y.2) } }
  | [], [], o, st, idx, _, _, _, _ => by
    have : Gets false o 0 (readTypes 0 idx st) [] st := Gets.pure _
    simpa using this
  | f :: l, s :: names, o, st, idx, h1, h2, h3, h4 => by
    have hi : st.info.attrs[idx]? = some f := by
      have := congrArg List.head? h2
      rwa [List.head?_drop] at this
    have hd : st.info.attrs.drop (idx + 1) = l := by
      rw [← List.tail_drop, h2]; rfl
    obtain ⟨k1, k2⟩ := h4 s (List.mem_cons_self ..)
    have ih := gets_types l names (o + (nameImage 64 (f.attr.config, s)).length)
      { st with info := { st.info with eventTypes := st.info.eventTypes ++ [(f.attr.config, s)] } } (idx + 1)
      (by simpa using h1) hd (fun g hg => h3 g (List.mem_cons_of_mem _ hg)) (fun g hg => h4 g (List.mem_cons_of_mem _ hg))
    have := Gets.bind (f := fun st => readTypes names.length (idx + 1) st)
      (gets_eventType (o := o) (size := 0) hi (h3 f (List.mem_cons_self ..)) k1 k2 (by decide) (Or.inl ⟨rfl, rfl⟩)) ih (Nat.zero_le _)
    have e : readTypes (s :: names).length idx st = (do
        let st ← readEventType st idx 0
        readTypes names.length (idx + 1) st) := rfl
    rw [e]
    simpa using this
  | [], _ :: _, _, _, _, h, _, _, _ => by cases h
  | _ :: _, [], _, _, _, h, _, _, _ => by cases h

/-! ## The file -/

/-- The recording with the names, without the feature. -/
def withNames (x : Recording) (names : List Serial.Bytes) : Recording :=
  { x with info := { x.info with eventTypes := namesOf x.info names } }

theorem featureFlds_names {i : Info} {l : List (Nat × Serial.Bytes)} {t : Nat} (h : t ≠ 12) :
    featureFlds { i with eventTypes := l } t = featureFlds i t := by
  unfold featureFlds
  split <;> first | rfl | exact absurd rfl h

theorem metadataImage_names {i : Info} (l : List (Nat × Serial.Bytes)) (h : i.mask.testBit 12 = false) (pos : Nat) :
    metadataImage false { i with eventTypes := l } pos = metadataImage false i pos := by
  have : contents false { i with eventTypes := l } (features i.mask) = contents false i (features i.mask) := by
    unfold contents
    apply List.map_congr_left
    intro t ht
    rw [featureFlds_names]
    rintro rfl
    unfold features at ht
    rw [List.mem_filter, h] at ht
    exact absurd ht.2 (by decide)
  unfold metadataImage
  simp only
  rw [this]

theorem fileWith_names {x : Recording} (names : List Serial.Bytes) (h : x.info.mask.testBit 12 = false) (ty : Nat × Nat) :
    fileWith ty (withNames x names) = fileWith ty x := by
  unfold fileWith
  have := metadataImage_names (i := stored x.info) (namesOf x.info names) h (dataAt x + (dataImage x).length)
  rw [← this]
  rfl

theorem faithful_names {md5 : Serial.Bytes → Nat} {i : Info} (h : Faithful md5 i) (l : List (Nat × Serial.Bytes)) (h12 : i.mask.testBit 12 = false) :
    Faithful md5 { i with eventTypes := l } :=
  { mask := h.mask, tracing := h.tracing, buildIds := h.buildIds, hostname := h.hostname, osrelease := h.osrelease, version := h.version
    arch := h.arch, cpudesc := h.cpudesc, cpuid := h.cpuid, cmdline := h.cmdline, nrcpus := h.nrcpus, memory := h.memory
    events := fun h' => absurd (h12.symm.trans h') (by decide)
    topology := h.topology, numa := h.numa, pmus := h.pmus, groups := h.groups, hybrids := h.hybrids }

theorem storable_names {env : Serial.Env} {x : Recording} (h : Complete env x) (names : List Serial.Bytes) (h12 : x.info.mask.testBit 12 = false) :
    Storable env (withNames x names) where
  info := faithful_names h.info (namesOf x.info names) h12
  attrs := h.attrs
  places := h.places
  events := fun e he =>
    have h := h.events e he
    ⟨h.recorded, h.message, h.trace, h.kernel, h.timeout⟩
  size := by
    have e : fileImage (withNames x names) = fileImage x := fileWith_names names h12 (dataAt x, 0)
    rw [e]
    exact h.size

theorem fileWith_length (ty : Nat × Nat) (x : Recording) : (fileWith ty x).length = (fileImage x).length := by
  have a := (with_lengths x ty).1
  have b := (with_lengths x (dataAt x, 0)).1
  unfold fileImage fileWith
  simp only [List.length_append, a, b]

theorem names_length {x : Recording} {names : List Serial.Bytes} {n : Nat} (h : OldNames n x names) :
    ((namesOf x.info names).flatMap (nameImage n)).length = (8 + n) * names.length := by
  have : ∀ (l : List ProtoFileAttr) (names : List Serial.Bytes), names.length = l.length → (∀ s ∈ names, s.length ≤ n) →
      (((l.zip names).map fun y => (y.1.attr.config, y.2)).flatMap (nameImage n)).length = (8 + n) * names.length := by
    intro l
    induction l with
    | nil => intro names h _; rw [List.length_eq_zero_iff.mp h]; rfl
    | cons f l ih =>
      intro names h hs
      cases names with
      | nil => cases h
      | cons s names =>
        rw [List.zip_cons_cons, List.map_cons, List.flatMap_cons, List.length_append, nameImage_length (hs s (List.mem_cons_self ..)),
          ih names (by simpa using h) (fun t ht => hs t (List.mem_cons_of_mem _ ht)), List.length_cons, Nat.mul_succ, Nat.add_comm]
  exact this _ _ h.one (fun s hs => (h.text s hs).2)

theorem loaded_named {md5 : Serial.Bytes → Nat} {x : Recording} {names : List Serial.Bytes} :
    loaded md5 (named x names) = { loaded md5 (withNames x names) with mask := x.info.mask ||| 2 ^ 12 } := by
  have : (x.info.mask ||| 2 ^ 12).testBit 2 = x.info.mask.testBit 2 := by
    rw [Nat.testBit_or, Nat.testBit_two_pow]; simp
  unfold loaded stored named withNames
  simp only [this]
  rfl

theorem namesOf_ne {x : Recording} {names : List Serial.Bytes} {n : Nat} (h : OldNames n x names) : namesOf x.info names ≠ [] := by
  intro h0
  have := congrArg List.length h0
  unfold namesOf at this
  rw [List.length_map, List.length_zip, h.one, Nat.min_self] at this
  exact h.some (List.length_eq_zero_iff.mp this)

/-- A file of the old form is read as the recording with its names. -/
theorem read_old {cfg : Cfg} {x : Recording} {names : List Serial.Bytes} (h : Complete cfg.env x) (hn : OldNames 64 x names) (hskip : cfg.skip = []) :
    ∃ st, readBytes cfg (oldFile x names) = some (some st) ∧ st.events = x.messages ∧ st.base.info = loaded cfg.env.md5 (named x names) ∧
      st.reported = (if cfg.callback then samplesOf x.messages else []) ∧
      registerAll {} false (x.info.attrs.map deserializeFileAttr) = some st.base.ser := by
  have hl := names_length hn
  have hlen : (oldFile x names).length = (fileImage x).length + 72 * names.length := by
    unfold oldFile
    rw [List.length_append, fileWith_length, hl]
  have hfew := hn.few
  have hsz := h.size
  have he : fileWith ((fileImage x).length, 72 * names.length) (withNames x names) ++ (namesOf x.info names).flatMap (nameImage 64) = oldFile x names := by
    rw [fileWith_names names hn.old]; rfl
  obtain ⟨st, k1, k2, k3, k4, k5⟩ := read_file (ty := ((fileImage x).length, 72 * names.length)) (tail := (namesOf x.info names).flatMap (nameImage 64))
    (storable_names h names hn.old) hskip (by rw [he]; omega) (by rw [he, hlen]; exact Nat.le_refl _)
    (fun _ st r hr hc hb ha het => by
      rw [he] at hb
      have ha : st.info.attrs = x.info.attrs := ha
      have hp : 0 < names.length := by
        rw [hn.one]; exact List.length_pos_iff.mpr hn.some
      have hnum : 72 * names.length / 72 % 2 ^ 32 = names.length := by omega
      have hd : r.buf.drop (fileImage x).length = (namesOf x.info names).flatMap (nameImage 64) ++ [] := by
        rw [hb, List.append_nil]
        unfold oldFile
        rw [List.drop_left' (fileWith_length _ _)]
      obtain ⟨s1, s2, s3, s4⟩ := seek_drop hr hd (by rw [hb, hlen]; omega)
      have hg := gets_types x.info.attrs names (fileImage x).length st 0 hn.one (by rw [ha]; rfl)
        (fun f hf => (h.attrs f hf).1.2.2.1) hn.text { r with off := (fileImage x).length } [] s2 hc rfl s4 (Nat.zero_le _)
      refine ⟨(fileImage x).length + ((namesOf x.info names).flatMap (nameImage 64)).length, ?_, ?_⟩
      rotate_left
      · unfold readTypesSection
        simp only [hnum]
        rw [if_neg (by omega), if_neg (by rw [ha, hn.one]; have := hn.one; omega), if_neg (fun h => h rfl), bind_of s1, hg, het]
        rfl
      · show (fileImage x).length + ((namesOf x.info names).flatMap (nameImage 64)).length ≤ r.buf.length
        rw [hb, hlen, hl]
        exact Nat.le_refl _)
  rw [he] at k1
  refine ⟨st, k1, k2, ?_, k4, k5⟩
  have hne : (withNames x names).info.eventTypes ≠ [] := namesOf_ne hn
  rw [k3, if_pos hne, loaded_named]
  rfl

/-! ## The pipe -/

theorem gets_nameRecord {cfg : Cfg} {st : Data.St} {k n : Nat} {f : ProtoFileAttr} {s : Serial.Bytes}
    (hi : st.base.info.attrs[k]? = some f) (hc : f.attr.config < 2 ^ 64) (h0 : (0 : UInt8) ∉ s) (hl : s.length ≤ n) (hn : 16 + n < 2 ^ 16) :
    ∀ o, Gets false o 0 (readPipedRecord cfg st k) (pipeRecord 65 0 (nameImage n (f.attr.config, s)))
      ({ st with base := { st.base with info := { st.base.info with eventTypes := st.base.info.eventTypes ++ [(f.attr.config, s)] } } }, k + 1) := by
  have hlen : (nameImage n (f.attr.config, s)).length = 8 + n := nameImage_length hl
  refine gets_piped (by decide) (by decide) (by rw [hlen]; omega) rfl fun o => ?_
  simp only
  rw [if_neg (by decide), if_pos True.intro, ← List.append_nil (nameImage n (f.attr.config, s))]
  refine Gets.bind0 (gets_eventType hi hc h0 hl (by omega) (Or.inr (by rw [List.append_nil, hlen]; omega))) (Gets.pure _)

/-- What the names add. -/
def addNames (st : Data.St) (l : List (Nat × Serial.Bytes)) : Data.St :=
  { st with base := { st.base with info := { st.base.info with eventTypes := st.base.info.eventTypes ++ l } } }

theorem reads_names {cfg : Cfg} {n : Nat} (hn : 16 + n < 2 ^ 16) : ∀ (l : List ProtoFileAttr) (names : List Serial.Bytes) (st : Data.St) (k : Nat),
    names.length = l.length → st.base.info.attrs.drop k = l → (∀ f ∈ l, f.attr.config < 2 ^ 64) → (∀ s ∈ names, (0 : UInt8) ∉ s ∧ s.length ≤ n) →
    Reads cfg st k (((l.zip names).map fun y => (y.1.attr.config, y.2)).flatMap fun t => pipeRecord 65 0 (nameImage n t))
      (addNames st ((l.zip names).map fun y => (y.1.attr.config, y.2))) (k + names.length)
  | [], [], st, k, _, _, _, _ => by
    have e : addNames st [] = st := by unfold addNames; simp
    show Reads cfg st k [] (addNames st []) (k + 0)
    rw [e]
    exact Reads.nil
  | f :: l, s :: names, st, k, h1, h2, h3, h4 => by
    have hi : st.base.info.attrs[k]? = some f := by
      have := congrArg List.head? h2
      rwa [List.head?_drop] at this
    have hd : st.base.info.attrs.drop (k + 1) = l := by
      rw [← List.tail_drop, h2]; rfl
    obtain ⟨k1, k2⟩ := h4 s (List.mem_cons_self ..)
    have ih := reads_names (cfg := cfg) hn l names (addNames st [(f.attr.config, s)]) (k + 1) (by simpa using h1) hd
      (fun g hg => h3 g (List.mem_cons_of_mem _ hg)) (fun g hg => h4 g (List.mem_cons_of_mem _ hg))
    have step := Reads.step (pipeRecord_ne _ _ _) (gets_nameRecord (cfg := cfg) hi (h3 f (List.mem_cons_self ..)) k1 k2 hn)
    have := Reads.trans step ih
    rw [List.length_cons, List.zip_cons_cons, List.map_cons, List.flatMap_cons]
    have e1 : addNames (addNames st [(f.attr.config, s)]) ((l.zip names).map fun y => (y.1.attr.config, y.2)) =
        addNames st ((f.attr.config, s) :: (l.zip names).map fun y => (y.1.attr.config, y.2)) := by
      unfold addNames; simp
    rw [e1, Nat.add_assoc, Nat.add_comm 1] at this
    exact this
  | [], _ :: _, _, _, h, _, _, _ => by cases h
  | _ :: _, [], _, _, h, _, _, _ => by cases h

/-- The head of a pipe, records, and what remains to be done after them. -/
theorem read_records {cfg : Cfg} {rest : Serial.Bytes} {st : Data.St} {n : Nat} (hall : Reads cfg {} 0 rest st n) (hsz : 16 + rest.length < 2 ^ 63) :
    readBytes cfg (Meta.image false [.raw [80, 69, 82, 70, 73, 76, 69, 50], u64F 16] ++ rest) =
      some (some (if st.base.info.mask.testBit 12 = false ∧ n = st.base.info.attrs.length then setBit st 12 else st)) := by
  have h16 : (Meta.image false [.raw [80, 69, 82, 70, 73, 76, 69, 50], u64F 16]).length = 16 := by decide
  generalize hbytes : Meta.image false [.raw [80, 69, 82, 70, 73, 76, 69, 50], u64F 16] ++ rest = bytes
  have hlen : bytes.length = 16 + rest.length := by rw [← hbytes, List.length_append, h16]
  unfold readBytes readFromData
  generalize hRe : Reader.new bytes false = r
  have hrb : r.buf = bytes := by rw [← hRe]; rfl
  have hrc : r.cross = false := by rw [← hRe]; rfl
  have hro : r.off = 0 := by rw [← hRe]; rfl
  have hrs : r.size = bytes.length := by rw [← hRe]; rfl
  have hr : r.Ok := ⟨by rw [hrs, hrb], by omega, by rw [hrb]; omega⟩
  have hhead := pipe_header hr hrc (hrb.trans hbytes.symm) hro
  rw [bind_of (p := dataSize) rfl, if_neg (by omega), bind_of hhead, if_neg (by decide), if_neg (by decide)]
  unfold readPiped
  rw [bind_of (p := tell) rfl, bind_of (p := check (decide (16 = 16))) rfl]
  obtain ⟨fuel, hf, e⟩ := hall { r with off := 16 } [] (r.size + 1) ⟨hr.1, by simp only; omega, hr.2.2⟩ hrc
    (by
      show r.buf.drop 16 = _
      rw [hrb, ← hbytes, List.drop_left' h16, List.append_nil])
    (by rw [List.append_nil]; omega)
  have hend : readPipedRecords cfg (r.size + 1) {} 0 { r with off := 16 } = some (some (st, n), { r with off := 16 + rest.length }) := by
    have e' : readPipedRecords cfg (r.size + 1) {} 0 { r with off := 16 } = _ := e
    rw [e']
    unfold readPipedRecords
    rw [bind_of (p := tell) rfl, bind_of (p := dataSize) rfl, if_neg]
    · rfl
    · show ¬ (16 + rest.length < r.size)
      omega
  have e2 : (do
      let __x ← readPipedRecords cfg (r.size + 1) {} 0
      pure (if __x.1.base.info.mask.testBit 12 = false ∧ __x.2 = __x.1.base.info.attrs.length then setBit __x.1 12 else __x.1) : P Data.St)
      { r with off := 16 } = some (some (if st.base.info.mask.testBit 12 = false ∧ n = st.base.info.attrs.length then setBit st 12 else st),
        { r with off := 16 + rest.length }) := by
    rw [bind_of hend]
    rfl
  exact congrArg (Option.map (·.1)) e2

/-- A pipe of the old form is read as the recording with its names. -/
theorem read_old_pipe {cfg : Cfg} {x : Recording} {names : List Serial.Bytes} {n : Nat} (h : Complete cfg.env x) (hp : Pipeable x)
    (hn : OldNames n x names) (hr : 16 + n < 2 ^ 16) (hsz : (oldPipe n x names).length < 2 ^ 63) (hskip : cfg.skip = []) :
    ∃ st, readBytes cfg (oldPipe n x names) = some (some st) ∧ st.events = x.messages ∧ st.base.info = loaded cfg.env.md5 (named x names) ∧
      st.reported = (if cfg.callback then samplesOf x.messages else []) ∧
      registerAll {} false (x.info.attrs.map deserializeFileAttr) = some st.base.ser := by
  obtain ⟨ser, hs⟩ := accepted_of h.storable
  obtain ⟨b, hr1, hi, hb⟩ := reads_before h hp hs
  rw [pipeInfo_eq h.info hp.branches h.names] at hi
  have hrn := reads_names (cfg := cfg) hr x.info.attrs names { base := b } 0 hn.one (by simp only [hi]; rfl)
    (fun f hf => (h.attrs f hf).1.2.2.1) hn.text
  have hr2 := reads_events (cfg := cfg) (n := 0 + names.length) (i := x.info) hskip x.events (st := addNames { base := b } (namesOf x.info names))
    h.events (by show registerAll {} false _ = some b.ser; rw [hb]; exact hs)
    (by show b.info.attrs = _; rw [hi]; rfl) (by
      have := hp.size
      unfold pipeImage at this
      rw [List.length_append] at this
      show (dataImage x).length < _
      omega)
  have hall := (hr1.trans hrn).trans hr2
  have hR : ∃ rest, rest = ((((pipeFeatures x.info).flatMap (fun t => pipeRecord 80 0 (featureBody x.info t)) ++
      x.info.attrs.flatMap (fun f => pipeRecord 64 0 (attrBody f))) ++
      (if x.info.mask.testBit 1 then tracingRecord x.info else []) ++
      (if x.info.mask.testBit 2 then Meta.image false (x.info.buildIds.flatMap buildIdFlds) else [])) ++
      (namesOf x.info names).flatMap (fun t => pipeRecord 65 0 (nameImage n t))) ++ dataImage x := ⟨_, rfl⟩
  obtain ⟨rest, hR⟩ := hR
  have hbytes : oldPipe n x names = Meta.image false [.raw [80, 69, 82, 70, 73, 76, 69, 50], u64F 16] ++ rest := by
    rw [hR]
    unfold oldPipe
    simp only [List.append_assoc]
  obtain ⟨fin, hfin⟩ : ∃ fin, fin = absorbAll cfg (addNames { base := b } (namesOf x.info names)) x.messages := ⟨_, rfl⟩
  have hall : Reads cfg {} 0 rest fin (0 + names.length) := by rw [hR, hfin]; exact hall
  have h16 : (Meta.image false [.raw [80, 69, 82, 70, 73, 76, 69, 50], u64F 16]).length = 16 := by decide
  rw [hbytes, List.length_append, h16] at hsz
  have hread := read_records hall hsz
  have hm : b.info.mask = x.info.mask := by rw [hi]; rfl
  have ha : b.info.attrs = x.info.attrs := by rw [hi]; rfl
  have he : b.info.eventTypes = [] := by rw [hi]; exact h.names hn.old
  rw [absorbAll_eq] at hfin
  rw [if_pos (by
    rw [hfin]
    refine ⟨?_, ?_⟩
    · show b.info.mask.testBit 12 = false
      rw [hm]; exact hn.old
    · show 0 + names.length = b.info.attrs.length
      rw [ha, Nat.zero_add]; exact hn.one)] at hread
  refine ⟨setBit fin 12, by rw [hbytes]; exact hread, ?_, ?_, ?_, ?_⟩
  · rw [hfin]; rfl
  · have e1 : (setBit fin 12).base.info = { b.info with
        buildIds := b.info.buildIds ++ mappedIds cfg.env.md5 [] x.messages, eventTypes := b.info.eventTypes ++ namesOf x.info names
        mask := b.info.mask ||| 2 ^ 12 } := by rw [hfin]; rfl
    rw [e1, loaded_named, hm, he, hi]
    rfl
  · have e1 : (setBit fin 12).reported = [] ++ (if cfg.callback then samplesOf x.messages else []) := by rw [hfin]; rfl
    rw [e1, List.nil_append]
  · have e1 : (setBit fin 12).base.ser = b.ser := by rw [hfin]; rfl
    rw [e1, hb]
    exact hs

end Verif.File
