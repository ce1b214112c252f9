import Verif.Whole.Props3

/-!
# What the values of profiles are called

The sample types, the comments and the validity of the profiles made from the bytes of a recording.
-/

namespace Verif.Whole
open Verif.Serial (Msg Body)
open Verif.Builder (Valid checkValid)

/-! ## Specification -/

/-- What the events of a recording are called: by their names if there is one for each, else by their numbers. -/
def titles (names : List Bytes) (n : Nat) : List Bytes :=
  if names.length = n then names else (List.range n).map (fun i => ascii "event_" ++ Converter.decimal i)

/-- Text up to the first zero byte. -/
def upToNul (b : Bytes) : Bytes := b.takeWhile (· ≠ 0)

/-- The names of the two values of an event: how many samples and how often the event happened. -/
def valueNames (title : Bytes) : List Bytes := [upToNul (title ++ ascii "_sample"), upToNul (title ++ ascii "_event")]

/-- The text of a profile with some number. -/
def Says (p : Profile.Profile) (i : Int) (s : Bytes) : Prop := p.stringTable[i.toNat]? = some s

/-! ## Lemmas -/

theorem decimal_inj {i j : Nat} (h : Converter.decimal i = Converter.decimal j) : i = j := by
  unfold Converter.decimal at h
  have key : Nat.toDigits 10 i = Nat.toDigits 10 j := by
    have small : ∀ n, ∀ c ∈ Nat.toDigits 10 n, c.toNat < 256 := by
      intro n c hc
      have := Nat.isDigit_of_mem_toDigits (by decide) (by decide) hc
      unfold Char.isDigit at this
      simp only [Bool.and_eq_true, decide_eq_true_eq] at this
      have h2 : c.val ≤ 57 := this.2
      have : c.toNat ≤ 57 := h2
      omega
    have inj : ∀ (l l' : List Char), (∀ c ∈ l, c.toNat < 256) → (∀ c ∈ l', c.toNat < 256) →
        l.map (fun c => UInt8.ofNat c.toNat) = l'.map (fun c => UInt8.ofNat c.toNat) → l = l' := by
      intro l
      induction l with
      | nil => intro l' _ _ h; exact (List.map_eq_nil_iff.1 h.symm).symm
      | cons c l ih =>
        intro l' h1 h2 h
        cases l' with
        | nil => cases h
        | cons c' l' =>
          simp only [List.map_cons, List.cons.injEq] at h
          rw [ih l' (fun x hx => h1 x (List.mem_cons_of_mem _ hx)) (fun x hx => h2 x (List.mem_cons_of_mem _ hx)) h.2]
          have a1 := h1 c List.mem_cons_self
          have a2 := h2 c' List.mem_cons_self
          have := congrArg UInt8.toNat h.1
          simp only [UInt8.toNat_ofNat'] at this
          have : c.toNat = c'.toNat := by omega
          rw [Char.toNat_inj.1 this]
    exact inj _ _ (small i) (small j) h
  have := congrArg (fun l => Nat.ofDigitChars 10 l 0) key
  simpa only [Nat.ofDigitChars_ten_toDigits] using this

theorem decimal_no_nul (i : Nat) : (0 : UInt8) ∉ Converter.decimal i := by
  intro h
  obtain ⟨c, hc, h0⟩ := List.mem_map.1 h
  have := Nat.isDigit_of_mem_toDigits (by decide) (by decide) hc
  unfold Char.isDigit at this
  simp only [Bool.and_eq_true, decide_eq_true_eq] at this
  have h1 : (48 : UInt32) ≤ c.val := this.1
  have h2 : c.val ≤ 57 := this.2
  have h1 : 48 ≤ c.toNat := h1
  have h2 : c.toNat ≤ 57 := h2
  have := congrArg UInt8.toNat h0
  simp only [UInt8.toNat_ofNat'] at this
  have h3 : c.toNat % 2 ^ 8 = 0 := this
  omega

theorem titles_distinct (n : Nat) :
    (∀ x ∈ (List.range n).map (fun i => ascii "event_" ++ Converter.decimal i), (0 : UInt8) ∉ x) ∧
      ((List.range n).map (fun i => ascii "event_" ++ Converter.decimal i)).Nodup := by
  constructor
  · intro x hx h0
    obtain ⟨i, -, rfl⟩ := List.mem_map.1 hx
    rcases List.mem_append.1 h0 with h | h
    · revert h; decide
    · exact decimal_no_nul i h
  · unfold List.Nodup
    rw [List.pairwise_map]
    exact List.nodup_range.imp fun hne h => hne (decimal_inj (List.append_cancel_left h))

theorem upTo_clean {x : Bytes} (h : (0 : UInt8) ∉ x) (s : Bytes) (hs : (0 : UInt8) ∉ s) : upToNul (x ++ s) = x ++ s := by
  have key : ∀ l : Bytes, (0 : UInt8) ∉ l → l.takeWhile (· ≠ 0) = l := by
    intro l
    induction l with
    | nil => intro _; rfl
    | cons c l ih =>
      intro hl
      have hc : c ≠ 0 := fun hc => hl (by rw [hc]; exact List.mem_cons_self)
      rw [List.takeWhile_cons, if_pos (by simpa using hc), ih fun h => hl (List.mem_cons_of_mem _ h)]
  refine key _ fun hc => ?_
  rcases List.mem_append.1 hc with h' | h'
  · exact h h'
  · exact hs h'

theorem upTo_dirty : ∀ {x : Bytes}, (0 : UInt8) ∈ x → ∀ s s' : Bytes, upToNul (x ++ s) = upToNul (x ++ s')
  | c :: x, h, s, s' => by
    unfold upToNul
    rw [List.cons_append, List.cons_append, List.takeWhile_cons, List.takeWhile_cons]
    by_cases hc : c = 0
    · subst hc; rfl
    · rcases List.mem_cons.1 h with h | h
      · exact absurd h.symm hc
      · have := upTo_dirty h s s'
        unfold upToNul at this
        rw [this]

theorem ends_differ {x y : Bytes} : x ++ ascii "_sample" ≠ y ++ ascii "_event" := by
  intro h
  have := congrArg List.getLast? h
  rw [List.getLast?_append, List.getLast?_append, show (ascii "_sample").getLast? = some 101 by decide,
    show (ascii "_event").getLast? = some 116 by decide, Option.some_or, Option.some_or] at this
  exact absurd this (by decide)

theorem names_nodup : ∀ l : List Bytes, (l.flatMap valueNames).Nodup ↔ (∀ x ∈ l, (0 : UInt8) ∉ x) ∧ l.Nodup
  | [] => by simp
  | x :: l => by
    rw [List.flatMap_cons, List.nodup_append, names_nodup l, List.nodup_cons]
    have hx : (valueNames x).Nodup ↔ (0 : UInt8) ∉ x := by
      constructor
      · intro h h0
        unfold valueNames at h
        rw [upTo_dirty h0 (ascii "_sample") (ascii "_event")] at h
        simp at h
      · intro h0
        unfold valueNames
        rw [upTo_clean h0 _ (by decide), upTo_clean h0 _ (by decide)]
        simp only [List.nodup_cons, List.mem_cons, List.not_mem_nil, or_false, not_false_eq_true, List.nodup_nil, and_true]
        exact ends_differ
    rw [hx]
    constructor
    · rintro ⟨h1, ⟨h2, h3⟩, h4⟩
      refine ⟨fun y hy => ?_, fun hm => ?_, h3⟩
      · rcases List.mem_cons.1 hy with rfl | hy
        · exact h1
        · exact h2 y hy
      · have hin : upToNul (x ++ ascii "_sample") ∈ valueNames x := List.mem_cons_self
        exact h4 _ hin _ (List.mem_flatMap.2 ⟨x, hm, hin⟩) rfl
    · rintro ⟨h1, h2, h3⟩
      have hx := h1 x List.mem_cons_self
      have hl : ∀ y ∈ l, (0 : UInt8) ∉ y := fun y hy => h1 y (List.mem_cons_of_mem _ hy)
      refine ⟨hx, ⟨hl, h3⟩, ?_⟩
      rintro a ha b hb rfl
      obtain ⟨y, hy, hb⟩ := List.mem_flatMap.1 hb
      unfold valueNames at ha hb
      rw [upTo_clean hx _ (by decide), upTo_clean hx _ (by decide)] at ha
      rw [upTo_clean (hl y hy) _ (by decide), upTo_clean (hl y hy) _ (by decide)] at hb
      simp only [List.mem_cons, List.not_mem_nil, or_false] at ha hb
      rcases ha with rfl | rfl <;> rcases hb with hb | hb
      · exact h2 (by rw [List.append_cancel_right hb]; exact hy)
      · exact ends_differ hb
      · exact ends_differ hb.symm
      · exact h2 (by rw [List.append_cancel_right hb]; exact hy)

/-- The names that the converter gives. -/
theorem types_titled {S : Converter.Setup} {names : List Bytes} (he : S.eventTypes = names.map some) :
    (List.range S.attrs.length).flatMap (Converter.typeNames S) = (titles names S.attrs.length).flatMap valueNames ∧
    ∀ n, S.attrs.length = n + 1 → ∃ x, (titles names S.attrs.length).getLast? = some x ∧
      (Converter.eventPrefix S n ++ ascii "event").takeWhile (· ≠ 0) = upToNul (x ++ ascii "_event") := by
  have hp : ∀ i < S.attrs.length, ∃ x, (titles names S.attrs.length)[i]? = some x ∧ Converter.eventPrefix S i = x ++ ascii "_" := by
    intro i hi
    unfold titles Converter.eventPrefix Converter.anonymous
    rw [he, List.length_map]
    by_cases hl : S.attrs.length = names.length
    · simp only [if_pos hl, if_pos hl.symm]
      obtain ⟨x, hx⟩ : ∃ x, names[i]? = some x := ⟨names[i], List.getElem?_eq_getElem (by omega)⟩
      refine ⟨x, hx, ?_⟩
      simp only [List.getElem?_map, hx, Option.map_some, Option.bind_some, id, Option.isNone_some, Bool.false_eq_true, if_false, Option.getD_some]
    · simp only [if_neg hl, if_neg (Ne.symm hl), if_true, List.getElem?_map, List.getElem?_range hi, Option.map_some]
      refine ⟨_, rfl, ?_⟩
      rw [show (List.range i).filter (fun _ => true) = List.range i from List.filter_eq_self.2 fun _ _ => rfl, List.length_range]
  have hlen : (titles names S.attrs.length).length = S.attrs.length := by
    unfold titles
    split
    · assumption
    · rw [List.length_map, List.length_range]
  have h2 : ascii "_" ++ ascii "sample" = ascii "_sample" := by decide
  have h3 : ascii "_" ++ ascii "event" = ascii "_event" := by decide
  constructor
  · generalize ht : titles names S.attrs.length = t at hp hlen
    rw [← hlen]
    have hp' : ∀ i < t.length, ∃ x, t[i]? = some x ∧ Converter.eventPrefix S i = x ++ ascii "_" := fun i hi => hp i (by omega)
    have : ∀ (t : List Bytes) (k : Nat), (∀ i < t.length, ∃ x, t[i]? = some x ∧ Converter.eventPrefix S (k + i) = x ++ ascii "_") →
        (List.range' k t.length).flatMap (Converter.typeNames S) = t.flatMap valueNames := by
      intro t
      induction t with
      | nil => intro k _; rfl
      | cons y t ih =>
        intro k h
        rw [List.length_cons, List.range'_succ, List.flatMap_cons, List.flatMap_cons]
        rw [ih (k + 1) (fun i hi => by
          obtain ⟨x, g1, g2⟩ := h (i + 1) (by rw [List.length_cons]; omega)
          exact ⟨x, by simpa using g1, by rw [← g2, Nat.add_right_comm, Nat.add_assoc]⟩)]
        obtain ⟨x, g1, g2⟩ := h 0 (by simp)
        simp only [List.getElem?_cons_zero, Option.some.injEq] at g1
        subst g1
        unfold Converter.typeNames valueNames upToNul
        rw [Nat.add_zero] at g2
        rw [g2, List.append_assoc, List.append_assoc, h2, h3]
    rw [List.range_eq_range']
    exact this t 0 (fun i hi => by rw [Nat.zero_add]; exact hp' i hi)
  · intro n hn
    obtain ⟨x, g1, g2⟩ := hp n (by omega)
    refine ⟨x, ?_, ?_⟩
    · rw [List.getLast?_eq_getElem?, hlen, show S.attrs.length - 1 = n by omega]; exact g1
    · rw [g2, List.append_assoc, h3]; rfl

/-! ## C130 -/

/-- The stages of a conversion. -/
theorem stages {M : Machine} {ids : List (Bytes × Bytes)} {labels options : Nat} {threadTypes : List (Nat × Bytes)} {b : Bytes}
    {ps : List Converter.ProcessProfile} {st : Data.St} (hb : File.readBytes { env := M.env } b = some (some st))
    (hc : Calm options st.events) (h : rawToProfiles M ids labels options threadTypes b = some ps) :
    ∃ S cbs L, Converter.convert S cbs = some (ps, L) ∧ Converter.Sane S cbs ∧ S.attrs.length = st.base.info.attrs.length ∧
      S.eventTypes = (st.base.info.eventTypes.map (·.2)).map some ∧ S.perfVersion = st.base.info.version ∧ S.commandLine = st.base.info.cmdWhole := by
  unfold rawToProfiles at h
  rw [hb] at h
  obtain ⟨r, L, h1, h2⟩ := staged h
  obtain ⟨g1, g2⟩ := given (read_shaped hb) hc h1
  unfold Converter.protoToProfiles at h2
  cases hp : Normalizer.process (normInput M (withBuildIds M.env.md5 ids st.base.info st.events) r.1) with
  | none => rw [hp] at h2; cases h2
  | some cbs =>
    rw [hp] at h2
    simp only at h2
    refine ⟨Converter.setupOf (normInput M (withBuildIds M.env.md5 ids st.base.info st.events) r.1)
      (st.base.info.eventTypes.map (fun (t : Nat × Bytes) => some t.2)) st.base.info.cmdWhole labels options threadTypes, cbs, L, h2, g2 cbs hp _ rfl, ?_, ?_, rfl, rfl⟩
    · exact List.length_map _
    · show st.base.info.eventTypes.map (fun t => some t.2) = _
      rw [List.map_map]
      rfl

/-- C130. The values of every profile made from the bytes of a recording are named after the events of the recording: for each, in order, one counts its
samples and one how often it happened; the one shown first is the latter of the last event. The comments tell the version of perf and its command
line, if the recording has them. -/
theorem values_titled_partial {M : Machine} {ids : List (Bytes × Bytes)} {labels options : Nat} {threadTypes : List (Nat × Bytes)} {b : Bytes}
    {ps : List Converter.ProcessProfile} {st : Data.St} (hb : File.readBytes { env := M.env } b = some (some st))
    (hc : Calm options st.events) (h : rawToProfiles M ids labels options threadTypes b = some ps) :
    ∀ p ∈ ps,
      All₂ (fun (t : Profile.ValueType) name => Says p.data t.type name ∧ Says p.data t.unit (ascii "count")) p.data.sampleType
        ((titles (st.base.info.eventTypes.map (·.2)) st.base.info.attrs.length).flatMap valueNames) ∧
      (∃ x, (titles (st.base.info.eventTypes.map (·.2)) st.base.info.attrs.length).getLast? = some x ∧
        Says p.data p.data.defaultSampleType (upToNul (x ++ ascii "_event"))) ∧
      All₂ (Says p.data) p.data.comment
        ((st.base.info.version.map (fun v => upToNul (ascii "perf-version:" ++ v))).toList ++
         (st.base.info.cmdWhole.map (fun v => upToNul (ascii "perf-command:" ++ v))).toList) := by
  obtain ⟨S, cbs, L, h1, h2, h3, h4, h5, h6⟩ := stages hb hc h
  intro p hp
  obtain ⟨i, hi⟩ := List.getElem?_of_mem hp
  obtain ⟨k1, ⟨n, k2, k3⟩, k4⟩ := Converter.types_and_comments h1 h2 hi
  obtain ⟨t1, t2⟩ := types_titled h4
  obtain ⟨x, t2, t3⟩ := t2 n k2
  rw [← h3, ← h5, ← h6]
  refine ⟨?_, ⟨x, t2, ?_⟩, k4⟩
  · rw [← t1]; exact k1
  · rw [← t3]; exact k3

/-- C130. Such a profile is valid, and passes the check that the library has for profiles, exactly if the names of the events, if there is one for each,
are different and have no zero bytes, provided its texts are numbered by an `int`. -/
theorem profile_valid_partial {M : Machine} {ids : List (Bytes × Bytes)} {labels options : Nat} {threadTypes : List (Nat × Bytes)} {b : Bytes}
    {ps : List Converter.ProcessProfile} {st : Data.St} (hb : File.readBytes { env := M.env } b = some (some st))
    (hc : Calm options st.events) (h : rawToProfiles M ids labels options threadTypes b = some ps) :
    ∀ p ∈ ps, p.data.stringTable.length < 2 ^ 31 →
      (Valid p.data ↔ (st.base.info.eventTypes.length = st.base.info.attrs.length →
        (∀ x ∈ st.base.info.eventTypes.map (·.2), (0 : UInt8) ∉ x) ∧ (st.base.info.eventTypes.map (·.2)).Nodup)) ∧
      (checkValid p.data = true ↔ Valid p.data) := by
  obtain ⟨S, cbs, L, h1, h2, h3, h4, h5, h6⟩ := stages hb hc h
  intro p hp hl
  obtain ⟨i, hi⟩ := List.getElem?_of_mem hp
  obtain ⟨k1, k2⟩ := Converter.valid_iff h1 h2 hi hl
  refine ⟨k1.trans ?_, k2⟩
  obtain ⟨t1, t2⟩ := types_titled h4
  rw [t1, names_nodup, ← h3]
  unfold titles
  rw [List.length_map]
  by_cases hn : st.base.info.eventTypes.length = S.attrs.length
  · rw [if_pos hn]
    constructor
    · rintro ⟨k, -⟩ -
      exact k
    · intro k
      refine ⟨k hn, fun n hn' hnil => ?_⟩
      obtain ⟨x, g1, g2⟩ := t2 n hn'
      rw [g2] at hnil
      unfold titles at g1
      rw [List.length_map, if_pos hn] at g1
      rw [upTo_clean ((k hn).1 x (List.mem_of_getLast? g1)) _ (by decide)] at hnil
      have := congrArg List.length hnil
      rw [List.length_append] at this
      have h6 : (ascii "_event").length = 6 := by decide
      rw [h6] at this
      simp at this
  · rw [if_neg hn]
    refine ⟨fun _ h => absurd h hn, fun _ => ⟨titles_distinct _, fun n hn' hnil => ?_⟩⟩
    obtain ⟨x, g1, g2⟩ := t2 n hn'
    rw [g2] at hnil
    unfold titles at g1
    rw [List.length_map, if_neg hn] at g1
    rw [upTo_clean ((titles_distinct _).1 x (List.mem_of_getLast? g1)) _ (by decide)] at hnil
    have := congrArg List.length hnil
    rw [List.length_append] at this
    have h6 : (ascii "_event").length = 6 := by decide
    rw [h6] at this
    simp at this

/-! ### Examples -/

section
open Verif.File (exMetadata fileImage)
open Verif.Serial (exEnv)

/-- The texts of the sample types and comments of profiles, and whether they are valid. -/
def titlesShown (ps : List Converter.ProcessProfile) : List (List (List Bytes)) × List Bool :=
  (ps.map fun p => [p.data.sampleType.map (fun t => (p.data.stringTable[t.type.toNat]?).getD []),
    p.data.comment.map (fun c => (p.data.stringTable[c.toNat]?).getD [])], ps.map fun p => checkValid p.data)

/-- The conditions are met by the bytes of a recording with two events. -/
example : ∃ st, File.readBytes { env := exEnv } (fileImage (recordingOf exNamed)) = some (some st) ∧ Calm 1 st.events ∧
    (st.base.info.eventTypes.map (·.2) = [ascii "cycles", ascii "faults"] ∧ st.base.info.attrs.length = 2) ∧
    (rawToProfiles exMachine [] 0 1 [] (fileImage (recordingOf exNamed))).map titlesShown =
      some ([[[ascii "cycles_sample", ascii "cycles_event", ascii "faults_sample", ascii "faults_event"],
        [ascii "perf-command:perf record  -a"]]], [true]) := by
  have h1 : ((File.readBytes { env := exEnv } (fileImage (recordingOf exNamed))).bind id).map (fun st => (calmB 1 st.events,
      st.base.info.eventTypes.map (·.2), st.base.info.attrs.length)) = some (true, [ascii "cycles", ascii "faults"], 2) := by decide +kernel
  have h2 : (rawToProfiles exMachine [] 0 1 [] (fileImage (recordingOf exNamed))).map titlesShown =
      some ([[[ascii "cycles_sample", ascii "cycles_event", ascii "faults_sample", ascii "faults_event"],
        [ascii "perf-command:perf record  -a"]]], [true]) := by decide +kernel
  cases hr : File.readBytes { env := exEnv } (fileImage (recordingOf exNamed)) with
  | none => rw [hr] at h1; cases h1
  | some o =>
    cases o with
    | none => rw [hr] at h1; cases h1
    | some st =>
      rw [hr] at h1
      simp only [Option.bind_some, id, Option.map_some, Option.some.injEq, Prod.mk.injEq] at h1
      exact ⟨st, rfl, calm_of h1.1, h1.2, h2⟩

/-- A recording whose events have the same name. -/
def exTwice : File.Recording := { recordingOf exNamed with info := { exMetadata with eventTypes := [(1, ascii "cycles"), (2, ascii "cycles")] } }

/-- C130: if two events have the same name, an invalid profile is made all the same. -/
theorem profile_valid_violated : (rawToProfiles exMachine [] 0 1 [] (fileImage exTwice)).map titlesShown =
      some ([[[ascii "cycles_sample", ascii "cycles_event", ascii "cycles_sample", ascii "cycles_event"],
        [ascii "perf-command:perf record  -a"]]], [false]) := by decide +kernel

end

end Verif.Whole
