import Verif.Whole.TraceLabels
import Verif.Whole.GapsEx
import Verif.Whole.Identify

/-!
# Everything that profiles show of what is sampled

One profile sample for each sample and for each record of an ARM SPE trace, with its counter, its stack and its labels, for recordings in which
mappings are in pieces or in huge pages.
-/

namespace Verif.Whole
open Verif.Serial (Msg Body)
open Verif.Names (IsTable HexTexts PlainNames)

/-! ## Specification -/

/-- The profiles `ps` show what is sampled in the records `t` (oldest first): for each sample of an event of the recording, and for each record that a
processor has written into a trace of ARM SPE, one of the profiles — that of the process, if there is one for each process — has a profile sample
that counts for the event (for the first one if it is traced), with the frames of its stack, which show mappings as `shows` tells, and with its
labels. -/
structure Pictures (M : Machine) (attrs : List Attr.ProtoFileAttr) (labels options : Nat) (threadTypes : List (Nat × Bytes))
    (shows : Profile.Profile → Profile.Mapping → Serial.MMap → Prop) (ps : List Converter.ProcessProfile) (t : List Msg) : Prop where
  samples : ∀ {pre post : List Msg} {m : Msg} {s : Serial.SampleEvent} {k : Nat}, t = pre ++ m :: post → m.body = .sample s →
    owner attrs s.id = some k →
    ∃ p ∈ ps, p.pid = (if options.testBit 0 then s.pid.getD 0 else 0) ∧ ∃ smp ∈ p.data.sample, 1 ≤ smp.value.getD (2 * k) 0 ∧
      All₂ (ShowsSpot shows (HeldAny attrs M.traceBase (options.testBit 3) t (pre ++ [m]) (s.pid.getD 0)) p.data)
        (stackOf (options.testBit 3) pre.reverse m.misc s) smp.locationId ∧
      smp.label.map (Converter.readLabel p.data) = (recordLabels attrs labels threadTypes pre.reverse m.misc s).map some
  traces : ∀ {pre post : List Msg} {m : Msg} {a : Serial.Auxtrace} {ts : List Spe.Traced} {x : Spe.Traced} {pid : Nat}, t = pre ++ m :: post →
    speTrace t = true → m.body = .auxtrace a → (∀ x ∈ ts, x.Fits) → a.trace = ts.flatMap (Spe.Traced.bytes false) → x ∈ ts → attrs ≠ [] →
    pid = (if x.record.context.id = 0 then 0 else (threadHome t x.record.context.id).getD 0) →
    ∃ p ∈ ps, p.pid = (if options.testBit 0 then pid else 0) ∧ ∃ smp ∈ p.data.sample, 1 ≤ smp.value.getD 0 0 ∧
      (∃ data id, smp.locationId = data ++ [id] ∧ data.length = (if options.testBit 3 then 1 else 0) ∧
        ShowsSpot shows (HeldAny attrs M.traceBase (options.testBit 3) t (pre ++ [m]) pid) p.data
          (spotOf pre.reverse pid x.record.ip.addr (modeOf 0)) id) ∧
      smp.label.map (Converter.readLabel p.data) = (tracedLabels attrs labels threadTypes pre.reverse pid x.record).map some

/-- A mapping of a profile shows a mapping of a recording: with its addresses, its offset and its name (`ShowsArea`), and with its build ID
(`Identified`, where build IDs that the caller gives are texts of digits for names without NUL). -/
def ShowsFile (ids : List (Bytes × Bytes)) (buildIds : List Names.BuildId) (p : Profile.Profile) (m : Profile.Mapping) (b : Serial.MMap) : Prop :=
  ShowsArea p m b ∧ (IsTable ids → HexTexts ids → PlainNames ids → Identified ids buildIds p m b)

/-! ## Lemmas -/

theorem rest_mmap {m : Msg} {b : Serial.MMap} (hb : m.body = .mmap b) : notMap m = false := by unfold notMap; rw [hb]

theorem rest_other {m : Msg} (hb : ∀ b, m.body ≠ .mmap b) : notMap m = true := by
  cases hn : notMap m with
  | true => rfl
  | false => obtain ⟨b, hb'⟩ := notMap_false hn; exact absurd hb' (hb b)

theorem filter_false {m : Msg} {l : List Msg} (h : notMap m = false) : (m :: l).filter notMap = l.filter notMap :=
  List.filter_cons_of_neg (by rw [h]; exact Bool.false_ne_true)

/-- Joining pieces leaves all other records as they are. -/
theorem joined_rest : ∀ h : List Msg, (joined h).filter notMap = h.filter notMap
  | [] => rfl
  | m :: h => by
    have ih := joined_rest h
    cases hn : notMap m with
    | true =>
      have : joined (m :: h) = m :: joined h := by
        rw [joined]
        split
        · rename_i b hb; rw [rest_mmap hb] at hn; cases hn
        · rfl
      rw [this, List.filter_cons_of_pos hn, List.filter_cons_of_pos hn, ih]
    | false =>
      obtain ⟨b, hb⟩ := notMap_false hn
      have : joined (m :: h) = (lengthen b (joined h)).getD (m :: joined h) := by rw [joined, hb]
      rw [filter_false hn, this]
      cases hl : lengthen b (joined h) with
      | none => rw [Option.getD_none, filter_false hn, ih]
      | some h' =>
        obtain ⟨n, m', a, r, g1, g2, -, -, rfl, -⟩ := lengthen_from hl
        rw [Option.getD_some, ← ih, g1, List.filter_append, List.filter_append, filter_false rfl, filter_false (rest_mmap g2)]

theorem grow_rest {b : Serial.MMap} : ∀ {h h' : List Msg}, grow b h = some h' → h'.filter notMap = h.filter notMap
  | m :: h, h', hg => by
    have later : (grow b h).map (m :: ·) = some h' → h'.filter notMap = (m :: h).filter notMap := by
      intro hg
      obtain ⟨h2, k1, rfl⟩ := Option.map_eq_some_iff.1 hg
      rw [List.filter_cons, List.filter_cons, grow_rest k1]
    unfold grow at hg
    split at hg
    · rename_i a ha
      split at hg
      · split at hg
        · cases hg
          rw [filter_false rfl, filter_false (rest_mmap ha)]
        · cases hg
      · exact later hg
    · exact later hg

/-- Nor does putting mappings into one change other records. -/
theorem grown_rest : ∀ h : List Msg, (grown h).filter notMap = h.filter notMap
  | [] => rfl
  | m :: h => by
    have ih := grown_rest h
    cases hn : notMap m with
    | true =>
      have : grown (m :: h) = m :: grown h := by
        rw [grown]
        split
        · rename_i b hb; rw [rest_mmap hb] at hn; cases hn
        · rfl
      rw [this, List.filter_cons_of_pos hn, List.filter_cons_of_pos hn, ih]
    | false =>
      obtain ⟨b, hb⟩ := notMap_false hn
      have : grown (m :: h) = (grow b (grown h)).getD (m :: grown h) := by rw [grown, hb]
      rw [filter_false hn, this]
      cases hl : grow b (grown h) with
      | none => rw [Option.getD_none, filter_false hn, ih]
      | some h' => rw [Option.getD_some, grow_rest hl, ih]

/-- Nor does renaming. -/
theorem renames_rest : ∀ {l t : List Msg}, Renames l t → t.filter notMap = l.filter notMap
  | [], [], _ => rfl
  | [], _ :: _, h => h.elim
  | _ :: _, [], h => h.elim
  | m :: l, m' :: t, ⟨h1, h2⟩ => by
    have ih := renames_rest h2
    rcases h1 with rfl | ⟨a, n, a', mn, k1, rfl, -⟩
    · rw [List.filter_cons, List.filter_cons, ih]
    · rw [filter_false rfl, filter_false (rest_mmap k1), ih]

/-- Neither renaming nor joining mappings changes which threads belong to which processes, nor whether there are traces. -/
theorem home_kept {t t' : List Msg} (h : t.filter notMap = t'.filter notMap) (tid : Nat) :
    threadHome t tid = threadHome t' tid ∧ speTrace t = speTrace t' := by
  constructor
  · have key : ∀ l : List Msg, threadHome l tid = threadHome (l.filter notMap) tid := by
      intro l
      induction l with
      | nil => rfl
      | cons m l ih =>
        cases hn : notMap m with
        | true => rw [List.filter_cons_of_pos hn, threadHome, threadHome, ih]
        | false =>
          obtain ⟨b, hb⟩ := notMap_false hn
          rw [List.filter_cons_of_neg (by rw [hn]; exact Bool.false_ne_true), threadHome, hb, ← ih]
    rw [key t, key t', h]
  · have key : ∀ l : List Msg, speTrace l = speTrace (l.filter notMap) := by
      intro l
      unfold speTrace
      rw [List.any_filter]
      congr 1
      funext m
      cases hn : notMap m with
      | true => simp
      | false =>
        obtain ⟨b, hb⟩ := notMap_false hn
        rw [hb]; rfl
    rw [key t, key t', h]

/-! ## Theorems -/

theorem file_shown {M : Machine} {ids : List (Bytes × Bytes)} {i : Meta.Info} {l : List Msg} (r : List Msg) (cfg : Normalizer.Config)
    (hcfg : Normalizer.mkConfig (normInput M (withBuildIds M.env.md5 ids i l) r) = some cfg) (p : Profile.Profile) (m : Profile.Mapping)
    (b : Serial.MMap) (hsh : Shown cfg.ids p m b) : ShowsFile ids i.buildIds p m b := by
  refine ⟨?_, fun h1 h2 h3 => identified h1 h2 h3 hcfg hsh⟩
  obtain ⟨hn, o, x, y, h1, h2, h3, h4, h5, h6⟩ := hsh
  exact shown_area h1 h2 h3 h4 hn h5 h6

/-- The records that reach the converter are pictured. -/
theorem pictures_from {M : Machine} {ids : List (Bytes × Bytes)} {labels options : Nat} {threadTypes : List (Nat × Bytes)} {b : Bytes}
    {ps : List Converter.ProcessProfile} {st : Data.St} (hb : File.readBytes { env := M.env } b = some (some st))
    (hc : Calm options st.events) (h : rawToProfiles M ids labels options threadTypes b = some ps) {t : List Msg}
    (hprep : ∀ r, parseEvents M (rawOpts M options) true true true (withBuildIds M.env.md5 ids st.base.info st.events) st.events = some r →
      r.1.map normView = t.map normView) (hnt : AllNamed t) (ha : SetApart labels t) :
    Pictures M st.base.info.attrs labels options threadTypes (ShowsFile ids st.base.info.buildIds) ps t where
  samples := fun hm hbody hk => sample_labelled_from hb hc h hprep hnt ha hm hbody hk file_shown
  traces := fun hm hspe hbody hf htr hx hattrs hpid => traced_labelled_from hb hc h hprep hnt ha hm hspe hbody hf htr hx hattrs hpid file_shown

/-- C137 for mappings in pieces (C128): the profiles show what is sampled in the records with the pieces of each mapping in one (`joined`), among
which are all records but mappings, unchanged. -/
theorem pieces_pictured_partial {M : Machine} {ids : List (Bytes × Bytes)} {labels options : Nat} {threadTypes : List (Nat × Bytes)} {b : Bytes}
    {ps : List Converter.ProcessProfile} {st : Data.St} (hb : File.readBytes { env := M.env } b = some (some st))
    (hc : Calm options st.events) (hr : Regular st.events) (ha : SetApart labels st.events)
    (h : rawToProfiles M ids labels options threadTypes b = some ps) {t : List Msg} (ht : Timeline st.base.info.attrs st.events t) :
    Pictures M st.base.info.attrs labels options threadTypes (ShowsFile ids st.base.info.buildIds) ps (joined t.reverse).reverse ∧
      (joined t.reverse).reverse.filter notMap = t.filter notMap := by
  have hts : t = sortEvents (withBuildIds M.env.md5 ids st.base.info st.events) st.events := timeline_sort (by rw [attrs_kept]; exact ht)
  have hperm : ∀ x, x ∈ t ↔ x ∈ st.events := by
    intro x; rw [hts]; exact (sort_perm (withBuildIds M.env.md5 ids st.base.info st.events) st.events).mem_iff
  refine ⟨pictures_from hb hc h (fun r hr' => by rw [prep_joined (read_shaped hb) hr.small hr', ← hts]) ?_ ?_, by
    rw [List.filter_reverse, joined_rest, List.filter_reverse, List.reverse_reverse]⟩
  · intro x hx
    exact joined_named (h := t.reverse) (fun m hm => hr.named m ((hperm m).1 (List.mem_reverse.1 hm))) x (List.mem_reverse.1 hx)
  · refine ha.mono fun x hx s hs => ?_
    obtain ⟨m0, h0, rfl | ⟨a0, n, -, rfl⟩⟩ := joined_from (List.mem_reverse.1 hx)
    · exact (hperm m0).1 (List.mem_reverse.1 h0)
    · cases hs

theorem From.plain {l : List Msg} {m : Msg} (h : From l m) {s : Serial.SampleEvent} (hs : m.body = .sample s) : m ∈ l := by
  obtain ⟨m0, k1, rfl | ⟨a, b', -, rfl, -⟩⟩ := h
  · exact k1
  · cases hs

/-- C137. Whatever the bytes and the mappings are, the profiles show what is sampled in the records with huge pages named after files (`Renames`; at
least those that fill the gaps in files, `Closed`, and none of those mapped later, `Still`), and with the mappings in one that go on where others
end (`grown`); see C129 for these. Every sample and every record of a trace of ARM SPE has a profile sample that counts it, with its stack, its
labels (`Pictures`) and the build IDs of its mappings (`ShowsFile`), and all records but mappings are there, unchanged. If mappings have names, no process has that of the mapping of lost samples (`Calm`), and samples are told apart from records of
traces (`SetApart`). -/
theorem recording_pictured_partial {M : Machine} (hM : ∀ l, (M.order l).Perm l) {ids : List (Bytes × Bytes)} {labels options : Nat}
    {threadTypes : List (Nat × Bytes)} {b : Bytes} {ps : List Converter.ProcessProfile} {st : Data.St}
    (hb : File.readBytes { env := M.env } b = some (some st)) (hc : Calm options st.events) (hn : NamedProcs st.events)
    (ha : SetApart labels st.events) (h : rawToProfiles M ids labels options threadTypes b = some ps) {t : List Msg}
    (ht : Timeline st.base.info.attrs st.events t) :
    ∃ t1, Renames t t1 ∧ Closed t t1 ∧ Still t t1 ∧ Pictures M st.base.info.attrs labels options threadTypes (ShowsFile ids st.base.info.buildIds) ps (grown t1.reverse).reverse ∧
      (grown t1.reverse).reverse.filter notMap = t.filter notMap := by
  have hts : t = sortEvents (withBuildIds M.env.md5 ids st.base.info st.events) st.events := timeline_sort (by rw [attrs_kept]; exact ht)
  have hperm : ∀ x, x ∈ t ↔ x ∈ st.events := by
    intro x; rw [hts]; exact (sort_perm (withBuildIds M.env.md5 ids st.base.info st.events) st.events).mem_iff
  obtain ⟨t1, h1, h2, h3, h4⟩ := prep_grown hM (options := options) (i := withBuildIds M.env.md5 ids st.base.info st.events) (read_shaped hb)
    (read_sized hb)
  rw [← hts] at h1 h2 h3
  refine ⟨t1, h1, h2, h3, pictures_from hb hc h h4 (fun x hx => ?_) (ha.mono fun x hx s hs => ?_), by
    rw [List.filter_reverse, grown_rest, List.filter_reverse, List.reverse_reverse, renames_rest h1]⟩
  · exact (hn.mono fun m hm => (hperm m).1 hm).grown h1 x hx
  · have := (grown_from x (List.mem_reverse.1 hx)).plain hs
    exact (hperm x).1 ((renames_from h1 x (List.mem_reverse.1 this)).plain hs)

/-! ## Examples -/

section
open Verif.File (exFile exMetadata fileImage)
open Verif.Serial (exMsg exMap exSample exInfo exEnv)

/-- The traces and samples of a recording, after some mappings. -/
def exPictured (maps : List Msg) : List Msg :=
  maps ++ [threadMsg 10 0 (ascii "sh"), threadMsg 11 0 (ascii "worker"), infoMsg, traceMsg exCounted, heavyMsg 7 4]

/-- The file is mapped in two pieces. -/
def exSplit : List Msg := exPictured [mapMsg 0, nextMsg 0]

/-- The part of the file that is executed is in a huge page. -/
def exGap : List Msg :=
  exPictured [areaMsg 0x3000 0 (ascii "/bin/x") 0, areaMsg 0x4000 0 (ascii "//anon") 0, areaMsg 0x5000 0x2000 (ascii "/bin/x") 0]

/-- What the two theorems ask for, and which of their records tell of a trace and of a sample. -/
def picturedB (labels options : Nat) (st : Data.St) : Bool × Bool × List Nat :=
  (calmB options st.events && setApartB st.events && alikeB st.events && inOrderB st.base.info.attrs st.events && speTrace st.events &&
    st.events.all (fun m => match areaOf m with | some b => b.filename != [] | none => true) && decide (0 < st.base.info.attrs.length),
   regularB st.events,
   st.events.filterMap (fun m => match m.body with
     | .sample s => some (recordLabels st.base.info.attrs labels [] [] m.misc s).length
     | .auxtrace a => if a.trace = exCounted.flatMap (Spe.Traced.bytes false) then some 100 else none
     | _ => none))

theorem pictured_of {labels options : Nat} {st : Data.St} {reg : Bool} {r : List Nat} (h : picturedB labels options st = (true, reg, r)) :
    Calm options st.events ∧ SetApart labels st.events ∧ Timeline st.base.info.attrs st.events st.events ∧ speTrace st.events = true ∧
      NamedProcs st.events ∧ st.base.info.attrs ≠ [] ∧ (reg = true → Regular st.events) := by
  unfold picturedB at h
  simp only [Prod.mk.injEq, Bool.and_eq_true, decide_eq_true_eq] at h
  obtain ⟨⟨⟨⟨⟨⟨⟨h1, h2⟩, h3⟩, h4⟩, h5⟩, h6⟩, h7⟩, h8, -⟩ := h
  refine ⟨calm_of h1, setApart_of h2 h3, inOrder_of h4, h5, .of fun m hm b hb => ?_, List.length_pos_iff.1 h7, fun hh => regular_of (h8.trans hh)⟩
  have := List.all_eq_true.1 h6 m hm
  rw [hb] at this
  simpa using this

theorem pictured_ex {l : List Msg} {reg : Bool} {r : List Nat}
    (h : ((File.readBytes { env := exEnv } (fileImage (recordingOf l))).bind id).map (picturedB (2 ^ 16 - 1) 1) = some (true, reg, r)) :
    ∃ st, File.readBytes { env := exEnv } (fileImage (recordingOf l)) = some (some st) ∧
      Calm 1 st.events ∧ SetApart (2 ^ 16 - 1) st.events ∧ Timeline st.base.info.attrs st.events st.events ∧ speTrace st.events = true ∧
      NamedProcs st.events ∧ st.base.info.attrs ≠ [] ∧ (reg = true → Regular st.events) := by
  cases hr : File.readBytes { env := exEnv } (fileImage (recordingOf l)) with
  | none => rw [hr] at h; cases h
  | some o =>
    cases o with
    | none => rw [hr] at h; cases h
    | some st =>
      rw [hr] at h
      exact ⟨st, rfl, pictured_of (Option.some.inj h)⟩

/-- The conditions are met by the bytes of recordings with a trace and a sample, of a file that is mapped in two pieces, or partly in a huge
page. All that is sampled is shown in one mapping, with its labels. -/
example : (∃ st, File.readBytes { env := exEnv } (fileImage (recordingOf exSplit)) = some (some st) ∧
      Calm 1 st.events ∧ SetApart (2 ^ 16 - 1) st.events ∧ Timeline st.base.info.attrs st.events st.events ∧ speTrace st.events = true ∧
      NamedProcs st.events ∧ st.base.info.attrs ≠ [] ∧ (true = true → Regular st.events)) ∧
    (rawToProfiles exMachine [] (2 ^ 16 - 1) 1 [(11, ascii "io")] (fileImage (recordingOf exSplit))).map labelsIn =
      some ((exCountedLabels ++ [exLabels]).map (·.map some)) ∧
    (rawToProfiles exMachine [] (2 ^ 16 - 1) 1 [(11, ascii "io")] (fileImage (recordingOf exSplit))).map (fun ps => (layout ps).map (·.take 2)) =
      some [[[[1, 2, 0x4200]], [[1, 0, 1], [2, 0x4000, 0x6000]]]] :=
  ⟨pictured_ex (r := [100, 6]) (by decide +kernel), by decide +kernel, by decide +kernel⟩

example : (∃ st, File.readBytes { env := exEnv } (fileImage (recordingOf exGap)) = some (some st) ∧
      Calm 1 st.events ∧ SetApart (2 ^ 16 - 1) st.events ∧ Timeline st.base.info.attrs st.events st.events ∧ speTrace st.events = true ∧
      NamedProcs st.events ∧ st.base.info.attrs ≠ [] ∧ (false = true → Regular st.events)) ∧
    (rawToProfiles exMachine [] (2 ^ 16 - 1) 1 [(11, ascii "io")] (fileImage (recordingOf exGap))).map labelsIn =
      some ((exCountedLabels ++ [exLabels]).map (·.map some)) ∧
    (rawToProfiles exMachine [] (2 ^ 16 - 1) 1 [(11, ascii "io")] (fileImage (recordingOf exGap))).map (fun ps => (layout ps).map (·.take 2)) =
      some [[[[1, 2, 0x4200]], [[1, 0, 1], [2, 0x3000, 0x6000]]]] :=
  ⟨pictured_ex (r := [100, 6]) (by decide +kernel), by decide +kernel, by decide +kernel⟩

end

end Verif.Whole
