import Verif.Converter.Props3
import Verif.Converter.Types
import Verif.Builder.Props

/-!
# Properties of the converter: mappings, types and validity of a profile (C41, C74–C76, C78)
-/

namespace Verif.Converter
open Verif.Profile Verif.Builder
open Verif.Normalizer (Bytes Source MapRef Loc BranchPair SampleEv SampleCtx Callback ACtx AttrRec
  contextFromHeader nameOrMd5 upd)

/-! ## C41: where the statistics do not add up -/

/-- The hypotheses of `stats_sum_partial` are met, and the sums are not zero. -/
example : ∃ ps L, convert exS exCbs = some (ps, L) ∧ exS.options.testBit 0 = true ∧ exS.options.testBit 3 = false ∧
    (∀ p ∈ ps, execs exCbs p.pid = false) ∧ ps.map (fun p => (sources.map p.stats).sum) = [6, 2] := by
  have h1 : (convert exS exCbs).map (fun r => r.1.map (fun p => (sources.map p.stats).sum)) = some [6, 2] := by decide +kernel
  have h2 : (convert exS exCbs).map (fun r => r.1.map (fun p => execs exCbs p.pid)) = some [false, false] := by decide +kernel
  cases hc : convert exS exCbs with
  | none => rw [hc] at h1; cases h1
  | some r =>
    rw [hc] at h1 h2
    refine ⟨r.1, r.2, rfl, by decide +kernel, by decide +kernel, ?_, Option.some.inj h1⟩
    intro p hp
    have h2 : r.1.map (fun p => execs exCbs p.pid) = [false, false] := Option.some.inj h2
    have := List.mem_map_of_mem (f := fun p => execs exCbs p.pid) hp
    rw [h2] at this
    simpa using this

/-- The sum over the statistics of each profile, and its frames weighted by sample count. -/
def sums (S : Setup) (ps : List ProcessProfile) : List (Int × Int) :=
  ps.map (fun p => (((sources.map p.stats).sum : Nat),
    (p.data.sample.map (fun s => ((List.range S.attrs.length).map (fun e => s.value.getD (2 * e) 0)).sum *
      (s.locationId.length : Int))).sum))

/-- C41 fails with one profile for all processes: it gets the statistics of process 0 only. -/
theorem stats_ungrouped_violated : (convert { exS with options := 0 } exCbs).map (fun r => sums exS r.1) =
    some [(0, 8)] := by decide +kernel

/-- C41 fails with data address frames: they are not counted. -/
theorem stats_dataFrames_violated : (convert { exS with options := 9 } exCbs).map (fun r => sums exS r.1) =
    some [(6, 9), (2, 3)] := by decide +kernel

/-- C41 fails when a process executes another program: both its profiles get all its frames. -/
theorem stats_exec_violated : (convert exS [.sample (exC 5 5000 20 0),
      .comm { pid := 5, tid := 5, comm := ascii "b", md5 := 0 } true, .sample (exC 5 5000 20 0)]).map (fun r => sums exS r.1) =
    some [(4, 2), (4, 2)] := by decide +kernel

/-! ## C74: the mapping of each frame -/

/-- A location shows a frame: its address, and a mapping that the address had in this process when the sample was
taken, or none if it had none. -/
def ShowsFrame (S : Setup) (cbs : List Callback) (L : Log) (P : Nat) (p : Profile) (f : Frame) (id : Nat) : Prop :=
  0 < id ∧ ∃ l, p.location[id - 1]? = some l ∧ l.address = f.1 ∧ ∃ r, Src S L P f.1 r ∧
    (r = none → l.mappingId = 0) ∧
    (∀ x, r = some x → 0 < l.mappingId ∧ ∃ m mp, p.mapping[l.mappingId - 1]? = some m ∧ Known S cbs x.ptr mp ∧
      ShowsMapping p m mp)

theorem FrameShown.shows {S : Setup} {cbs : List Callback} {L : Log} {P : Nat} {b : Builder} {f : Frame} {id : Nat}
    (h : FrameShown (Known S cbs) S L P b f id) : ShowsFrame S cbs L P b.profile f id := by
  obtain ⟨h0, l, h1, h2, r, h3, h4⟩ := h
  refine ⟨h0, l, h1, h2, r, h3, ?_, ?_⟩
  · rintro rfl; exact h4
  · rintro x rfl; exact h4

/-- C74. In the profile of an accepted sample, frame by frame, the location has the address of the frame and the
mapping given for that address in a sample of the process that is the same one or an earlier one with
no exec and no new mapping at that address in between. -/
theorem mappings_shown {S : Setup} {cbs : List Callback} {ps : List ProcessProfile} {A B : Log} {c : SampleCtx} {slot : Slot}
    (h : convert S cbs = some (ps, A ++ (.sample c, some slot) :: B)) (hs : Sane S cbs) :
    ∃ p smp, ps[slot.1]? = some p ∧ p.data.sample[slot.2]? = some smp ∧
      All₂ (ShowsFrame S cbs ((.sample c, some slot) :: B) (pidOf c) p.data) (frames S c) smp.locationId := by
  obtain ⟨st, h1, h2, h3, h4⟩ := convert_state h
  obtain ⟨b, smp, w1, w2, w3, -⟩ := (run_known h1 hs).shown A c slot B rfl
  obtain ⟨p, k1, k2⟩ := builder_at h1 h2 hs w1
  refine ⟨p, smp, k1, by rw [k2]; exact w2, ?_⟩
  rw [k2]
  exact All₂.imp (fun f id hf => hf.shows) w3

example : ∃ ps A B c slot, convert exS exCbs = some (ps, A ++ (.sample c, some slot) :: B) ∧ (frames exS c).length = 2 ∧
    slot = (0, 0) := by
  obtain ⟨ps, L, h, -, rfl, -⟩ := ex_converts
  exact ⟨ps, [_, _, _, _], [_, _, _], _, _, h, by decide +kernel, rfl⟩

/-- The mappings of the frames of a profile sample, as file names. -/
def namesAt (p : Profile) (i : Nat) : Option (List (Option Bytes)) :=
  (p.sample[i]?).map (fun s => s.locationId.map (fun id => (p.location[id - 1]?).bind (fun l =>
    (p.mapping[l.mappingId - 1]?).bind (fun m => textAt p m.filename))))

/-- A frame is shown with an older mapping when the new one is reported for another process, as that of the kernel
is: here process 5 has a frame at 5000 in `/bin/a`, then the kernel (process `2^32 - 1`) maps `/lib/b` there, and
the next sample of process 5 at 5000 is in `/lib/b` but shown in `/bin/a`. -/
theorem kernel_remap_violated :
    let k : MapRef := ⟨1, { exM.mapping with filename := ascii "/lib/b" }⟩
    let cbs : List Callback := [.mmap (2 ^ 32 - 1) exM, .sample (exC 5 5000 20 0), .mmap (2 ^ 32 - 1) k,
      .sample { exC 5 5000 20 0 with sampleMap := some k, callchain := [] }]
    (convert exS cbs).map (fun r => r.1.map (fun p => namesAt p.data 1)) = some [some [some (ascii "/bin/a")]] := by
  decide +kernel

/-! ## C75: sample types and comments -/

theorem profile_first {S : Setup} {cbs : List Callback} {ps : List ProcessProfile} {L : Log}
    (h : convert S cbs = some (ps, L)) (hs : Sane S cbs) {i : Nat} {p : ProcessProfile} (hp : ps[i]? = some p) :
    ∃ A c slot B maps bm b, L = A ++ (.sample c, some slot) :: B ∧ slot.1 = i ∧ (∀ q ∈ placed B, q.2.1 ≠ i) ∧
      addMain [] (newProfile S) c.main = some (maps, bm) ∧ BExt (addComments S bm) b ∧ p.data = b.profile ∧ BOk b := by
  obtain ⟨st, b, m, h1, h0, hi, hb, hm, e, -, -, -, -, hk, -⟩ := profile_at h hs hp
  obtain ⟨A, c, slot, B, maps, bm, k1, k2, k3, k4, k5⟩ := hi.first i b hb
  exact ⟨A, c, slot, B, maps, bm, b, k1, k2, k3, k4, k5, e, hk⟩

theorem profile_types {S : Setup} {cbs : List Callback} {ps : List ProcessProfile} {L : Log}
    (h : convert S cbs = some (ps, L)) (hs : Sane S cbs) {i : Nat} {p : ProcessProfile} (hp : ps[i]? = some p) :
    ∃ b, p.data = b.profile ∧ BOk b ∧
      All₂ (TypeIs b) p.data.sampleType ((List.range S.attrs.length).flatMap (typeNames S)) ∧
      (∃ n, S.attrs.length = n + 1 ∧ ∃ t ∈ p.data.sampleType, t.type = p.data.defaultSampleType ∧
        TypeIs b t ((eventPrefix S n ++ ascii "event").takeWhile (· ≠ 0))) ∧
      All₂ (fun (i : Int) s => ∃ n : Nat, i = n ∧ IsId b s n) p.data.comment (commentsOf S) := by
  obtain ⟨A, c, slot, B, maps, bm, b, k1, k2, k3, k4, k5, e, hk⟩ := profile_first h hs hp
  obtain ⟨c1, c2, c3, c4⟩ := created_spec k4
  obtain ⟨t1, t2⟩ := newProfile_types S
  have hg := addComments_grow S c2.inv
  have hx : BExt bm (addComments S bm) → True := fun _ => trivial
  have e1 : Ext (newProfile S) b := (c1.str.trans hg.ext).trans k5.str
  have hst : (addComments S bm).profile.sampleType = bm.profile.sampleType ∧
      (addComments S bm).profile.defaultSampleType = bm.profile.defaultSampleType := by
    unfold addComments
    have one : ∀ {b : Builder} (h : SInv b) (pre : Bytes) (o : Option Bytes),
        (addComment b pre o).profile.sampleType = b.profile.sampleType ∧
        (addComment b pre o).profile.defaultSampleType = b.profile.defaultSampleType := by
      intro b h pre o
      cases o with
      | none => exact ⟨rfl, rfl⟩
      | some v =>
        have h1 := (utf8Id_str h (pre ++ v)).1.prof
        simp only [addComment]
        rw [h1]; exact ⟨rfl, rfl⟩
    have g1 := addComment_grow c2.inv (ascii "perf-version:") S.perfVersion
    obtain ⟨a1, a2⟩ := one c2.inv (ascii "perf-version:") S.perfVersion
    obtain ⟨a3, a4⟩ := one g1.inv (ascii "perf-command:") S.commandLine
    exact ⟨a3.trans a1, a4.trans a2⟩
  have ht : p.data.sampleType = (newProfile S).profile.sampleType := by
    rw [e, k5.types, hst.1, c1.types]
  have hd : p.data.defaultSampleType = (newProfile S).profile.defaultSampleType := by
    rw [e, k5.dflt, hst.2, c1.dflt]
  refine ⟨b, e, hk, ?_, ?_, ?_⟩
  · rw [ht]; exact All₂.imp (fun a s hh => hh.ext e1) t1
  · have hpos : 0 < S.attrs.length := by
      have hacc := (accepted_samples_placed h).2.2.1
      have hm : (c, slot) ∈ placed L := mem_placed.2 ⟨A, B, k1⟩
      have h0 := (convert_state h).choose_spec.2.2.1.acc (.sample c, some slot) (by rw [k1]; simp)
      obtain ⟨c', e', ha⟩ := h0.1 rfl
      have := ha.1
      omega
    obtain ⟨n, hn⟩ : ∃ n, S.attrs.length = n + 1 := ⟨S.attrs.length - 1, by omega⟩
    obtain ⟨t, u1, u2, u3⟩ := t2 n hn
    exact ⟨n, hn, t, by rw [ht]; exact u1, by rw [hd]; exact u2, u3.ext e1⟩
  · have hc0 : bm.profile.comment = [] := by
      rw [c1.comments]
      unfold newProfile
      rw [addTypes_comment _ _ SInv.new]; rfl
    rw [e, k5.comments]
    refine All₂.imp ?_ (addComments_comments S c2.inv hc0)
    rintro i s ⟨n, rfl, hn⟩
    exact ⟨n, rfl, hn.ext k5.str⟩

/-- C75. Every profile has for every event, in order, a type `<prefix>sample` and a type `<prefix>event`, both
counts; the default type is the second one of the last event; the comments are the version of perf and its
command line, if known. -/
theorem types_and_comments {S : Setup} {cbs : List Callback} {ps : List ProcessProfile} {L : Log}
    (h : convert S cbs = some (ps, L)) (hs : Sane S cbs) {i : Nat} {p : ProcessProfile} (hp : ps[i]? = some p) :
    All₂ (fun (t : ValueType) name => textAt p.data t.type = some name ∧ textAt p.data t.unit = some (ascii "count"))
      p.data.sampleType ((List.range S.attrs.length).flatMap (typeNames S)) ∧
    (∃ n, S.attrs.length = n + 1 ∧ textAt p.data p.data.defaultSampleType =
      some ((eventPrefix S n ++ ascii "event").takeWhile (· ≠ 0))) ∧
    All₂ (fun c s => textAt p.data c = some s) p.data.comment (commentsOf S) := by
  obtain ⟨b, e, -, h1, ⟨n, h2, t, h3, h4, h5⟩, h6⟩ := profile_types h hs hp
  have one : ∀ {t : ValueType} {s : Bytes}, TypeIs b t s → textAt p.data t.type = some s ∧ textAt p.data t.unit = some (ascii "count") := by
    rintro t s ⟨⟨i, i1, i2⟩, j, j1, j2⟩
    unfold textAt
    rw [i1, j1, e]
    exact ⟨i2.1, j2.1⟩
  refine ⟨All₂.imp (fun t s ht => one ht) h1, ⟨n, h2, by rw [← h4]; exact (one h5).1⟩, All₂.imp ?_ h6⟩
  rintro i s ⟨n, rfl, hn⟩
  unfold textAt
  rw [e]
  exact hn.1

example : ((List.range exS.attrs.length).flatMap (typeNames exS)) =
      ["cycles_sample", "cycles_event", "event_0_sample", "event_0_event"].map ascii ∧
    commentsOf exS = [ascii "perf-version:6.1"] ∧ Sane exS exCbs := by
  refine ⟨by decide +kernel, by decide +kernel, ex_sane⟩

/-! ## C76: the first mapping of a profile -/

/-- C76. The first mapping of a profile is the main mapping that came with its oldest sample; an empty one at
address 0 if none came. -/
theorem first_mapping_is_main {S : Setup} {cbs : List Callback} {ps : List ProcessProfile} {L : Log}
    (h : convert S cbs = some (ps, L)) (hs : Sane S cbs) {i : Nat} {p : ProcessProfile} (hp : ps[i]? = some p) :
    ∃ A c slot B m, L = A ++ (.sample c, some slot) :: B ∧ slot.1 = i ∧ (∀ q ∈ placed B, q.2.1 ≠ i) ∧
      p.data.mapping[0]? = some m ∧
      (c.main = none → m.memoryStart = 0 ∧ m.memoryLimit = 1 ∧ textAt p.data m.filename = some [] ∧ textAt p.data m.buildId = some []) ∧
      (∀ x, c.main = some x → ShowsMapping p.data m x.mapping) := by
  obtain ⟨A, c, slot, B, maps, bm, b, k1, k2, k3, k4, k5, e, hk⟩ := profile_first h hs hp
  obtain ⟨c1, c2, c3, m, c4, c5⟩ := created_spec k4
  have hg := addComments_grow S c2.inv
  have hsame := (addComments_same S bm c2.inv).1
  have hm : b.profile.mapping[0]? = some m := k5.map 0 m (by rw [hsame]; exact c4)
  refine ⟨A, c, slot, B, m, k1, k2, k3, by rw [e]; exact hm, ?_, ?_⟩
  · intro hn
    rw [hn] at c5
    obtain ⟨a1, a2, a3, a4⟩ := c5
    refine ⟨a1, a2, ?_, ?_⟩
    · rw [a3, e]; exact hk.inv.zero
    · rw [a4, e]; exact hk.inv.zero
  · intro x hx
    rw [hx] at c5
    rw [e]
    exact (ShowsMapping.ext hg.ext c5).ext k5.str

example : ∃ ps A B c slot, convert exS exCbs = some (ps, A ++ (.sample c, some slot) :: B) ∧ slot.1 = 1 ∧ c.main = some exM ∧
    (∀ q ∈ placed B, q.2.1 ≠ 1) ∧ Sane exS exCbs := by
  obtain ⟨ps, L, h, -, rfl, -⟩ := ex_converts
  exact ⟨ps, [_, _], [_, _, _, _, _], _, _, h, rfl, rfl, by decide +kernel, ex_sane⟩

/-! ## C78: validity of profiles -/

theorem nodup_of_all2 {α β : Type} {R : α → β → Prop} {as : List α} {bs : List β} (h : All₂ R as bs)
    (hr : ∀ a a' b b', R a b → R a' b' → (a = a' ↔ b = b')) : as.Nodup ↔ bs.Nodup := by
  induction h with
  | nil => simp
  | @cons a b as bs h1 h2 ih =>
    rw [List.nodup_cons, List.nodup_cons, ih]
    refine and_congr_left fun _ => not_congr ⟨fun hm => ?_, fun hm => ?_⟩
    · obtain ⟨b', m1, m2⟩ := All₂.left h2 a hm
      rw [(hr _ _ _ _ h1 m2).1 rfl]; exact m1
    · obtain ⟨a', m1, m2⟩ := All₂.right h2 b hm
      rw [(hr _ _ _ _ h1 m2).2 rfl]; exact m1

theorem all2_length {α β : Type} {R : α → β → Prop} {as : List α} {bs : List β} (h : All₂ R as bs) : as.length = bs.length := by
  induction h with
  | nil => rfl
  | cons _ _ ih => simp [ih]

theorem nodup_ids {α : Type} (f : α → Nat) (l : List α) (h : ∀ (i : Nat) a, l[i]? = some a → f a = i + 1) :
    ((l.map f).filter (· ≠ 0)).Nodup := by
  have : l.map f = (List.range l.length).map (· + 1) := by
    apply List.ext_getElem?
    intro i
    rw [List.getElem?_map, List.getElem?_map]
    by_cases hi : i < l.length
    · rw [List.getElem?_eq_getElem hi, List.getElem?_range hi]
      simp [h i _ (List.getElem?_eq_getElem hi)]
    · rw [List.getElem?_eq_none (by omega), List.getElem?_eq_none (by simpa using hi)]; rfl
  rw [this]
  refine List.Pairwise.filter _ ?_
  rw [List.pairwise_map]
  exact List.nodup_range.imp (fun hne => by omega)

/-- C78. A profile is valid, and passes the check of the builder, exactly if no two of its sample types have the same
name and the default type has a name, provided its string table is indexed by an `int`. -/
theorem valid_iff {S : Setup} {cbs : List Callback} {ps : List ProcessProfile} {L : Log}
    (h : convert S cbs = some (ps, L)) (hs : Sane S cbs) {i : Nat} {p : ProcessProfile} (hp : ps[i]? = some p)
    (hlen : p.data.stringTable.length < 2 ^ 31) :
    (Valid p.data ↔ ((List.range S.attrs.length).flatMap (typeNames S)).Nodup ∧
      ∀ n, S.attrs.length = n + 1 → (eventPrefix S n ++ ascii "event").takeWhile (· ≠ 0) ≠ []) ∧
    (checkValid p.data = true ↔ Valid p.data) := by
  have hval : ∀ s ∈ p.data.sample, s.value.length = 2 * S.attrs.length := by
    intro s hm
    obtain ⟨j, hj⟩ := List.getElem?_of_mem hm
    exact (sample_values_partial h hp hj).1
  obtain ⟨b, e, hk, h1, ⟨n, h2, t, h3, h4, h5⟩, -⟩ := profile_types h hs hp
  have tnn : ∀ t ∈ p.data.sampleType, 0 ≤ t.type ∧ t.type < p.data.stringTable.length := by
    intro t ht
    obtain ⟨s, -, ⟨i, i1, i2⟩, -⟩ := All₂.left h1 t ht
    have := (List.getElem?_eq_some_iff.1 i2.1).1
    rw [i1, e]; omega
  have hnd : (p.data.sampleType.map (·.type)).Nodup ↔ ((List.range S.attrs.length).flatMap (typeNames S)).Nodup := by
    have := All₂.map_left (R := fun (x : Int) s => ∃ i : Nat, x = i ∧ IsId b s i) (f := fun (t : ValueType) => t.type)
      (All₂.imp (fun t s ht => ht.1) h1)
    refine nodup_of_all2 this ?_
    rintro a a' s s' ⟨i, rfl, hi⟩ ⟨j, rfl, hj⟩
    constructor
    · intro hij
      have : i = j := by omega
      subst this
      have := hi.1.symm.trans hj.1
      exact Option.some.inj this
    · rintro rfl
      rw [hi.unique hk.inv hj]
  have hd : ∃ i : Nat, p.data.defaultSampleType = i ∧ IsId b ((eventPrefix S n ++ ascii "event").takeWhile (· ≠ 0)) i := by
    rw [← h4]; exact h5.1
  have htl : p.data.sampleType.length = 2 * S.attrs.length := by
    rw [all2_length h1]
    generalize S.attrs.length = m
    induction m with
    | zero => rfl
    | succ m ih => rw [List.range_succ, List.flatMap_append, List.length_append, ih]; simp [typeNames]; omega
  obtain ⟨di, d1, d2⟩ := hd
  refine ⟨⟨fun hv => ⟨hnd.1 hv.typesNodup, ?_⟩, ?_⟩, ?_⟩
  · intro n' hn' hz
    have : n' = n := by omega
    subst this
    have := d2.2.2 hz
    have := hv.defaultIndex.1
    omega
  · rintro ⟨v1, v2⟩
    refine ⟨?_, ?_, ?_, ?_, ?_, ?_, ?_, hnd.2 v1, ?_, ⟨t, h3, h4⟩, ?_, ?_⟩
    · rw [e]; exact nodup_ids _ _ hk.map
    · rw [e, hk.fn]; simp
    · rw [e]; exact nodup_ids _ _ (fun i l hl => (hk.loc i l hl).1)
    · rw [e]
      intro l hl hl0
      obtain ⟨j, hj⟩ := List.getElem?_of_mem hl
      obtain ⟨-, q, -⟩ := hk.loc j l hj
      have hlt : l.mappingId - 1 < b.profile.mapping.length := by omega
      refine ⟨_, List.getElem_mem hlt, ?_⟩
      rw [hk.map _ _ (List.getElem?_eq_getElem hlt)]
      omega
    · rw [e]
      intro l hl ln hln
      obtain ⟨j, hj⟩ := List.getElem?_of_mem hl
      rw [(hk.loc j l hj).2.2.2] at hln; cases hln
    · rw [e]
      intro s hsm id hid
      obtain ⟨q1, q2⟩ := hk.samp s hsm id hid
      have hlt : id - 1 < b.profile.location.length := by omega
      refine ⟨by omega, _, List.getElem_mem hlt, ?_⟩
      rw [(hk.loc _ _ (List.getElem?_eq_getElem hlt)).1]
      omega
    · intro hnil; rw [hnil] at htl; simp at htl; omega
    · refine ⟨?_, by rw [← h4]; exact (tnn t h3).2⟩
      have := v2 n h2
      have hne : di ≠ 0 := fun hz => this (d2.2.1 hz)
      omega
    · intro s hsm; rw [hval s hsm, htl]
    · rw [e]; exact hk.lab
  · apply checkValid_iff_valid
    refine ⟨?_, ?_⟩
    · have := tnn t h3
      rw [h4] at this
      omega
    · intro t ht
      have := tnn t ht
      omega

/-- The profiles of the example are valid. -/
example : ((List.range exS.attrs.length).flatMap (typeNames exS)).Nodup ∧
    (convert exS exCbs).map (fun r => r.1.map (fun p => (checkValid p.data, decide (p.data.stringTable.length < 2 ^ 31)))) =
      some [(true, true), (true, true)] := by decide +kernel

/-- Events of the same name make an invalid profile, which is handed out all the same. -/
theorem valid_violated :
    (convert { exS with eventTypes := [some (ascii "cycles"), some (ascii "cycles")] } exCbs).map
      (fun r => r.1.map (fun p => checkValid p.data)) = some [false, false] := by decide +kernel

end Verif.Converter
