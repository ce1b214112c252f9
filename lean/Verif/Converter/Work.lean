import Verif.Converter.Labels2

/-! # Locations and mappings of a profile under construction -/

namespace Verif.Converter
open Verif.Profile Verif.Builder
open Verif.Normalizer (Bytes Source MapRef Loc BranchPair SampleEv SampleCtx Callback ACtx AttrRec
  contextFromHeader nameOrMd5 upd)

/-- A builder in order. -/
structure BOk (b : Builder) : Prop where
  inv : SInv b
  err : b.error = false
  fn : b.profile.function = []
  map : ∀ (i : Nat) m, b.profile.mapping[i]? = some m → m.id = i + 1
  loc : ∀ (i : Nat) l, b.profile.location[i]? = some l → l.id = i + 1 ∧ l.mappingId ≤ b.profile.mapping.length ∧
    (l.mappingId = 0 → l.address = 0) ∧ l.line = []
  samp : ∀ s ∈ b.profile.sample, ∀ id ∈ s.locationId, 1 ≤ id ∧ id ≤ b.profile.location.length
  lab : ∀ s ∈ b.profile.sample, ∀ l ∈ s.label, l.str = 0 ∨ l.num = 0

/-- A builder that grew. -/
structure BExt (b b' : Builder) : Prop where
  str : Ext b b'
  map : ∀ (i : Nat) m, b.profile.mapping[i]? = some m → b'.profile.mapping[i]? = some m
  loc : ∀ (i : Nat) l, b.profile.location[i]? = some l → b'.profile.location[i]? = some l
  samp : ∀ (i : Nat) s, b.profile.sample[i]? = some s → ∃ s', b'.profile.sample[i]? = some s' ∧
    s'.locationId = s.locationId ∧ s'.label = s.label
  types : b'.profile.sampleType = b.profile.sampleType
  comments : b'.profile.comment = b.profile.comment
  dflt : b'.profile.defaultSampleType = b.profile.defaultSampleType

theorem BExt.refl (b : Builder) : BExt b b :=
  ⟨Ext.refl b, fun _ _ h => h, fun _ _ h => h, fun _ s h => ⟨s, h, rfl, rfl⟩, rfl, rfl, rfl⟩

theorem BExt.trans {a b c : Builder} (h : BExt a b) (h' : BExt b c) : BExt a c :=
  ⟨h.str.trans h'.str, fun i m e => h'.map i m (h.map i m e), fun i m e => h'.loc i m (h.loc i m e),
   fun i s e => by
     obtain ⟨s', e', e1, e2⟩ := h.samp i s e
     obtain ⟨s'', e'', e3, e4⟩ := h'.samp i s' e'
     exact ⟨s'', e'', e3.trans e1, e4.trans e2⟩,
   h'.types.trans h.types, h'.comments.trans h.comments, h'.dflt.trans h.dflt⟩

theorem Str.bext {b b' : Builder} (h : Str b b') : BExt b b' := by
  have e := h.prof
  refine ⟨h.ext, ?_, ?_, ?_, ?_, ?_, ?_⟩
  · intro i m hm; rw [e]; exact hm
  · intro i m hm; rw [e]; exact hm
  · intro i m hm; exact ⟨m, by rw [e]; exact hm, rfl, rfl⟩
  · rw [e]
  · rw [e]
  · rw [e]

theorem Str.bok {b b' : Builder} (h : Str b b') (hb : BOk b) : BOk b' := by
  have e := h.prof
  refine ⟨h.inv, h.err.trans hb.err, ?_, ?_, ?_, ?_, ?_⟩
  · rw [e]; exact hb.fn
  · rw [e]; exact hb.map
  · rw [e]; exact hb.loc
  · rw [e]; exact hb.samp
  · rw [e]; exact hb.lab

theorem ShowsMapping.ext {b b' : Builder} (h : Ext b b') {m : Profile.Mapping} {mp : Normalizer.Mapping}
    (hs : ShowsMapping b.profile m mp) : ShowsMapping b'.profile m mp :=
  ⟨hs.1, hs.2.1, hs.2.2.1, h.table _ _ hs.2.2.2.1, h.table _ _ hs.2.2.2.2⟩

/-- The mapping with an id shows a mapping known by a pointer. -/
def MapId (G : Nat → Normalizer.Mapping → Prop) (b : Builder) (id ptr : Nat) : Prop :=
  0 < id ∧ ∃ m mp, b.profile.mapping[id - 1]? = some m ∧ G ptr mp ∧ ShowsMapping b.profile m mp

/-- The mapping id of a location. -/
def Mapped (G : Nat → Normalizer.Mapping → Prop) (b : Builder) (id : Nat) : Option MapRef → Prop
  | none => id = 0
  | some r => MapId G b id r.ptr

theorem MapId.ext {G} {b b' : Builder} (h : BExt b b') {id ptr : Nat} (hm : MapId G b id ptr) : MapId G b' id ptr := by
  obtain ⟨h0, m, mp, h1, h2, h3⟩ := hm
  exact ⟨h0, m, mp, h.map _ _ h1, h2, h3.ext h.str⟩

theorem Mapped.ext {G} {b b' : Builder} (h : BExt b b') {id : Nat} {r : Option MapRef} (hm : Mapped G b id r) :
    Mapped G b' id r := by
  cases r with
  | none => exact hm
  | some r => exact MapId.ext h hm

/-- The maps of a process fit the builder; `Src` says where the mapping of a location came from. -/
structure WorkOk (G : Nat → Normalizer.Mapping → Prop) (Src : Nat → Option MapRef → Prop) (w : Work) : Prop where
  bok : BOk w.b
  locs : ∀ a id, find w.locs a = some id → 0 < id ∧ ∃ l, w.b.profile.location[id - 1]? = some l ∧ l.address = a ∧
    ∃ r, Src a r ∧ Mapped G w.b l.mappingId r
  maps : ∀ p id, find w.maps p = some id → MapId G w.b id p

theorem WorkOk.ext {G Src} {locs maps : List (Nat × Nat)} {b b' : Builder} (h : WorkOk G Src ⟨locs, maps, b⟩)
    (he : BExt b b') (hb : BOk b') : WorkOk G Src ⟨locs, maps, b'⟩ := by
  refine ⟨hb, ?_, fun p id hp => (h.maps p id hp).ext he⟩
  intro a id hf
  obtain ⟨h0, l, h1, h2, r, h3, h4⟩ := h.locs a id hf
  exact ⟨h0, l, he.loc _ _ h1, h2, r, h3, h4.ext he⟩

theorem WorkOk.src {G} {Src Src' : Nat → Option MapRef → Prop} {w : Work} (h : WorkOk G Src w)
    (hi : ∀ a id r, find w.locs a = some id → Src a r → Src' a r) : WorkOk G Src' w := by
  refine ⟨h.bok, ?_, h.maps⟩
  intro a id hf
  obtain ⟨h0, l, h1, h2, r, h3, h4⟩ := h.locs a id hf
  exact ⟨h0, l, h1, h2, r, hi a id r hf h3, h4⟩

theorem WorkOk.empty {G Src} {b : Builder} (h : BOk b) : WorkOk G Src ⟨[], [], b⟩ :=
  ⟨h, fun a id hf => by simp [find] at hf, fun p id hf => by simp [find] at hf⟩

/-- A new mapping at the end. -/
theorem append_mapping {b : Builder} (hb : BOk b) (m : Profile.Mapping) (hm : m.id = b.profile.mapping.length + 1) :
    let b' : Builder := { b with profile := { b.profile with mapping := b.profile.mapping ++ [m] } }
    BOk b' ∧ BExt b b' ∧ b'.profile.mapping[b.profile.mapping.length]? = some m := by
  refine ⟨⟨sinv_congr hb.inv rfl rfl, hb.err, hb.fn, ?_, ?_, hb.samp, hb.lab⟩, ⟨⟨fun _ _ h => h⟩, ?_, fun _ _ h => h,
    fun _ s h => ⟨s, h, rfl, rfl⟩, rfl, rfl, rfl⟩, by simp⟩
  · intro i x hx
    rcases Nat.lt_trichotomy i b.profile.mapping.length with hi | hi | hi
    · exact hb.map i x (by rw [← hx]; exact (List.getElem?_append_left hi).symm)
    · subst hi; simp at hx; rw [← hx]; exact hm
    · rw [List.getElem?_eq_none (by simp; omega)] at hx; cases hx
  · intro i l hl
    obtain ⟨h1, h2, h3⟩ := hb.loc i l hl
    exact ⟨h1, by simp only [List.length_append, List.length_singleton]; omega, h3⟩
  · intro i x hx
    exact (List.getElem?_append_left (List.getElem?_eq_some_iff.1 hx).1).trans hx

theorem addMapping_spec {G Src} {w : Work} (hw : WorkOk G Src w) {r : Option MapRef}
    (hg : ∀ x, r = some x → G x.ptr x.mapping) {id : Nat} {maps' : List (Nat × Nat)} {b' : Builder}
    (hm : addMapping w.maps w.b r = some (id, maps', b')) :
    WorkOk G Src ⟨w.locs, maps', b'⟩ ∧ BExt w.b b' ∧ b'.profile.location = w.b.profile.location ∧
    b'.profile.sample = w.b.profile.sample ∧ Mapped G b' id r ∧
    (∀ p i, find w.maps p = some i → find maps' p = some i) := by
  cases r with
  | none =>
    simp only [addMapping, Option.some.injEq, Prod.mk.injEq] at hm
    obtain ⟨rfl, rfl, rfl⟩ := hm
    exact ⟨⟨hw.bok, hw.locs, hw.maps⟩, BExt.refl _, rfl, rfl, rfl, fun _ _ h => h⟩
  | some r =>
    simp only [addMapping] at hm
    split at hm
    · rename_i i hf
      simp only [Option.some.injEq, Prod.mk.injEq] at hm
      obtain ⟨rfl, rfl, rfl⟩ := hm
      exact ⟨⟨hw.bok, hw.locs, hw.maps⟩, BExt.refl _, rfl, rfl, hw.maps _ _ hf, fun _ _ h => h⟩
    · rename_i hf
      -- the build ID
      have h1 : Str w.b (if r.mapping.buildId.value ≠ [] then utf8Id w.b r.mapping.buildId.value else (0, w.b)).2 ∧
          IsId (if r.mapping.buildId.value ≠ [] then utf8Id w.b r.mapping.buildId.value else (0, w.b)).2
            (Util.cStr r.mapping.buildId.value)
            (if r.mapping.buildId.value ≠ [] then utf8Id w.b r.mapping.buildId.value else (0, w.b)).1 := by
        by_cases hv : r.mapping.buildId.value ≠ []
        · rw [if_pos hv]; exact utf8Id_str hw.bok.inv _
        · rw [if_neg hv]
          rw [Decidable.not_not.1 hv]
          exact ⟨Str.refl hw.bok.inv, isId_empty hw.bok.inv⟩
      generalize (if r.mapping.buildId.value ≠ [] then utf8Id w.b r.mapping.buildId.value else (0, w.b)) = bid at h1 hm
      have h2 := utf8Id_str h1.1.inv (nameOrMd5 r.mapping.filename r.mapping.md5)
      generalize utf8Id bid.2 (nameOrMd5 r.mapping.filename r.mapping.md5) = fn at h2 hm
      have h3 := h1.1.trans h2.1
      split at hm
      · simp only [Option.some.injEq, Prod.mk.injEq] at hm
        obtain ⟨rfl, rfl, rfl⟩ := hm
        have hlen : fn.2.profile.mapping = w.b.profile.mapping := by rw [h3.prof]
        have hloc : fn.2.profile.location = w.b.profile.location := by rw [h3.prof]
        have hsam : fn.2.profile.sample = w.b.profile.sample := by rw [h3.prof]
        obtain ⟨k1, k2, k3⟩ := append_mapping (h3.bok hw.bok)
          { id := w.b.profile.mapping.length + 1, memoryStart := r.mapping.start, memoryLimit := r.mapping.limit,
            fileOffset := r.mapping.fileOffset, filename := fn.1, buildId := bid.1 } (by rw [hlen])
        have hlen' : fn.2.profile.mapping.length = w.b.profile.mapping.length := by rw [hlen]
        rw [hlen'] at k3
        have he := h3.bext.trans k2
        refine ⟨?_, he, hloc, hsam, ?_, ?_⟩
        · have := WorkOk.ext (locs := w.locs) (maps := w.maps) (b := w.b) ⟨hw.bok, hw.locs, hw.maps⟩ he k1
          refine ⟨this.bok, this.locs, ?_⟩
          intro p i hp
          simp only [find_cons] at hp
          split at hp
          · rename_i e
            subst e
            injection hp with hp
            subst hp
            refine ⟨by omega, _, r.mapping, k3, hg r rfl, rfl, rfl, rfl, ?_, ?_⟩
            · exact k2.str.table _ _ (by rw [Int.toNat_natCast]; exact h2.2.1)
            · exact k2.str.table _ _ (by rw [Int.toNat_natCast]; exact h2.1.ext.table _ _ h1.2.1)
          · exact this.maps p i hp
        · refine ⟨by omega, _, r.mapping, k3, hg r rfl, rfl, rfl, rfl, ?_, ?_⟩
          · exact k2.str.table _ _ (by rw [Int.toNat_natCast]; exact h2.2.1)
          · exact k2.str.table _ _ (by rw [Int.toNat_natCast]; exact h2.1.ext.table _ _ h1.2.1)
        · intro p i hp
          rw [find_cons, if_neg (fun e => by rw [e] at hf; rw [hf] at hp; cases hp)]
          exact hp
      · cases hm

/-- A new location at the end. -/
theorem append_location {b : Builder} (hb : BOk b) (l : Location) (hl : l.id = b.profile.location.length + 1)
    (h1 : l.mappingId ≤ b.profile.mapping.length) (h2 : l.mappingId = 0 → l.address = 0) (h3 : l.line = []) :
    let b' : Builder := { b with profile := { b.profile with location := b.profile.location ++ [l] } }
    BOk b' ∧ BExt b b' ∧ b'.profile.location[b.profile.location.length]? = some l := by
  refine ⟨⟨sinv_congr hb.inv rfl rfl, hb.err, hb.fn, hb.map, ?_, ?_, hb.lab⟩, ⟨⟨fun _ _ h => h⟩, fun _ _ h => h, ?_,
    fun _ s h => ⟨s, h, rfl, rfl⟩, rfl, rfl, rfl⟩, by simp⟩
  · intro i x hx
    rcases Nat.lt_trichotomy i b.profile.location.length with hi | hi | hi
    · exact hb.loc i x (by rw [← hx]; exact (List.getElem?_append_left hi).symm)
    · subst hi; simp at hx; rw [← hx]; exact ⟨hl, h1, h2, h3⟩
    · rw [List.getElem?_eq_none (by simp; omega)] at hx; cases hx
  · intro s hs id hid
    obtain ⟨a1, a2⟩ := hb.samp s hs id hid
    exact ⟨a1, by simp only [List.length_append, List.length_singleton]; omega⟩
  · intro i x hx
    exact (List.getElem?_append_left (List.getElem?_eq_some_iff.1 hx).1).trans hx

theorem Mapped.le {G} {b : Builder} {id : Nat} {r : Option MapRef} (h : Mapped G b id r) :
    id ≤ b.profile.mapping.length ∧ (id = 0 → r = none) := by
  cases r with
  | none => exact ⟨by rw [show id = 0 from h]; omega, fun _ => rfl⟩
  | some r =>
    obtain ⟨h0, m, mp, h1, -⟩ := h
    have := (List.getElem?_eq_some_iff.1 h1).1
    exact ⟨by omega, fun e => by omega⟩

theorem addLocation_spec {G Src} {w : Work} (hw : WorkOk G Src w) {addr : Nat} {r : Option MapRef}
    (hg : ∀ x, r = some x → G x.ptr x.mapping) (hs : Src addr r) {id : Nat} {w' : Work}
    (hl : addLocation w addr r = some (id, w')) :
    WorkOk G Src w' ∧ BExt w.b w'.b ∧ w'.b.profile.sample = w.b.profile.sample ∧ find w'.locs addr = some id ∧
    (∀ a i, find w.locs a = some i → find w'.locs a = some i) := by
  unfold addLocation at hl
  split at hl
  · rename_i i hf
    simp only [Option.some.injEq, Prod.mk.injEq] at hl
    obtain ⟨rfl, rfl⟩ := hl
    exact ⟨hw, BExt.refl _, rfl, hf, fun _ _ h => h⟩
  · rename_i hf
    simp only at hl
    split at hl
    · cases hl
    · rename_i mid maps b hm
      obtain ⟨k1, k2, k3, k4, k5, -⟩ := addMapping_spec hw hg hm
      split at hl
      · cases hl
      · rename_i hc
        simp only [Option.some.injEq, Prod.mk.injEq] at hl
        obtain ⟨rfl, rfl⟩ := hl
        obtain ⟨j1, j2, j3⟩ := append_location k1.bok
          { id := w.b.profile.location.length + 1, mappingId := mid, address := addr } (by simp only [k3]) k5.le.1
          (fun e => Decidable.not_not.1 fun h => hc ⟨e, h⟩) rfl
        have hlen' : b.profile.location.length = w.b.profile.location.length := by rw [k3]
        simp only at j3
        rw [hlen'] at j3
        have he := k2.trans j2
        refine ⟨?_, he, k4, by simp [find_cons], ?_⟩
        · have := k1.ext j2 j1
          refine ⟨this.bok, ?_, this.maps⟩
          intro a i ha
          simp only [find_cons] at ha
          split at ha
          · rename_i e
            subst e
            injection ha with ha
            subst ha
            exact ⟨by omega, _, j3, rfl, r, hs, k5.ext j2⟩
          · exact this.locs a i ha
        · intro a i ha
          simp only [find_cons]
          rw [if_neg (fun e => by rw [e] at hf; rw [hf] at ha; cases ha)]
          exact ha

theorem pushAll_spec {G Src} (fs : List (Bool × Frame)) : ∀ {a a' : Acc}, WorkOk G Src a.w →
    (∀ f ∈ fs, (∀ x, f.2.2 = some x → G x.ptr x.mapping) ∧ Src f.2.1 f.2.2) → pushAll fs a = some a' →
    WorkOk G Src a'.w ∧ BExt a.w.b a'.w.b ∧ a'.w.b.profile.sample = a.w.b.profile.sample ∧
    (∀ x i, find a.w.locs x = some i → find a'.w.locs x = some i) ∧
    ∃ ids, a'.stack = a.stack ++ ids ∧ All₂ (fun (f : Bool × Frame) id => find a'.w.locs f.2.1 = some id) fs ids := by
  induction fs with
  | nil =>
    intro a a' hw _ h
    cases h
    exact ⟨hw, BExt.refl _, rfl, fun _ _ h => h, [], by simp, .nil⟩
  | cons f t ih =>
    intro a a' hw hf h
    unfold pushAll at h
    split at h
    · cases h
    · rename_i a1 hp
      obtain ⟨id, w, hl, rfl⟩ := pushFrame_some hp
      obtain ⟨f1, f2⟩ := hf f (by simp)
      obtain ⟨k1, k2, k3, k4, k5⟩ := addLocation_spec hw f1 f2 hl
      obtain ⟨j1, j2, j3, j4, ids, j5, j6⟩ := ih k1 (fun g hg => hf g (by simp [hg])) h
      exact ⟨j1, k2.trans j2, j3.trans k3, fun x i hx => j4 x i (k5 x i hx), id :: ids, by rw [j5]; simp,
        .cons (j4 _ _ k4) j6⟩

end Verif.Converter
