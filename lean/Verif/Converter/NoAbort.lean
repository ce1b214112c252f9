import Verif.Converter.Final2

/-! # The converter does not abort on sensible callbacks -/

namespace Verif.Converter
open Verif.Profile Verif.Builder
open Verif.Normalizer (Bytes Source MapRef Loc BranchPair SampleEv SampleCtx Callback ACtx AttrRec
  contextFromHeader nameOrMd5 upd)

theorem addMapping_ok {maps : List (Nat × Nat)} {b : Builder} {r : Option MapRef} (h : RangeOk r) :
    ∃ id maps' b', addMapping maps b r = some (id, maps', b') := by
  cases r with
  | none => exact ⟨_, _, _, rfl⟩
  | some x =>
    simp only [addMapping]
    split
    · exact ⟨_, _, _, rfl⟩
    · rw [if_pos (h x rfl)]; exact ⟨_, _, _, rfl⟩

theorem addLocation_ok {G Src} {w : Work} (hw : WorkOk G Src w) {addr : Nat} {r : Option MapRef}
    (hg : ∀ x, r = some x → G x.ptr x.mapping) (h : RangeOk r) (h0 : r = none → addr = 0) :
    ∃ id w', addLocation w addr r = some (id, w') := by
  unfold addLocation
  split
  · exact ⟨_, _, rfl⟩
  · obtain ⟨id, maps', b', hm⟩ := addMapping_ok (maps := w.maps) (b := w.b) h
    have k5 := (addMapping_spec hw hg hm).2.2.2.2.1
    simp only [hm]
    rw [if_neg (fun e => e.2 (h0 (k5.le.2 e.1)))]
    exact ⟨_, _, rfl⟩

theorem pushAll_ok {G Src} (fs : List (Bool × Frame)) : ∀ {a : Acc}, WorkOk G Src a.w →
    (∀ f ∈ fs, (∀ x, f.2.2 = some x → G x.ptr x.mapping) ∧ Src f.2.1 f.2.2) →
    (∀ f ∈ fs, RangeOk f.2.2 ∧ (f.2.2 = none → f.2.1 = 0)) → ∃ a', pushAll fs a = some a' := by
  induction fs with
  | nil => intro a _ _ _; exact ⟨a, rfl⟩
  | cons f t ih =>
    intro a hw hf hr
    obtain ⟨f1, f2⟩ := hf f (by simp)
    obtain ⟨r1, r2⟩ := hr f (by simp)
    obtain ⟨id, w, hl⟩ := addLocation_ok hw f1 r1 r2
    obtain ⟨k1, -⟩ := addLocation_spec hw f1 f2 hl
    have hp : pushFrame a f.1 f.2.1 f.2.2 = some { stack := a.stack ++ [id], w, stats := if f.1 then incStats a.stats f.2.2 else a.stats } := by
      unfold pushFrame; rw [hl]
    rw [pushAll, hp]
    exact ih k1 (fun g hg => hf g (by simp [hg])) (fun g hg => hr g (by simp [hg]))

theorem frames_none {S : Setup} {c : SampleCtx} : ∀ f ∈ frames S c, f.2 = none → f.1 = 0 := by
  intro f hf h
  unfold frames codeFrames at hf
  rw [List.mem_append, List.mem_cons, List.mem_append] at hf
  rcases hf with hf | hf | hf | hf
  · split at hf
    · rw [List.mem_singleton] at hf; subst hf; simp only at h ⊢; rw [if_pos h]
    · cases hf
  · subst hf; simp only [leaf] at h ⊢; rw [if_pos h]
  · unfold callers at hf
    obtain ⟨l, -, hl⟩ := List.mem_filterMap.1 hf
    cases hm : l.mapping with
    | none => rw [hm] at hl; cases hl
    | some r =>
      rw [hm, Option.bind_some] at hl
      split at hl
      · cases hl; cases h
      · cases hl
  · unfold branches at hf
    split at hf
    · obtain ⟨l, -, hl⟩ := List.mem_filterMap.1 hf
      cases hm : l.from_.mapping with
      | none => rw [hm] at hl; cases hl
      | some r =>
        rw [hm, Option.bind_some] at hl
        split at hl
        · cases hl; cases h
        · cases hl
    · cases hf

/-- The first mapping of every profile is there, and so is its name. -/
theorem first_mapping {G} {S : Setup} {st : State} {L : Log} (h : Inv G S st L) {bi : Nat} {b : Builder}
    (hb : st.builders[bi]? = some b) : ∃ m s, b.profile.mapping[0]? = some m ∧ b.profile.stringTable[m.filename.toNat]? = some s := by
  obtain ⟨A, c, slot, B, maps, bm, -, -, -, hm, he⟩ := h.first bi b hb
  obtain ⟨k1, k2, -, m, k4, k5⟩ := created_spec hm
  have hc := addComments_same S bm k2.inv
  have hg := addComments_grow S k2.inv
  refine ⟨m, ?_⟩
  cases hr : c.main with
  | none =>
    rw [hr] at k5
    exact ⟨[], he.map _ _ (by rw [hc.1]; exact k4), he.str.table _ _ (hg.ext.table _ _ (by rw [k5.2.2.1]; exact k2.inv.zero))⟩
  | some x =>
    rw [hr] at k5
    exact ⟨_, he.map _ _ (by rw [hc.1]; exact k4), he.str.table _ _ (hg.ext.table _ _ k5.2.2.2.1)⟩

theorem mismatch_ok {G} {S : Setup} {st : State} {L : Log} (h : Inv G S st L) {bi : Nat} {b : Builder}
    (hb : st.builders[bi]? = some b) (hf : S.options.testBit 1 = false) (c : SampleCtx) : mismatchFatal S b c = some false := by
  unfold mismatchFatal
  split
  · rfl
  · split
    · obtain ⟨m, s, h1, h2⟩ := first_mapping h hb
      rw [h1]
      simp only
      rw [h2]
      unfold Setup.failOnMismatch
      rw [hf]
      simp
    · rfl

theorem addInt64_ok {v d : Int} (h1 : 0 ≤ v) (h2 : 0 ≤ d) (h3 : v + d < 2 ^ 63) : addInt64 v d = some (v + d) := by
  unfold addInt64
  rw [if_pos ⟨by omega, h3⟩]

/-- The room left in the counters. -/
structure Room (S : Setup) (L : Log) (c : SampleCtx) : Prop where
  ev : c.attrIndex < S.attrs.length
  small : ∀ p ∈ placed L, weightOf S p.1 < 2 ^ 63
  sum : ((placed L).map (fun p => weightOf S p.1)).sum + weightOf S c < 2 ^ 63

theorem weightOf_pos (S : Setup) (c : SampleCtx) : 0 < weightOf S c := by
  unfold weightOf
  simp only
  split
  · assumption
  · split
    · assumption
    · omega

theorem sum_sublist {α : Type} (f : α → Nat) {l m : List α} (h : l.Sublist m) : (l.map f).sum ≤ (m.map f).sum := by
  induction h with
  | slnil => exact Nat.le_refl _
  | cons a _ ih => rw [List.map_cons, List.sum_cons]; omega
  | cons_cons a _ ih => rw [List.map_cons, List.sum_cons, List.map_cons, List.sum_cons]; omega

theorem length_le_sum (S : Setup) (l : List (SampleCtx × Slot)) : l.length ≤ (l.map (fun p => weightOf S p.1)).sum := by
  induction l with
  | nil => exact Nat.le_refl _
  | cons a t ih =>
    have := weightOf_pos S a.1
    rw [List.map_cons, List.sum_cons, List.length_cons]; omega

theorem sum_cast {α : Type} (l : List α) (f : α → Int) (g : α → Nat) (h : ∀ a ∈ l, f a = g a) :
    (l.map f).sum = ((l.map g).sum : Nat) := by
  induction l with
  | nil => rfl
  | cons a t ih =>
    rw [List.map_cons, List.map_cons, List.sum_cons, List.sum_cons, ih (fun x hx => h x (by simp [hx])), h a (by simp)]
    omega

theorem bump_ok {S : Setup} {L : Log} {c : SampleCtx} (hr : Room S L c) {vs : List Int} {n w : Int}
    (h1 : vs[2 * c.attrIndex]? = some n) (h2 : vs[2 * c.attrIndex + 1]? = some w)
    (hn : 0 ≤ n ∧ n ≤ ((placed L).map (fun p => weightOf S p.1)).sum)
    (hw : 0 ≤ w ∧ w ≤ ((placed L).map (fun p => weightOf S p.1)).sum) :
    ∃ vs', bump vs c.attrIndex (weight S c) = some vs' := by
  have hs := hr.sum
  have hp := weightOf_pos S c
  have hc : weight S c = weightOf S c := weight_eq (by omega)
  have e1 : (vs[2 * c.attrIndex]?).bind (addInt64 · 1) = some (n + 1) := by
    rw [h1, Option.bind_some, addInt64_ok hn.1 (by omega) (by omega)]
  have e2 : (vs[2 * c.attrIndex + 1]?).bind (addInt64 · (weight S c)) = some (w + weight S c) := by
    rw [h2, Option.bind_some, addInt64_ok hw.1 (by omega) (by omega)]
  unfold bump
  rw [e1, e2]
  exact ⟨_, rfl⟩

theorem bumpSlot_ok {S : Setup} {c : SampleCtx} {bs : List Builder} {slot : Slot} {b : Builder} {s : Sample} {vs : List Int}
    (h1 : bs[slot.1]? = some b) (h2 : b.profile.sample[slot.2]? = some s)
    (h3 : bump s.value c.attrIndex (weight S c) = some vs) : ∃ bs', bumpSlot S c bs slot = some bs' := by
  unfold bumpSlot
  rw [h1]
  simp only [Option.bind_eq_bind, Option.bind_some]
  rw [h2]
  simp only [Option.bind_some]
  rw [h3]
  exact ⟨_, rfl⟩

theorem zeros_get (n i : Nat) (h : i < n) : (List.replicate n (0 : Int))[i]? = some 0 := by
  rw [List.getElem?_replicate, if_pos h]

theorem addOrUpdate_ok {S : Setup} {st st1 : State} {L : Log} {c : SampleCtx} {bi : Nat} {k : Key} {B : Builder}
    (h0 : Inv0 S st L) (hr : Room S L c) (hB : st1.builders[bi]? = some B) (hi : SInv B)
    (hsam : ∀ j, samplesOf st1.builders j = samplesOf st.builders j)
    (hp : (st1.pids (pidOf c)).samples = (st.pids (pidOf c)).samples) :
    ∃ r, addOrUpdate S st1 c bi k = some r := by
  unfold addOrUpdate
  simp only
  rw [hp]
  cases hf : find (st.pids (pidOf c)).samples k with
  | some slot =>
    simp only
    have hok := h0.slot _ _ _ hf
    unfold SlotOk at hok
    rw [← hsam] at hok
    unfold samplesOf at hok
    cases hb : st1.builders[slot.1]? with
    | none => rw [hb] at hok; simp at hok
    | some b =>
      rw [hb] at hok
      simp only [Option.map_some, Option.getD_some] at hok
      obtain ⟨v1, v2⟩ := h0.val slot.1 slot.2 b.profile.sample[slot.2] (by
        rw [← hsam, samplesOf_some hb]; exact List.getElem?_eq_getElem hok)
      obtain ⟨v3, v4⟩ := v2 _ hr.ev
      have hsub : (here (placed L) slot c.attrIndex).Sublist (placed L) := List.filter_sublist
      have hcast : ((here (placed L) slot c.attrIndex).map (fun p => weight S p.1)).sum =
          (((here (placed L) slot c.attrIndex).map (fun p => weightOf S p.1)).sum : Nat) :=
        sum_cast _ _ _ (fun p hp => weight_eq (hr.small p (hsub.subset hp)))
      have hle := sum_sublist (fun p : SampleCtx × Slot => weightOf S p.1) hsub
      have hlen := length_le_sum S (here (placed L) slot c.attrIndex)
      obtain ⟨vs, hv⟩ := bump_ok hr v3 v4 ⟨by omega, by
        show ((here (placed L) (slot.1, slot.2) c.attrIndex).length : Int) ≤ _
        have : ((here (placed L) (slot.1, slot.2) c.attrIndex).length) = (here (placed L) slot c.attrIndex).length := rfl
        omega⟩ ⟨by
        show (0 : Int) ≤ ((here (placed L) slot c.attrIndex).map (fun p => weight S p.1)).sum
        rw [hcast]; omega, by
        show ((here (placed L) slot c.attrIndex).map (fun p => weight S p.1)).sum ≤ _
        rw [hcast]; omega⟩
      obtain ⟨bs, hbs⟩ := bumpSlot_ok hb (List.getElem?_eq_getElem hok) hv
      rw [hbs]
      exact ⟨_, rfl⟩
  | none =>
    simp only
    rw [hB]
    simp only
    have ns := (newSample_sample S c k hi).2.2.2
    have hlt := (List.getElem?_eq_some_iff.1 hB).1
    have hev := hr.ev
    obtain ⟨vs, hv⟩ := bump_ok hr (vs := List.replicate (2 * S.attrs.length) 0) (n := 0) (w := 0)
      (zeros_get _ _ (by omega)) (zeros_get _ _ (by omega)) ⟨by omega, by omega⟩ ⟨by omega, by omega⟩
    obtain ⟨bs, hbs⟩ := bumpSlot_ok (S := S) (c := c) (bs := st1.builders.set bi (newSample S c k B)) (slot := (bi, B.profile.sample.length))
      (b := newSample S c k B) (List.getElem?_set_self hlt)
      (s := { locationId := k.stack, label := (internLabels B (labelsFor S c k)).1, value := List.replicate (2 * S.attrs.length) 0 })
      (by rw [ns]; simp) hv
    rw [hbs]
    exact ⟨_, rfl⟩

theorem getOrCreate_ok {G} {S : Setup} {st : State} {L : Log} {c : SampleCtx} (h0 : Inv0 S st L) (h : Inv G S st L)
    (hf : S.options.testBit 1 = false) (hm : RangeOk c.main) : ∃ r, getOrCreate S st c = some r := by
  unfold getOrCreate
  simp only
  split
  · rename_i bi hb
    have hlt := h0.ptr _ _ hb
    rw [List.getElem?_eq_getElem hlt]
    simp only
    rw [mismatch_ok h (List.getElem?_eq_getElem hlt) hf c]
    exact ⟨_, rfl⟩
  · have : ∃ maps b, addMain (st.pids (c.sample.pid.getD 0)).maps (newProfile S) c.main = some (maps, b) := by
      cases hc : c.main with
      | none => exact ⟨_, _, rfl⟩
      | some r =>
        obtain ⟨id, maps', b', hx⟩ := addMapping_ok (maps := (st.pids (c.sample.pid.getD 0)).maps) (b := newProfile S) (r := some r) (by rw [← hc]; exact hm)
        simp only [addMain, hx]
        exact ⟨_, _, rfl⟩
    obtain ⟨maps, b, e⟩ := this
    rw [e]
    exact ⟨_, rfl⟩

theorem takeSample_ok {G} {S : Setup} {st : State} {L : Log} {c : SampleCtx} (h0 : Inv0 S st L) (h : Inv G S st L)
    (hf : S.options.testBit 1 = false) (hc : SampleOk S c) (hr : Room S L c)
    (hg : ∀ x, (c.main = some x ∨ ∃ f ∈ frames S c, f.2 = some x) → G x.ptr x.mapping) :
    ∃ r, takeSample S st c = some r := by
  obtain ⟨⟨bi, st1⟩, h1⟩ := getOrCreate_ok h0 h hf hc.main
  obtain ⟨-, s1, -, ⟨b, hb⟩, -⟩ := getOrCreate_builders h1 h0.tabs
  have p1 := getOrCreate_pids h1
  -- the builder and the maps fit
  have hw : WorkOk G (Src S L (pidOf c)) ⟨(st1.pids (pidOf c)).locs, (st1.pids (pidOf c)).maps, b⟩ := by
    rcases getOrCreate_some h1 with ⟨b1, g1, g2, -, rfl⟩ | ⟨maps, bm, g1, rfl, g2, rfl⟩
    · simp only at hb
      rw [g2] at hb; cases hb
      exact (h.ready _).work _ _ g1 g2
    · obtain ⟨i1, i2, i3⟩ := (h.ready (pidOf c)).idle g1
      rw [i2] at g2
      have hcw := created_work (Src := Src S L (pidOf c)) (fun x hx => hg x (.inl hx)) g2
      simp only [List.getElem?_concat_length, Option.some.injEq] at hb
      subst hb
      have e1 := (p1 (pidOf c)).2.2.1
      rw [i1] at e1
      rw [e1]
      dsimp only
      rw [upd_same]
      exact hcw.1
  have hk := makeKey_str S st1 c hw.bok.inv
  have hw1 : WorkOk G (fun _ _ => True) ⟨(st1.pids (pidOf c)).locs, (st1.pids (pidOf c)).maps, (makeKey S st1 c b).2⟩ :=
    (hw.ext hk.bext (hk.bok hw.bok)).src (fun _ _ _ _ _ => trivial)
  have mem : ∀ f ∈ flagged S c, f.2 ∈ frames S c := by
    intro f hf; rw [← flagged_frames]; exact List.mem_map_of_mem hf
  obtain ⟨a, ha⟩ := pushAll_ok (G := G) (Src := fun _ _ => True) (flagged S c)
    (a := ⟨[], ⟨(st1.pids (pidOf c)).locs, (st1.pids (pidOf c)).maps, (makeKey S st1 c b).2⟩, st1.stats (pidOf c)⟩) hw1
    (fun f hf => ⟨fun x hx => hg x (.inr ⟨f.2, mem f hf, hx⟩), trivial⟩)
    (fun f hf => ⟨hc.refs _ (mem f hf), frames_none _ (mem f hf)⟩)
  obtain ⟨q1, q2, q3, -⟩ := pushAll_spec (flagged S c) hw1
    (fun f hf => ⟨fun x hx => hg x (.inr ⟨f.2, mem f hf, hx⟩), trivial⟩) ha
  rw [← pushStack_eq S c _ hc.ip hc.addr] at ha
  have hlt := (List.getElem?_eq_some_iff.1 hb).1
  unfold takeSample
  simp only
  rw [h1]
  simp only
  rw [hb]
  simp only
  rw [ha]
  simp only
  refine addOrUpdate_ok (B := a.w.b) h0 hr (List.getElem?_set_self hlt) q1.bok.inv ?_ ?_
  · intro j
    simp only
    rw [samplesOf_set _ _ b _ hb, ← s1]
    split
    · rename_i e
      subst e
      rw [samplesOf_some hb, q3]
      show (makeKey S st1 c b).2.profile.sample = _
      rw [hk.prof]
    · rfl
  · dsimp only
    rw [upd_same]
    exact (p1 (pidOf c)).1

end Verif.Converter
