import Verif.Whole.StackLemmas
import Verif.Whole.Settle

/-!
# The calls for the records before a sample
-/

namespace Verif.Whole
open Verif.Serial (Msg Body)
open Verif.Normalizer (Each Ev Callback SampleCtx MapRef)

theorem each_append {P : List Ev → Ev → List Callback → Prop} : ∀ (es es' : List Ev) {past : List Ev} {cbs : List Callback},
    Each P past (es ++ es') cbs → ∃ a b, cbs = a ++ b ∧ Each P past es a ∧ Each P (es.reverse ++ past) es' b
  | [], es', past, cbs, h => ⟨[], cbs, rfl, rfl, h⟩
  | e :: es, es', past, cbs, h => by
    obtain ⟨c, cs, rfl, h1, h2⟩ := h
    obtain ⟨a, b, rfl, h3, h4⟩ := each_append es es' h2
    refine ⟨c ++ a, b, (List.append_assoc ..).symm, ⟨c, a, rfl, h1, h3⟩, ?_⟩
    rw [List.reverse_cons, List.append_assoc]
    exact h4

theorem each_join {P : List Ev → Ev → List Callback → Prop} : ∀ (es es' : List Ev) {past : List Ev} {a b : List Callback},
    Each P past es a → Each P (es.reverse ++ past) es' b → Each P past (es ++ es') (a ++ b)
  | [], es', past, a, b, h, h' => by
    have h : a = [] := h
    subst h; exact h'
  | e :: es, es', past, a, b, h, h' => by
    obtain ⟨c, cs, rfl, h1, h2⟩ := h
    rw [List.reverse_cons, List.append_assoc] at h'
    exact ⟨c, cs ++ b, List.append_assoc .., h1, each_join es es' h2 h'⟩

/-- The record that a call belongs to. -/
theorem each_split {P : List Ev → Ev → List Callback → Prop} : ∀ (es : List Ev) {past : List Ev} {A B : List Callback} {cb : Callback},
    Each P past es (A ++ cb :: B) → ∃ pre e post a b B', es = pre ++ e :: post ∧ P (pre.reverse ++ past) e (a ++ cb :: b) ∧
      B = b ++ B' ∧ Each P (e :: (pre.reverse ++ past)) post B'
  | [], past, A, B, cb, h => by
    have : A ++ cb :: B = [] := h
    simp at this
  | e :: es, past, A, B, cb, h => by
    obtain ⟨c, cs, hc, h1, h2⟩ := h
    rcases List.append_eq_append_iff.1 hc with ⟨x, rfl, hx⟩ | ⟨x, rfl, hx⟩
    · cases x with
      | nil =>
        rw [List.nil_append] at hx
        subst hx
        obtain ⟨pre, e', post, a, b, B', rfl, k1, k2, k3⟩ := each_split es (A := []) h2
        refine ⟨e :: pre, e', post, a, b, B', rfl, ?_, k2, ?_⟩
        · rw [List.reverse_cons, List.append_assoc]; exact k1
        · rw [List.reverse_cons, List.append_assoc]; exact k3
      | cons y x =>
        rw [List.cons_append, List.cons.injEq] at hx
        obtain ⟨rfl, rfl⟩ := hx
        exact ⟨[], e, es, A, x, cs, rfl, h1, rfl, h2⟩
    · rw [hx] at h2
      obtain ⟨pre, e', post, a, b, B', rfl, k1, k2, k3⟩ := each_split es h2
      refine ⟨e :: pre, e', post, a, b, B', rfl, ?_, k2, ?_⟩
      · rw [List.reverse_cons, List.append_assoc]; exact k1
      · rw [List.reverse_cons, List.append_assoc]; exact k3

theorem each_mem {P : List Ev → Ev → List Callback → Prop} : ∀ (es : List Ev) {past : List Ev} {cbs : List Callback},
    Each P past es cbs → ∀ e ∈ es, ∃ past' x, P past' e x ∧ ∀ cb ∈ x, cb ∈ cbs
  | [], _, _, _, _, he => by cases he
  | e' :: es, past, cbs, h, e, he => by
    obtain ⟨c, cs, rfl, h1, h2⟩ := h
    rcases List.mem_cons.1 he with rfl | he
    · exact ⟨past, c, h1, fun cb hcb => List.mem_append_left _ hcb⟩
    · obtain ⟨p, x, k1, k2⟩ := each_mem es h2 e he
      exact ⟨p, x, k1, fun cb hcb => List.mem_append_right _ (k2 cb hcb)⟩

/-- What the normalizer reports of a record, with the main mapping. -/
def Told (cfg : Normalizer.Config) (past : List Ev) (e : Ev) (cbs : List Callback) : Prop :=
  Normalizer.Reports cfg past e cbs ∧ ∀ c, .sample c ∈ cbs → c.lost = false → Normalizer.MainShown cfg past c

/-! ## Between two samples -/

theorem reports_mapping {cfg : Normalizer.Config} {past : List Ev} {e : Ev} {m : Normalizer.MMapEv} {x : List Callback} (he : e.mapping = some m)
    (h : Normalizer.Reports cfg past e x) : Normalizer.ReportsMmap cfg m x := by
  cases e with
  | mmap b => cases he; exact h
  | ksymbol t f a n nm =>
    unfold Normalizer.Ev.mapping at he
    simp only at he
    unfold Normalizer.Reports at h
    simp only at h
    split at he
    · rename_i hc
      cases he
      rw [if_pos hc] at h
      exact h
    · cases he
  | _ => cases he

theorem no_maps {cfg : Normalizer.Config} {past : List Ev} {post : List Msg} {B : List Callback} {pid a : Nat}
    (h : Each (Told cfg) past (post.map normView) B) (hr : Converter.remaps B pid a = false) : ∀ x ∈ post, mapsOver pid a x = false := by
  intro x hx
  cases hm : mapsOver pid a x with
  | false => rfl
  | true =>
    unfold mapsOver at hm
    cases ha : areaOf x with
    | none => rw [ha] at hm; cases hm
    | some b =>
      rw [ha] at hm
      simp only [Bool.and_eq_true, beq_iff_eq] at hm
      obtain ⟨hp, hc⟩ := hm
      unfold coversOf at hc
      rw [decide_eq_true_eq] at hc
      obtain ⟨past', y, ⟨h1, -⟩, h2⟩ := each_mem _ h _ (List.mem_map.2 ⟨x, hx, rfl⟩)
      have h1 := reports_mapping (by rw [mapping_view, ha]; rfl) h1
      unfold Normalizer.ReportsMmap at h1
      rw [if_neg (show (toEv b).len ≠ 0 from hc.1)] at h1
      obtain ⟨r, rfl, hd, -⟩ := h1
      have := h2 _ List.mem_cons_self
      unfold Converter.remaps at hr
      have := List.any_eq_false.1 hr _ this
      simp only [Bool.and_eq_true, beq_iff_eq, decide_eq_true_eq] at this
      refine absurd ⟨⟨hp, ?_⟩, ?_⟩ this
      · rw [hd.first, first_ev]; exact hc.2.1
      · rw [hd.limit]; exact hc.2.2

theorem no_execs {cfg : Normalizer.Config} {past : List Ev} {post : List Msg} {B : List Callback} {pid : Nat}
    (h : Each (Told cfg) past (post.map normView) B) (hr : Converter.execs B pid = false) : ∀ x ∈ post, execOf pid x = false := by
  intro x hx
  cases hm : execOf pid x with
  | false => rfl
  | true =>
    unfold execOf at hm
    cases hb : x.body with
    | comm c =>
      rw [hb] at hm
      simp only [Bool.and_eq_true, beq_iff_eq] at hm
      obtain ⟨past', y, ⟨h1, -⟩, h2⟩ := each_mem _ h _ (List.mem_map.2 ⟨x, hx, rfl⟩)
      unfold normView at h1
      rw [hb] at h1
      obtain ⟨q, rfl, hq⟩ := h1
      have := h2 _ List.mem_cons_self
      unfold Converter.execs at hr
      have := List.any_eq_false.1 hr _ this
      simp only [Bool.and_eq_true, beq_iff_eq] at this
      refine absurd ⟨hq.2 ⟨?_, .inr (.inl hm.2)⟩, hm.1.1⟩ this
      exact hm.1.1.trans hm.1.2.symm
    | _ => rw [hb] at hm; cases hm

/-! ## The mappings of samples -/

/-- A mapping with a name, or that is not where executables are loaded. -/
def Titled (r : MapRef) : Prop := r.mapping.filename ≠ [] ∨ r.mapping.start ≠ 0x400000

theorem titled_shows {ids : Normalizer.Ids} {r : MapRef} {m : Normalizer.MMapEv} (h : Normalizer.Describes ids r.mapping m) (hm : m.filename ≠ []) :
    r.mapping.filename = m.filename := by
  rcases h.name with h | h
  · exact h
  · exact absurd h.1 hm

open Classical in
theorem mainOf_from {cfg : Normalizer.Config} : ∀ (es : List Ev) (pid : Nat) (m : Normalizer.MMapEv), Normalizer.mainOf cfg es pid = some m →
    ∃ e ∈ es, e.mapping = some m
  | [], _, _, h => by cases h
  | e :: es, pid, m, h => by
    have later : ∀ {p}, Normalizer.mainOf cfg es p = some m → ∃ e' ∈ e :: es, e'.mapping = some m := by
      intro p hp
      obtain ⟨e', h1, h2⟩ := mainOf_from es p m hp
      exact ⟨e', List.mem_cons_of_mem _ h1, h2⟩
    have gen : (match e.mapping with
        | some x => if pid = x.pid ∧ x.len ≠ 0 ∧ Normalizer.TakesOver x (Normalizer.mainOf cfg es pid) then some x
            else Normalizer.mainOf cfg es pid
        | none => Normalizer.mainOf cfg es pid) = some m → ∃ e' ∈ e :: es, e'.mapping = some m := by
      intro h
      cases he : e.mapping with
      | none => rw [he] at h; exact later h
      | some x =>
        rw [he] at h
        simp only at h
        split at h
        · cases h; exact ⟨e, List.mem_cons_self, he⟩
        · exact later h
    cases e with
    | fork a b t =>
      unfold Normalizer.mainOf at h
      split at h
      · rw [Option.or_eq_some_iff] at h
        rcases h with h | ⟨-, h⟩ <;> exact later h
      · exact later h
    | comm misc c =>
      unfold Normalizer.mainOf at h
      split at h
      · cases h
      · exact later h
    | mmap b => 
      refine gen ?_
      unfold Normalizer.mainOf at h
      simpa only [Normalizer.Ev.mapping] using h
    | ksymbol a b c d n =>
      refine gen ?_
      unfold Normalizer.mainOf at h
      exact h
    | _ => exact later h

theorem spot_mem {ids : Normalizer.Ids} {fs : List Converter.Frame} {gs : List Spot} (h : All₂ (IsSpot ids) fs gs) {f : Converter.Frame} (hf : f ∈ fs) :
    ∃ g ∈ gs, IsSpot ids f g := h.left f hf

theorem area_from : ∀ (h : List Msg) (pid x : Nat) (b : Serial.MMap), areaAt h pid x = some b → ∃ m ∈ h, areaOf m = some b
  | [], _, _, _, h => by cases h
  | m :: h, pid, x, b, hh => by
    have later : ∀ {p}, areaAt h p x = some b → ∃ m' ∈ m :: h, areaOf m' = some b := by
      intro p hp
      obtain ⟨m', h1, h2⟩ := area_from h p x b hp
      exact ⟨m', List.mem_cons_of_mem _ h1, h2⟩
    unfold areaAt at hh
    cases hf : forkOf m with
    | some c =>
      rw [hf] at hh
      simp only at hh
      split at hh <;> exact later hh
    | none =>
      rw [hf] at hh
      simp only at hh
      cases ha : areaOf m with
      | none => rw [ha] at hh; exact later hh
      | some c =>
        rw [ha] at hh
        simp only at hh
        split at hh
        · cases hh; exact ⟨m, List.mem_cons_self, ha⟩
        · exact later hh

theorem areaFor_from {h : List Msg} {pid a : Nat} {mode : Mode} {b : Serial.MMap} (hb : areaFor h pid a mode = some b) :
    ∃ m ∈ h, areaOf m = some b := by
  unfold areaFor at hb
  split at hb
  · cases hb
  · cases mode <;> simp only [Option.or_eq_some_iff] at hb
    · rcases hb with hb | ⟨-, hb⟩ <;> exact area_from _ _ _ _ hb
    · rcases hb with hb | ⟨-, hb⟩ <;> exact area_from _ _ _ _ hb
    · exact area_from _ _ _ _ hb
    · cases hb

theorem spotOf_from {h : List Msg} {pid a : Nat} {mode : Mode} {b : Serial.MMap} (hb : (spotOf h pid a mode).2 = some b) :
    ∃ m ∈ h, areaOf m = some b := by
  unfold spotOf at hb
  split at hb
  · rename_i x hx; cases hb; exact areaFor_from hx
  · cases hb

theorem chain_from {h : List Msg} {pid : Nat} : ∀ {mode : Mode} {l : List Nat} {g : Spot} {b : Serial.MMap}, g ∈ chainSpots h pid mode l →
    g.2 = some b → ∃ m ∈ h, areaOf m = some b
  | _, [], _, _, hg, _ => by cases hg
  | mode, a :: l, g, b, hg, hb => by
    unfold chainSpots at hg
    split at hg
    · rcases List.mem_cons.1 hg with rfl | hg
      · cases hb
      · exact chain_from hg hb
    · rcases List.mem_cons.1 hg with rfl | hg
      · exact areaFor_from hb
      · exact chain_from hg hb

theorem stack_from {data : Bool} {h : List Msg} {misc : Nat} {s : Serial.SampleEvent} {g : Spot} {b : Serial.MMap}
    (hg : g ∈ stackOf data h misc s) (hb : g.2 = some b) : ∃ m ∈ h, areaOf m = some b := by
  unfold stackOf at hg
  rw [List.mem_append, List.mem_cons, List.mem_append] at hg
  rcases hg with hg | hg | hg | hg
  · split at hg
    · rw [List.mem_singleton] at hg
      subst hg
      split at hb
      · exact spotOf_from hb
      · cases hb
    · cases hg
  · subst hg; exact spotOf_from hb
  · unfold callerSpots at hg
    obtain ⟨f, hf, he⟩ := List.mem_filterMap.1 hg
    obtain ⟨c, h1, h2⟩ := Option.bind_eq_some_iff.1 he
    split at h2
    · cases h2
      cases hb
      have hf := (List.mem_filter.1 (List.mem_of_mem_drop hf)).1
      split at hf
      · exact chain_from hf h1
      · exact chain_from ((List.takeWhile_sublist _).subset hf) h1
    · cases h2
  · unfold branchSpots at hg
    obtain ⟨r, -, he⟩ := List.mem_filterMap.1 hg
    obtain ⟨c, h1, rfl⟩ := Option.map_eq_some_iff.1 he
    cases hb
    exact areaFor_from h1

end Verif.Whole
