import Verif.Whole.StackSpec
import Verif.Whole.Order
import Verif.HugePages.DeduceLemmas

/-!
# Recordings in which nothing is changed before the conversion
-/

namespace Verif.Whole
open Verif.Serial (Msg Body)

/-- A mapping goes on where another one of the same process and the same file ends, in memory and in the file. -/
def Continues (a b : Serial.MMap) : Prop :=
  a.pid = b.pid ∧ a.filename = b.filename ∧ (a.start + a.len) % 2 ^ 64 = b.start ∧ (a.pgoff + a.len) % 2 ^ 64 = b.pgoff

instance (a b : Serial.MMap) : Decidable (Continues a b) := inferInstanceAs (Decidable (_ ∧ _))

/-- The mappings of a recording have names, unless they are not where programs used to be loaded, none of them that of a huge page, and none goes on where another one, or itself, ends. -/
structure Steady (l : List Msg) : Prop where
  named : ∀ m ∈ l, ∀ b, areaOf m = some b → Nameable b
  small : ∀ m ∈ l, ∀ b, m.body = .mmap b → ¬ HugePages.HugeName b.filename
  apart : ∀ m ∈ l, ∀ m' ∈ l, ∀ b b', m.body = .mmap b → m'.body = .mmap b' → ¬ Continues b b'

theorem small_huge {h : HugePages.MMap} (hn : ¬ HugePages.HugeName h.filename) : HugePages.isHugePage h = false := by
  cases e : HugePages.isHugePage h with
  | true => exact absurd ((HugePages.isHugePage_iff h).1 e) hn
  | false => rfl

theorem go_small : ∀ {l : List HugePages.Item} {pre : Option HugePages.MMap}, (∀ x ∈ l, HugePages.isHugePage x.1 = false) →
    HugePages.go pre [] l = some l
  | [], _, _ => rfl
  | x :: l, pre, h => by
    have hx := h x List.mem_cons_self
    unfold HugePages.go
    rw [if_neg (by rw [hx]; decide)]
    simp only [List.head?_nil]
    rw [go_small (fun y hy => h y (List.mem_cons_of_mem _ hy))]
    rfl

theorem scatter_gather : ∀ (bs : List Bool) (es : List HugePages.Ev), HugePages.scatter bs es (HugePages.gather bs es) = es
  | [], es => by cases es <;> rfl
  | _ :: _, [] => rfl
  | b :: bs, e :: es => by
    have ih := scatter_gather bs es
    cases b with
    | false => simp only [HugePages.gather, HugePages.scatter, ih]
    | true =>
      cases hm : e.mmap with
      | none => simp only [HugePages.gather, HugePages.scatter, hm, ih]
      | some m =>
        simp only [HugePages.gather, HugePages.scatter, hm, ih]
        congr 1
        obtain ⟨mm, t, s, o⟩ := e
        simp only at hm
        subst hm
        rfl

theorem gather_from : ∀ {bs : List Bool} {es : List HugePages.Ev} {x : HugePages.Item}, x ∈ HugePages.gather bs es → ∃ e ∈ es, e.mmap = some x.1
  | [], [], _, h => by cases h
  | [], _ :: _, _, h => by cases h
  | _ :: _, [], _, h => by cases h
  | b :: bs, e :: es, x, h => by
    have later : x ∈ HugePages.gather bs es → ∃ e' ∈ e :: es, e'.mmap = some x.1 := fun h => by
      obtain ⟨e', h1, h2⟩ := gather_from h
      exact ⟨e', List.mem_cons_of_mem _ h1, h2⟩
    cases b with
    | false => exact later h
    | true =>
      cases hm : e.mmap with
      | none => simp only [HugePages.gather, hm] at h; exact later h
      | some m =>
        simp only [HugePages.gather, hm, List.mem_cons] at h
        rcases h with rfl | h
        · exact ⟨e, List.mem_cons_self, hm⟩
        · exact later h

theorem deduce_small {es : List HugePages.Ev} (h : ∀ e ∈ es, ∀ m, e.mmap = some m → HugePages.isHugePage m = false) :
    ∀ order : List Nat, HugePages.deduceHugePages order es = some es
  | [] => rfl
  | k :: order => by
    unfold HugePages.deduceHugePages HugePages.deducePid
    rw [go_small (fun x hx => by
      obtain ⟨e, h1, h2⟩ := gather_from hx
      exact h e h1 _ h2)]
    simp only [Option.map_some, Option.bind_some, scatter_gather]
    exact deduce_small h order

theorem combine_apart_aux (all : List HugePages.Ev) (h : ∀ e ∈ all, ∀ e' ∈ all, ∀ m m', e.mmap = some m → e'.mmap = some m' →
    HugePages.shouldMerge m m' = false) : ∀ (es : List HugePages.Ev) (st : List HugePages.Ev × (Nat → Option Nat)),
    (∀ e ∈ es, e ∈ all) → (∀ e ∈ st.1, e ∈ all) → (es.foldl HugePages.combineStep st).1 = st.1 ++ es
  | [], st, _, _ => (List.append_nil _).symm
  | e :: es, st, he, hst => by
    have step : (HugePages.combineStep st e).1 = st.1 ++ [e] := by
      unfold HugePages.combineStep
      cases hm : e.mmap with
      | none => rfl
      | some m =>
        simp only
        cases hk : st.2 m.key with
        | none => rfl
        | some i =>
          simp only
          cases hi : st.1[i]? with
          | none => rfl
          | some prev =>
            simp only
            cases hp : prev.mmap with
            | none => rfl
            | some p =>
              simp only
              rw [h prev (hst _ (List.mem_of_getElem? hi)) e (he e List.mem_cons_self) p m hp hm]
              rfl
    rw [List.foldl_cons, combine_apart_aux all h es _ (fun x hx => he x (List.mem_cons_of_mem _ hx)) (fun x hx => by
      rw [step, List.mem_append, List.mem_singleton] at hx
      rcases hx with hx | rfl
      · exact hst x hx
      · exact he x List.mem_cons_self), step, List.append_assoc]
    rfl

theorem combine_apart {es : List HugePages.Ev} (h : ∀ e ∈ es, ∀ e' ∈ es, ∀ m m', e.mmap = some m → e'.mmap = some m' →
    HugePages.shouldMerge m m' = false) : HugePages.combineMappings es = es :=
  (combine_apart_aux es h es _ (fun _ h => h) (fun _ h => by cases h)).trans rfl

/-- What the deduction of huge pages does to other mappings: without members that identify a file these become 0. -/
def clean (m : Msg) : Msg := putHuge (hugeView 0 m) m

theorem putHuge_hugeView (i : Nat) (m : Msg) : putHuge (hugeView i m) m = clean m := by
  obtain ⟨type, misc, size, body, time⟩ := m
  cases body <;> rfl

theorem putHuge_combView (i : Nat) (m : Msg) : putHuge (combView i m) m = m := by
  obtain ⟨type, misc, size, body, time⟩ := m
  cases body <;> rfl

theorem clean_norm (m : Msg) : normView (clean m) = normView m := by
  obtain ⟨type, misc, size, body, time⟩ := m
  cases body <;> rfl

theorem clean_shaped {m : Msg} (h : Shaped m) : Shaped (clean m) := putHuge_shaped (hugeView_view.fine 0 m h) h

theorem deduce_steady {M : Machine} {l : List Msg} (hl : Steady l) : deduce M l = some (l.map clean) := by
  unfold deduce
  simp only
  rw [deduce_small (fun e he m hm => by
    obtain ⟨i, x, hx, -, -, rfl⟩ := views_mem he
    unfold hugeView at hm
    simp only at hm
    split at hm
    · rename_i b hb
      cases hm
      exact small_huge (hl.small x hx b hb)
    · cases hm)]
  simp only [Option.map_some]
  unfold fromHuge
  rw [views_back hugeView (·.other) putHuge (fun _ _ => rfl) l]
  rw [show (fun i m => putHuge (hugeView i m) m) = fun _ m => clean m from funext fun i => funext fun m => putHuge_hugeView i m]
  rw [views_map clean 0 l]

theorem merge_continues {a b : Serial.MMap} {x y : Bool} (hb : ¬ HugePages.HugeName b.filename) (ha : ¬ HugePages.HugeName a.filename)
    (h : ¬ Continues a b) : HugePages.shouldMerge (hugeMap x a) (hugeMap y b) = false := by
  cases hm : HugePages.shouldMerge (hugeMap x a) (hugeMap y b) with
  | false => rfl
  | true =>
    refine absurd ?_ h
    have ha' : HugePages.isHugePage (hugeMap x a) = false := small_huge ha
    have hb' : HugePages.isHugePage (hugeMap y b) = false := small_huge hb
    have hanon : HugePages.isAnon (hugeMap y b) = false := by
      cases e : HugePages.isAnon (hugeMap y b) with
      | false => rfl
      | true => unfold HugePages.isHugePage at hb'; rw [e] at hb'; cases hb'
    unfold HugePages.shouldMerge HugePages.equivalentFile HugePages.fileContiguous HugePages.vmaContiguous at hm
    rw [ha', hb', hanon] at hm
    simp only [Bool.and_eq_true, Bool.or_false, Bool.and_false, beq_iff_eq] at hm
    obtain ⟨⟨⟨⟨-, h1⟩, -⟩, h2, -⟩, h3, h4⟩ := hm
    exact ⟨h3, h1, h4, h2⟩

theorem combine_steady {l : List Msg} (hl : Steady l) : combine (l.map clean) = l.map clean := by
  have body : ∀ m ∈ l.map clean, ∀ b, m.body = .mmap b → ∃ m0 ∈ l, ∃ b0, m0.body = .mmap b0 ∧ b.pid = b0.pid ∧ b.filename = b0.filename ∧
      b.start = b0.start ∧ b.len = b0.len ∧ b.pgoff = b0.pgoff := by
    intro m hm b hb
    obtain ⟨m0, h0, rfl⟩ := List.mem_map.1 hm
    obtain ⟨type, misc, size, body, time⟩ := m0
    cases body with
    | mmap c => cases hb; exact ⟨_, h0, c, rfl, rfl, rfl, rfl, rfl, rfl⟩
    | _ => cases hb
  have e : combine (l.map clean) = fromHuge (l.map clean) (HugePages.combineMappings (views combView 0 (l.map clean))) := rfl
  rw [e, combine_apart]
  · unfold fromHuge
    rw [views_back combView (·.other) putHuge combView_view.place]
    rw [show (fun i m => putHuge (combView i m) m) = fun _ m => m from funext fun i => funext fun m => putHuge_combView i m]
    rw [views_map (fun m => m), List.map_id']
  · intro e he e' he' m m' hm hm'
    have key : ∀ {e : HugePages.Ev} {m : HugePages.MMap}, e ∈ views combView 0 (l.map clean) → e.mmap = some m →
        ∃ x ∈ l.map clean, ∃ b, x.body = .mmap b ∧ m = hugeMap true b := by
      intro e m he hm
      obtain ⟨i, x, hx, -, -, rfl⟩ := views_mem he
      refine ⟨x, hx, ?_⟩
      unfold combView at hm
      split at hm
      · rename_i b hb
        cases hm
        exact ⟨b, hb, by rw [hb]; rfl⟩
      · rename_i hno
        unfold hugeView at hm
        simp only at hm
        cases hm
    obtain ⟨x, hx, b, h1, rfl⟩ := key he hm
    obtain ⟨x', hx', b', h1', rfl⟩ := key he' hm'
    obtain ⟨x0, hx0, b0, k1, k2, k3, k4, k5, k6⟩ := body x hx b h1
    obtain ⟨x0', hx0', b0', k1', k2', k3', k4', k5', k6'⟩ := body x' hx' b' h1'
    refine merge_continues (by rw [k3']; exact hl.small _ hx0' _ k1') (by rw [k3]; exact hl.small _ hx0 _ k1) ?_
    unfold Continues
    rw [k2, k3, k4, k5, k6, k2', k3', k4', k6']
    exact hl.apart _ hx0 _ hx0' _ _ k1 k1'

/-- In a steady recording the events reach the converter as they are, in order of time. -/
theorem prep_steady {M : Machine} {options : Nat} {i : Meta.Info} {l : List Msg} (hl : ∀ m ∈ l, Shaped m) (hs : Steady l)
    {r : List Msg × Parser.Stats} (h : parseEvents M (rawOpts M options) true true true i l = some r) :
    r.1.map normView = (sortEvents i l).map normView := by
  rw [parseEvents_eq] at h
  simp only [if_true] at h
  have hp := sort_perm i l
  have hs' : Steady (sortEvents i l) :=
    ⟨fun m hm => hs.named m (hp.mem_iff.1 hm), fun m hm => hs.small m (hp.mem_iff.1 hm),
      fun m hm m' hm' => hs.apart m (hp.mem_iff.1 hm) m' (hp.mem_iff.1 hm')⟩
  rw [deduce_steady hs', Option.bind_some, combine_steady hs'] at h
  obtain ⟨R, h4, h⟩ := Option.bind_eq_some_iff.1 h
  have hl3 : ∀ m ∈ (sortEvents i l).map clean, Shaped m := by
    intro m hm
    obtain ⟨x, hx, rfl⟩ := List.mem_map.1 hm
    exact clean_shaped (hl x (hp.mem_iff.1 hx))
  have h5 : R.events = views parserView 0 ((sortEvents i l).map clean) := by
    refine Parser.parse_keep rfl rfl (fun e he => ?_) h4
    obtain ⟨k, m, hm, -, -, rfl⟩ := views_mem he
    intro ht
    obtain ⟨b, hb⟩ := (hl3 m hm).mmap ht
    simp [parserView, hb]
  have h6 : r.1 = ((sortEvents i l).map clean).map touch := by
    rw [← Option.some.inj h]
    unfold parsed
    simp only
    rw [h5, views_back parserView (·.rest) putParsed (fun _ _ => rfl)]
    rw [show (fun i m => putParsed (parserView i m) m) = fun _ m => touch m from funext fun i => funext fun m => putParsed_view i m]
    exact views_map touch 0 _
  rw [h6, List.map_map, List.map_map]
  refine List.map_congr_left fun m _ => ?_
  simp only [Function.comp, touch_norm, clean_norm]

/-- The events in the order in which they are looked at. -/
theorem timeline_sort {i : Meta.Info} {l t : List Msg} (h : Timeline i.attrs l t) : t = sortEvents i l := by
  rcases h with ⟨h1, h2, h3⟩ | ⟨⟨a, ha, ha'⟩, rfl⟩
  · obtain ⟨g1, g2⟩ := sort_stable h1 l
    exact order_unique (·.timestamp) h2 g1 (fun n => by rw [h3, g2])
  · have := (Names.sorted (namesData i t)).2.2.2.2 ⟨_, List.mem_map.2 ⟨a, ha, rfl⟩, ha'⟩
    unfold sortEvents
    rw [this]
    have hb := views_back nameView (·.rest) (fun _ m => m) (fun _ _ => rfl) t
    rw [views_map (fun m => m), List.map_id'] at hb
    simp only [Option.map_id'] at hb
    exact hb.symm

end Verif.Whole
