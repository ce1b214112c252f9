import Verif.Whole.Counts

/-! The sums over the events of a recording. -/

namespace Verif.Whole
open Verif.Serial (Msg Body)
open Verif.Normalizer (Config Ev eventIndexFor)

def attrRec (a : Attr.ProtoFileAttr) : Normalizer.AttrRec :=
  { ids := a.ids, commExec := a.attr.flags.testBit 24, samplePeriod := a.attr.samplePeriod }

theorem owner_eq {M : Machine} {i : Meta.Info} {l : List Msg} {cfg : Config} (h : Normalizer.mkConfig (normInput M i l) = some cfg)
    (id : Option Nat) : eventIndexFor cfg id = owner i.attrs id := by
  obtain ⟨h1, h2⟩ := Normalizer.eventIndex_spec _ cfg h id
  have hlen : (normInput M i l).attrs.length = i.attrs.length := by simp [normInput]
  rw [hlen] at h1 h2
  have hget : ∀ k : Nat, (normInput M i l).attrs[k]? = (i.attrs[k]?).map attrRec := by
    intro k; simp [normInput]; rfl
  unfold owner
  by_cases hone : i.attrs.length = 1
  · rw [if_pos hone, h1 hone]
  · rw [if_neg hone]
    apply Option.ext
    intro k
    rw [h2 hone]
    cases id with
    | none => simp
    | some x =>
      simp only [Option.some.injEq, exists_eq_left', Option.bind_some]
      constructor
      · rintro ⟨a, ha, hx, hl⟩
        rw [hget] at ha
        obtain ⟨b, hb, rfl⟩ := Option.map_eq_some_iff.1 ha
        have hlt : k < i.attrs.length := (List.getElem?_eq_some_iff.1 hb).1
        rw [List.find?_eq_some_iff_append]
        refine ⟨by simp [hb]; exact hx, ((List.range (i.attrs.length - (k + 1))).map (k + 1 + ·)).reverse, (List.range k).reverse, ?_, ?_⟩
        · rw [show i.attrs.length = (k + 1) + (i.attrs.length - (k + 1)) by omega, List.range_add, List.reverse_append,
            List.range_succ, List.reverse_append]
          simp
        · intro j hj
          rw [List.mem_reverse, List.mem_map] at hj
          obtain ⟨d, hd, rfl⟩ := hj
          have hd := List.mem_range.1 hd
          have hjl : k + 1 + d < i.attrs.length := by omega
          have := hl (k + 1 + d) (attrRec (i.attrs[k + 1 + d])) (by omega) (by rw [hget, List.getElem?_eq_getElem hjl]; rfl)
          simp only [attrRec] at this
          simp [List.getElem?_eq_getElem hjl, this]
      · intro hf
        obtain ⟨hp, as, bs, hspl, hn⟩ := List.find?_eq_some_iff_append.1 hf
        cases hb : i.attrs[k]? with
        | none => rw [hb] at hp; cases hp
        | some b =>
          rw [hb] at hp
          refine ⟨_, by rw [hget, hb]; rfl, by simpa [attrRec] using hp, ?_⟩
          intro k' a' hlt ha'
          rw [hget] at ha'
          obtain ⟨b', hb', rfl⟩ := Option.map_eq_some_iff.1 ha'
          have hlt' : k' < i.attrs.length := (List.getElem?_eq_some_iff.1 hb').1
          have hsorted : (List.range i.attrs.length).reverse.Pairwise (fun x y => y < x) := by
            rw [List.pairwise_reverse]
            exact List.pairwise_lt_range
          have hmem : k' ∈ (List.range i.attrs.length).reverse := by simpa using hlt'
          rw [hspl] at hsorted hmem
          rw [List.pairwise_append] at hsorted
          rcases List.mem_append.1 hmem with hm | hm
          · have := hn k' hm
            simpa [hb', attrRec] using this
          · rcases List.mem_cons.1 hm with rfl | hm
            · omega
            · have := (List.pairwise_cons.1 hsorted.2.1).1 k' hm
              omega

/-- The counted samples of a list of messages. -/
theorem counted_tally {cfg : Config} {attrs : List Attr.ProtoFileAttr} (hi : ∀ id, eventIndexFor cfg id = owner attrs id)
    (options k : Nat) (m : Msg) :
    ((tally cfg (normView m)).filter (counted options k)) =
      (periods attrs cfg.hasSpe cfg.traceBase k m).map (fun p => (k, false, p)) ++
        List.replicate (if options.testBit 4 then 0 else losses cfg.useLostSample attrs k m) (k, true, 0) := by
  have hrep : ∀ (n : Nat) (x : Key), (List.replicate n x).filter (counted options k) =
      if counted options k x then List.replicate n x else [] := by
    intro n x
    cases hx : counted options k x with
    | true => rw [List.filter_replicate_of_pos hx]; rfl
    | false => rw [List.filter_replicate_of_neg (by simp [hx])]; rfl
  have hz : ∀ {x : Key}, List.replicate (if options.testBit 4 = true then 0 else 0) x = [] := by intro x; simp
  have hlost : ∀ (l : Normalizer.LostEv), (lostTally cfg l).filter (counted options k) =
      List.replicate (if options.testBit 4 then 0 else if owner attrs (some l.id) = some k then l.num else 0) (k, true, 0) := by
    intro l
    unfold lostTally
    rw [hi]
    cases ho : owner attrs (some l.id) with
    | none => simp
    | some j =>
      simp only
      rw [hrep]
      by_cases hj : j = k
      · subst hj
        cases hb : options.testBit 4 <;> simp [counted, hb]
      · simp [counted, hj]
  unfold tally normView periods losses
  cases hb : m.body with
  | sample s =>
    simp only [hz, List.append_nil, normSample]
    rw [hi]
    cases ho : owner attrs s.id with
    | none => simp
    | some j =>
      by_cases hj : j = k
      · subst hj; simp [counted]
      · simp [counted, hj]
  | auxtrace a =>
    simp only [hz, List.append_nil]
    cases hs : cfg.hasSpe with
    | false => simp
    | true =>
      simp only [if_true, true_and]
      rw [hrep]
      by_cases hk : k = 0
      · subst hk; simp [counted]
      · have : ¬ 0 = k := fun h => hk h.symm
        simp [counted, hk, this]
  | lostSamples l =>
    cases hu : cfg.useLostSample with
    | false => simp
    | true =>
      simp only [if_true, List.map_nil, List.nil_append, true_and]
      exact hlost _
  | lost l =>
    cases hu : cfg.useLostSample with
    | true => simp
    | false =>
      simp only [Bool.false_eq_true, if_false, List.map_nil, List.nil_append, true_and]
      exact hlost _
  | _ => simp

/-- The sum of a function over the counted samples. -/
theorem counted_sum {cfg : Config} {attrs : List Attr.ProtoFileAttr} (hi : ∀ id, eventIndexFor cfg id = owner attrs id)
    (options k : Nat) (w : Key → Nat) (l : List Msg) :
    (((l.flatMap (fun m => tally cfg (normView m))).filter (counted options k)).map w).sum =
      ((l.flatMap (periods attrs cfg.hasSpe cfg.traceBase k)).map (fun p => w (k, false, p))).sum +
        (if options.testBit 4 then 0 else (l.map (losses cfg.useLostSample attrs k)).sum) * w (k, true, 0) := by
  induction l with
  | nil => simp
  | cons m l ih =>
    simp only [List.flatMap_cons, List.filter_append, List.map_append, List.sum_append, ih, counted_tally hi, List.map_map,
      List.map_replicate, List.sum_replicate_nat, List.map_cons, List.sum_cons]
    have : ∀ a b c d e f g : Nat, a = c → (b + d) * f = g → a + b * f + (e + d * f) = c + e + g := by
      intro a b c d e f g h1 h2
      rw [← h2, h1, Nat.add_mul]
      omega
    refine this _ _ _ _ _ _ _ rfl ?_
    cases options.testBit 4 <;> simp

/-! ## Through the steps -/

theorem any_perm {α : Type} {p : α → Bool} {l l' : List α} (h : l.Perm l') : l.any p = l'.any p := by
  rw [Bool.eq_iff_iff, List.any_eq_true, List.any_eq_true]
  exact ⟨fun ⟨x, hx, hp⟩ => ⟨x, h.mem_iff.1 hx, hp⟩, fun ⟨x, hx, hp⟩ => ⟨x, h.mem_iff.2 hx, hp⟩⟩

theorem any_filter {α : Type} {p q : α → Bool} {l : List α} (h : ∀ x, q x = false → p x = false) : (l.filter q).any p = l.any p := by
  induction l with
  | nil => rfl
  | cons x l ih =>
    cases hq : q x with
    | true => rw [List.filter_cons_of_pos hq, List.any_cons, List.any_cons, ih]
    | false => rw [List.filter_cons_of_neg (by simp [hq]), List.any_cons, h x hq, ih, Bool.false_or]

theorem flatMap_filter {α β : Type} {f : α → List β} {q : α → Bool} {l : List α} (h : ∀ x, q x = false → f x = []) :
    (l.filter q).flatMap f = l.flatMap f := by
  induction l with
  | nil => rfl
  | cons x l ih =>
    cases hq : q x with
    | true => rw [List.filter_cons_of_pos hq, List.flatMap_cons, List.flatMap_cons, ih]
    | false => rw [List.filter_cons_of_neg (by simp [hq]), List.flatMap_cons, h x hq, ih, List.nil_append]

/-- Whatever is told from the events that are not mappings, in any order, is told from the events as they were read. -/
theorem same_any {l l' s : List Msg} (hs : s.Perm l) (h : (l'.filter notMap).map normView = (s.filter notMap).map normView)
    (p : Ev → Bool) (hp : ∀ m, p (.mmap m) = false) : (l'.map normView).any p = (l.map normView).any p := by
  have hq : ∀ m : Msg, notMap m = false → (p ∘ normView) m = false := by
    intro m hm
    obtain ⟨b, hb⟩ := notMap_false hm
    simp only [Function.comp, normView, hb, hp]
  have e1 : ∀ x : List Msg, (x.map normView).any p = ((x.filter notMap).map normView).any p := by
    intro x
    rw [List.any_map, List.any_map, any_filter hq]
  rw [e1 l', h, ← e1 s]
  exact any_perm (hs.map _)

theorem same_tally {l l' s : List Msg} (hs : s.Perm l) (h : (l'.filter notMap).map normView = (s.filter notMap).map normView)
    (cfg : Config) : ((l'.map normView).flatMap (tally cfg)).Perm (l.flatMap (fun m => tally cfg (normView m))) := by
  have hq : ∀ m : Msg, notMap m = false → tally cfg (normView m) = [] := by
    intro m hm
    obtain ⟨b, hb⟩ := notMap_false hm
    simp only [normView, hb, tally]
  have e1 : ∀ x : List Msg, x.flatMap (fun m => tally cfg (normView m)) = ((x.filter notMap).map normView).flatMap (tally cfg) := by
    intro x
    rw [List.flatMap_map, flatMap_filter hq]
  rw [List.flatMap_map, e1 l', h, ← e1 s]
  exact List.Perm.flatMap_right _ hs

theorem speTrace_eq (l : List Msg) : Normalizer.hasSpe (l.map normView) = speTrace l := by
  unfold Normalizer.hasSpe speTrace
  rw [List.any_map]
  congr 1
  funext m
  simp only [Function.comp, normView]
  cases m.body <;> rfl

end Verif.Whole
