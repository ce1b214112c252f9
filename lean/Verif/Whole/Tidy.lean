import Verif.Whole.Prep2
import Verif.Whole.Sized
import Verif.HugePages.Deduce

/-! What sorting and the treatment of mappings leave of mappings that are in order. -/

namespace Verif.Whole
open Verif.Serial (Msg Body)

/-! ## Specification -/

/-- The mappings of a recording. -/
def mapsIn (l : List Msg) : List Serial.MMap := l.filterMap (fun m => match m.body with | .mmap b => some b | _ => none)

/-- Two mappings that neither meet nor adjoin. -/
def Apart (a b : Serial.MMap) : Prop := a.start + a.len < b.start ∨ b.start + b.len < a.start

/-- The mappings are in order: none is empty, goes over the end of memory or over its middle; they begin at pages, and end at pages unless they
are apart from all mappings of other places; and all of them together are not too large. -/
structure Tidy (page : Nat) (l : List Msg) : Prop where
  range : ∀ m ∈ mapsIn l, 0 < m.len ∧ m.start + m.len < 2 ^ 64 ∧ (m.start + m.len ≤ 2 ^ 63 ∨ 2 ^ 63 < m.start)
  start : ∀ m ∈ mapsIn l, page ∣ m.start ∧ page ∣ m.pgoff
  stop : ∀ m ∈ mapsIn l, page ∣ m.len ∨ ∀ o ∈ mapsIn l, (o.start = m.start ∧ o.len = m.len) ∨ Apart o m
  room : (mapsIn l).length * (((mapsIn l).map (·.len)).sum + 6 * page) < 2 ^ 64

/-! ## The invariant -/

/-- What stays true of a mapping: it covers only what mappings of the recording cover (`R` are their places), and begins and ends where one
begins and ends. -/
structure Kept (page : Nat) (R : List (Nat × Nat)) (m : HugePages.MMap) : Prop where
  pos : 0 < m.len
  stop : m.start + m.len < 2 ^ 64
  half : m.start + m.len ≤ 2 ^ 63 ∨ 2 ^ 63 < m.start
  start : page ∣ m.start
  pgoff : page ∣ m.pgoff
  buildId : ∀ x, m.buildId = some x → x.length ≤ 40
  cover : (page ∣ m.len ∧ (∃ o ∈ R, o.1 = m.start) ∧ (∃ o ∈ R, o.1 + o.2 = m.start + m.len) ∧
      ∀ x, m.start ≤ x → x < m.start + m.len → ∃ o ∈ R, page ∣ o.2 ∧ o.1 ≤ x ∧ x < o.1 + o.2) ∨
    (¬ page ∣ m.len ∧ (m.start, m.len) ∈ R)

/-- The places: those that do not end at a page are apart from the others. -/
structure Places (page : Nat) (R : List (Nat × Nat)) : Prop where
  wrap : page ∣ 2 ^ 64
  apart : ∀ r ∈ R, ¬ page ∣ r.2 → ∀ o ∈ R, o = r ∨ o.1 + o.2 < r.1 ∨ r.1 + r.2 < o.1

variable {page : Nat} {R : List (Nat × Nat)}

theorem Kept.first {m : HugePages.MMap} (h : Kept page R m) : ∃ o ∈ R, o.1 = m.start := by
  rcases h.cover with ⟨-, h, -⟩ | ⟨-, h⟩
  · exact h
  · exact ⟨_, h, rfl⟩

theorem Kept.last {m : HugePages.MMap} (h : Kept page R m) : ∃ o ∈ R, o.1 + o.2 = m.start + m.len := by
  rcases h.cover with ⟨-, -, h, -⟩ | ⟨-, h⟩
  · exact h
  · exact ⟨_, h, rfl⟩

/-- Two mappings that adjoin end at pages. -/
theorem adjoin (hR : Places page R) {p m : HugePages.MMap} (hp : Kept page R p) (hm : Kept page R m) (h : p.start + p.len = m.start) :
    page ∣ p.len ∧ page ∣ m.len := by
  constructor
  · rcases hp.cover with ⟨h1, -⟩ | ⟨h1, h2⟩
    · exact h1
    · obtain ⟨o, ho, e⟩ := hm.first
      have := hp.pos
      rcases hR.apart _ h2 h1 o ho with rfl | h3 | h3
      · simp only at e; omega
      · simp only at h3; omega
      · simp only at h3; omega
  · rcases hm.cover with ⟨h1, -⟩ | ⟨h1, h2⟩
    · exact h1
    · obtain ⟨o, ho, e⟩ := hp.last
      have := hm.pos
      rcases hR.apart _ h2 h1 o ho with rfl | h3 | h3
      · simp only at e; omega
      · simp only at h3; omega
      · simp only at h3; omega

theorem dvd_wrap (hp : page ∣ 2 ^ 64) {n : Nat} : page ∣ n % 2 ^ 64 ↔ page ∣ n := Nat.dvd_mod_iff hp

theorem merged_kept (hR : Places page R) {p m : HugePages.MMap} (hp : Kept page R p) (hm : Kept page R m) (h : p.start + p.len = m.start)
    {n : HugePages.MMap} (h1 : n.start = p.start) (h2 : n.len = HugePages.add64 p.len m.len) (h3 : page ∣ n.pgoff)
    (h4 : ∀ x, n.buildId = some x → x.length ≤ 40) : Kept page R n := by
  obtain ⟨d1, d2⟩ := adjoin hR hp hm h
  have p1 := hp.pos
  have p2 := hp.stop
  have p3 := hp.half
  have m1 := hm.pos
  have m2 := hm.stop
  have m3 := hm.half
  have hl : n.len = p.len + m.len := by
    rw [h2]
    unfold HugePages.add64
    exact Nat.mod_eq_of_lt (by omega)
  have cover : ∀ {m : HugePages.MMap}, Kept page R m → page ∣ m.len → ∀ x, m.start ≤ x → x < m.start + m.len →
      ∃ o ∈ R, page ∣ o.2 ∧ o.1 ≤ x ∧ x < o.1 + o.2 := by
    intro m hm hd
    rcases hm.cover with ⟨-, -, -, h⟩ | ⟨h, -⟩
    · exact h
    · exact absurd hd h
  refine ⟨by omega, by omega, by omega, by rw [h1]; exact hp.start, h3, h4, .inl ⟨?_, ?_, ?_, fun x hx1 hx2 => ?_⟩⟩
  · rw [hl]; exact Nat.dvd_add d1 d2
  · rw [h1]; exact hp.first
  · obtain ⟨o, ho, e⟩ := hm.last
    exact ⟨o, ho, by omega⟩
  · by_cases hx : x < p.start + p.len
    · exact cover hp d1 x (by omega) hx
    · exact cover hm d2 x (by omega) (by omega)

/-- The mapping of an event is as it should be. -/
def EvKept (page : Nat) (R : List (Nat × Nat)) (e : HugePages.Ev) : Prop := ∀ m, e.mmap = some m → Kept page R m

theorem merge_kept (hR : Places page R) {prev e : HugePages.Ev} {p m : HugePages.MMap} (hp : prev.mmap = some p) (hm : e.mmap = some m)
    (hs : HugePages.shouldMerge p m = true) (h1 : EvKept page R prev) (h2 : EvKept page R e) : EvKept page R (HugePages.merge prev p m) := by
  have kp := h1 p hp
  have km := h2 m hm
  have hc : p.start + p.len = m.start := by
    unfold HugePages.shouldMerge HugePages.vmaContiguous at hs
    simp only [Bool.and_eq_true, beq_iff_eq] at hs
    have := hs.2.2
    unfold HugePages.add64 at this
    rwa [Nat.mod_eq_of_lt kp.stop] at this
  intro n hn
  unfold HugePages.merge at hn
  split at hn
  · cases hn
    refine merged_kept hR kp km hc rfl rfl ?_ ?_
    · simp only
      unfold HugePages.sub64
      rw [dvd_wrap hR.wrap]
      have := kp.stop
      exact Nat.dvd_sub (Nat.dvd_add km.pgoff hR.wrap) (adjoin hR kp km hc).1
    · intro x hx
      simp only at hx
      cases hb : m.buildId with
      | some y => rw [hb] at hx; exact km.buildId x (by rw [hb]; exact hx)
      | none => rw [hb] at hx; exact kp.buildId x hx
  · cases hn
    exact merged_kept hR kp km hc rfl rfl kp.pgoff kp.buildId

/-! ## Combining -/

theorem sum_set {α : Type} (w : α → Nat) : ∀ {l : List α} {i : Nat} {a b : α}, l[i]? = some a →
    ((l.set i b).map w).sum + w a = (l.map w).sum + w b
  | [], _, _, _, h => by cases h
  | x :: l, 0, a, b, h => by
    simp only [List.getElem?_cons_zero, Option.some.injEq] at h
    subst h
    simp only [List.set_cons_zero, List.map_cons, List.sum_cons]
    omega
  | x :: l, i + 1, a, b, h => by
    rw [List.getElem?_cons_succ] at h
    have := sum_set w (b := b) h
    simp only [List.set_cons_succ, List.map_cons, List.sum_cons]
    omega

theorem combine_fold (Q : HugePages.Ev → Prop) (w : HugePages.Ev → Nat)
    (hQ : ∀ prev p m e, prev.mmap = some p → e.mmap = some m → HugePages.shouldMerge p m = true → Q prev → Q e → Q (HugePages.merge prev p m))
    (hw : ∀ prev p m e, prev.mmap = some p → e.mmap = some m → w (HugePages.merge prev p m) ≤ w prev + w e) :
    ∀ (l out : List HugePages.Ev) (f : Nat → Option Nat), (∀ e ∈ out, Q e) → (∀ e ∈ l, Q e) →
      (∀ e ∈ (l.foldl HugePages.combineStep (out, f)).1, Q e) ∧
      ((l.foldl HugePages.combineStep (out, f)).1.map w).sum ≤ (out.map w).sum + (l.map w).sum
  | [], out, f, ho, _ => ⟨ho, by simp⟩
  | e :: l, out, f, ho, hl => by
    have he := hl e List.mem_cons_self
    have step : ∃ out' f', HugePages.combineStep (out, f) e = (out', f') ∧ (∀ e ∈ out', Q e) ∧ (out'.map w).sum ≤ (out.map w).sum + w e := by
      have hadd : (∀ x ∈ out ++ [e], Q x) ∧ ((out ++ [e]).map w).sum ≤ (out.map w).sum + w e := by
        refine ⟨fun x hx => ?_, by simp⟩
        rcases List.mem_append.1 hx with hx | hx
        · exact ho x hx
        · rw [List.mem_singleton.1 hx]; exact he
      unfold HugePages.combineStep
      split
      · exact ⟨_, _, rfl, hadd⟩
      · rename_i m hm
        simp only
        split
        · exact ⟨_, _, rfl, hadd⟩
        · rename_i i hi
          split
          · exact ⟨_, _, rfl, hadd⟩
          · rename_i prev hprev
            split
            · exact ⟨_, _, rfl, hadd⟩
            · rename_i p hp
              split
              · rename_i hs
                refine ⟨_, _, rfl, fun x hx => ?_, ?_⟩
                · rcases mem_set hx with rfl | hx
                  · exact hQ prev p m e hp hm hs (ho prev (List.mem_of_getElem? hprev)) he
                  · exact ho x hx
                · have h1 := sum_set w (b := HugePages.merge prev p m) hprev
                  have h2 := hw prev p m e hp hm
                  omega
              · exact ⟨_, _, rfl, hadd⟩
    obtain ⟨out', f', h1, h2, h3⟩ := step
    rw [List.foldl_cons, h1]
    obtain ⟨k1, k2⟩ := combine_fold Q w hQ hw l out' f' h2 (fun x hx => hl x (List.mem_cons_of_mem _ hx))
    refine ⟨k1, ?_⟩
    rw [List.map_cons, List.sum_cons]
    omega

/-- The length of the mapping of an event. -/
def lenEv (e : HugePages.Ev) : Nat := (e.mmap.map (·.len)).getD 0

/-- One for a mapping. -/
def oneEv (e : HugePages.Ev) : Nat := if e.mmap.isSome then 1 else 0

theorem combine_kept (hR : Places page R) {es : List HugePages.Ev} (h : ∀ e ∈ es, EvKept page R e) :
    (∀ e ∈ HugePages.combineMappings es, EvKept page R e) ∧ ((HugePages.combineMappings es).map lenEv).sum ≤ (es.map lenEv).sum ∧
      ((HugePages.combineMappings es).map oneEv).sum ≤ (es.map oneEv).sum := by
  have hQ : ∀ prev p m (e : HugePages.Ev), prev.mmap = some p → e.mmap = some m → HugePages.shouldMerge p m = true →
      EvKept page R prev → EvKept page R e → EvKept page R (HugePages.merge prev p m) :=
    fun prev p m e h1 h2 h3 h4 h5 => merge_kept hR h1 h2 h3 h4 h5
  have k1 := combine_fold (EvKept page R) lenEv hQ (fun prev p m e h1 h2 => by
    unfold lenEv HugePages.merge
    rw [h1, h2]
    have : HugePages.add64 p.len m.len ≤ p.len + m.len := Nat.mod_le _ _
    split <;> exact this) es [] (fun _ => none) (fun _ h => by cases h) h
  have k2 := combine_fold (EvKept page R) oneEv hQ (fun prev p m e h1 h2 => by
    unfold oneEv HugePages.merge
    rw [h1, h2]
    split <;> exact (by decide : 1 ≤ 1 + 1)) es [] (fun _ => none) (fun _ h => by cases h) h
  refine ⟨k1.1, ?_, ?_⟩
  · have := k1.2; rwa [List.map_nil, List.sum_nil, Nat.zero_add] at this
  · have := k2.2; rwa [List.map_nil, List.sum_nil, Nat.zero_add] at this

/-! ## Huge pages -/

theorem change_kept (hR : Places page R) {later : List HugePages.Ev} {e e' : HugePages.Ev} (h : HugePages.Change later e e')
    (he : EvKept page R e) (hl : ∀ e ∈ later, EvKept page R e) : EvKept page R e' ∧ lenEv e' = lenEv e ∧ oneEv e' = oneEv e := by
  rcases h with rfl | ⟨m, m', n, ne, h1, h2, h3, h4, -, -, -, hr, -⟩
  · exact ⟨he, rfl, rfl⟩
  · have km := he m h1
    have kn := hl ne h3 n h4
    refine ⟨fun x hx => ?_, ?_, ?_⟩
    · rw [h2] at hx
      cases hx
      obtain ⟨a1, a2, a3, a4, a5, a6, a7⟩ := km
      refine ⟨by rw [hr.len]; exact a1, by rw [hr.start, hr.len]; exact a2, by rw [hr.start, hr.len]; exact a3, by rw [hr.start]; exact a4, ?_, ?_,
        by rw [hr.start, hr.len]; exact a7⟩
      · have := hr.pgoff
        split at this
        · have h5 : page ∣ m'.pgoff + n.start := by
            rw [← dvd_wrap hR.wrap, this.2, dvd_wrap hR.wrap]
            exact Nat.dvd_add kn.pgoff a4
          exact (Nat.dvd_add_left kn.start).1 h5
        · rw [this]; exact a5
      · intro x hx
        rcases hr.buildId with h | ⟨-, h⟩
        · exact kn.buildId x (h ▸ hx)
        · exact a6 x (h ▸ hx)
    · unfold lenEv; rw [h1, h2]; exact hr.len
    · unfold oneEv; rw [h1, h2]; rfl

theorem changed_kept (hR : Places page R) : ∀ {es es' : List HugePages.Ev}, HugePages.Changed es es' → (∀ e ∈ es, EvKept page R e) →
    (∀ e ∈ es', EvKept page R e) ∧ (es'.map lenEv).sum = (es.map lenEv).sum ∧ (es'.map oneEv).sum = (es.map oneEv).sum
  | [], [], _, h => ⟨h, rfl, rfl⟩
  | e :: es, e' :: es', ⟨hc, hcs⟩, h => by
    obtain ⟨k1, k2, k3⟩ := change_kept hR hc (h e List.mem_cons_self) (fun x hx => h x (List.mem_cons_of_mem _ hx))
    obtain ⟨j1, j2, j3⟩ := changed_kept hR hcs (fun x hx => h x (List.mem_cons_of_mem _ hx))
    refine ⟨fun x hx => ?_, by simp only [List.map_cons, List.sum_cons, j2, k2], by simp only [List.map_cons, List.sum_cons, j3, k3]⟩
    rcases List.mem_cons.1 hx with rfl | hx
    · exact k1
    · exact j1 x hx

/-! ## The messages -/

/-- The mapping of a message is as it should be. -/
def MsgKept (page : Nat) (R : List (Nat × Nat)) (m : Msg) : Prop := ∀ b, m.body = .mmap b → Kept page R (hugeMap true b)

/-- The length of the mapping of a message. -/
def lenMsg (m : Msg) : Nat := match m.body with | .mmap b => b.len | _ => 0

/-- One for a mapping. -/
def oneMsg (m : Msg) : Nat := match m.body with | .mmap _ => 1 | _ => 0

theorem sum_lens (l : List Msg) : (l.map lenMsg).sum = ((mapsIn l).map (·.len)).sum ∧ (l.map oneMsg).sum = (mapsIn l).length := by
  induction l with
  | nil => exact ⟨rfl, rfl⟩
  | cons m l ih =>
    unfold mapsIn at ih ⊢
    obtain ⟨type, misc, size, body, time⟩ := m
    cases body <;> simp only [List.map_cons, List.sum_cons, List.filterMap_cons, lenMsg, oneMsg, ih.1, ih.2, List.length_cons, Nat.zero_add, true_and, Nat.add_comm 1]

theorem kept_like {m m' : HugePages.MMap} (h : Kept page R m) (h1 : m'.start = m.start) (h2 : m'.len = m.len) (h3 : m'.pgoff = m.pgoff)
    (h4 : m'.buildId = m.buildId) : Kept page R m' := by
  obtain ⟨a1, a2, a3, a4, a5, a6, a7⟩ := h
  exact ⟨by rw [h2]; exact a1, by rw [h1, h2]; exact a2, by rw [h1, h2]; exact a3, by rw [h1]; exact a4, by rw [h3]; exact a5,
    by rw [h4]; exact a6, by rw [h1, h2]; exact a7⟩

/-- A view that shows the place of a mapping. -/
structure Shows (f : Nat → Msg → HugePages.Ev) : Prop extends IsView f where
  shows : ∀ i m h, (f i m).mmap = some h → ∃ b, m.body = .mmap b ∧ h.start = b.start ∧ h.len = b.len ∧ h.pgoff = b.pgoff ∧ h.buildId = b.buildId

theorem Shows.kept {f : Nat → Msg → HugePages.Ev} (hf : Shows f) {l : List Msg} (h : ∀ m ∈ l, MsgKept page R m) :
    ∀ e ∈ views f 0 l, EvKept page R e := by
  intro e he
  obtain ⟨i, m, h1, -, -, rfl⟩ := views_mem he
  intro x hx
  obtain ⟨b, hb, e1, e2, e3, e4⟩ := hf.shows i m x hx
  exact kept_like (h m h1 b hb) e1 e2 e3 e4

theorem Shows.mass {f : Nat → Msg → HugePages.Ev} (hf : Shows f) : ∀ (n : Nat) (l : List Msg), ((views f n l).map lenEv).sum = (l.map lenMsg).sum ∧
    ((views f n l).map oneEv).sum = (l.map oneMsg).sum
  | _, [] => ⟨rfl, rfl⟩
  | n, m :: l => by
    have ih := hf.mass (n + 1) l
    have h1 : lenEv (f n m) = lenMsg m ∧ oneEv (f n m) = oneMsg m := by
      have := hf.isMap n m
      unfold notMap at this
      cases hm : (f n m).mmap with
      | none =>
        rw [hm] at this
        unfold lenEv oneEv lenMsg oneMsg
        rw [hm]
        split at this
        · cases this
        · rename_i hb
          cases hbd : m.body with
          | mmap b => exact absurd hbd (hb b)
          | _ => exact ⟨rfl, rfl⟩
      | some h =>
        obtain ⟨b, hb, -, e2, -⟩ := hf.shows n m h hm
        unfold lenEv oneEv lenMsg oneMsg
        rw [hm, hb]
        exact ⟨e2, rfl⟩
    simp only [views, List.map_cons, List.sum_cons, ih.1, ih.2, h1.1, h1.2, and_self]

theorem fromHuge_mem {f : Nat → Msg → HugePages.Ev} (hf : IsView f) {l : List Msg} {e : HugePages.Ev} {m : Msg}
    (hs : ∃ e0 ∈ views f 0 l, Stays e0 e) (hm : l[e.other]? = some m) : e.mmap.isNone = notMap m := by
  obtain ⟨e0, h0, hs⟩ := hs
  obtain ⟨i, x, -, -, h3, rfl⟩ := views_mem h0
  rw [hs.1, hf.place] at hm
  rw [Nat.sub_zero, hm] at h3
  cases h3
  rw [← hf.isMap i m]
  cases hv : (f i m).mmap with
  | none => rw [hs.2.1 hv, hv]
  | some x =>
    have := hs.2.2 (by rw [hv]; simp)
    cases he : e.mmap with
    | none => exact absurd he this
    | some y => rfl

theorem fromHuge_kept {f : Nat → Msg → HugePages.Ev} (hf : IsView f) {l : List Msg} {es : List HugePages.Ev}
    (hs : ∀ e ∈ es, ∃ e0 ∈ views f 0 l, Stays e0 e) (h : ∀ e ∈ es, EvKept page R e) :
    (∀ m ∈ fromHuge l es, MsgKept page R m) ∧ ((fromHuge l es).map lenMsg).sum ≤ (es.map lenEv).sum ∧
      ((fromHuge l es).map oneMsg).sum ≤ (es.map oneEv).sum := by
  unfold fromHuge
  induction es with
  | nil => exact ⟨fun _ h => (by cases h), Nat.le_refl _, Nat.le_refl _⟩
  | cons e es ih =>
    obtain ⟨k1, k2, k3⟩ := ih (fun x hx => hs x (List.mem_cons_of_mem _ hx)) (fun x hx => h x (List.mem_cons_of_mem _ hx))
    cases hm : l[e.other]? with
    | none =>
      rw [List.filterMap_cons_none (by rw [hm]; rfl)]
      simp only [List.map_cons, List.sum_cons]
      exact ⟨k1, by omega, by omega⟩
    | some m =>
      rw [List.filterMap_cons_some (by rw [hm]; rfl)]
      have hn := fromHuge_mem hf (hs e List.mem_cons_self) hm
      have one : MsgKept page R (putHuge e m) ∧ lenMsg (putHuge e m) ≤ lenEv e ∧ oneMsg (putHuge e m) ≤ oneEv e := by
        cases he : e.mmap with
        | none =>
          rw [he] at hn
          have hn : notMap m = true := hn.symm
          rw [putHuge_same hn]
          unfold notMap at hn
          split at hn
          · cases hn
          · rename_i hb
            refine ⟨fun b h => absurd h (hb b), ?_, ?_⟩
            · unfold lenMsg
              split
              · rename_i b h; exact absurd h (hb b)
              · exact Nat.zero_le _
            · unfold oneMsg
              split
              · rename_i b h; exact absurd h (hb b)
              · exact Nat.zero_le _
        | some x =>
          rw [he] at hn
          obtain ⟨b, hb⟩ := notMap_false (m := m) hn.symm
          have hp : putHuge e m = { m with size := e.size, body := .mmap (putMap x b) } := by
            unfold putHuge
            rw [he, hb]
          rw [hp]
          refine ⟨fun b' hb' => ?_, ?_, ?_⟩
          · cases hb'
            exact kept_like (h e List.mem_cons_self x he) rfl rfl rfl rfl
          · unfold lenEv; rw [he]; exact Nat.le_refl _
          · unfold oneEv; rw [he]; exact Nat.le_refl _
      simp only [List.map_cons, List.sum_cons]
      refine ⟨fun x hx => ?_, by have := one.2.1; omega, by have := one.2.2; omega⟩
      rcases List.mem_cons.1 hx with rfl | hx
      · exact one.1
      · exact k1 x hx

theorem hugeView_shows : Shows hugeView := by
  refine ⟨hugeView_view, fun i m h hh => ?_⟩
  unfold hugeView at hh
  simp only at hh
  split at hh
  · rename_i b hb
    cases hh
    exact ⟨b, hb, rfl, rfl, rfl, rfl⟩
  · cases hh

theorem combView_shows : Shows combView := by
  refine ⟨combView_view, fun i m h hh => ?_⟩
  unfold combView at hh
  split at hh
  · rename_i b hb
    cases hh
    rw [hb]
    exact ⟨b, rfl, rfl, rfl, rfl, rfl⟩
  · exact hugeView_shows.shows i m h hh

theorem startKeys_nodup : ∀ l : List HugePages.Ev, (startKeys l).Nodup
  | [] => .nil
  | e :: l => by
    unfold startKeys
    split
    · split
      · rename_i h; exact List.nodup_cons.2 ⟨h.2, startKeys_nodup l⟩
      · exact startKeys_nodup l
    · exact startKeys_nodup l

/-- What is left of the mappings by the search for huge pages. -/
theorem deduce_kept {M : Machine} (hM : ∀ l, (M.order l).Perm l) (hR : Places page R) {l : List Msg} (hsh : ∀ m ∈ l, Shaped m) (hsz : ∀ m ∈ l, Sized m)
    (h : ∀ m ∈ l, MsgKept page R m) : ∃ l', deduce M l = some l' ∧ (∀ m ∈ l', MsgKept page R m) ∧ (l'.map lenMsg).sum ≤ (l.map lenMsg).sum ∧
      (l'.map oneMsg).sum ≤ (l.map oneMsg).sum := by
  obtain ⟨es', h1, -, h2⟩ := HugePages.deduce_relabels (M.order (startKeys (views hugeView 0 l))) (views hugeView 0 l)
    ((hM _).nodup_iff.2 (startKeys_nodup _)) (fun e he x hx => by
      obtain ⟨i, m, hm, -, -, rfl⟩ := views_mem he
      unfold hugeView at hx
      simp only at hx
      split at hx
      · rename_i b hb
        cases hx
        obtain ⟨-, k2, k3, k4⟩ := (hsh m hm).range b hb
        have k5 := (hsz m hm).name b hb
        have k6 := (hsz m hm).size
        refine ⟨k2, k3, k4, ?_, ?_⟩
        · show b.filename.length < 2 ^ 32
          omega
        · show m.size < 2 ^ 32
          omega
      · cases hx)
  have hd : deduce M l = some (fromHuge l es') := by
    unfold deduce
    simp only [h1, Option.map_some]
  obtain ⟨k1, k2, k3⟩ := changed_kept hR h2 (hugeView_shows.kept h)
  obtain ⟨j1, j2, j3⟩ := fromHuge_kept hugeView_view (combined_of (deduce_stays _ _ _ h1).1).from_ k1
  obtain ⟨m1, m2⟩ := hugeView_shows.mass 0 l
  exact ⟨_, hd, j1, by omega, by omega⟩

/-- What is left of the mappings by the merging. -/
theorem combine_msgs (hR : Places page R) {l : List Msg} (h : ∀ m ∈ l, MsgKept page R m) :
    (∀ m ∈ combine l, MsgKept page R m) ∧ ((combine l).map lenMsg).sum ≤ (l.map lenMsg).sum ∧ ((combine l).map oneMsg).sum ≤ (l.map oneMsg).sum := by
  have e : combine l = fromHuge l (HugePages.combineMappings (views combView 0 l)) := rfl
  rw [e]
  obtain ⟨k1, k2, k3⟩ := combine_kept hR (combView_shows.kept h)
  obtain ⟨j1, j2, j3⟩ := fromHuge_kept combView_view (combine_stays _).from_ k1
  obtain ⟨m1, m2⟩ := combView_shows.mass 0 l
  exact ⟨j1, by omega, by omega⟩

/-- The places of the mappings of a recording in order. -/
theorem Tidy.kept {page : Nat} {l : List Msg} (hp : page ∣ 2 ^ 64) (h : Tidy page l) (hs : ∀ m ∈ l, Sized m) :
    Places page ((mapsIn l).map (fun m => (m.start, m.len))) ∧ ∀ m ∈ l, MsgKept page ((mapsIn l).map (fun m => (m.start, m.len))) m := by
  refine ⟨⟨hp, fun r hr hn o ho => ?_⟩, fun m hm b hb => ?_⟩
  · obtain ⟨a, ha, rfl⟩ := List.mem_map.1 hr
    obtain ⟨c, hc, rfl⟩ := List.mem_map.1 ho
    rcases h.stop a ha with h1 | h1
    · exact absurd h1 hn
    · rcases h1 c hc with ⟨h2, h3⟩ | h2
      · exact .inl (by rw [h2, h3])
      · exact .inr h2
  · have hb' : b ∈ mapsIn l := by
      unfold mapsIn
      exact List.mem_filterMap.2 ⟨m, hm, by rw [hb]⟩
    obtain ⟨h1, h2, h3⟩ := h.range b hb'
    obtain ⟨h4, h5⟩ := h.start b hb'
    have hmem : (b.start, b.len) ∈ (mapsIn l).map (fun m => (m.start, m.len)) := List.mem_map.2 ⟨b, hb', rfl⟩
    refine ⟨h1, h2, h3, h4, h5, (hs m hm).buildId b hb, ?_⟩
    by_cases hd : page ∣ b.len
    · exact .inl ⟨hd, ⟨_, hmem, rfl⟩, ⟨_, hmem, rfl⟩, fun x hx1 hx2 => ⟨_, hmem, hd, hx1, hx2⟩⟩
    · exact .inr ⟨hd, hmem⟩

end Verif.Whole
