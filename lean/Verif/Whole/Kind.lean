import Verif.Whole.Settle
import Verif.Whole.Finish

/-! Which kind of message an event of each type becomes. -/

namespace Verif.Whole
open Verif.Serial Verif.Event Verif.Attr Verif.Data Verif.File

/-- A message made from an event has the kind of its type; a mapping without the members that identify a file has zeros there. -/
def BodyKind (type misc : Nat) : Body → Prop
  | .sample _ => type = 9
  | .mmap b => type = 1 ∧ (b.maj = 0 ∧ b.min = 0 ∧ b.ino = 0 ∧ b.inoGeneration = 0) ∨
      type = 10 ∧ (misc.testBit 14 = true → b.maj = 0 ∧ b.min = 0 ∧ b.ino = 0 ∧ b.inoGeneration = 0)
  | .comm _ => type = 3
  | .exit _ => type = 4
  | .fork _ => type = 7
  | .ksymbol _ => type = 17
  | _ => type ∉ [1, 3, 4, 7, 9, 10, 17]

theorem readMMap_kind {env : Serial.Env} {e : RawEvent} {m : Serial.MMap} (h : readMMap env e = some m) :
    m.maj = 0 ∧ m.min = 0 ∧ m.ino = 0 ∧ m.inoGeneration = 0 := by
  unfold readMMap at h
  simp only [Option.bind_eq_bind, Option.bind_eq_some_iff] at h
  obtain ⟨a, h1, b, -, c, h3, d, h4, f, h5, g, -, h⟩ := h
  cases h
  exact ⟨rfl, rfl, rfl, rfl⟩

theorem readMMap2_kind {env : Serial.Env} {e : RawEvent} {m : Serial.MMap} (h : readMMap2 env e = some (some m)) (ht : e.misc.testBit 14 = true) :
    m.maj = 0 ∧ m.min = 0 ∧ m.ino = 0 ∧ m.inoGeneration = 0 := by
  unfold readMMap2 at h
  simp only [Option.bind_eq_bind, Option.bind_eq_some_iff, ht, if_true] at h
  obtain ⟨a, h1, b, -, c, h3, d, h4, f, h5, h⟩ := h
  obtain ⟨n, -, h⟩ := h
  split at h
  · cases h
  · simp only [Option.bind_eq_some_iff] at h
    obtain ⟨x, -, p, -, q, -, r, -, h⟩ := h
    cases h
    exact ⟨rfl, rfl, rfl, rfl⟩

theorem readBody_kind {env : Serial.Env} {ser : Ser} {e : RawEvent} {b : Body} (h : readBody env ser e = some (some b)) :
    BodyKind e.type e.misc b := by
  have hw : ∀ {α : Type} {x : Option α} {f : α → SampleInfo → Body}, withInfo ser e x f = some (some b) →
      (∀ a i, BodyKind e.type e.misc (f a i)) → BodyKind e.type e.misc b := by
    intro α x f h hf
    obtain ⟨a, i, -, rfl⟩ := withInfo_ok h
    exact hf a i
  have hp : ∀ {α : Type} {x : Option α} {f : α → Body}, plain x f = some (some b) →
      (∀ a, BodyKind e.type e.misc (f a)) → BodyKind e.type e.misc b := by
    intro α x f h hf
    obtain ⟨a, -, rfl⟩ := plain_ok h
    exact hf a
  have hn : ∀ {b : Body}, e.type ∉ [1, 3, 4, 7, 9, 10, 17] →
      (∀ x, b ≠ .sample x) → (∀ x, b ≠ .mmap x) → (∀ x, b ≠ .comm x) → (∀ x, b ≠ .exit x) → (∀ x, b ≠ .fork x) → (∀ x, b ≠ .ksymbol x) →
      BodyKind e.type e.misc b := by
    intro b h h1 h2 h3 h4 h5 h6
    cases b
    case sample x => exact absurd rfl (h1 x)
    case mmap x => exact absurd rfl (h2 x)
    case comm x => exact absurd rfl (h3 x)
    case exit x => exact absurd rfl (h4 x)
    case fork x => exact absurd rfl (h5 x)
    case ksymbol x => exact absurd rfl (h6 x)
    all_goals exact h
  unfold readBody at h
  rcases either h with ⟨ht, h⟩ | ⟨n9, h⟩
  · obtain ⟨s, -, h2⟩ := Option.map_eq_some_iff.1 h
    obtain ⟨s', -, h3⟩ := Option.map_eq_some_iff.1 h2
    subst h3
    exact ht
  rcases either h with ⟨ht, h⟩ | ⟨n1, h⟩
  · obtain ⟨a, i, hx, rfl⟩ := withInfo_ok h
    have k := readMMap_kind hx
    exact .inl ⟨ht, k.1, k.2.1, k.2.2.1, k.2.2.2⟩
  rcases either h with ⟨ht, h⟩ | ⟨n10, h⟩
  · cases hx : readMMap2 env e with
    | none => rw [hx] at h; cases h
    | some y =>
      cases y with
      | none => rw [hx] at h; cases h
      | some m =>
        rw [hx] at h
        obtain ⟨a, i, ha, rfl⟩ := withInfo_ok h
        cases ha
        refine .inr ⟨ht, fun h14 => ?_⟩
        have k := readMMap2_kind hx h14
        exact ⟨k.1, k.2.1, k.2.2.1, k.2.2.2⟩
  rcases either h with ⟨ht, h⟩ | ⟨n3, h⟩
  · exact hw h fun _ _ => ht
  rcases either h with ⟨ht, h⟩ | ⟨n4, h⟩
  · exact hw h fun _ _ => ht
  rcases either h with ⟨ht, h⟩ | ⟨n7, h⟩
  · exact hw h fun _ _ => ht
  have fin : ∀ {n : Nat}, e.type = n → n ∉ [1, 3, 4, 7, 9, 10, 17] → e.type ∉ [1, 3, 4, 7, 9, 10, 17] := fun h h' => by rw [h]; exact h'
  rcases either h with ⟨ht, h⟩ | ⟨-, h⟩
  · exact hw h fun _ _ => fin ht (by decide)
  rcases either h with ⟨ht, h⟩ | ⟨-, h⟩
  · exact hw h fun _ _ => ht.elim (fun ht => fin ht (by decide)) (fun ht => fin ht (by decide))
  rcases either h with ⟨ht, h⟩ | ⟨-, h⟩
  · exact hw h fun _ _ => fin ht (by decide)
  rcases either h with ⟨ht, h⟩ | ⟨-, h⟩
  · exact hw h fun _ _ => fin ht (by decide)
  rcases either h with ⟨ht, h⟩ | ⟨-, h⟩
  · exact hw h fun _ _ => fin ht (by decide)
  rcases either h with ⟨ht, h⟩ | ⟨-, h⟩
  · exact hw h fun _ _ => ht.elim (fun ht => fin ht (by decide)) (fun ht => fin ht (by decide))
  rcases either h with ⟨ht, h⟩ | ⟨-, h⟩
  · exact hw h fun _ _ => fin ht (by decide)
  rcases either h with ⟨ht, h⟩ | ⟨-, h⟩
  · exact hw h fun _ _ => fin ht (by decide)
  rcases either h with ⟨ht, h⟩ | ⟨n17, h⟩
  · exact hw h fun _ _ => ht
  rcases either h with ⟨ht, h⟩ | ⟨-, h⟩
  · exact hw h fun _ _ => fin ht (by decide)
  rcases either h with ⟨ht, h⟩ | ⟨-, h⟩
  · exact hp h fun _ => fin ht (by decide)
  rcases either h with ⟨ht, h⟩ | ⟨-, h⟩
  · exact hp h fun _ => fin ht (by decide)
  rcases either h with ⟨ht, h⟩ | ⟨-, h⟩
  · exact hp h fun _ => fin ht (by decide)
  rcases either h with ⟨ht, h⟩ | ⟨-, h⟩
  · exact hp h fun _ => fin ht (by decide)
  rcases either h with ⟨ht, h⟩ | ⟨-, h⟩
  · exact hp h fun _ => fin ht (by decide)
  rcases either h with ⟨ht, h⟩ | ⟨-, h⟩
  · exact hp h fun _ => fin ht (by decide)
  rcases either h with ⟨ht, h⟩ | ⟨-, h⟩
  · exact hp h fun _ => fin ht (by decide)
  rcases either h with ⟨ht, h⟩ | ⟨-, h⟩
  · exact hp h fun _ => fin ht (by decide)
  rcases either h with ⟨ht, h⟩ | ⟨-, h⟩
  · exact hp h fun _ => fin ht (by decide)
  cases h
  show e.type ∉ [1, 3, 4, 7, 9, 10, 17]
  simp only [List.mem_cons, List.not_mem_nil, or_false]
  intro hm
  rcases hm with hm | hm | hm | hm | hm | hm | hm
  · exact n1 hm
  · exact n3 hm
  · exact n4 hm
  · exact n7 hm
  · exact n9 hm
  · exact n10 hm
  · exact n17 hm

/-- The kind of a message. -/
abbrev Kind (m : Msg) : Prop := BodyKind m.type m.misc m.body

theorem kind_from : FromEvents Kind := by
  refine ⟨fun _ _ h => ?_, fun a ht _ => ?_⟩
  · unfold Serial.serialize at h
    split at h
    · cases h
    · cases h
    · rename_i hb
      cases h
      exact readBody_kind hb
  · show _ ∉ _
    simp only [ht]
    decide

/-- Every message read from any bytes has the kind of its type. -/
theorem read_kind {cfg : Cfg} {b : Serial.Bytes} {st : Data.St} (h : readBytes cfg b = some (some st)) : ∀ m ∈ st.events, Kind m :=
  read_all kind_from h

theorem putMap_hugeMap {inode : Bool} {b : Serial.MMap} (h : inode = false → b.maj = 0 ∧ b.min = 0 ∧ b.ino = 0 ∧ b.inoGeneration = 0) :
    putMap (hugeMap inode b) b = b := by
  cases inode with
  | true => rfl
  | false =>
    obtain ⟨h1, h2, h3, h4⟩ := h rfl
    obtain ⟨pid, tid, start, len, pgoff, maj, min, ino, gen, id, prot, flags, name, md5, root, rmd5, info⟩ := b
    simp only at h1 h2 h3 h4
    subst h1 h2 h3 h4
    rfl

theorem clean_kind {m : Msg} (h : Kind m) : clean m = m := by
  obtain ⟨type, misc, size, body, time⟩ := m
  cases body with
  | mmap b =>
    have e : clean ⟨type, misc, size, .mmap b, time⟩ = ⟨type, misc, size, .mmap (putMap (hugeMap (hasInode ⟨type, misc, size, .mmap b, time⟩) b) b), time⟩ := rfl
    rw [e, putMap_hugeMap]
    intro hi
    rcases h with ⟨-, h⟩ | ⟨h1, h⟩
    · exact h
    · refine h ?_
      have h1 : type = 10 := h1
      subst h1
      unfold hasInode at hi
      simpa using hi
  | _ => rfl

/-! ## What the parser gets -/

theorem Steady.perm {l l' : List Msg} (h : Steady l) (hp : l'.Perm l) : Steady l' :=
  ⟨fun m hm => h.named m (hp.mem_iff.1 hm), fun m hm => h.small m (hp.mem_iff.1 hm),
    fun m hm m' hm' => h.apart m (hp.mem_iff.1 hm) m' (hp.mem_iff.1 hm')⟩

theorem deduce_same {M : Machine} {l : List Msg} (hs : Steady l) (hk : ∀ m ∈ l, Kind m) : deduce M l = some l := by
  rw [deduce_steady hs]
  have : l.map clean = l := by
    conv => rhs; rw [← List.map_id l]
    exact List.map_congr_left fun m hm => clean_kind (hk m hm)
  rw [this]

theorem combine_same {l : List Msg} (hs : Steady l) (hk : ∀ m ∈ l, Kind m) : combine l = l := by
  have : l.map clean = l := by
    conv => rhs; rw [← List.map_id l]
    exact List.map_congr_left fun m hm => clean_kind (hk m hm)
  have h := combine_steady hs
  rw [this] at h
  exact h

/-- The order in which the events are looked at. -/
def ordered (sort : Bool) (i : Meta.Info) (l : List Msg) : List Msg := if sort = true then sortEvents i l else l

theorem ordered_perm (sort : Bool) (i : Meta.Info) (l : List Msg) : (ordered sort i l).Perm l := by
  unfold ordered
  split
  · exact sort_perm i l
  · exact .refl _

/-- The steps before the parser, with any options. -/
theorem prep_parts {M : Machine} {O : Parser.Opts} {sort huge comb : Bool} {i : Meta.Info} {l : List Msg} (hl : ∀ m ∈ l, Shaped m)
    {r : List Msg × Parser.Stats} (h : parseEvents M O sort huge comb i l = some r) :
    ∃ l3 P, Parser.parse O (views parserView 0 l3) = some P ∧ r = parsed l3 P ∧ (∀ m ∈ l3, Shaped m) ∧
      l3.filter notMap = (ordered sort i l).filter notMap ∧
      ((huge = false ∧ comb = false) ∨ Steady l ∧ (∀ m ∈ l, Kind m) → l3 = ordered sort i l) := by
  rw [parseEvents_eq] at h
  have hp := ordered_perm sort i l
  change (if huge = true then deduce M (ordered sort i l) else some (ordered sort i l)).bind _ = _ at h
  generalize ordered sort i l = l1 at h hp
  have hl1 : ∀ m ∈ l1, Shaped m := fun m hm => hl m (hp.mem_iff.1 hm)
  obtain ⟨l2, h2, h⟩ := Option.bind_eq_some_iff.1 h
  obtain ⟨P, h4, h⟩ := Option.bind_eq_some_iff.1 h
  have s2 : l2.filter notMap = l1.filter notMap ∧ ∀ m ∈ l2, Shaped m := by
    split at h2
    · have := deduce_spec h2
      exact ⟨this.1, this.2 hl1⟩
    · cases h2; exact ⟨rfl, hl1⟩
  refine ⟨_, P, h4, (Option.some.inj h).symm, ?_, ?_, ?_⟩
  · split
    · exact (combine_spec l2).2 s2.2
    · exact s2.2
  · split
    · exact (combine_spec l2).1.trans s2.1
    · exact s2.1
  · rintro (⟨rfl, rfl⟩ | ⟨hs, hk⟩)
    · cases h2; rfl
    · have hs1 := hs.perm hp
      have hk1 : ∀ m ∈ l1, Kind m := fun m hm => hk m (hp.mem_iff.1 hm)
      have e2 : l2 = l1 := by
        split at h2
        · rw [deduce_same hs1 hk1] at h2
          exact (Option.some.inj h2).symm
        · exact (Option.some.inj h2).symm
      subst e2
      split
      · exact combine_same hs1 hk1
      · rfl

/-- A recording whose mappings are in order gets through the parser, with any options but that to discard mappings. -/
theorem prep_any {M : Machine} (hM : ∀ l, (M.order l).Perm l) (hk : ∃ k, k ≤ 60 ∧ M.page = 2 ^ k) {O : Parser.Opts} (hO : O.page = M.page)
    (hd : O.discard = false) (sort huge comb : Bool) (i : Meta.Info) {l : List Msg}
    (hsh : ∀ m ∈ l, Shaped m) (hsz : ∀ m ∈ l, Sized m) (ht : Tidy M.page l) :
    ∃ l3 P S, parseEvents M O sort huge comb i l = some (parsed l3 P) ∧ Parser.parse O (views parserView 0 l3) = some P ∧
      Parser.Sensible O S (views parserView 0 l3) ∧ (∀ m ∈ l3, Shaped m) ∧ l3.filter notMap = (ordered sort i l).filter notMap ∧
      ((huge = false ∧ comb = false) ∨ Steady l ∧ (∀ m ∈ l, Kind m) → l3 = ordered sort i l) ∧
      (∀ m ∈ l3, ∀ b, m.body = .mmap b → b.start + b.len < 2 ^ 64) ∧
      ∃ l2, (if huge = true then deduce M (ordered sort i l) else some (ordered sort i l)) = some l2 ∧ l3 = if comb = true then combine l2 else l2 := by
  have hw : M.page ∣ 2 ^ 64 := by
    obtain ⟨k, h1, h2⟩ := hk
    rw [h2]
    exact Nat.pow_dvd_pow 2 (by omega)
  obtain ⟨hR, hkept⟩ := ht.kept hw hsz
  generalize (mapsIn l).map (fun m => (m.start, m.len)) = R at hR hkept
  have hp := ordered_perm sort i l
  obtain ⟨s1, s2⟩ := sum_lens l
  have q1 := (hp.map lenMsg).sum_nat
  have q2 := (hp.map oneMsg).sum_nat
  have h1 : ∃ l1, l1 = ordered sort i l := ⟨_, rfl⟩
  obtain ⟨l1, h1⟩ := h1
  rw [← h1] at hp q1 q2
  obtain ⟨l2, e2, k2, n2, o2, d1, sh2⟩ : ∃ l2, (if huge = true then deduce M l1 else some l1) = some l2 ∧ (∀ m ∈ l2, MsgKept M.page R m) ∧
      (l2.map lenMsg).sum ≤ (l1.map lenMsg).sum ∧ (l2.map oneMsg).sum ≤ (l1.map oneMsg).sum ∧ l2.filter notMap = l1.filter notMap ∧
      ∀ m ∈ l2, Shaped m := by
    cases huge with
    | true =>
      obtain ⟨l2, h2, k2, n2, o2⟩ := deduce_kept hM hR (l := l1) (fun m hm => hsh m (hp.mem_iff.1 hm)) (fun m hm => hsz m (hp.mem_iff.1 hm))
        (fun m hm => hkept m (hp.mem_iff.1 hm))
      obtain ⟨d1, d2⟩ := deduce_spec h2
      exact ⟨l2, h2, k2, n2, o2, d1, d2 (fun m hm => hsh m (hp.mem_iff.1 hm))⟩
    | false =>
      exact ⟨l1, rfl, fun m hm => hkept m (hp.mem_iff.1 hm), Nat.le_refl _, Nat.le_refl _, rfl, fun m hm => hsh m (hp.mem_iff.1 hm)⟩
  obtain ⟨l3, e3⟩ : ∃ l3, l3 = if comb = true then combine l2 else l2 := ⟨_, rfl⟩
  obtain ⟨k3, n3, o3, c1, sh3⟩ : (∀ m ∈ l3, MsgKept M.page R m) ∧ (l3.map lenMsg).sum ≤ (l2.map lenMsg).sum ∧
      (l3.map oneMsg).sum ≤ (l2.map oneMsg).sum ∧ l3.filter notMap = l2.filter notMap ∧ ∀ m ∈ l3, Shaped m := by
    rw [e3]
    cases comb with
    | true =>
      obtain ⟨c1, c2⟩ := combine_spec l2
      obtain ⟨k3, n3, o3⟩ := combine_msgs hR k2
      exact ⟨k3, n3, o3, c1, c2 sh2⟩
    | false => exact ⟨k2, Nat.le_refl _, Nat.le_refl _, rfl, sh2⟩
  have hpars : Parsable M.page R l3 := ⟨sh3, k3, fun m hm s hs => by
      have hn : notMap m = true := by unfold notMap; rw [hs]
      have : m ∈ l1.filter notMap := by
        rw [← d1, ← c1]
        exact List.mem_filter.2 ⟨hm, hn⟩
      exact (hsz m (hp.mem_iff.1 (List.mem_filter.1 this).1)).address s hs⟩
  have hroom : (l3.map oneMsg).sum * ((l3.map lenMsg).sum + 6 * M.page) < 2 ^ 64 := by
    refine Nat.lt_of_le_of_lt (Nat.mul_le_mul (Nat.le_trans o3 (Nat.le_trans o2 (Nat.le_of_eq q2)))
      (Nat.add_le_add_right (Nat.le_trans n3 (Nat.le_trans n2 (Nat.le_of_eq q1))) _)) ?_
    rw [s1, s2]
    exact ht.room
  obtain ⟨P, hP⟩ := parses hR (O := O) hO hk hd hpars hroom
  refine ⟨l3, P, _, ?_, hP, sensible hO hk hpars hroom, sh3, by rw [c1, d1, h1], ?_, fun m hm b hb => (k3 m hm b hb).stop, l2, by rw [← h1]; exact e2, e3⟩
  rotate_left
  · rintro (⟨rfl, rfl⟩ | ⟨hs, hk⟩)
    · cases e2; rw [e3, h1]; rfl
    · have hs1 := hs.perm hp
      have hk1 : ∀ m ∈ l1, Kind m := fun m hm => hk m (hp.mem_iff.1 hm)
      have e2' : l2 = l1 := by
        split at e2
        · rw [deduce_same hs1 hk1] at e2
          exact (Option.some.inj e2).symm
        · exact (Option.some.inj e2).symm
      subst e2'
      rw [e3, ← h1]
      split
      · exact combine_same hs1 hk1
      · rfl
  rw [parseEvents_eq]
  change (if huge = true then deduce M (ordered sort i l) else some (ordered sort i l)).bind _ = _
  rw [← h1, e2]
  simp only [Option.bind_some]
  rw [← e3, hP]
  rfl

/-- Events in the order of their times. -/
theorem sort_timeline (i : Meta.Info) (l : List Msg) : Timeline i.attrs l (sortEvents i l) := by
  by_cases h : ∀ a ∈ i.attrs, a.attr.sampleType.testBit 2 = true
  · exact .inl ⟨h, (sort_stable h l).1, (sort_stable h l).2⟩
  · have h2 : ∃ a ∈ i.attrs, a.attr.sampleType.testBit 2 = false := Classical.not_not.1 fun hn => h fun a ha => by
      cases e : a.attr.sampleType.testBit 2 with
      | true => rfl
      | false => exact absurd ⟨a, ha, e⟩ hn
    exact .inr ⟨h2, (timeline_sort (.inr ⟨h2, rfl⟩)).symm⟩

end Verif.Whole
