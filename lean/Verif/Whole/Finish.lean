import Verif.Whole.Accept
import Verif.Whole.Props3

/-! What the converter needs to finish. -/

namespace Verif.Whole
open Verif.Serial (Msg Body)

/-! ## Build IDs -/

theorem hex_no_nul (bs : Bytes) : (0 : UInt8) ∉ Util.rawDataToHexString bs := by
  have hd : ∀ n, n < 16 → Util.hexDigit n ≠ 0 := by decide +kernel
  induction bs with
  | nil => intro h; cases h
  | cons b t ih =>
    have := b.toNat_lt
    intro h
    simp only [Util.rawDataToHexString, List.cons_append, List.nil_append, List.mem_cons] at h
    rcases h with h | h | h
    · exact hd _ (by omega) h.symm
    · exact hd _ (by omega) h.symm
    · exact ih h

theorem hashes_short {md5 : Bytes → Nat} {ids : List (Bytes × Bytes)} {i : Meta.Info} {l : List Msg} (hi : ∀ b ∈ i.buildIds, b.hash.length < 2 ^ 63)
    (hids : ∀ x ∈ ids, x.2.length < 2 ^ 63) : ∀ b ∈ (withBuildIds md5 ids i l).buildIds, b.hash.length < 2 ^ 63 := by
  have hup : ∀ bs : List Names.BuildId, (∀ b ∈ bs, b.hash.length < 2 ^ 63) → ∀ b ∈ (Names.updateEntries ids bs).1, b.hash.length < 2 ^ 63 := by
    intro bs
    induction bs with
    | nil => intro _ b hb; cases hb
    | cons x t ih =>
      intro h
      have ih := ih (fun b hb => h b (List.mem_cons_of_mem _ hb))
      have hx := h x List.mem_cons_self
      unfold Names.updateEntries
      split
      · intro b hb
        rcases List.mem_cons.1 hb with rfl | hb
        · exact hx
        · exact ih b hb
      · rename_i s hs
        simp only
        split
        · intro b hb
          rcases List.mem_cons.1 hb with rfl | hb
          · have h1 := (Util.C15_writes_within s (List.replicate (s.length / 2) 0) (s.length / 2)).1
            have h2 := hids _ (Names.find_mem hs)
            simp only at h2 ⊢
            rw [h1, List.length_replicate]
            omega
          · exact ih b hb
        · exact h
  have hadd : ∀ (miscs : List (Bytes × Nat)) (up : List Bytes) (xs : List (Bytes × Bytes)), ∀ b ∈ (Names.addEntries md5 miscs up xs).1,
      b.hash.length < 2 ^ 63 := by
    intro miscs up xs
    induction xs with
    | nil => intro b hb; cases hb
    | cons x t ih =>
      obtain ⟨f, s⟩ := x
      unfold Names.addEntries
      split
      · exact ih
      · split
        · intro b hb; cases hb
        · rename_i e he
          intro b hb
          rcases List.mem_cons.1 hb with rfl | hb
          · unfold Names.newEntry at he
            simp only at he
            split at he
            · cases he
              simp only [List.length_take]
              have := (Util.C15_writes_within (Text.trimZeroes (Util.rawDataToHexString (Util.hexStringToRawData s (List.replicate 20 0) 20).2))
                (List.replicate 20 0) 20).1
              rw [List.length_replicate] at this
              omega
            · cases he
          · exact ih b hb
  have hinj : ∀ b ∈ (Names.injectBuildIDs md5 ids (namesData i l)).1.buildIds, b.hash.length < 2 ^ 63 := by
    unfold Names.injectBuildIDs
    simp only
    split
    · exact hup _ hi
    · intro b hb
      rcases List.mem_append.1 hb with hb | hb
      · exact hup _ hi b hb
      · exact hadd _ _ _ b hb
  intro b hb
  unfold withBuildIds Names.alternateNames at hb
  simp only at hb
  rcases List.mem_append.1 hb with hb | hb
  · exact hinj b hb
  · obtain ⟨x, hx, hb⟩ := List.mem_flatMap.1 hb
    obtain ⟨p, -, rfl⟩ := List.mem_map.1 hb
    exact hinj x hx

/-! ## The events that the converter gets -/

theorem parsed_touch {O : Parser.Opts} (hr : O.remap = false) (hd : O.discard = false) {l : List Msg} (hl : ∀ m ∈ l, Shaped m) {R : Parser.Result}
    (h : Parser.parse O (views parserView 0 l) = some R) : (parsed l R).1 = l.map touch := by
  have h5 : R.events = views parserView 0 l := by
    refine Parser.parse_keep hr hd (fun e he => ?_) h
    obtain ⟨k, m, hm, -, -, rfl⟩ := views_mem he
    intro ht
    obtain ⟨b, hb⟩ := (hl m hm).mmap ht
    simp [parserView, hb]
  unfold parsed
  simp only
  rw [h5, views_back parserView (·.rest) putParsed (fun _ _ => rfl) l]
  rw [show (fun i m => putParsed (parserView i m) m) = fun _ m => touch m from funext fun i => funext fun m => putParsed_view i m]
  exact views_map touch 0 l

theorem touch_kept {page : Nat} {R : List (Nat × Nat)} {m : Msg} (h : MsgKept page R m) : MsgKept page R (touch m) := by
  obtain ⟨type, misc, size, body, time⟩ := m
  cases body <;> try exact h
  intro b hb
  cases hb

/-- A recording whose mappings are in order gets through the steps before the converter. -/
theorem prep_total {M : Machine} (hM : ∀ l, (M.order l).Perm l) (hk : ∃ k, k ≤ 60 ∧ M.page = 2 ^ k) (options : Nat) (i : Meta.Info) {l : List Msg}
    (hsh : ∀ m ∈ l, Shaped m) (hsz : ∀ m ∈ l, Sized m) (ht : Tidy M.page l) :
    ∃ r R, parseEvents M (rawOpts M options) true true true i l = some r ∧ ∀ m ∈ r.1, MsgKept M.page R m := by
  have hw : M.page ∣ 2 ^ 64 := by
    obtain ⟨k, h1, h2⟩ := hk
    rw [h2]
    exact Nat.pow_dvd_pow 2 (by omega)
  obtain ⟨hR, hkept⟩ := ht.kept hw hsz
  generalize (mapsIn l).map (fun m => (m.start, m.len)) = R at hR hkept
  have hp := sort_perm i l
  obtain ⟨l2, h2, k2, n2, o2⟩ := deduce_kept hM hR (l := sortEvents i l) (fun m hm => hsh m (hp.mem_iff.1 hm)) (fun m hm => hsz m (hp.mem_iff.1 hm))
    (fun m hm => hkept m (hp.mem_iff.1 hm))
  obtain ⟨d1, d2⟩ := deduce_spec h2
  have sh2 := d2 (fun m hm => hsh m (hp.mem_iff.1 hm))
  obtain ⟨c1, c2⟩ := combine_spec l2
  have sh3 := c2 sh2
  obtain ⟨k3, n3, o3⟩ := combine_msgs hR k2
  obtain ⟨s1, s2⟩ := sum_lens l
  have q1 := (hp.map lenMsg).sum_nat
  have q2 := (hp.map oneMsg).sum_nat
  obtain ⟨P, hP⟩ := parses hR (O := rawOpts M options) rfl hk rfl ⟨sh3, k3, fun m hm s hs => by
      have hn : notMap m = true := by unfold notMap; rw [hs]
      have : m ∈ (sortEvents i l).filter notMap := by
        rw [← d1, ← c1]
        exact List.mem_filter.2 ⟨hm, hn⟩
      exact (hsz m (hp.mem_iff.1 (List.mem_filter.1 this).1)).address s hs⟩ (by
    refine Nat.lt_of_le_of_lt (Nat.mul_le_mul (Nat.le_trans o3 (Nat.le_trans o2 (Nat.le_of_eq q2)))
      (Nat.add_le_add_right (Nat.le_trans n3 (Nat.le_trans n2 (Nat.le_of_eq q1))) _)) ?_
    rw [s1, s2]
    exact ht.room)
  refine ⟨parsed (combine l2) P, R, ?_, ?_⟩
  · rw [parseEvents_eq]
    simp only [if_true]
    rw [h2]
    simp only [Option.bind_some, hP]
  · rw [parsed_touch (O := rawOpts M options) rfl rfl sh3 hP]
    intro m hm
    obtain ⟨x, hx, rfl⟩ := List.mem_map.1 hm
    exact touch_kept (k3 x hx)

/-! ## Weights -/

theorem sum_at (n : Nat) (g : Nat → Nat) {i : Nat} (v : Nat) (h : i < n) :
    ((List.range n).map (fun k => g k + if i = k then v else 0)).sum = ((List.range n).map g).sum + v := by
  have none : ∀ n, n ≤ i → ((List.range n).map (fun k => g k + if i = k then v else 0)).sum = ((List.range n).map g).sum := by
    intro n hn
    induction n with
    | zero => rfl
    | succ n ih =>
      rw [List.range_succ, List.map_append, List.map_append, List.sum_append, List.sum_append, ih (by omega)]
      simp only [List.map_cons, List.map_nil, List.sum_cons, List.sum_nil]
      rw [if_neg (by omega), Nat.add_zero]
  induction n with
  | zero => omega
  | succ n ih =>
    rw [List.range_succ, List.map_append, List.map_append, List.sum_append, List.sum_append]
    simp only [List.map_cons, List.map_nil, List.sum_cons, List.sum_nil]
    by_cases hi : i = n
    · subst hi
      rw [none i (Nat.le_refl _), if_pos rfl]
      omega
    · rw [ih (by omega), if_neg hi]
      omega

theorem sum_classes {α : Type} (f w : α → Nat) (n : Nat) : ∀ {l : List α}, (∀ a ∈ l, f a < n) →
    (l.map w).sum = ((List.range n).map (fun k => ((l.filter (fun a => decide (f a = k))).map w).sum)).sum
  | [], _ => by
    have : ((List.range n).map (fun _ => 0)).sum = 0 := by
      rw [List.map_const', List.sum_replicate_nat, Nat.mul_zero]
    simpa using this.symm
  | a :: l, h => by
    have ih := sum_classes f w n (l := l) (fun x hx => h x (List.mem_cons_of_mem _ hx))
    rw [List.map_cons, List.sum_cons, ih, Nat.add_comm, ← sum_at n _ (w a) (h a List.mem_cons_self)]
    congr 1
    refine List.map_congr_left fun k _ => ?_
    by_cases hk : f a = k
    · rw [if_pos hk, List.filter_cons_of_pos (by simp [hk]), List.map_cons, List.sum_cons, Nat.add_comm]
    · rw [if_neg hk, List.filter_cons_of_neg (by simp [hk]), Nat.add_zero]

/-- The weights of all samples of a recording together; without the lost ones if they are left out. -/
def allWeights (skipLost new : Bool) (attrs : List Attr.ProtoFileAttr) (base : Nat) (l : List Msg) : Nat :=
  ((List.range attrs.length).map (fun k => ((l.flatMap (periods attrs (speTrace l) base k)).map (weightIn attrs k)).sum +
    (if skipLost then 0 else (l.map (losses new attrs k)).sum) * weightIn attrs k 0)).sum

theorem accepted_weights {M : Machine} {i : Meta.Info} {ids : List (Bytes × Bytes)} {labels options : Nat} {threadTypes : List (Nat × Bytes)} {l : List Msg}
    {r : List Msg × Parser.Stats} {cfg : Normalizer.Config} {cbs : List Normalizer.Callback} {nst : Normalizer.State} (hl : ∀ m ∈ l, Shaped m)
    (h1 : parseEvents M (rawOpts M options) true true true (withBuildIds M.env.md5 ids i l) l = some r)
    (h2 : Normalizer.mkConfig (normInput M (withBuildIds M.env.md5 ids i l) r.1) = some cfg)
    (h3 : Normalizer.runFrom cfg {} (r.1.map normView) = some (nst, cbs)) :
    ((Converter.acceptedSamples (setup i labels options threadTypes) cbs).map (Converter.weightOf (setup i labels options threadTypes))).sum =
      allWeights (options.testBit 4) cfg.useLostSample i.attrs M.traceBase l := by
  obtain ⟨hp, -⟩ := prep_spec (M := M) (O := rawOpts M options) rfl rfl hl h1
  rw [if_pos rfl] at hp
  have hperm := sort_perm (withBuildIds M.env.md5 ids i l) l
  obtain ⟨c1, c2, c3⟩ := config_parts h2
  have howner : ∀ id, Normalizer.eventIndexFor cfg id = owner i.attrs id :=
    fun id => (owner_eq h2 id).trans rfl
  have hspe : cfg.hasSpe = speTrace l := by
    rw [c2, ← speTrace_eq]
    exact same_any hperm hp _ (fun _ => rfl)
  have hbase : cfg.traceBase = M.traceBase := c3
  have hkeys := run_keys _ _ _ h3
  have htally := same_tally hperm hp cfg
  rw [sum_classes (fun c => c.attrIndex) _ i.attrs.length (fun c hc => by
    obtain ⟨cb, -, hcb⟩ := List.mem_filterMap.1 hc
    cases cb with
    | sample x =>
      simp only at hcb
      split at hcb
      · rename_i ha
        cases hcb
        have := ha.1
        simp only [setup, List.length_map] at this
        exact this
      · cases hcb
    | _ => cases hcb)]
  unfold allWeights
  congr 1
  refine List.map_congr_left fun k hk => ?_
  have hk' : k < (i.attrs.map attrRec).length := by rw [List.length_map]; exact List.mem_range.1 hk
  have hacc := accepted_keys (setup i labels options threadTypes) cbs hk'
  simp only at hkeys
  rw [hkeys, show (setup i labels options threadTypes).options = options from rfl] at hacc
  have e := congrArg (fun x => (x.map (keyWeight (i.attrs.map attrRec))).sum) hacc
  simp only [List.map_map] at e
  rw [show (List.map (Converter.weightOf (setup i labels options threadTypes)) ((Converter.acceptedSamples
      (setup i labels options threadTypes) cbs).filter fun c => decide (c.attrIndex = k))).sum = _ from e,
    ((htally.filter (counted options k)).map _).sum_nat, counted_sum howner, hspe, hbase]
  simp only [weight_eq]

end Verif.Whole
