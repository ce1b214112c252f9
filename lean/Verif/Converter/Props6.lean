import Verif.Converter.Props5

/-! # Properties of the converter: the check of main mappings -/

namespace Verif.Converter
open Verif.Builder Verif.Profile Verif.Normalizer

/-- A process and the program it runs: the name of the main mapping of a sample is that of the first mapping of a
profile. -/
def MainNamed (p : Profile) (x : MapRef) : Prop :=
  ∃ m, p.mapping[0]? = some m ∧ textAt p m.filename = some (nameOrMd5 x.mapping.filename x.mapping.md5)

/-- C80. If conversion is to fail on differing main mappings and processes have profiles of their own, then after a
conversion every sample with a named main mapping is in a profile whose first mapping has that name. -/
theorem main_mapping_checked {S : Setup} {cbs : List Callback} {ps : List ProcessProfile} {A B : Log} {c : SampleCtx}
    {slot : Slot} (h : convert S cbs = some (ps, A ++ (.sample c, some slot) :: B)) (hs : Sane S cbs)
    (hg : S.options.testBit 0 = true) (hf : S.options.testBit 1 = true) {x : MapRef} (hx : c.main = some x)
    (hn : x.mapping.filename ≠ []) (h0 : 0 ∉ nameOrMd5 x.mapping.filename x.mapping.md5) :
    ∃ p, ps[slot.1]? = some p ∧ MainNamed p.data x := by
  obtain ⟨st, h1, rfl, h3, h4⟩ := convert_state h
  have hi := run_known h1 hs
  have h1' : run S {} [] cbs = some (st, (A ++ [(.sample c, some slot)]) ++ B) := by simpa using h1
  obtain ⟨st0, c1, c2, e, k1, k2⟩ := run_at h1'
  obtain ⟨i0, i1⟩ := run_inv0 c1 (inv0_init S) k1
  have hrev : Sane S (c2.reverse ++ hist B) := by
    have := hs.reverse
    rw [e, List.reverse_append] at this
    rw [i1]; simpa [hist] using this
  have i2 : Inv (Known S cbs) S st0 B := by
    refine run_inv c1 (inv0_init S) (inv_init _ S) ?_ ?_ k1
    · rw [show c1.reverse ++ hist [] = hist B from i1.symm]; exact hrev.drop
    · intro c hc; exact known_refs S cbs c (by rw [e]; exact List.mem_append_left _ hc)
  have hgrow := run_grows c2 i0 i2 hrev
    (fun c hc => known_refs S cbs c (by rw [e]; exact List.mem_append_right _ hc)) k2
  obtain ⟨b1, smp, hb1, -⟩ := hi.shown A c slot B rfl
  obtain ⟨p, hp, hpe⟩ := builder_at h1 rfl hs hb1
  refine ⟨p, hp, ?_⟩
  rw [hpe]
  have htw : (nameOrMd5 x.mapping.filename x.mapping.md5).takeWhile (· ≠ 0) = nameOrMd5 x.mapping.filename x.mapping.md5 := by
    have hall : ∀ (l : List UInt8), 0 ∉ l → l.takeWhile (· ≠ 0) = l := by
      intro l
      induction l with
      | nil => intro _; rfl
      | cons a l ih =>
        intro h
        simp only [List.mem_cons, not_or] at h
        rw [List.takeWhile_cons_of_pos (by simpa using Ne.symm h.1), ih h.2]
    exact hall _ h0
  cases c2 with
  | nil =>
    simp only [run, Option.some.injEq, Prod.mk.injEq] at k2
    have := congrArg List.length k2.2
    simp at this; omega
  | cons cb t =>
    rw [run] at k2
    split at k2
    · cases k2
    · rename_i st1 o hst
      have hsuf := run_suffix t k2
      obtain ⟨A', hA', hlen⟩ := hsuf
      have hco : cb = .sample c ∧ o = some slot := by
        have e1 : A' ++ [(cb, o)] ++ B = (A ++ [(.sample c, some slot)]) ++ B := by rw [hA']; simp
        have := List.append_cancel_right e1
        have := (List.append_inj' this (by simp)).2
        simp only [List.cons.injEq, Prod.mk.injEq, and_true] at this
        exact this
      obtain ⟨rfl, rfl⟩ := hco
      rw [step] at hst
      split at hst
      · cases ht : takeSample S st0 c with
        | none => rw [ht] at hst; cases hst
        | some r =>
          rw [ht] at hst
          simp only [Option.map_some, Option.some.injEq, Prod.mk.injEq] at hst
          obtain ⟨rfl, hsl⟩ := hst
          obtain ⟨r1, r2⟩ := r
          simp only at hsl
          subst hsl
          obtain ⟨bi, st2, b, a, g1, g2, g3, g4⟩ := takeSample_some ht
          have hT := takeSample_taken i0 (i2.ready _) (known_refs S cbs c (by rw [e]; simp)) ht
          obtain ⟨b0, b, ids, smp, k, hor, m1, m2, -⟩ := hT.main
          rcases hor with ⟨n1, n2, -⟩ | ⟨n1, n2, -, maps, bm, n4, rfl⟩
          · rcases getOrCreate_some g1 with ⟨bb, q1, q2, q3, -⟩ | ⟨maps, bb, q1, -⟩
            · rw [n1] at q1
              cases q1
              obtain ⟨bf, f1, f2⟩ := hgrow _ _ q2
              rw [hb1] at f1
              cases f1
              unfold mismatchFatal at q3
              rw [hx] at q3
              simp only at q3
              rw [if_pos ⟨hg, hn⟩] at q3
              cases hm0 : bb.profile.mapping[0]? with
              | none => rw [hm0] at q3; cases q3
              | some m =>
                rw [hm0] at q3
                simp only at q3
                cases hs0 : bb.profile.stringTable[m.filename.toNat]? with
                | none => rw [hs0] at q3; cases q3
                | some name =>
                  rw [hs0] at q3
                  simp only [Setup.failOnMismatch, hf, Bool.and_true, Option.some.injEq, decide_eq_false_iff_not,
                    ne_eq, Decidable.not_not] at q3
                  subst q3
                  exact ⟨m, f2.map 0 m hm0, f2.str.table _ _ hs0⟩
            · rw [n1] at q1; cases q1
          · obtain ⟨c1', c2', c3', m, c4, c5⟩ := created_spec n4
            rw [hx] at c5
            have hgr := addComments_grow S c2'.inv
            have hsame := (addComments_same S bm c2'.inv).1
            have hg1 : ∃ b', st.builders[r2.1]? = some b' ∧ BExt b b' := by
              have hst2 : step S st0 (.sample c) = some (r1, some r2) := by
                rw [step, if_pos (by assumption), ht]; rfl
              refine run_grows t (step_inv0 i0 hst2) (step_inv i0 i2 ?_ ?_ hst2) ?_ ?_ k2 r2.1 b m1
              · rw [List.reverse_cons, List.append_assoc] at hrev; exact hrev.drop
              · intro c' hc'; cases hc'; exact known_refs S cbs c (by rw [e]; simp)
              · rw [hist_cons]; rw [List.reverse_cons, List.append_assoc] at hrev; exact hrev
              · intro c' hc'; exact known_refs S cbs c' (by rw [e]; simp [hc'])
            obtain ⟨bf, f1, f2⟩ := hg1
            rw [hb1] at f1
            cases f1
            refine ⟨m, f2.map 0 m (m2.map 0 m (by rw [hsame]; exact c4)), ?_⟩
            have hfin := ((ShowsMapping.ext hgr.ext c5).ext m2.str).ext f2.str
            have := hfin.2.2.2.1
            rw [htw] at this
            exact this
      · cases hst

/-- With the check switched on, the recording of `exCbs` converts; a sample whose main mapping has another name makes
it fail. Without the check it does not. -/
example : Sane exS exCbs ∧ (convert { exS with options := 3 } exCbs).isSome = true ∧
    (convert { exS with options := 3 } (exCbs ++ [.sample { exC 5 5001 40 1 with main := some exN }])).isNone = true ∧
    (convert { exS with options := 1 } (exCbs ++ [.sample { exC 5 5001 40 1 with main := some exN }])).isSome = true ∧
    (0 ∉ nameOrMd5 exM.mapping.filename exM.mapping.md5) ∧ exM.mapping.filename ≠ [] := by
  refine ⟨ex_sane, ?_, ?_, ?_, ?_, ?_⟩ <;> decide +kernel

end Verif.Converter
