/-! Small list lemmas shared by the proofs. -/

namespace Verif

theorem mem_takeWhile_imp {α : Type _} {p : α → Bool} {l : List α} {x : α}
    (h : x ∈ l.takeWhile p) : p x = true := by
  induction l with
  | nil => simp at h
  | cons a t ih =>
    by_cases ha : p a = true
    · rw [List.takeWhile_cons_of_pos ha] at h
      rcases List.mem_cons.1 h with rfl | h
      · exact ha
      · exact ih h
    · rw [List.takeWhile_cons_of_neg ha] at h
      simp at h

theorem takeWhile_all {α : Type} {p : α → Bool} {l : List α} (h : ∀ x ∈ l, p x = true) :
    l.takeWhile p = l := by
  induction l with
  | nil => rfl
  | cons a t ih => rw [List.takeWhile_cons, if_pos (h a (by simp)), ih (fun x hx => h x (by simp [hx]))]

/-- Two lists of the same length are related element by element. -/
inductive All₂ {α β : Type} (R : α → β → Prop) : List α → List β → Prop where
  | nil : All₂ R [] []
  | cons {a b s t} : R a b → All₂ R s t → All₂ R (a :: s) (b :: t)

theorem All₂.left {α β : Type} {R : α → β → Prop} {as : List α} {bs : List β} (h : All₂ R as bs) :
    ∀ a ∈ as, ∃ b ∈ bs, R a b := by
  induction h with
  | nil => intro a ha; cases ha
  | cons hr _ ih =>
    intro a ha
    rcases List.mem_cons.1 ha with rfl | ha
    · exact ⟨_, List.mem_cons_self, hr⟩
    · obtain ⟨b, hb, hh⟩ := ih a ha
      exact ⟨b, List.mem_cons_of_mem _ hb, hh⟩

theorem All₂.append {α β : Type} {R : α → β → Prop} {a a' : List α} {b b' : List β} (h : All₂ R a b)
    (h' : All₂ R a' b') : All₂ R (a ++ a') (b ++ b') := by
  induction h with
  | nil => exact h'
  | cons hr _ ih => exact .cons hr ih

theorem All₂.imp {α β : Type} {R R' : α → β → Prop} (hi : ∀ a b, R a b → R' a b) {a : List α} {b : List β}
    (h : All₂ R a b) : All₂ R' a b := by
  induction h with
  | nil => exact .nil
  | cons hr _ ih => exact .cons (hi _ _ hr) ih

end Verif
