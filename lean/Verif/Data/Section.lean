import Verif.Data.One

/-! Reading one record after the other. -/

namespace Verif.Data
open Verif.Buffer Verif.Event Verif.Sample Verif.Attr Verif.Names Verif.Text Verif.Util Verif.Meta Verif.Serial

/-- How `readEvent` takes the bytes `bs` behind the header `h`. -/
def Handled (cfg : Cfg) (x : Bool) (st : St) (h : Header) (st' : St) (bs : List UInt8) : Prop :=
  ((known h.type = false ∨ timedOut h = true) ∧ st' = st ∧ bs.length = h.size - 8) ∨
    (known h.type = true ∧ timedOut h = false ∧ ∃ fixed d e out ts, fixedPayloadSize h.type = some fixed ∧ fixed ≤ h.size ∧
      decode st.base.ser x fixed ⟨h.type, h.misc, d⟩ = some (some e) ∧ bs = d ++ ts ∧ d.length = h.size - 8 ∧
      Keep cfg st e out st' ts)

theorem takes_readEvent {x : Bool} {cfg : Cfg} {st : St} {h : Header} (hs : h.size < 2 ^ 16) :
    Takes x (readEvent cfg st h) fun y bs => bs.length = y.2 ∧ Handled cfg x st h y.1 bs := by
  unfold readEvent
  refine Takes.ite (fun hk => ?_) fun hk => Takes.ite (fun _ => Takes.fail) fun _ => ?_
  · refine (takes_skipRest (by omega)).mono fun y bs _ ⟨h1, h2⟩ => ?_
    subst h1
    exact ⟨h2, Or.inl ⟨Or.inl (by simpa using hk), rfl, h2⟩⟩
  cases hf : fixedPayloadSize h.type with
  | none => exact Takes.fail
  | some fixed =>
    refine Takes.ite (fun _ => Takes.fail) fun hfs => Takes.ite (fun ht => ?_) fun ht => ?_
    · refine (takes_skipRest (by omega)).mono fun y bs _ ⟨h1, h2⟩ => ?_
      subst h1
      exact ⟨h2, Or.inl ⟨Or.inr ht, rfl, h2⟩⟩
    · refine (takes_data (by omega)).bind fun d bs _ ⟨hbs, hd⟩ => ?_
      refine takes_isCross.bind fun c bs1 _ ⟨hbs1, hc⟩ => ?_
      subst hc hbs hbs1
      refine (takes_lift (R := fun e b => b = [] ∧ decode st.base.ser c fixed ⟨h.type, h.misc, bs⟩ = some (some e))
        fun e he => ⟨rfl, he⟩).bind fun e bs2 _ ⟨hbs2, he⟩ => ?_
      subst hbs2
      refine takes_keep.bind fun y bs3 h63 ⟨hl, out, hk'⟩ => ?_
      obtain ⟨st', more⟩ := y
      refine Takes.pure fun g1 g2 g3 g4 => ?_
      simp only [List.nil_append, List.append_nil, List.length_append] at g1 g2 g3 g4 ⊢
      simp only at hl
      refine ⟨?_, Or.inr ⟨by simpa using hk, by simpa using ht, fixed, bs, e, out, bs3, hf, by omega, he, rfl, hd, hk'⟩⟩
      unfold addSz
      omega

theorem Handled.length {cfg : Cfg} {x : Bool} {st st' : St} {h : Header} {bs : List UInt8} (hh : Handled cfg x st h st' bs) :
    h.size - 8 ≤ bs.length := by
  rcases hh with ⟨_, _, h⟩ | ⟨_, _, _, _, _, _, _, _, _, _, h1, h2, _⟩
  · omega
  · rw [h1, List.length_append]; omega

/-- One record. -/
def one (cfg : Cfg) (st : St) : P (St × Nat) := do
  let h ← readEventHeader
  readEvent cfg st h

theorem intAt_two {r : Reader} {o : Nat} : intAt r o 2 < 2 ^ 16 := by
  unfold intAt
  have h := decodeInt_lt r.cross ((r.buf.drop o).take 2)
  have hl : ((r.buf.drop o).take 2).length ≤ 2 := by rw [List.length_take]; omega
  exact Nat.lt_of_lt_of_le h (Nat.pow_le_pow_right (by omega) hl)

theorem num_at {r : Reader} {c : List UInt8} (hs : slice r.buf r.off c.length = some c) {i n : Nat} (h : i + n ≤ c.length) :
    intAt r (r.off + i) n = num r.cross c i n := by
  unfold intAt num
  rw [slice_eq hs, List.drop_take, List.take_take, List.drop_drop, Nat.min_eq_left (by omega)]

theorem num_append {x : Bool} {c d : List UInt8} {i n : Nat} (h : i + n ≤ c.length) : num x (c ++ d) i n = num x c i n := by
  unfold num
  rw [List.drop_append_of_le_length (by omega), List.take_append_of_le_length (by rw [List.length_drop]; omega)]

theorem effect_handled {cfg : Cfg} {x : Bool} {st st' : St} {hd bs : List UInt8} (hl : hd.length = 8) (h8 : 8 ≤ extent x (hd ++ bs))
    (hh : Handled cfg x st ⟨kind x (hd ++ bs), bits x (hd ++ bs), extent x (hd ++ bs)⟩ st' bs) :
    ∃ out, Effect cfg x st (hd ++ bs) out st' := by
  have hpass : (known (kind x (hd ++ bs)) = false ∨ timedOut ⟨kind x (hd ++ bs), bits x (hd ++ bs), extent x (hd ++ bs)⟩ = true) ↔
      Passed x (hd ++ bs) := by
    unfold Passed Mapping timedOut
    rw [← known_iff, Bool.and_eq_true, Bool.or_eq_true, beq_iff_eq, beq_iff_eq, Bool.not_eq_true]
  rcases hh with ⟨hp, rfl, hlen⟩ | ⟨hk, ht, fixed, d, e, out, ts, h1, h2, h3, h4, h5, h6⟩
  · have hp := hpass.mp hp
    have h71 : kind x (hd ++ bs) ≠ 71 := by
      intro h
      rcases hp with hp | ⟨hp | hp, _⟩
      · rw [h] at hp; revert hp; decide
      · rw [h] at hp; cases hp
      · rw [h] at hp; cases hp
    refine ⟨none, ⟨h8, ?_⟩, by simp, by simp [hp], (by simp), ?_, Or.inl ⟨rfl, rfl⟩, fun _ _ h => absurd hp h, rfl⟩
    · unfold following
      rw [if_neg (fun h => h71 h.1), List.length_append]
      simp only at hlen
      omega
    · rw [if_neg]
      rintro ⟨_, h9⟩
      rcases hp with hp | ⟨hp | hp, _⟩
      · rw [h9] at hp; revert hp; decide
      · rw [h9] at hp; cases hp
      · rw [h9] at hp; cases hp
  · subst h4
    rw [← List.append_assoc] at *
    refine ⟨out, effect_of hl h1 ?_ ?_ ?_ h3 h6⟩
    · simp only at h5; omega
    · simp only at h2 h5; omega
    · rw [← hpass]
      rintro (h | h)
      · exact Bool.noConfusion (h.symm.trans hk)
      · exact Bool.noConfusion (h.symm.trans ht)

theorem takes_one {x : Bool} {cfg : Cfg} {st : St} :
    Takes x (one cfg st) fun y c => c.length = 8 + y.2 ∧ ∃ out, Effect cfg x st c out y.1 := by
  intro r r' y hr hx hy
  unfold one at hy
  rw [bind_def] at hy
  obtain ⟨o, r1, hh, _, hacc, hval⟩ := header_accepted r hr
  rw [hh] at hy
  cases o with
  | none => cases hy
  | some h =>
    obtain ⟨hh1, hr1⟩ := hval h rfl
    obtain ⟨a1, a2, a3⟩ := hacc.mp rfl
    simp only at hy
    obtain ⟨hd, hhd⟩ : ∃ hd, slice r.buf r.off 8 = some hd := ⟨_, slice_some a1⟩
    have hdl := slice_length hhd
    have hhd' : slice r.buf r.off hd.length = some hd := by rw [hdl]; exact hhd
    have ok1 : r1.Ok := by rw [hr1, ← hdl]; exact ok_forward hr hhd'
    have hsz : h.size < 2 ^ 16 := by rw [hh1]; exact intAt_two
    have hx1 : r1.cross = x := by rw [hr1]; exact hx
    obtain ⟨bs, ⟨hbs1, hbs2⟩, h63, hsl, hr', hloc⟩ := takes_readEvent hsz r1 r' y ok1 hx1 hy
    have hsl' : slice r.buf r.off (hd ++ bs).length = some (hd ++ bs) := by
      rw [slice_append]
      refine ⟨hhd', ?_⟩
      rw [hr1] at hsl
      rw [hdl]; exact hsl
    have hcl : (hd ++ bs).length = 8 + bs.length := by rw [List.length_append, hdl]
    have key : ∀ q : Reader, q.cross = x → slice q.buf q.off (hd ++ bs).length = some (hd ++ bs) →
        intAt q q.off 4 = kind x (hd ++ bs) ∧ intAt q (q.off + 4) 2 = bits x (hd ++ bs) ∧ intAt q (q.off + 6) 2 = extent x (hd ++ bs) := by
      intro q cq hq
      subst cq
      exact ⟨num_at hq (i := 0) (by omega), num_at hq (by omega), num_at hq (by omega)⟩
    obtain ⟨k1, k2, k3⟩ := key r hx hsl'
    rw [k1, k2, k3] at hh1
    rw [k3] at a2 a3
    subst hh1
    have hge := hbs2.length
    simp only at hge
    have hsll := (slice_some_iff.mp hsl').1
    refine ⟨hd ++ bs, ⟨by rw [hcl, hbs1], effect_handled hdl a2 hbs2⟩, by have := hr.2.2; omega, hsl', ?_, ?_⟩
    · rw [hr', hr1, hcl]
      simp only [Nat.add_assoc]
    · intro q okq cq hq
      obtain ⟨j1, j2, j3⟩ := key q cq hq
      obtain ⟨o', q1, hh', _, hacc', hval'⟩ := header_accepted q okq
      have hql := (slice_some_iff.mp hq).1
      have : o'.isSome = true := by
        rw [hacc', j3]
        exact ⟨by omega, a2, by omega⟩
      obtain ⟨h', rfl⟩ := Option.isSome_iff_exists.mp this
      obtain ⟨hv1, hv2⟩ := hval' h' rfl
      rw [j1, j2, j3] at hv1
      subst hv1
      unfold one
      rw [bind_def, hh']
      simp only
      obtain ⟨hq1, hq2⟩ := slice_append.mp hq
      have := hloc q1 (by rw [hv2, ← hdl]; exact ok_forward okq hq1) (by rw [hv2]; exact cq) (by rw [hv2]; simp only; rw [← hdl]; exact hq2)
      rw [this, hv2, hcl]
      simp only [Nat.add_assoc]

/-! ## All records -/

theorem readEvents_step {cfg : Cfg} {fuel left : Nat} {st : St} (h : left ≠ 0) : readEvents cfg (fuel + 1) left st =
    (do let y ← one cfg st
        readEvents cfg fuel ((left + 2 ^ 64 - addSz 8 y.2) % 2 ^ 64) y.1) := by
  funext r
  rw [readEvents, if_neg h]
  unfold one
  simp only [bind_def]
  split
  · simp_all
  · simp_all
  · rename_i h1
    simp only

theorem takes_readEvents {x : Bool} {cfg : Cfg} : ∀ {fuel left : Nat} {st : St}, left < 2 ^ 64 →
    Takes x (readEvents cfg fuel left st) fun st' c => c.length = left ∧
      ∃ L : List (List UInt8 × Option Msg), (L.map Prod.fst).flatten = c ∧ Chain cfg x st L st' := by
  intro fuel
  induction fuel with
  | zero =>
    intro left st hl
    unfold readEvents
    refine Takes.ite (fun h0 => Takes.pure ⟨by simp [h0], [], rfl, .nil st⟩) fun _ => ?_
    intro r r' a _ _ e
    cases e
  | succ fuel ih =>
    intro left st hl
    by_cases h0 : left = 0
    · unfold readEvents
      rw [if_pos h0]
      exact Takes.pure ⟨by simp [h0], [], rfl, .nil st⟩
    · rw [readEvents_step h0]
      intro r r' a hr hx e
      rw [bind_def] at e
      cases ho : one cfg st r with
      | none => rw [ho] at e; cases e
      | some o =>
        obtain ⟨o, r1⟩ := o
        rw [ho] at e
        cases o with
        | none => cases e
        | some y =>
          simp only at e
          obtain ⟨c, ⟨hc1, out, hc2⟩, h63, hsl, hr1, hloc⟩ := takes_one r r1 y hr hx ho
          have ok1 : r1.Ok := by rw [hr1]; exact ok_forward hr hsl
          have hsub : addSz 8 y.2 = c.length := by unfold addSz; omega
          rw [hsub] at e
          by_cases hle : c.length ≤ left
          · have hw : (left + 2 ^ 64 - c.length) % 2 ^ 64 = left - c.length := by omega
            rw [hw] at e
            obtain ⟨cs, ⟨hcs1, L, hL1, hL2⟩, g63, hsl2, hr2, hloc2⟩ :=
              ih (left := left - c.length) (st := y.1) (by omega) r1 r' a ok1 (by rw [hr1]; exact hx) e
            have hsl' : slice r.buf r.off (c ++ cs).length = some (c ++ cs) := by
              rw [slice_append]
              refine ⟨hsl, ?_⟩
              rw [hr1] at hsl2
              exact hsl2
            have := (slice_some_iff.mp hsl').1
            refine ⟨c ++ cs, ⟨by rw [List.length_append]; omega, (c, out) :: L, by simp [hL1], .cons hc2 hL2⟩,
              by have := hr.2.2; omega, hsl', ?_, ?_⟩
            · rw [hr2, hr1, List.length_append]
              simp only [Nat.add_assoc]
            · intro q okq cq hq
              obtain ⟨hq1, hq2⟩ := slice_append.mp hq
              rw [bind_def, hloc q okq cq hq1]
              simp only
              rw [hsub, hw, hloc2 _ (ok_forward okq hq1) cq hq2, List.length_append]
              simp only [Nat.add_assoc]
          · exfalso
            obtain ⟨cs, ⟨hcs1, _⟩, g63, hsl2, _⟩ :=
              ih (left := (left + 2 ^ 64 - c.length) % 2 ^ 64) (st := y.1) (by omega) r1 r' a ok1 (by rw [hr1]; exact hx) e
            have hb := (slice_some_iff.mp hsl2).1
            have := hr.2.2
            rw [hr1] at hb
            simp only at hb
            omega

end Verif.Data
