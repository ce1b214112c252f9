import Verif.Sample.Spec
import Verif.Buffer.Lemmas
import Verif.Event.Props

/-! Helper lemmas: matching, reading, writing. -/

namespace Verif.Sample
open Verif.Buffer Verif.Event

/-! ## Matching -/

theorem matches_append {cross : Bool} {L M : List Piece} {bs : List UInt8} :
    Matches cross (L ++ M) bs ↔ ∃ a b, bs = a ++ b ∧ Matches cross L a ∧ Matches cross M b := by
  induction L generalizing bs with
  | nil =>
    constructor
    · intro h; exact ⟨[], bs, rfl, rfl, h⟩
    · rintro ⟨_, b, rfl, rfl, h⟩; exact h
  | cons p L ih =>
    simp only [List.cons_append, Matches, ih]
    constructor
    · rintro ⟨a, b, rfl, hp, c, d, rfl, hL, hM⟩
      exact ⟨a ++ c, d, by simp, ⟨a, c, rfl, hp, hL⟩, hM⟩
    · rintro ⟨x, d, rfl, ⟨a, c, rfl, hp, hL⟩, hM⟩
      exact ⟨a, c ++ d, by simp, hp, c, d, rfl, hL, hM⟩

theorem matches_nil {cross : Bool} {bs : List UInt8} : Matches cross [] bs ↔ bs = [] := Iff.rfl

theorem matches_one {cross : Bool} {p : Piece} {bs : List UInt8} :
    Matches cross [p] bs ↔ p.Is cross bs := by
  simp [Matches]

theorem matches_cons {cross : Bool} {p : Piece} {L : List Piece} {bs : List UInt8} :
    Matches cross (p :: L) bs ↔ ∃ a b, bs = a ++ b ∧ Matches cross [p] a ∧ Matches cross L b := by
  simp only [matches_one]; rfl

theorem is_len {cross : Bool} {p : Piece} {bs : List UInt8} (h : p.Is cross bs) : bs.length = p.len := by
  cases p <;> simp_all [Piece.Is, Piece.len]

theorem total_nil : total [] = 0 := rfl
theorem total_cons (p : Piece) (L : List Piece) : total (p :: L) = p.len + total L := by simp [total]
theorem total_append (L M : List Piece) : total (L ++ M) = total L + total M := by simp [total]

theorem matches_len {cross : Bool} {L : List Piece} {bs : List UInt8} (h : Matches cross L bs) :
    bs.length = total L := by
  induction L generalizing bs with
  | nil => simp_all [Matches, total]
  | cons p L ih =>
    obtain ⟨a, b, rfl, hp, hL⟩ := h
    rw [total_cons, List.length_append, is_len hp, ih hL]

/-! ## The reading monad -/

theorem bind_def {α β : Type} (p : P α) (f : α → P β) (r : Reader) :
    (p >>= f) r = match p r with
      | none => none
      | some (none, r') => some (none, r')
      | some (some a, r') => f a r' := rfl

theorem pure_def {α : Type} (a : α) (r : Reader) : (pure a : P α) r = some (some a, r) := rfl

/-- Running `p` on bytes that match `L` yields `a` and consumes exactly these bytes. -/
def Reads {α : Type} (cross : Bool) (p : P α) (L : List Piece) (a : α) : Prop :=
  ∀ (r : Reader) (bs tail : List UInt8), r.Ok → r.cross = cross → r.buf.drop r.off = bs ++ tail →
    Matches cross L bs → p r = some (some a, { r with off := r.off + bs.length })

theorem ok_advance {r : Reader} (h : r.Ok) {bs tail : List UInt8} (hd : r.buf.drop r.off = bs ++ tail) :
    Reader.Ok { r with off := r.off + bs.length } ∧ r.buf.drop (r.off + bs.length) = tail := by
  obtain ⟨h1, h2, h3⟩ := h
  have hl := congrArg List.length hd
  simp only [List.length_drop, List.length_append] at hl
  refine ⟨⟨h1, ?_, h3⟩, ?_⟩
  · show r.off + bs.length ≤ r.size; omega
  · rw [← List.drop_drop, hd]; simp

theorem Reads.pure {α : Type} {cross : Bool} (a : α) : Reads cross (pure a) [] a := by
  intro r bs tail _ _ _ hm
  rw [matches_nil] at hm; subst hm; simp [pure_def]

theorem Reads.bind {α β : Type} {cross : Bool} {p : P α} {f : α → P β} {L M : List Piece} {a : α} {b : β}
    (hp : Reads cross p L a) (hf : Reads cross (f a) M b) : Reads cross (p >>= f) (L ++ M) b := by
  intro r bs tail hr hc hd hm
  obtain ⟨x, y, rfl, hx, hy⟩ := matches_append.mp hm
  rw [List.append_assoc] at hd
  rw [bind_def, hp r x _ hr hc hd hx]
  obtain ⟨ho, hd'⟩ := ok_advance hr hd
  show f a _ = _
  rw [hf _ y tail ho hc hd' hy]
  simp [Nat.add_assoc]

theorem Reads.bind0 {α β : Type} {cross : Bool} {p : P α} {f : α → P β} {L : List Piece} {a : α} {b : β}
    (hp : Reads cross p L a) (hf : Reads cross (f a) [] b) : Reads cross (p >>= f) L b := by
  have := Reads.bind hp hf; rwa [List.append_nil] at this

theorem Reads.cons {α β : Type} {cross : Bool} {p : P α} {f : α → P β} {q : Piece} {M : List Piece} {a : α}
    {b : β} (hp : Reads cross p [q] a) (hf : Reads cross (f a) M b) : Reads cross (p >>= f) (q :: M) b :=
  Reads.bind (L := [q]) hp hf

theorem slice_of_drop {buf : List UInt8} {off : Nat} {bs tail : List UInt8} (ho : off ≤ buf.length)
    (h : buf.drop off = bs ++ tail) : slice buf off bs.length = some bs := by
  have hl := congrArg List.length h
  simp only [List.length_drop, List.length_append] at hl
  rw [slice_some_iff]
  exact ⟨by omega, by rw [h]; simp⟩

theorem reads_int {cross : Bool} {n : Nat} (hn : n = 2 ∨ n = 4 ∨ n = 8) {q : Piece} {v : Nat}
    (hq : ∀ bs, q.Is cross bs → bs.length = n ∧ decodeInt cross bs = v) :
    Reads cross (fun r => r.readInt n) [q] v := by
  intro r bs tail hr hc hd hm
  obtain ⟨hl, hv⟩ := hq bs (matches_one.mp hm)
  have := readInt_spec hr hn
  rw [← hl, slice_of_drop (by have := hr.1; have := hr.2.1; omega) hd] at this
  show r.readInt n = _
  rw [← hl, this]
  simp [hc, hv]

theorem reads_u16 (cross : Bool) (v : Nat) : Reads cross u16 [.u16 v] v := reads_int (by omega) fun _ h => h
theorem reads_u32 (cross : Bool) (v : Nat) : Reads cross u32 [.u32 v] v := reads_int (by omega) fun _ h => h
theorem reads_u64 (cross : Bool) (v : Nat) : Reads cross u64 [.u64 v] v := reads_int (by omega) fun _ h => h

theorem reads_data (cross : Bool) (l : List UInt8) (h : l.length < 2 ^ 64) :
    Reads cross (data l.length) [.bytes l] l := by
  intro r bs tail hr hc hd hm
  have hb : bs = l := matches_one.mp hm
  subst hb
  have := readData_spec hr h
  rw [slice_of_drop (by have := hr.1; have := hr.2.1; omega) hd] at this
  exact this

theorem Reads.opt {α : Type} {cross c : Bool} {p : P α} {L : List Piece} {a d : α}
    (h : c = true → Reads cross p L a) : Reads cross (opt c p d) (only c L) (if c then a else d) := by
  cases c
  · exact Reads.pure d
  · exact h rfl

theorem Reads.times {α : Type} {cross : Bool} {p : P α} {f : α → List Piece} {g : α → α} :
    ∀ l : List α, (∀ a ∈ l, Reads cross p (f a) (g a)) →
      Reads cross (times p l.length) (l.flatMap f) (l.map g)
  | [], _ => Reads.pure []
  | a :: l, h => by
    have ih := Reads.times l (fun b hb => h b (List.mem_cons_of_mem _ hb))
    have h1 := h a (List.mem_cons_self ..)
    exact Reads.bind h1 (Reads.bind0 ih (Reads.pure _))

theorem Reads.guard {α : Type} {cross : Bool} {num entry : Nat} {p : P α} {L : List Piece} {a : α}
    (he : 0 < entry) (hlen : num * entry ≤ total L) (h : Reads cross p L a) :
    Reads cross (guardAlloc num entry p) L a := by
  intro r bs tail hr hc hd hm
  have hb := matches_len hm
  have hl := congrArg List.length hd
  simp only [List.length_drop, List.length_append] at hl
  obtain ⟨h1, h2, h3⟩ := hr
  have hrem : (r.size + 2 ^ 64 - r.off) % 2 ^ 64 = r.size - r.off := by omega
  have hq : num ≤ (r.size - r.off) / entry := (Nat.le_div_iff_mul_le he).mpr (by omega)
  unfold guardAlloc
  rw [hrem, if_neg (by omega), if_neg (by omega)]
  exact h r bs tail ⟨h1, h2, h3⟩ hc hd hm

/-! ## What a read that succeeds has seen -/

/-- Running `p` is free of undefined behaviour, and if it yields `a`, then the consumed bytes match `L a`
and `Q a` holds. -/
def Leaf {α : Type} (cross : Bool) (p : P α) (L : α → List Piece) (Q : α → Prop) : Prop :=
  ∀ r : Reader, r.Ok → r.cross = cross → ∃ x r', p r = some (x, r') ∧ r'.Ok ∧ r'.buf = r.buf ∧
    r'.cross = cross ∧ ∀ a, x = some a → Q a ∧ r.off ≤ r'.off ∧
      Matches cross (L a) ((r.buf.drop r.off).take (r'.off - r.off))

theorem take_split {l : List UInt8} {a b c : Nat} (h1 : a ≤ b) (h2 : b ≤ c) :
    (l.drop a).take (c - a) = (l.drop a).take (b - a) ++ (l.drop b).take (c - b) := by
  have e : c - a = (b - a) + (c - b) := by omega
  rw [e, List.take_add, List.drop_drop]
  congr 3; omega

theorem Leaf.pure {α : Type} {cross : Bool} {a : α} {L : α → List Piece} {Q : α → Prop} (hL : L a = [])
    (hQ : Q a) : Leaf cross (pure a) L Q := by
  intro r hr hc
  refine ⟨some a, r, rfl, hr, rfl, hc, ?_⟩
  rintro b ⟨⟩
  simp [hL, hQ, matches_nil]

theorem Leaf.fail {α : Type} {cross : Bool} {L : α → List Piece} {Q : α → Prop} :
    Leaf cross (fail : P α) L Q := by
  intro r hr hc
  exact ⟨none, r, rfl, hr, rfl, hc, by simp⟩

/-- The same when bytes matching `Lp` have already been consumed. -/
def Tracks {α : Type} (cross : Bool) (Lp : List Piece) (p : P α) (N : α → List Piece) (R : α → Prop) :
    Prop :=
  ∀ (r : Reader) (pre : List UInt8), r.Ok → r.cross = cross → Matches cross Lp pre →
    ∃ x r', p r = some (x, r') ∧ r'.Ok ∧ r'.buf = r.buf ∧ r'.cross = cross ∧
      ∀ a, x = some a → R a ∧ r.off ≤ r'.off ∧
        Matches cross (N a) (pre ++ (r.buf.drop r.off).take (r'.off - r.off))

theorem Tracks.leaf {α : Type} {cross : Bool} {p : P α} {N : α → List Piece} {R : α → Prop}
    (h : Tracks cross [] p N R) : Leaf cross p N R := fun r hr hc => h r [] hr hc rfl

theorem Tracks.bind {α β : Type} {cross : Bool} {Lp : List Piece} {p : P α} {f : α → P β}
    {L : α → List Piece} {Q : α → Prop} {N : β → List Piece} {R : β → Prop}
    (hp : Leaf cross p L Q) (hf : ∀ a, Q a → Tracks cross (Lp ++ L a) (f a) N R) :
    Tracks cross Lp (p >>= f) N R := by
  intro r pre hr hc hpre
  obtain ⟨x, r1, e1, ok1, b1, c1, h1⟩ := hp r hr hc
  cases x with
  | none => exact ⟨none, r1, by rw [bind_def, e1], ok1, b1, c1, by simp⟩
  | some a =>
    obtain ⟨hQ, hle, hm⟩ := h1 a rfl
    obtain ⟨y, r2, e2, ok2, b2, c2, h2⟩ := hf a hQ r1 _ ok1 c1 (matches_append.mpr ⟨_, _, rfl, hpre, hm⟩)
    refine ⟨y, r2, by rw [bind_def, e1]; exact e2, ok2, by rw [b2, b1], c2, ?_⟩
    intro b hb
    obtain ⟨hR, hle2, hm2⟩ := h2 b hb
    refine ⟨hR, by omega, ?_⟩
    rw [take_split hle hle2, ← List.append_assoc]
    rwa [b1] at hm2

theorem Tracks.pure {α : Type} {cross : Bool} {Lp : List Piece} {a : α} {N : α → List Piece}
    {R : α → Prop} (hN : N a = Lp) (hR : R a) : Tracks cross Lp (pure a) N R := by
  intro r pre hr hc hpre
  refine ⟨some a, r, rfl, hr, rfl, hc, ?_⟩
  rintro b ⟨⟩
  simp [hR, hN, hpre]

theorem Tracks.fail {α : Type} {cross : Bool} {Lp : List Piece} {N : α → List Piece} {R : α → Prop} :
    Tracks cross Lp (fail : P α) N R := by
  intro r pre hr hc _
  exact ⟨none, r, rfl, hr, rfl, hc, by simp⟩

theorem Tracks.guard {α : Type} {cross : Bool} {Lp : List Piece} {num entry : Nat} {p : P α}
    {N : α → List Piece} {R : α → Prop} (he : 0 < entry) (h : Tracks cross Lp p N R) :
    Tracks cross Lp (guardAlloc num entry p) N R := by
  intro r pre hr hc hpre
  have hr' := hr
  obtain ⟨h1, h2, h3⟩ := hr
  have hrem : (r.size + 2 ^ 64 - r.off) % 2 ^ 64 = r.size - r.off := by omega
  by_cases hn : num > (r.size - r.off) / entry
  · refine ⟨none, r, ?_, hr', rfl, hc, by simp⟩
    unfold guardAlloc
    rw [hrem, if_pos hn]
  · have hq := (Nat.le_div_iff_mul_le he).mp (Nat.le_of_not_gt hn)
    obtain ⟨x, r', e, hx⟩ := h r pre hr' hc hpre
    refine ⟨x, r', ?_, hx⟩
    unfold guardAlloc
    rw [hrem, if_neg hn, if_neg (by omega)]
    exact e

theorem Leaf.weaken {α : Type} {cross : Bool} {p : P α} {L M : α → List Piece} {Q R : α → Prop}
    (h : Leaf cross p L Q)
    (hi : ∀ a, Q a → R a ∧ ∀ bs, Matches cross (L a) bs → Matches cross (M a) bs) : Leaf cross p M R := by
  intro r hr hc
  obtain ⟨x, r', e, ok, b, c, hx⟩ := h r hr hc
  refine ⟨x, r', e, ok, b, c, fun a ha => ?_⟩
  obtain ⟨hQ, hle, hm⟩ := hx a ha
  obtain ⟨hR, hM⟩ := hi a hQ
  exact ⟨hR, hle, hM _ hm⟩

theorem leaf_int {cross : Bool} {n : Nat} (hn : n = 2 ∨ n = 4 ∨ n = 8) {q : Nat → Piece}
    (hq : ∀ bs v, bs.length = n → decodeInt cross bs = v → (q v).Is cross bs) :
    Leaf cross (fun r => r.readInt n) (fun v => [q v]) (fun v => v < 256 ^ n) := by
  intro r hr hc
  have h := readInt_spec hr hn
  cases hs : slice r.buf r.off n with
  | none => exact ⟨none, r, by show r.readInt n = _; rw [h, hs], hr, rfl, hc, by simp⟩
  | some d =>
    have hl := slice_length hs
    obtain ⟨hb, hd⟩ := slice_some_iff.mp hs
    refine ⟨some (decodeInt r.cross d), { r with off := r.off + n }, by show r.readInt n = _; rw [h, hs], ?_, rfl, hc, ?_⟩
    · obtain ⟨h1, h2, h3⟩ := hr
      exact ⟨h1, by show r.off + n ≤ r.size; omega, h3⟩
    · rintro a ⟨⟩
      refine ⟨by have := decodeInt_lt r.cross d; rwa [hl] at this, by show r.off ≤ r.off + n; omega, ?_⟩
      rw [matches_one]
      have : r.off + n - r.off = n := by omega
      show (q _).Is cross ((r.buf.drop r.off).take (r.off + n - r.off))
      rw [this, ← hd]
      exact hq d _ hl (by rw [hc])

theorem leaf_u16 (cross : Bool) : Leaf cross u16 (fun v => [.u16 v]) (fun v => v < 2 ^ 16) :=
  leaf_int (n := 2) (by omega) fun _ _ h h' => ⟨h, h'⟩
theorem leaf_u32 (cross : Bool) : Leaf cross u32 (fun v => [.u32 v]) (fun v => v < 2 ^ 32) :=
  leaf_int (n := 4) (by omega) fun _ _ h h' => ⟨h, h'⟩
theorem leaf_u64 (cross : Bool) : Leaf cross u64 (fun v => [.u64 v]) (fun v => v < 2 ^ 64) :=
  leaf_int (n := 8) (by omega) fun _ _ h h' => ⟨h, h'⟩

theorem leaf_data (cross : Bool) (n : Nat) (hn : n < 2 ^ 64) :
    Leaf cross (data n) (fun l => [.bytes l]) (fun l => l.length = n) := by
  intro r hr hc
  have h := readData_spec hr hn
  cases hs : slice r.buf r.off n with
  | none => exact ⟨none, r, by unfold data; rw [h, hs], hr, rfl, hc, by simp⟩
  | some d =>
    have hl := slice_length hs
    obtain ⟨hb, hd⟩ := slice_some_iff.mp hs
    refine ⟨some d, { r with off := r.off + n }, by unfold data; rw [h, hs], ?_, rfl, hc, ?_⟩
    · obtain ⟨h1, h2, h3⟩ := hr
      exact ⟨h1, by show r.off + n ≤ r.size; omega, h3⟩
    · rintro a ⟨⟩
      refine ⟨hl, by show r.off ≤ r.off + n; omega, ?_⟩
      rw [matches_one]
      have : r.off + n - r.off = n := by omega
      show ((r.buf.drop r.off).take (r.off + n - r.off)) = d
      rw [this, ← hd]

theorem Leaf.opt {α : Type} {cross c : Bool} {p : P α} {L : α → List Piece} {Q : α → Prop} {d : α}
    (h : c = true → Leaf cross p L Q) :
    Leaf cross (opt c p d) (fun a => only c (L a)) (fun a => (c = true → Q a) ∧ (c = false → a = d)) := by
  cases c
  · exact Leaf.pure rfl (by simp)
  · exact (h rfl).weaken (fun a ha => by simp [ha, only])

theorem Leaf.times {α : Type} {cross : Bool} {p : P α} {L : α → List Piece} {Q : α → Prop}
    (h : Leaf cross p L Q) : ∀ n, Leaf cross (times p n) (fun l => l.flatMap L)
      (fun l => l.length = n ∧ ∀ a ∈ l, Q a)
  | 0 => Leaf.pure rfl (by simp)
  | n + 1 => by
    refine Tracks.leaf (Tracks.bind h fun a ha => Tracks.bind (h.times n) fun l hl => Tracks.pure (by simp) ?_)
    simp [hl.1, ha]
    exact hl.2

theorem leaf_isCross (cross : Bool) : Leaf cross isCross (fun _ => []) (fun b => b = cross) := by
  intro r hr hc
  refine ⟨some r.cross, r, rfl, hr, rfl, hc, ?_⟩
  rintro b ⟨⟩
  simp [hc, matches_nil]

end Verif.Sample
