import Verif.Meta.Spec
import Verif.Buffer.Props
import Verif.Sample.ReadLemmas

/-! # Lemmas: code that reads or writes given bytes -/

namespace Verif.Meta
open Verif.Buffer Verif.Event Verif.Sample Verif.Attr Verif.Names Verif.Text Verif.Util

/-! ## Reading -/

/-- At position `o`, with at least `need` bytes behind them, `p` consumes the bytes `bs` and returns `a`. -/
def Gets {α : Type} (cross : Bool) (o need : Nat) (p : P α) (bs : Bytes) (a : α) : Prop :=
  ∀ (r : Reader) (tail : Bytes), r.Ok → r.cross = cross → r.off = o → r.buf.drop r.off = bs ++ tail → need ≤ tail.length →
    p r = some (some a, { r with off := r.off + bs.length })

theorem Gets.pure {α : Type} {cross : Bool} {o : Nat} (a : α) : Gets cross o 0 (pure a) [] a := by
  intro r tail _ _ _ _ _; simp [pure_def]

theorem Gets.bind {α β : Type} {cross : Bool} {o n m : Nat} {p : P α} {f : α → P β} {bs cs : Bytes} {a : α} {b : β}
    (hp : Gets cross o n p bs a) (hf : Gets cross (o + bs.length) m (f a) cs b) (hn : n ≤ m + cs.length) :
    Gets cross o m (p >>= f) (bs ++ cs) b := by
  intro r tail hr hc ho hd hl
  rw [List.append_assoc] at hd
  rw [bind_of (hp r _ hr hc ho hd (by simp; omega))]
  obtain ⟨ho', hd'⟩ := ok_advance hr hd
  rw [hf { r with off := r.off + bs.length } tail ho' hc (by simp [ho]) hd' hl]
  simp [Nat.add_assoc]

/-- `bind` when the first part needs nothing behind it. -/
theorem Gets.bind0 {α β : Type} {cross : Bool} {o m : Nat} {p : P α} {f : α → P β} {bs cs : Bytes} {a : α} {b : β}
    (hp : Gets cross o 0 p bs a) (hf : Gets cross (o + bs.length) m (f a) cs b) :
    Gets cross o m (p >>= f) (bs ++ cs) b := Gets.bind hp hf (by omega)

/-- `bind` when the second part consumes nothing. -/
theorem Gets.bindR {α β : Type} {cross : Bool} {o : Nat} {p : P α} {f : α → P β} {bs : Bytes} {a : α} {b : β}
    (hp : Gets cross o 0 p bs a) (hf : Gets cross (o + bs.length) 0 (f a) [] b) :
    Gets cross o 0 (p >>= f) bs b := by have := Gets.bind0 hp hf; rwa [List.append_nil] at this

/-- `bind` when the first part consumes nothing. -/
theorem Gets.bindL {α β : Type} {cross : Bool} {o m : Nat} {p : P α} {f : α → P β} {bs : Bytes} {a : α} {b : β}
    (hp : Gets cross o 0 p [] a) (hf : Gets cross o m (f a) bs b) :
    Gets cross o m (p >>= f) bs b := Gets.bind0 (bs := []) hp hf

theorem Gets.mono {α : Type} {cross : Bool} {o n m : Nat} {p : P α} {bs : Bytes} {a : α}
    (hp : Gets cross o n p bs a) (h : n ≤ m) : Gets cross o m p bs a :=
  fun r tail hr hc ho hd hl => hp r tail hr hc ho hd (by omega)

theorem gets_tell (cross : Bool) (o : Nat) : Gets cross o 0 tell [] o := by
  intro r tail _ _ ho _ _; subst ho; simp [tell]

theorem gets_isCross (cross : Bool) (o : Nat) : Gets cross o 0 isCross [] cross := by
  intro r tail _ hc _ _ _; subst hc; simp [isCross]

theorem gets_data {cross : Bool} {o n : Nat} {bs : Bytes} (hn : n = bs.length) (h : bs.length < 2 ^ 64) :
    Gets cross o 0 (data n) bs bs := by
  subst hn
  intro r tail hr _ _ hd _
  have := readData_spec hr h
  rw [slice_of_drop (by have := hr.1; have := hr.2.1; omega) hd] at this
  exact this

theorem gets_int {cross : Bool} {o n v : Nat} (hn : n = 2 ∨ n = 4 ∨ n = 8) (hv : v < 256 ^ n) :
    Gets cross o 0 (fun r => r.readInt n) (encodeInt cross n v) v := by
  intro r tail hr hc _ hd _
  have hl := encodeInt_length cross n v
  have := readInt_spec hr hn
  have hs := slice_of_drop (by have := hr.1; have := hr.2.1; omega) hd
  rw [hl] at hs
  rw [hs] at this
  show r.readInt n = _
  rw [this, hl]
  subst hc
  simp only [decode_encode _ hv]

theorem gets_u32 {cross : Bool} {o v : Nat} (hv : v < 2 ^ 32) : Gets cross o 0 u32 ((u32F v).image cross) v :=
  gets_int (by omega) hv

theorem gets_u64 {cross : Bool} {o v : Nat} (hv : v < 2 ^ 64) : Gets cross o 0 u64 ((u64F v).image cross) v :=
  gets_int (by omega) hv

theorem gets_str {cross : Bool} {o : Nat} {s : Bytes} (h : Plain s) :
    Gets cross o 0 sizedStr ((strF s).image cross) s := by
  intro r tail hr hc ho hd _
  obtain ⟨h0, hl⟩ := h
  have hb := fieldSize_bounds s.length
  simp only [strF, Fld.image, Item.encode] at hd ⊢
  rw [List.append_assoc] at hd
  have h1 := gets_int (cross := cross) (n := 4) (o := o) (v := fieldSize s.length) (by omega) (by omega) r _ hr hc ho hd
    (Nat.zero_le _)
  simp only at h1
  unfold sizedStr Reader.readStringWithSize
  rw [h1]
  obtain ⟨ho', hd'⟩ := ok_advance hr hd
  simp only
  rw [readString_spec ho' (by omega)]
  have hs := slice_of_drop (by have h1 := ho'.1; have h2 := ho'.2.1; simp only at h1 h2; omega) hd'
  rw [stringField_length] at hs
  simp only
  rw [hs]
  simp only [takeWhile_stringField h0 hb.1, List.length_append, stringField_length, Nat.add_assoc]

theorem Gets.times {α : Type} {cross : Bool} {p : P α} {f : α → Bytes} :
    ∀ (l : List α) {o : Nat}, (∀ a ∈ l, ∀ o, Gets cross o 0 p (f a) a) → Gets cross o 0 (times p l.length) (l.flatMap f) l
  | [], _, _ => Gets.pure []
  | a :: l, o, h => by
    have ih := Gets.times (o := o + (f a).length) l (fun b hb => h b (List.mem_cons_of_mem _ hb))
    have h1 := h a (List.mem_cons_self ..) o
    show Gets cross o 0 (p >>= fun a => Verif.Sample.times p l.length >>= fun l => Pure.pure (a :: l)) _ _
    exact Gets.bind0 h1 (Gets.bindR ih (Gets.pure _))

theorem gets_remaining {cross : Bool} {o : Nat} {α : Type} {f : Nat → P α} {need : Nat} {bs : Bytes} {a : α}
    (h : ∀ n, need + bs.length ≤ n → Gets cross o need (f n) bs a) : Gets cross o need (remaining >>= f) bs a := by
  intro r tail hr hc ho hd hl
  have hlen := congrArg List.length hd
  obtain ⟨h1, h2, h3⟩ := hr
  simp only [List.length_drop, List.length_append] at hlen
  have e : remaining r = some (some (r.size - r.off), r) := by
    unfold remaining; congr 3; omega
  rw [bind_of e]
  exact h (r.size - r.off) (by omega) r tail ⟨h1, h2, h3⟩ hc ho hd hl

theorem image_nil (foreign : Bool) : image foreign [] = [] := rfl
theorem image_cons (foreign : Bool) (a : Fld) (l : List Fld) : image foreign (a :: l) = a.image foreign ++ image foreign l :=
  rfl
theorem image_append (foreign : Bool) (a b : List Fld) : image foreign (a ++ b) = image foreign a ++ image foreign b := by
  simp [image]
theorem image_flatMap {α : Type} (foreign : Bool) (f : α → List Fld) (l : List α) :
    image foreign (l.flatMap f) = l.flatMap (fun a => image foreign (f a)) := by
  simp [image, List.flatMap_assoc]
theorem image_one (foreign : Bool) (a : Fld) : image foreign [a] = a.image foreign := by simp [image]

/-! ## Writing -/

theorem wbind_def {α β : Type} (p : W α) (f : α → W β) (w : Writer) :
    (p >>= f) w = match p w with
      | none => none
      | some (none, w') => some (none, w')
      | some (some a, w') => f a w' := rfl

theorem wbind_of {α β : Type} {p : W α} {f : α → W β} {w w' : Writer} {a : α}
    (h : p w = some (some a, w')) : (p >>= f) w = f a w' := by rw [wbind_def, h]

/-- Pieces fit one after the other from `off`; not even an empty one can be written at the end of the buffer. -/
def Fits (size : Nat) : Nat → List Bytes → Prop
  | _, [] => True
  | off, c :: cs => off < size ∧ off + c.length ≤ size ∧ Fits size (off + c.length) cs

theorem fits_append {size : Nat} : ∀ {off : Nat} {a b : List Bytes},
    Fits size off (a ++ b) ↔ Fits size off a ∧ Fits size (off + a.flatten.length) b
  | off, [], b => by simp [Fits]
  | off, c :: a, b => by
    simp only [List.cons_append, Fits, fits_append (a := a), List.flatten_cons, List.length_append, and_assoc, Nat.add_assoc]

theorem fits_of_lt {size : Nat} : ∀ {off : Nat} {a : List Bytes}, off + a.flatten.length < size → Fits size off a
  | off, [], _ => trivial
  | off, c :: a, h => by
    simp only [List.flatten_cons, List.length_append] at h
    exact ⟨by omega, by omega, fits_of_lt (by omega)⟩

/-- Pieces that are not empty also fill the buffer to its end. -/
theorem fits_of_le {size : Nat} : ∀ {off : Nat} {a : List Bytes} {c : Bytes}, c ≠ [] →
    off + a.flatten.length + c.length ≤ size → Fits size off (a ++ [c]) := by
  intro off a c hc h
  have := List.length_pos_iff.mpr hc
  exact fits_append.mpr ⟨fits_of_lt (by omega), by omega, by omega, trivial⟩

/-- `m` writes the pieces if they fit, otherwise it returns false. -/
def Writes {α : Type} (m : W α) (cs : List Bytes) (a : α) : Prop :=
  ∀ w : Writer, w.Ok →
    (Fits w.buf.length w.off cs →
      m w = some (some a, { w with buf := overwrite w.buf w.off cs.flatten, off := w.off + cs.flatten.length })) ∧
    (¬ Fits w.buf.length w.off cs → ∃ w', m w = some (none, w'))

theorem fits_end {size : Nat} : ∀ {off : Nat} {cs : List Bytes}, cs ≠ [] → Fits size off cs →
    off + cs.flatten.length ≤ size
  | off, [c], _, h => by simpa using h.2.1
  | off, c :: d :: cs, _, h => by
    have := fits_end (cs := d :: cs) (by simp) h.2.2
    simp only [List.flatten_cons, List.length_append] at this ⊢
    omega

theorem overwrite_nil' {buf : Bytes} {pos : Nat} : overwrite buf pos [] = buf := by simp [overwrite]

theorem advance_ok {w : Writer} (h : w.Ok) {cs : List Bytes} (hf : Fits w.buf.length w.off cs) :
    Writer.Ok { w with buf := overwrite w.buf w.off cs.flatten, off := w.off + cs.flatten.length } ∧
    (overwrite w.buf w.off cs.flatten).length = w.buf.length := by
  obtain ⟨h1, h2, h3⟩ := h
  by_cases hn : cs = []
  · subst hn
    simp only [List.flatten_nil, overwrite_nil', List.length_nil, Nat.add_zero, and_true]
    exact ⟨h1, h2, h3⟩
  · have he := fits_end hn hf
    have hl := overwrite_length (buf := w.buf) (src := cs.flatten) he
    exact ⟨⟨by simp only [hl]; exact h1, by simp only; omega, by simp only [hl]; exact h3⟩, hl⟩

theorem Writes.pure {α : Type} (a : α) : Writes (pure a : W α) [] a := by
  intro w _
  refine ⟨fun _ => ?_, fun h => absurd trivial h⟩
  simp only [List.flatten_nil, overwrite_nil', List.length_nil, Nat.add_zero]; rfl

theorem Writes.bind {α β : Type} {m : W α} {f : α → W β} {cs ds : List Bytes} {a : α} {b : β} (h1 : Writes m cs a)
    (h2 : Writes (f a) ds b) : Writes (m >>= f) (cs ++ ds) b := by
  intro w hw
  obtain ⟨a1, a2⟩ := h1 w hw
  rw [fits_append]
  by_cases hf : Fits w.buf.length w.off cs
  · obtain ⟨hok, hl⟩ := advance_ok hw hf
    obtain ⟨b1, b2⟩ := h2 _ hok
    rw [wbind_of (a1 hf)]
    simp only [hl] at b1 b2
    constructor
    · rintro ⟨_, hg⟩
      rw [b1 hg]
      have hov : overwrite (overwrite w.buf w.off cs.flatten) (w.off + cs.flatten.length) ds.flatten =
          overwrite w.buf w.off (cs.flatten ++ ds.flatten) := by
        by_cases hd : ds = []
        · subst hd; simp [overwrite_nil']
        · exact overwrite_append (fits_end hd hg)
      rw [hov]
      simp [Nat.add_assoc]
    · intro hg
      exact b2 (fun h => hg ⟨hf, h⟩)
  · obtain ⟨w', hw'⟩ := a2 hf
    refine ⟨fun h => absurd h.1 hf, fun _ => ⟨w', ?_⟩⟩
    rw [wbind_def, hw']

theorem writes_data {b : Bytes} (h : b.length < 2 ^ 63) : Writes (wdata b) [b] () := by
  intro w hw
  unfold wdata
  rw [writeData_spec hw h]
  simp only [Fits, and_true, List.flatten_cons, List.flatten_nil, List.append_nil]
  by_cases hc : w.off + b.length ≤ w.buf.length ∧ w.off < w.buf.length
  · rw [if_pos hc]; exact ⟨fun _ => rfl, fun hn => absurd ⟨hc.2, hc.1⟩ hn⟩
  · rw [if_neg hc]; exact ⟨fun hn => absurd ⟨hn.2, hn.1⟩ hc, fun _ => ⟨_, rfl⟩⟩

theorem writes_int {n v : Nat} (hn : n < 2 ^ 63) : Writes (wdata (toLE n v)) [encodeInt false n v] () := by
  have : encodeInt false n v = toLE n v := by simp [encodeInt]
  rw [this]; exact writes_data (by simpa using hn)

theorem writes_u32 (v : Nat) : Writes (wdata (toLE 4 v)) [(u32F v).image false] () := writes_int (by omega)
theorem writes_u64 (v : Nat) : Writes (wdata (toLE 8 v)) [(u64F v).image false] () := writes_int (by omega)

theorem writes_str {s : Bytes} (h : s.length < 2 ^ 32 - 8) : Writes (wstr s) [(strF s).image false] () := by
  intro w hw
  have e : (strF s).image false = toLE 4 (fieldSize s.length) ++ stringField s (fieldSize s.length) := by
    simp [strF, Fld.image, Item.encode, encodeInt]
  have hb := fieldSize_bounds s.length
  unfold wstr
  rw [writeStringWithSize_spec hw h, e]
  simp only [Fits, and_true, List.flatten_cons, List.flatten_nil, List.append_nil, List.length_append, toLE_length,
    stringField_length]
  by_cases hc : w.off + 4 + fieldSize s.length ≤ w.buf.length
  · rw [if_pos hc]; exact ⟨fun _ => rfl, fun hn => absurd ⟨by omega, by omega⟩ hn⟩
  · rw [if_neg hc]; exact ⟨fun hn => absurd hn.2 (by omega), fun _ => ⟨_, rfl⟩⟩

theorem Writes.each {α : Type} {f : α → W Unit} {g : α → List Bytes} :
    ∀ (l : List α), (∀ a ∈ l, Writes (f a) (g a) ()) → Writes (each f l) (l.flatMap g) ()
  | [], _ => Writes.pure ()
  | a :: l, h => by
    have ih := Writes.each l (fun b hb => h b (List.mem_cons_of_mem _ hb))
    have h1 := h a (List.mem_cons_self ..)
    exact Writes.bind h1 ih

theorem Writes.cons {α β : Type} {m : W α} {f : α → W β} {c : Bytes} {ds : List Bytes} {a : α} {b : β}
    (h1 : Writes m [c] a) (h2 : Writes (f a) ds b) : Writes (m >>= f) (c :: ds) b := Writes.bind h1 h2

end Verif.Meta
