import Verif.Serial.Spec
import Verif.Sample.Props
import Verif.Attr.Props2

/-! Reading from and writing to lists of fields. -/

namespace Verif.Serial
open Verif.Buffer Verif.Event Verif.Sample Verif.Attr Verif.Util

abbrev zeros (n : Nat) : Bytes := List.replicate n 0

theorem image_nil : image [] = [] := rfl
theorem image_cons (p : Piece) (L : List Piece) : image (p :: L) = pieceBytes p ++ image L := rfl
theorem image_append (L M : List Piece) : image (L ++ M) = image L ++ image M := by simp [image]

theorem pieceBytes_length (p : Piece) : (pieceBytes p).length = p.len := by
  cases p <;> simp [pieceBytes, Piece.len]

theorem image_length : ∀ L : List Piece, (image L).length = total L
  | [] => rfl
  | p :: L => by rw [image_cons, List.length_append, pieceBytes_length, image_length L, total_cons]

theorem zeros_add (a b : Nat) : zeros (a + b) = zeros a ++ zeros b := by
  simp only [zeros, List.replicate_append_replicate]

/-! ## Reading -/

theorem int_image {e : RawEvent} {A B : List Piece} {p : Piece} {rest : Bytes} {off n v : Nat}
    (hp : e.payload = image (A ++ p :: B) ++ rest) (ho : off = 8 + total A) (hb : pieceBytes p = toLE n v)
    (hv : v < 256 ^ n) : e.int off n = some v := by
  have hl : p.len = n := by rw [← pieceBytes_length, hb, toLE_length]
  unfold RawEvent.int fetch
  rw [if_pos (by omega), hp, image_append, image_cons, ho, show 8 + total A - 8 = (image A).length by rw [image_length]; omega,
    if_pos (by simp [image_length, pieceBytes_length, hl])]
  simp only [List.append_assoc, List.drop_left, Option.map_some, hb]
  rw [List.take_left' (toLE_length n v), leNat_toLE_of_lt hv]

theorem u64_image {e : RawEvent} {A B : List Piece} {rest : Bytes} {off v : Nat}
    (hp : e.payload = image (A ++ .u64 v :: B) ++ rest) (ho : off = 8 + total A) (hv : v < 2 ^ 64) :
    e.int off 8 = some v := int_image hp ho rfl (by simpa using hv)

theorem u32_image {e : RawEvent} {A B : List Piece} {rest : Bytes} {off v : Nat}
    (hp : e.payload = image (A ++ .u32 v :: B) ++ rest) (ho : off = 8 + total A) (hv : v < 2 ^ 32) :
    e.int off 4 = some v := int_image hp ho rfl (by simpa using hv)

theorem u16_image {e : RawEvent} {A B : List Piece} {rest : Bytes} {off v : Nat}
    (hp : e.payload = image (A ++ .u16 v :: B) ++ rest) (ho : off = 8 + total A) (hv : v < 2 ^ 16) :
    e.int off 2 = some v := int_image hp ho rfl (by simpa using hv)

theorem takeWhile_name {s rest : Bytes} (h : (0 : UInt8) ∉ s) : (s ++ 0 :: rest).takeWhile (· ≠ 0) = s := by
  induction s with
  | nil => rfl
  | cons a s ih =>
    have ha : a ≠ 0 := fun e => h (by simp [e])
    simp only [List.cons_append, List.takeWhile_cons, decide_eq_true ha, if_true]
    rw [ih (fun hm => h (by simp [hm]))]

theorem takeWhile_self {s : Bytes} (h : (0 : UInt8) ∉ s) : s.takeWhile (· ≠ 0) = s := by
  induction s with
  | nil => rfl
  | cons a s ih =>
    have ha : a ≠ 0 := fun e => h (by simp [e])
    simp only [List.takeWhile_cons, decide_eq_true ha, if_true]
    rw [ih (fun hm => h (by simp [hm]))]

theorem cstr_image {e : RawEvent} {A B : List Piece} {s rest : Bytes} {off k : Nat}
    (hp : e.payload = image (A ++ .bytes s :: .pad k :: B) ++ rest) (ho : off = 8 + total A) (hk : 0 < k)
    (hs : (0 : UInt8) ∉ s) : cstr e off = some s := by
  unfold cstr
  rw [if_pos (by omega), hp, image_append, image_cons, image_cons, ho,
    show 8 + total A - 8 = (image A).length by rw [image_length]; omega]
  simp only [List.append_assoc, List.drop_left, pieceBytes]
  obtain ⟨k, rfl⟩ : ∃ j, k = j + 1 := ⟨k - 1, by omega⟩
  rw [List.replicate_succ, List.cons_append, if_pos (by simp)]
  rw [show Util.cStr (s ++ 0 :: (zeros k ++ (image B ++ rest))) = s from takeWhile_name hs]

theorem entries_from {α : Type} {f : Nat → Option α} : ∀ (l : List α) (i : Nat),
    (∀ pre x post, l = pre ++ x :: post → f (i + pre.length) = some x) → entries f i l.length = some l
  | [], _, _ => rfl
  | a :: l, i, h => by
    have h0 := h [] a l rfl
    simp only [List.length_nil, Nat.add_zero] at h0
    have := entries_from (f := f) l (i + 1) fun pre x post e => by
      have := h (a :: pre) x post (by rw [e]; rfl)
      rw [List.length_cons] at this
      rw [show i + 1 + pre.length = i + (pre.length + 1) by omega]; exact this
    simp only [List.length_cons, entries, h0, this]
    rfl

theorem entries_eq {α : Type} {f : Nat → Option α} {l : List α} {n : Nat} (hn : n = l.length)
    (h : ∀ pre x post, l = pre ++ x :: post → f pre.length = some x) : entries f 0 n = some l := by
  subst hn
  exact entries_from l 0 fun pre x post e => by rw [Nat.zero_add]; exact h pre x post e

theorem total_flatMap {α : Type} {g : α → List Piece} {sz : Nat} : ∀ (l : List α), (∀ x ∈ l, total (g x) = sz) →
    total (l.flatMap g) = sz * l.length
  | [], _ => rfl
  | a :: l, h => by
    rw [List.flatMap_cons, total_append, h a (by simp), total_flatMap l fun x hx => h x (by simp [hx])]
    simp [Nat.mul_succ, Nat.add_comm]

/-- The bytes around an entry of a list. -/
theorem entry_image {α : Type} {e : RawEvent} {A B : List Piece} {g : α → List Piece} {l pre post : List α} {x : α} {rest : Bytes}
    (hp : e.payload = image (A ++ l.flatMap g ++ B) ++ rest) (hl : l = pre ++ x :: post) :
    e.payload = image ((A ++ pre.flatMap g) ++ (g x ++ (post.flatMap g ++ B))) ++ rest := by
  rw [hp, hl]; simp

/-! ## Writing -/

theorem puts_append (a b : List (Nat × Bytes)) : ∀ m, puts (a ++ b) m = (puts a m).bind (puts b) := by
  induction a with
  | nil => intro m; rfl
  | cons x a ih =>
    intro m
    obtain ⟨off, d⟩ := x
    simp only [List.cons_append, puts]
    split
    · exact ih _
    · rfl

theorem overwrite_zeros (P d : Bytes) (g k : Nat) :
    overwrite (P ++ zeros (g + d.length + k)) (P.length + g) d = P ++ zeros g ++ d ++ zeros k := by
  unfold overwrite
  rw [zeros_add, zeros_add]
  have h1 : (P ++ (zeros g ++ zeros d.length ++ zeros k)).take (P.length + g) = P ++ zeros g := by
    rw [← List.append_assoc, ← List.append_assoc, List.append_assoc, List.take_left' (by simp)]
  have h2 : (P ++ (zeros g ++ zeros d.length ++ zeros k)).drop (P.length + g + d.length) = zeros k := by
    rw [← List.append_assoc, ← List.append_assoc, List.drop_left' (by simp; omega)]
  rw [h1, h2]

/-- The stores of a list of fields at offset `off` of the event. -/
def stores : Nat → List Piece → List (Nat × Bytes)
  | _, [] => []
  | off, .pad n :: L => stores (off + n) L
  | off, p :: L => (off, pieceBytes p) :: stores (off + p.len) L

theorem puts_store {P d : Bytes} {l : List (Nat × Bytes)} {off k : Nat} (ho : off = 8 + P.length) :
    puts ((off, d) :: l) (P ++ zeros (d.length + k)) = puts l ((P ++ d) ++ zeros k) := by
  simp only [puts]
  rw [if_pos (by simp; omega), ho, show 8 + P.length - 8 = P.length + 0 by omega]
  have := overwrite_zeros P d 0 k
  rw [Nat.zero_add] at this
  rw [this]
  simp

theorem puts_image : ∀ (L : List Piece) (P : Bytes) (off k : Nat), off = 8 + P.length →
    puts (stores off L) (P ++ zeros (total L + k)) = some ((P ++ image L) ++ zeros k)
  | [], P, off, k, _ => by simp [stores, puts, total, image]
  | p :: L, P, off, k, ho => by
    have key : ∀ d : Bytes, pieceBytes p = d → puts ((off, d) :: stores (off + p.len) L) (P ++ zeros (total (p :: L) + k)) =
        some ((P ++ image (p :: L)) ++ zeros k) := by
      intro d hd
      have hl : d.length = p.len := by rw [← hd, pieceBytes_length]
      rw [total_cons, Nat.add_assoc, ← hl, puts_store ho, puts_image L (P ++ d) (off + d.length) k (by simp; omega), image_cons, hd]
      simp
    cases p with
    | pad n =>
      simp only [stores]
      rw [total_cons, Nat.add_assoc, show Piece.len (.pad n) = n from rfl, zeros_add, ← List.append_assoc,
        puts_image L (P ++ zeros n) (off + n) k (by simp; omega), image_cons]
      simp [pieceBytes]
    | u16 v => exact key _ rfl
    | u32 v => exact key _ rfl
    | u64 v => exact key _ rfl
    | bytes b => exact key _ rfl

theorem stores_append : ∀ (L M : List Piece) (off : Nat), stores off (L ++ M) = stores off L ++ stores (off + total L) M
  | [], M, off => by simp [stores, total]
  | p :: L, M, off => by
    have := stores_append L M (off + p.len)
    cases p <;> simp only [stores, List.cons_append, total_cons] at * <;> rw [← Nat.add_assoc] <;> first | exact this | rw [this]

theorem listStores_from {α : Type} {f : Nat → α → List (Nat × Bytes)} {g : α → List Piece} {off sz : Nat} : ∀ (l : List α) (i : Nat),
    (∀ i, ∀ a ∈ l, f i a = stores (off + sz * i) (g a)) → (∀ a ∈ l, total (g a) = sz) →
    listStores f i l = stores (off + sz * i) (l.flatMap g)
  | [], _, _, _ => rfl
  | a :: l, i, h, ht => by
    rw [List.flatMap_cons, stores_append, ht a (by simp), listStores, h i a (by simp),
      listStores_from (off := off) (sz := sz) (g := g) l (i + 1) (fun j b hb => h j b (by simp [hb])) (fun b hb => ht b (by simp [hb])),
      Nat.mul_succ, Nat.add_assoc]

theorem listStores_eq {α : Type} {f : Nat → α → List (Nat × Bytes)} {g : α → List Piece} {off sz : Nat} {l : List α}
    (h : ∀ i, ∀ a ∈ l, f i a = stores (off + sz * i) (g a)) (ht : ∀ a ∈ l, total (g a) = sz) :
    listStores f 0 l = stores off (l.flatMap g) := by
  rw [listStores_from l 0 h ht]; rfl

/-- A store of a name that is not too long. -/
theorem snprintf_name {off max : Nat} {s : Bytes} (h : Name max s) : snprintf off max s = (off, s ++ [0]) := by
  unfold snprintf cut cStr
  rw [takeWhile_self h.1, List.take_of_length_le (by have := h.2; omega)]

end Verif.Serial
